import Mathlib.NumberTheory.LucasPrimality
import Mathlib.FieldTheory.Finite.Basic
import Mathlib.Tactic.NormNum.Prime

/-!
# Prime numbers used by C89

The prime factors of the two numbers that sanitize/unsigned/main.cpp factors, each with a certificate (Lucas): the
prime factors of `p - 1` and a number of order `p - 1` modulo `p`.
-/

namespace AesiMP
namespace Pratt

/-- `b ^ e % p` by repeated squaring. -/
def powMod (p : Nat) : Nat → Nat → Nat → Nat
  | 0, _, _ => 1 % p
  | fuel + 1, b, e =>
    if e = 0 then 1 % p
    else if e % 2 = 1 then b * powMod p fuel (b * b % p) (e / 2) % p
    else powMod p fuel (b * b % p) (e / 2)

theorem powMod_spec (p : Nat) : ∀ fuel b e, e < 2 ^ fuel → powMod p fuel b e = b ^ e % p := by
  intro fuel
  induction fuel with
  | zero => intro b e he; obtain rfl : e = 0 := by simpa using he
            simp [powMod]
  | succ f ih =>
    intro b e he
    have h2 : e / 2 < 2 ^ f := by rw [pow_succ] at he; omega
    unfold powMod
    split
    · rename_i h; subst h; simp
    · rw [ih _ _ h2, ← Nat.pow_mod]
      have hb : ∀ k, (b * b) ^ k = b ^ (2 * k) := fun k => by rw [← pow_two, ← pow_mul]
      rw [hb]
      split
      · rename_i h1
        rw [Nat.mul_mod_mod, ← Nat.pow_succ']
        congr 2
        omega
      · congr 2
        omega

theorem one_iff {p : Nat} (hp : 1 < p) (g e : Nat) (he : e < 2 ^ 64) :
    ((g : ZMod p) ^ e = 1) ↔ powMod p 64 g e = 1 := by
  rw [powMod_spec p 64 g e he]
  have h1 : (1 : Nat) % p = 1 := Nat.mod_eq_of_lt hp
  rw [← Nat.cast_pow, ← Nat.cast_one, ZMod.natCast_eq_natCast_iff, Nat.ModEq, h1]

theorem byCertificate (p g : Nat) (fs : List Nat) (hfs : ∀ q ∈ fs, q.Prime)
    (hprod : fs.prod + 1 = p ∧ 1 < p ∧ p < 2 ^ 64) (h1 : powMod p 64 g (p - 1) = 1)
    (h2 : ∀ q ∈ fs, powMod p 64 g ((p - 1) / q) ≠ 1) : p.Prime := by
  obtain ⟨hprod, hp, hlt⟩ := hprod
  refine lucas_primality p (g : ZMod p) ((one_iff hp g _ (by omega)).mpr h1) ?_
  intro q hq hd
  rw [show p - 1 = fs.prod by omega] at hd
  obtain ⟨r, hr, hqr⟩ := (Prime.dvd_prod_iff hq.prime).mp hd
  obtain rfl := (Nat.prime_dvd_prime_iff_eq hq (hfs r hr)).mp hqr
  have hle : (p - 1) / q ≤ p - 1 := Nat.div_le_self _ _
  rw [Ne, one_iff hp g _ (by omega)]
  exact h2 q hr

/-- If `q` divides `r - 1` and `2 ^ ((r - 1) / q) ≠ 1` modulo the odd prime `r`, then `r` divides no `2 ^ E - 1`
with `E` not a multiple of `q`. -/
theorem not_dvd_of_order {r q E : Nat} (hr : r.Prime) (hq : q.Prime) (hqr : q ∣ r - 1) (hlt : r < 2 ^ 64) (h2 : r ≠ 2)
    (hne : powMod r 64 2 ((r - 1) / q) ≠ 1) (hE : ¬ q ∣ E) : ¬ r ∣ 2 ^ E - 1 := by
  intro hd
  have := Fact.mk hr
  have hle : (r - 1) / q ≤ r - 1 := Nat.div_le_self _ _
  apply hne
  rw [← one_iff hr.one_lt 2 _ (by omega)]
  have e1 : ((2 : Nat) : ZMod r) ^ E = 1 := by
    have h : (2 ^ E : Nat) ≡ 1 [MOD r] := ((Nat.modEq_iff_dvd' Nat.one_le_two_pow).mpr hd).symm
    rw [← ZMod.natCast_eq_natCast_iff] at h
    simpa using h
  have e2 : ((2 : Nat) : ZMod r) ^ (r - 1) = 1 := by
    apply ZMod.pow_card_sub_one_eq_one
    intro h
    rw [ZMod.natCast_eq_zero_iff] at h
    exact h2 ((Nat.prime_dvd_prime_iff_eq hr Nat.prime_two).mp h)
  have e3 : ((2 : Nat) : ZMod r) ^ Nat.gcd E (r - 1) = 1 := pow_gcd_eq_one.mpr ⟨e1, e2⟩
  have hg : Nat.gcd E (r - 1) ∣ (r - 1) / q := by
    have hc : Nat.Coprime (Nat.gcd E (r - 1)) q := by
      rw [Nat.coprime_comm, hq.coprime_iff_not_dvd]
      exact fun h => hE (h.trans (Nat.gcd_dvd_left _ _))
    have hd' : Nat.gcd E (r - 1) ∣ q * ((r - 1) / q) := by
      rw [Nat.mul_div_cancel' hqr]; exact Nat.gcd_dvd_right _ _
    exact hc.dvd_of_dvd_mul_left hd'
  obtain ⟨k, hk⟩ := hg
  rw [hk, pow_mul, e3, one_pow]

theorem prime_728722773199 : Nat.Prime 728722773199 := by
  refine byCertificate 728722773199 3 [2, 3, 3, 7, 1181, 2083, 2351] ?_
    (by decide +kernel) (by decide +kernel) (by decide +kernel)
  intro q hq
  simp only [List.mem_cons, List.not_mem_nil, or_false] at hq
  rcases hq with rfl | rfl | rfl | rfl | rfl | rfl | rfl
  · norm_num
  · norm_num
  · norm_num
  · norm_num
  · norm_num
  · norm_num
  · norm_num

theorem prime_55819280947 : Nat.Prime 55819280947 := by
  refine byCertificate 55819280947 2 [2, 3, 11, 13, 31, 593, 3539] ?_
    (by decide +kernel) (by decide +kernel) (by decide +kernel)
  intro q hq
  simp only [List.mem_cons, List.not_mem_nil, or_false] at hq
  rcases hq with rfl | rfl | rfl | rfl | rfl | rfl | rfl
  · norm_num
  · norm_num
  · norm_num
  · norm_num
  · norm_num
  · norm_num
  · norm_num

theorem prime_660534232991 : Nat.Prime 660534232991 := by
  refine byCertificate 660534232991 17 [2, 5, 251, 443, 503, 1181] ?_
    (by decide +kernel) (by decide +kernel) (by decide +kernel)
  intro q hq
  simp only [List.mem_cons, List.not_mem_nil, or_false] at hq
  rcases hq with rfl | rfl | rfl | rfl | rfl | rfl
  · norm_num
  · norm_num
  · norm_num
  · norm_num
  · norm_num
  · norm_num

theorem prime_1015038731879 : Nat.Prime 1015038731879 := by
  refine byCertificate 1015038731879 7 [2, 29, 719, 4283, 5683] ?_
    (by decide +kernel) (by decide +kernel) (by decide +kernel)
  intro q hq
  simp only [List.mem_cons, List.not_mem_nil, or_false] at hq
  rcases hq with rfl | rfl | rfl | rfl | rfl
  · norm_num
  · norm_num
  · norm_num
  · norm_num
  · norm_num

theorem prime_3289287932521 : Nat.Prime 3289287932521 := by
  refine byCertificate 3289287932521 7 [2, 2, 2, 3, 5, 647, 2203, 19231] ?_
    (by decide +kernel) (by decide +kernel) (by decide +kernel)
  intro q hq
  simp only [List.mem_cons, List.not_mem_nil, or_false] at hq
  rcases hq with rfl | rfl | rfl | rfl | rfl | rfl | rfl | rfl
  · norm_num
  · norm_num
  · norm_num
  · norm_num
  · norm_num
  · norm_num
  · norm_num
  · norm_num

theorem prime_8402413 : Nat.Prime 8402413 := by
  refine byCertificate 8402413 2 [2, 2, 3, 700201] ?_ (by decide +kernel) (by decide +kernel) (by decide +kernel)
  intro q hq
  simp only [List.mem_cons, List.not_mem_nil, or_false] at hq
  rcases hq with rfl | rfl | rfl | rfl
  · norm_num
  · norm_num
  · norm_num
  · norm_num

theorem prime_4172251885630957 : Nat.Prime 4172251885630957 := by
  refine byCertificate 4172251885630957 2 [2, 2, 3, 3, 373, 36979, 8402413] ?_
    (by decide +kernel) (by decide +kernel) (by decide +kernel)
  intro q hq
  simp only [List.mem_cons, List.not_mem_nil, or_false] at hq
  rcases hq with rfl | rfl | rfl | rfl | rfl | rfl | rfl
  · norm_num
  · norm_num
  · norm_num
  · norm_num
  · norm_num
  · norm_num
  · exact prime_8402413

theorem prime_169712447407 : Nat.Prime 169712447407 := by
  refine byCertificate 169712447407 3 [2, 3, 19, 83, 1297, 13829] ?_
    (by decide +kernel) (by decide +kernel) (by decide +kernel)
  intro q hq
  simp only [List.mem_cons, List.not_mem_nil, or_false] at hq
  rcases hq with rfl | rfl | rfl | rfl | rfl | rfl
  · norm_num
  · norm_num
  · norm_num
  · norm_num
  · norm_num
  · norm_num

theorem prime_5091373422211 : Nat.Prime 5091373422211 := by
  refine byCertificate 5091373422211 14 [2, 3, 5, 169712447407] ?_
    (by decide +kernel) (by decide +kernel) (by decide +kernel)
  intro q hq
  simp only [List.mem_cons, List.not_mem_nil, or_false] at hq
  rcases hq with rfl | rfl | rfl | rfl
  · norm_num
  · norm_num
  · norm_num
  · exact prime_169712447407

theorem prime_12097103251173337 : Nat.Prime 12097103251173337 := by
  refine byCertificate 12097103251173337 5 [2, 2, 2, 3, 3, 3, 11, 5091373422211] ?_
    (by decide +kernel) (by decide +kernel) (by decide +kernel)
  intro q hq
  simp only [List.mem_cons, List.not_mem_nil, or_false] at hq
  rcases hq with rfl | rfl | rfl | rfl | rfl | rfl | rfl | rfl
  · norm_num
  · norm_num
  · norm_num
  · norm_num
  · norm_num
  · norm_num
  · norm_num
  · exact prime_5091373422211

theorem prime_15431033 : Nat.Prime 15431033 := by
  refine byCertificate 15431033 3 [2, 2, 2, 73, 26423] ?_ (by decide +kernel) (by decide +kernel) (by decide +kernel)
  intro q hq
  simp only [List.mem_cons, List.not_mem_nil, or_false] at hq
  rcases hq with rfl | rfl | rfl | rfl | rfl
  · norm_num
  · norm_num
  · norm_num
  · norm_num
  · norm_num

theorem prime_493793057 : Nat.Prime 493793057 := by
  refine byCertificate 493793057 3 [2, 2, 2, 2, 2, 15431033] ?_
    (by decide +kernel) (by decide +kernel) (by decide +kernel)
  intro q hq
  simp only [List.mem_cons, List.not_mem_nil, or_false] at hq
  rcases hq with rfl | rfl | rfl | rfl | rfl | rfl
  · norm_num
  · norm_num
  · norm_num
  · norm_num
  · norm_num
  · exact prime_15431033

theorem prime_12583617834262403 : Nat.Prime 12583617834262403 := by
  refine byCertificate 12583617834262403 2 [2, 23, 553991, 493793057] ?_
    (by decide +kernel) (by decide +kernel) (by decide +kernel)
  intro q hq
  simp only [List.mem_cons, List.not_mem_nil, or_false] at hq
  rcases hq with rfl | rfl | rfl | rfl
  · norm_num
  · norm_num
  · norm_num
  · exact prime_493793057

end Pratt
end AesiMP
