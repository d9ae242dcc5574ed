import Verif.Props.Access
import Verif.Props.Arith

/-!
# Properties C04, C05 (exact), C66: operators with a built-in unsigned operand
-/

namespace AesiMP
open Aeu
variable {n : Nat}

/-! ### C04, C05: exactly what is lost -/

/-- C05, exactly, for every operand: `a += u` is `a + u` modulo `2^bitness`, except that `2^64` is
lost when the lowest block plus `u` reaches `2^64` (only possible for a 64-bit type). -/
theorem C05_add_builtin_exact {w : Nat} (hw0 : 0 < w) (hw : w ≤ 64) (a : Aeu n) (u : BitVec w) :
    Returns (addBuiltin a u) ((toNat a + u.toNat -
      if 2 ^ 64 ≤ toNat a % 2 ^ 32 + u.toNat then 2 ^ 64 else 0) % 2 ^ (32 * n)) := by
  have h : dig a 0 = toNat a % 2 ^ 32 := by
    have := toNat_digit a 0
    simpa using this.symm
  rw [← h]
  exact addBuiltin_exact hw0 hw a u

/-- C05 holds without restriction up to 64 bits of precision. -/
theorem C05_add_builtin_small (hn : n ≤ 2) {w : Nat} (hw0 : 0 < w) (hw : w ≤ 64) (a : Aeu n)
    (u : BitVec w) : Returns (addBuiltin a u) ((toNat a + u.toNat) % 2 ^ (32 * n)) := by
  obtain ⟨r, hr, e⟩ := C05_add_builtin_exact hw0 hw a u
  refine ⟨r, hr, e.trans ?_⟩
  split
  · rename_i h
    have h1 : toNat a % 2 ^ 32 ≤ toNat a := Nat.mod_le _ _
    obtain ⟨k, hk⟩ : ∃ k, toNat a + u.toNat = k + 2 ^ 64 := ⟨toNat a + u.toNat - 2 ^ 64, by omega⟩
    rw [hk, Nat.add_sub_cancel, show (2 : Nat) ^ 64 = 2 ^ (32 * n) * 2 ^ (64 - 32 * n) by
      rw [← Nat.pow_add]; congr 1; omega, Nat.add_mul_mod_self_left]
  · rfl

/-- C05: above 64 bits of precision the result is wrong exactly when the lowest block plus `u`
reaches `2^64`. -/
theorem C05_add_builtin_iff (hn : 3 ≤ n) {w : Nat} (hw0 : 0 < w) (hw : w ≤ 64) (a : Aeu n)
    (u : BitVec w) : Returns (addBuiltin a u) ((toNat a + u.toNat) % 2 ^ (32 * n)) ↔
      toNat a % 2 ^ 32 + u.toNat < 2 ^ 64 := by
  obtain ⟨r, hr, e⟩ := C05_add_builtin_exact hw0 hw a u
  constructor
  · rintro ⟨r', hr', e'⟩
    obtain rfl : r = r' := by simpa [hr] using hr'
    by_contra hc
    rw [if_pos (by omega), e'] at e
    have h1 : toNat a % 2 ^ 32 ≤ toNat a := Nat.mod_le _ _
    obtain ⟨k, hk⟩ : ∃ k, toNat a + u.toNat = k + 2 ^ 64 := ⟨toNat a + u.toNat - 2 ^ 64, by omega⟩
    rw [hk, Nat.add_sub_cancel] at e
    have h2 : (k + 2 ^ 64) ≡ k + 0 [MOD 2 ^ (32 * n)] := e
    have h3 := Nat.ModEq.add_left_cancel' k h2
    have h4 : (2 : Nat) ^ 64 < 2 ^ (32 * n) := Nat.pow_lt_pow_right (by norm_num) (by omega)
    unfold Nat.ModEq at h3
    rw [Nat.mod_eq_of_lt h4] at h3
    simp at h3
  · intro h
    rw [if_neg (by omega), Nat.sub_zero] at e
    exact ⟨r, hr, e⟩

example : addBuiltin (ofNat 3 (2 ^ 90 + 5)) (0xfffffffffffffffe#64) = .ok (ofNat 3 (2 ^ 90 + 3)) := by
  decide +kernel

/-- C04 holds without restriction up to 64 bits of precision, also where `unsigned long long` is not
`uint64_t`. -/
theorem C04_mul_ull_small (hn : n ≤ 2) (cfg : Cfg) (a : Aeu n) (f : BitVec 64) :
    Returns (mulULL cfg a f) (toNat a * f.toNat % 2 ^ (32 * n)) := by
  unfold mulULL
  cases hc : cfg.u64IsULL
  · obtain ⟨r, hr, c, L, h⟩ := mulNarrow_lossy (by norm_num) a f
    refine ⟨r, by simpa using hr, ?_⟩
    rw [← h, show (2 : Nat) ^ 64 = 2 ^ (32 * n) * 2 ^ (64 - 32 * n) by
      rw [← Nat.pow_add]; congr 1; omega, Nat.mul_assoc, Nat.add_mul_mod_self_left,
      Nat.add_mul_mod_self_right, Nat.mod_eq_of_lt (toNat_lt _)]
  · exact mulU64_spec a f

/-- C04: above 64 bits of precision, where `unsigned long long` is not `uint64_t`, multiplication is
wrong for every factor above `2^32 + 1`, for some number. -/
theorem C04_ull_sharp (hn : 3 ≤ n) (cfg : Cfg) (hc : cfg.u64IsULL = false) (f : BitVec 64)
    (hf : 2 ^ 32 + 1 < f.toNat) :
    ∃ a : Aeu n, ¬ Returns (mulULL cfg a f) (toNat a * f.toNat % 2 ^ (32 * n)) := by
  have hb : (2 : Nat) ^ 32 - 1 < 2 ^ (32 * n) :=
    Nat.lt_of_lt_of_le (by norm_num : (2 : Nat) ^ 32 - 1 < 2 ^ 32)
      (Nat.pow_le_pow_right (by norm_num) (by omega))
  have ht : toNat (ofNat n (2 ^ 32 - 1)) = 2 ^ 32 - 1 := by
    rw [toNat_ofNat, Nat.mod_eq_of_lt hb]
  have hd : ∀ i, 0 < i → dig (ofNat n (2 ^ 32 - 1)) i = 0 := by
    intro i hi
    rw [← toNat_digit, ht, Nat.div_eq_of_lt, Nat.zero_mod]
    exact Nat.lt_of_lt_of_le (by norm_num : (2 : Nat) ^ 32 - 1 < 2 ^ 32)
      (Nat.pow_le_pow_right (by norm_num) (by omega))
  have hd0 : dig (ofNat n (2 ^ 32 - 1)) 0 = 2 ^ 32 - 1 := by
    rw [← toNat_digit, ht]; simp
  refine ⟨ofNat n (2 ^ 32 - 1), ?_⟩
  rintro ⟨r', hr', e'⟩
  obtain ⟨r, hr, e⟩ := mulNarrow_one_block (by norm_num : 64 ≤ 64) (by omega : 0 < n) _ f hd
  unfold mulULL at hr'
  rw [hc, if_neg (by simp), hr] at hr'
  obtain rfl : r = r' := by simpa using hr'
  rw [e, ht, hd0] at e'
  have hflt := f.isLt
  have hpw : (2 : Nat) ^ 96 ≤ 2 ^ (32 * n) := Nat.pow_le_pow_right (by norm_num) (by omega)
  have h1 : (2 ^ 32 - 1) * f.toNat < 2 ^ (32 * n) := by
    refine Nat.lt_of_lt_of_le ?_ hpw
    norm_num at hflt ⊢
    omega
  have h2 : (2 ^ 32 - 1) * f.toNat % 2 ^ 64 < 2 ^ 64 := Nat.mod_lt _ (by norm_num)
  rw [Nat.mod_eq_of_lt h1, Nat.mod_eq_of_lt (Nat.lt_of_lt_of_le h2 (Nat.le_trans (by norm_num) hpw))]
    at e'
  norm_num at hf e' h2
  omega

/-- C04, exactly: where `unsigned long long` is not `uint64_t`, multiplication by the factor `f` is
right for every number of the precision if and only if `f ≤ 2^32`, or the precision is at most 64 bits,
or `f = 2^32 + 1` and the precision is 96 bits. -/
theorem C04_ull_iff (cfg : Cfg) (hc : cfg.u64IsULL = false) (f : BitVec 64) :
    (∀ a : Aeu n, Returns (mulULL cfg a f) (toNat a * f.toNat % 2 ^ (32 * n))) ↔
      f.toNat ≤ 2 ^ 32 ∨ n ≤ 2 ∨ (f.toNat = 2 ^ 32 + 1 ∧ n = 3) := by
  constructor
  · intro h
    by_contra hcon
    push Not at hcon
    obtain ⟨h1, h2, h3⟩ := hcon
    by_cases hf : 2 ^ 32 + 1 < f.toNat
    · obtain ⟨a, ha⟩ := C04_ull_sharp (n := n) (by omega) cfg hc f hf
      exact ha (h a)
    · have hf' : f.toNat = 2 ^ 32 + 1 := by omega
      have hn : 4 ≤ n := by have := h3 hf'; omega
      have hpw : (2 : Nat) ^ 128 ≤ 2 ^ (32 * n) := Nat.pow_le_pow_right (by norm_num) (by omega)
      have ht : toNat (ofNat n (2 ^ 64 - 1)) = 2 ^ 64 - 1 := by
        rw [toNat_ofNat, Nat.mod_eq_of_lt (Nat.lt_of_lt_of_le (by norm_num) hpw)]
      have hd : ∀ i, 1 < i → dig (ofNat n (2 ^ 64 - 1)) i = 0 := by
        intro i hi
        rw [← toNat_digit, ht, Nat.div_eq_of_lt, Nat.zero_mod]
        exact Nat.lt_of_lt_of_le (by norm_num : (2 : Nat) ^ 64 - 1 < 2 ^ 64)
          (Nat.pow_le_pow_right (by norm_num) (by omega))
      have hd0 : dig (ofNat n (2 ^ 64 - 1)) 0 = 2 ^ 32 - 1 := by
        rw [← toNat_digit, ht]; simp
      have hd1 : dig (ofNat n (2 ^ 64 - 1)) 1 = 2 ^ 32 - 1 := by
        rw [← toNat_digit, ht]; simp
      obtain ⟨r, hr, e⟩ := mulNarrow_two_block (by omega) _ f hf' hd0 hd1 hd
      obtain ⟨r', hr', e'⟩ := h (ofNat n (2 ^ 64 - 1))
      unfold mulULL at hr'
      rw [hc, if_neg (by simp), hr] at hr'
      obtain rfl : r = r' := by simpa using hr'
      rw [e, ht, hf', Nat.mod_eq_of_lt (Nat.lt_of_lt_of_le (by norm_num) hpw)] at e'
      norm_num at e'
  · rintro (h | h | ⟨h, rfl⟩) a
    · exact C04_mul_ull_partial cfg a f (.inr h)
    · exact C04_mul_ull_small h cfg a f
    · unfold mulULL
      rw [hc, if_neg (by simp)]
      obtain ⟨r, hr, c, L, e⟩ := mulNarrow_lossy96 (by norm_num) a f (by rw [h]; norm_num)
      refine ⟨r, hr, ?_⟩
      rw [← e, show (2 : Nat) ^ 96 = 2 ^ (32 * 3) from rfl, Nat.add_mul_mod_self_left,
        Nat.add_mul_mod_self_right, Nat.mod_eq_of_lt (toNat_lt _)]

/-! ### C66 -/

/-- `Aeu<bitness>(u)`, when `u` fits. -/
private theorem conv_spec (n : Nat) {w : Nat} (hw : w ≤ 64) (u : BitVec w)
    (hu : u.toNat < 2 ^ (32 * n)) : Sat (ofUnsigned n u) fun c => toNat c = u.toNat := by
  refine Sat.mono (ofUnsignedJ_spec hw (zero n) u) fun c h => ?_
  rw [h, Nat.mod_eq_of_lt hu]

/-- C66: a built-in unsigned operand on the left of `+`, `-`, `*`. -/
theorem C66_left_ring {w : Nat} (hw : w ≤ 64) (u : BitVec w) (a : Aeu n) :
    Returns (addLeft u a) ((u.toNat + toNat a) % 2 ^ (32 * n)) ∧
    (Sat (subLeft u a) fun r =>
      (toNat r : Int) = ((u.toNat : Int) - toNat a) % (2 : Int) ^ (32 * n)) ∧
    Returns (mulLeft u a) (u.toNat * toNat a % 2 ^ (32 * n)) := by
  have h := ofUnsignedJ_spec hw (zero n) u
  refine ⟨Sat.bind h fun c hc => ?_, Sat.bind h fun c hc => ?_, Sat.bind h fun c hc => ?_⟩
  · refine Sat.mono (C01_add c a) fun r e => ?_
    rw [e, hc, Nat.mod_add_mod]
  · refine Sat.mono (C02_sub c a) fun r e => ?_
    rw [e, hc]; push_cast; rw [Int.emod_sub_emod]
  · refine Sat.mono (C03_mul c a) fun r e => ?_
    rw [e, hc, Nat.mod_mul_mod]

/-- C66: a built-in unsigned operand on the left of `/`, `%`, `^`, `&`, `|`, when it fits the
precision (always for a precision of 64 bits or more). -/
theorem C66_left_rest (cfg : Cfg) (hn : 0 < n) {w : Nat} (hw : w ≤ 64) (u : BitVec w) (a : Aeu n)
    (hu : u.toNat < 2 ^ (32 * n)) :
    (toNat a ≠ 0 → Returns (divLeft cfg u a) (u.toNat / toNat a)) ∧
    (toNat a ≠ 0 → Returns (modLeft cfg u a) (u.toNat % toNat a)) ∧
    Returns (xorLeft u a) (u.toNat ^^^ toNat a) ∧ Returns (andLeft u a) (u.toNat &&& toNat a) ∧
    Returns (orLeft u a) (u.toNat ||| toNat a) := by
  have h := conv_spec n hw u hu
  refine ⟨fun h0 => Sat.bind h fun c hc => ?_, fun h0 => Sat.bind h fun c hc => ?_,
    Sat.bind h fun c hc => ?_, Sat.bind h fun c hc => ?_, Sat.bind h fun c hc => ?_⟩ <;> rw [← hc]
  · exact C06_div cfg hn c a h0
  · exact C06_mod cfg hn c a h0
  · exact C09_xor c a
  · exact C09_and c a
  · exact C09_or c a

/-- C66: a built-in unsigned operand on the right of `-`, `/`, `%`, `^`, `&`, `|` (and `-=` ...). -/
theorem C66_right (cfg : Cfg) (hn : 0 < n) {w : Nat} (hw : w ≤ 64) (u : BitVec w) (a : Aeu n)
    (hu : u.toNat < 2 ^ (32 * n)) :
    (Sat (subRight a u) fun r =>
      (toNat r : Int) = ((toNat a : Int) - u.toNat) % (2 : Int) ^ (32 * n)) ∧
    (u.toNat ≠ 0 → Returns (divRight cfg a u) (toNat a / u.toNat)) ∧
    (u.toNat ≠ 0 → Returns (modRight cfg a u) (toNat a % u.toNat)) ∧
    Returns (xorRight a u) (toNat a ^^^ u.toNat) ∧ Returns (andRight a u) (toNat a &&& u.toNat) ∧
    Returns (orRight a u) (toNat a ||| u.toNat) := by
  have h := conv_spec n hw u hu
  refine ⟨Sat.bind h fun c hc => ?_, fun h0 => Sat.bind h fun c hc => ?_,
    fun h0 => Sat.bind h fun c hc => ?_,
    Sat.bind h fun c hc => ?_, Sat.bind h fun c hc => ?_, Sat.bind h fun c hc => ?_⟩
  · rw [← hc]; exact C02_sub a c
  · rw [← hc] at h0 ⊢; exact C06_div cfg hn a c h0
  · rw [← hc] at h0 ⊢; exact C06_mod cfg hn a c h0
  · rw [← hc]; exact C09_xor a c
  · rw [← hc]; exact C09_and a c
  · rw [← hc]; exact C09_or a c

example : subLeft (3#8) (ofNat 2 5) = .ok (ofNat 2 (2 ^ 64 - 2)) ∧
    divLeft ⟨false, false, false⟩ (0xffff#16) (ofNat 2 7) = .ok (ofNat 2 (65535 / 7)) ∧
    modRight ⟨false, false, false⟩ (ofNat 3 (2 ^ 90)) (1000003#32) = .ok (ofNat 3 (2 ^ 90 % 1000003)) ∧
    orRight (ofNat 3 (2 ^ 90)) (0xffffffffffffffff#64) = .ok (ofNat 3 (2 ^ 90 + 2 ^ 64 - 1)) := by
  decide +kernel

/-! ### Concrete cases that meet the hypotheses -/

/-- The hypotheses of `C04_mul_ull_small` are met. -/
example := C04_mul_ull_small (n := 2) (by omega) ⟨false, false, false⟩ (Aeu.ofNat 2 (2 ^ 40 + 5)) (2 ^ 50 + 7)

/-- The hypotheses of `C04_ull_sharp` are met. -/
example := C04_ull_sharp (n := 3) (by omega) ⟨false, false, false⟩ rfl (2 ^ 33) (by decide)

/-- The hypotheses of `C04_ull_iff` are met. -/
example := C04_ull_iff (n := 3) ⟨false, false, false⟩ rfl (2 ^ 33)

end AesiMP
