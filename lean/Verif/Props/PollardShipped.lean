import Verif.Model.PollardMain
import Verif.Lemmas.Pratt
import Verif.Props.Pollard
import Verif.Props.Benchmarks
import Mathlib.Tactic.NormNum.Prime

/-!
# C89: what `main` of sanitize/unsigned/main.cpp computes

The two numbers of the program, its limit (3072), its precisions (512 and 4096) and the primes up to 20000.
-/

namespace AesiMP
open Aeu Prog

set_option exponentiation.threshold 10000

/-- What the program's floating point must deliver.  `primePower` is `floor(log(2^64 - 1) / log p) - 1` evaluated in
`long double`; rounding may move the quotient across an integer.  Asked is only that `p ^ primePower` fits a `uint64_t`
and that the exponent is not smaller than the exact one. -/
def ExponentOk (exponent : Nat → Nat) : Prop :=
  ∀ p, p.Prime → p ≤ 20000 → Nat.log p (2 ^ 64 - 1) - 1 ≤ exponent p ∧ p ^ exponent p < 2 ^ 64

private theorem least {exponent : Nat → Nat} (he : ExponentOk exponent) {p k : Nat} (hp : p.Prime) (hle : p ≤ 20000)
    (hk : p ^ (k + 1) ≤ 2 ^ 64 - 1) : k ≤ exponent p := by
  have h := (he p hp hle).1
  have := Nat.le_log_of_pow_le hp.one_lt hk
  omega

private def powers (exponent : Nat → Nat) (ps : List Nat) : List U64 := ps.map fun p => BitVec.ofNat 64 (p ^ exponent p)

private theorem prodOf_powers {exponent : Nat → Nat} (he : ExponentOk exponent) (ps : List Nat)
    (h : ∀ p ∈ ps, p.Prime ∧ p ≤ 20000) :
    prodOf (powers exponent ps) = (ps.map fun p => p ^ exponent p).prod := by
  unfold prodOf powers
  rw [List.map_map]
  congr 1
  refine List.map_congr_left fun p hp => ?_
  simp only [Function.comp, BitVec.toNat_ofNat]
  exact Nat.mod_eq_of_lt (he p (h p hp).1 (h p hp).2).2

private theorem pos_powers {exponent : Nat → Nat} (he : ExponentOk exponent) (ps : List Nat)
    (h : ∀ p ∈ ps, p.Prime ∧ p ≤ 20000) : ∀ f ∈ powers exponent ps, 0 < f.toNat := by
  intro f hf
  obtain ⟨p, hp, rfl⟩ := List.mem_map.mp hf
  rw [BitVec.toNat_ofNat, Nat.mod_eq_of_lt (he p (h p hp).1 (h p hp).2).2]
  exact Nat.pow_pos (h p hp).1.pos

/-- A prime divides the product of the factors only if it is one of the primes. -/
private theorem mem_of_dvd {exponent : Nat → Nat} (he : ExponentOk exponent) (ps : List Nat)
    (h : ∀ p ∈ ps, p.Prime ∧ p ≤ 20000) {q : Nat} (hq : q.Prime) (hd : q ∣ prodOf (powers exponent ps)) : q ∈ ps := by
  rw [prodOf_powers he ps h] at hd
  obtain ⟨x, hx, hqx⟩ := (Prime.dvd_prod_iff hq.prime).mp hd
  obtain ⟨p, hp, rfl⟩ := List.mem_map.mp hx
  have := (Nat.prime_dvd_prime_iff_eq hq (h p hp).1).mp (hq.dvd_of_dvd_pow hqx)
  rwa [this]

private theorem dvd_powers {exponent : Nat → Nat} (he : ExponentOk exponent) (ps qs : List Nat)
    (h : ∀ p ∈ ps, p.Prime ∧ p ≤ 20000) (hnd : qs.Nodup) (hsub : ∀ q ∈ qs, q ∈ ps) (k : Nat → Nat)
    (hk : ∀ q ∈ qs, k q ≤ exponent q) : (qs.map fun q => q ^ k q).prod ∣ prodOf (powers exponent ps) := by
  rw [prodOf_powers he ps h]
  have h1 : (qs.map fun q => q ^ k q).prod ∣ (qs.map fun q => q ^ exponent q).prod := by
    clear hnd hsub
    induction qs with
    | nil => simp
    | cons q qs ih =>
      simp only [List.map_cons, List.prod_cons]
      exact Nat.mul_dvd_mul (pow_dvd_pow _ (hk q (by simp))) (ih fun x hx => hk x (by simp [hx]))
  refine h1.trans ?_
  have hsp : qs.Subperm ps := hnd.subperm hsub
  obtain ⟨l, hl, hs⟩ := hsp
  rw [← (hl.map fun q => q ^ exponent q).prod_eq]
  exact (hs.map _).prod_dvd_prod

/-- The primes in `[a, a + k)`. -/
private def between (a k : Nat) : List Nat := (List.range' a k).filter Nat.Prime

private theorem mem_between {a k p : Nat} : p ∈ between a k ↔ p.Prime ∧ a ≤ p ∧ p < a + k := by
  unfold between
  rw [List.mem_filter, List.mem_range'_1]
  simp
  tauto

private theorem split3 (a b c : Nat) (h : a + b + c = 20001) :
    primesUpTo 20000 = between 0 a ++ between a b ++ between (a + b) c := by
  unfold primesUpTo between
  rw [← List.filter_append, ← List.filter_append, List.range_eq_range', show 20000 + 1 = a + b + c by omega]
  congr 1
  have h1 := List.range'_append_1 (s := 0) (m := a) (n := b)
  have h2 := List.range'_append_1 (s := 0) (m := a + b) (n := c)
  simp only [Nat.zero_add] at h1 h2
  rw [h1, h2]

/-- The loop stops where it stopped on a prefix of the list. -/
private theorem loop_prefix {n m : Nat} (cfg : Cfg) (limit : Nat) (number : Aeu n) (rest : List U64) (c : Aeu n) :
    ∀ (fs : List U64) (base : Aeu n) (power : Aeu m), factorizeLoop cfg limit number fs base power = .ok (some c) →
      factorizeLoop cfg limit number (fs ++ rest) base power = .ok (some c) := by
  intro fs
  induction fs with
  | nil => intro base power h; simp [factorizeLoop] at h
  | cons f fs ih =>
    intro base power h
    simp only [List.cons_append, factorizeLoop, bind_eq_ok] at h ⊢
    obtain ⟨p, hp, k, hk, h⟩ := h
    refine ⟨p, hp, k, hk, ?_⟩
    split at h
    · rename_i hgt
      rw [if_pos hgt]
      simp only [bind_eq_ok] at h ⊢
      obtain ⟨b, hb, q, hq, d, hd, g, hg, o, ho, h⟩ := h
      refine ⟨b, hb, q, hq, d, hd, g, hg, o, ho, ?_⟩
      split at h
      · rename_i heq
        rw [if_pos heq]; exact h
      · rename_i heq
        rw [if_neg heq]; exact ih _ _ h
    · rename_i hgt
      rw [if_neg hgt]; exact ih _ _ h

private theorem factorize_prefix {n : Nat} (cfg : Cfg) (m limit : Nat) (number : Aeu n) (fs rest : List U64) (c : Aeu n)
    (h : factorize cfg m limit number fs = .ok (some c)) :
    factorize cfg m limit number (fs ++ rest) = .ok (some c) := by
  simp only [factorize, bind_eq_ok] at h ⊢
  obtain ⟨b, hb, p, hp, h⟩ := h
  exact ⟨b, hb, p, hp, loop_prefix cfg limit number rest c fs b p h⟩

private theorem prod_ge (e : Nat) (f : Nat → Nat) (a : Nat) :
    ∀ ps : List Nat, (∀ p ∈ ps, a ≤ p ∧ e ≤ f p) → 0 < a → (a ^ e) ^ ps.length ≤ (ps.map fun p => p ^ f p).prod := by
  intro ps
  induction ps with
  | nil => intro _ _; simp
  | cons p ps ih =>
    intro h ha
    obtain ⟨h1, h2⟩ := h p (by simp)
    simp only [List.length_cons, List.map_cons, List.prod_cons, pow_succ]
    rw [mul_comm]
    refine Nat.mul_le_mul ?_ (ih (fun q hq => h q (by simp [hq])) ha)
    exact (Nat.pow_le_pow_left h1 e).trans (Nat.pow_le_pow_right (by omega) h2)

/-- `2` has, modulo `r`, an order divisible by the prime `q`, which is at least `k`. -/
private structure Order (r q k : Nat) : Prop where
  prime_r : r.Prime
  prime_q : q.Prime
  rest : q ∣ r - 1 ∧ r < 2 ^ 64 ∧ Pratt.powMod r 64 2 ((r - 1) / q) ≠ 1 ∧ k ≤ q

private theorem Order.coprime {r q k E d : Nat} (h : Order r q k) (h2 : r ≠ 2)
    (hE : ∀ q, q.Prime → k ≤ q → ¬ q ∣ E) (hd : d ∣ 2 ^ E - 1) : Nat.Coprime d r := by
  obtain ⟨hr, hq, h1, hlt, h3, h4⟩ := h
  rw [Nat.coprime_comm, hr.coprime_iff_not_dvd]
  intro hrd
  exact Pratt.not_dvd_of_order hr hq h1 hlt h2 h3 (hE q hq h4) (hrd.trans hd)

/-- The method, for a number that is a product of four primes: the program returns the one (`t`) whose predecessor
divides the product of the primes read first, provided each other prime has an order with a prime factor not read. -/
private theorem core (cfg : Cfg) (alnum : Int → Bool) (hl : LocaleOk alnum) {exponent : Nat → Nat}
    (he : ExponentOk exponent) (value t r1 r2 r3 q1 q2 q3 a b c : Nat) (habc : a + b + c = 20001)
    (hN : value = t * r1 * r2 * r3) (hsize : value < 2 ^ 255) (hodd : value % 2 = 1)
    (ht : t.Prime) (o1 : Order r1 q1 (a + b)) (o2 : Order r2 q2 (a + b)) (o3 : Order r3 q3 (a + b))
    (hsmooth : t - 1 ∣ prodOf (powers exponent (between 0 a)))
    (henough : 2 ^ 3072 ≤ prodOf (powers exponent (between a b))) :
    Sat (factorizeLiteral cfg alnum value (primePowers exponent)) fun r => ∃ d, r = some d ∧ toNat d = t := by
  obtain ⟨number, hnum, hval⟩ := C114_literal .char alnum hl 16 value
  have hlt : value < 2 ^ (32 * 16) := Nat.lt_of_lt_of_le hsize (Nat.pow_le_pow_right (by norm_num) (by norm_num))
  rw [Nat.mod_eq_of_lt hlt] at hval
  have hbd : ∀ p ∈ between 0 a ++ between a b, p.Prime ∧ p ≤ 20000 := by
    intro p hp
    rcases List.mem_append.mp hp with h | h <;> rw [mem_between] at h <;> exact ⟨h.1, by omega⟩
  have hpw : primePowers exponent = powers exponent (between 0 a) ++ powers exponent (between a b) ++
      powers exponent (between (a + b) c) := by
    unfold primePowers powers
    rw [split3 a b c habc, List.map_append, List.map_append]
  have hone : 1 < value := by
    have h1 := ht.two_le
    have h2 : t ∣ value := ⟨r1 * r2 * r3, by rw [hN]; ring⟩
    exact Nat.lt_of_lt_of_le (by omega) (Nat.le_of_dvd (by omega) h2)
  have hfit : (toNat number - 1) * (toNat number - 1) < 2 ^ (32 * 16) := by
    rw [hval]
    have h1 : value - 1 < 2 ^ 255 := Nat.lt_of_le_of_lt (Nat.sub_le _ _) hsize
    calc (value - 1) * (value - 1) ≤ 2 ^ 255 * 2 ^ 255 := Nat.mul_le_mul h1.le h1.le
      _ = 2 ^ 510 := by rw [← pow_add]
      _ < 2 ^ (32 * 16) := Nat.pow_lt_pow_right (by norm_num) (by norm_num)
  have hone' : 1 < toNat number := by rw [hval]; exact hone
  have hodd' : toNat number % 2 = 1 := by rw [hval]; exact hodd
  have hfind := C89_finds cfg (n := 16) (m := 128) (by norm_num) (by norm_num) (by norm_num) (limit := 3072) (by norm_num)
    (by norm_num) number hone' hodd' hfit (powers exponent (between 0 a)) (powers exponent (between a b)) []
    (by
      have := pos_powers he (between 0 a ++ between a b) hbd
      unfold powers at this ⊢
      rwa [List.map_append] at this) t ht (by rw [hval, hN]; exact ⟨r1 * r2 * r3, by ring⟩) hsmooth henough
  rw [List.append_nil] at hfind
  obtain ⟨r, hr, d, rfl, hd1, hdN⟩ := hfind
  have hmeth := C89_method cfg (n := 16) (m := 128) (by norm_num) (by norm_num) (by norm_num) (limit := 3072) (by norm_num)
    (by norm_num) number hone' hodd' hfit (powers exponent (between 0 a) ++ powers exponent (between a b))
  rw [hr, sat_ok] at hmeth
  obtain ⟨used, hpre, hgcd⟩ := hmeth d rfl
  have hdiv : toNat d ∣ 2 ^ prodOf used - 1 := by rw [hgcd]; exact Nat.gcd_dvd_left _ _
  -- a prime at least `a + b` does not divide the exponent
  have hnot : ∀ q, q.Prime → a + b ≤ q → ¬ q ∣ prodOf used := by
    intro q hq hle hdq
    obtain ⟨s, hs⟩ := hpre
    have hall : prodOf (powers exponent (between 0 a ++ between a b)) = prodOf used * prodOf s := by
      have e : powers exponent (between 0 a ++ between a b) = used ++ s := by
        rw [hs]; unfold powers; rw [List.map_append]
      rw [e]
      simp [prodOf]
    have hmem := mem_of_dvd he _ hbd hq (by rw [hall]; exact Dvd.dvd.mul_right hdq _)
    rcases List.mem_append.mp hmem with h | h <;> rw [mem_between] at h <;> omega
  have hvo : ∀ r, r.Prime → r ∣ value → r ≠ 2 := by
    rintro r - hrv rfl
    have := Nat.mod_eq_zero_of_dvd hrv
    omega
  have c1 := o1.coprime (hvo r1 o1.prime_r ⟨t * r2 * r3, by rw [hN]; ring⟩) hnot hdiv
  have c2 := o2.coprime (hvo r2 o2.prime_r ⟨t * r1 * r3, by rw [hN]; ring⟩) hnot hdiv
  have c3 := o3.coprime (hvo r3 o3.prime_r ⟨t * r1 * r2, by rw [hN]; ring⟩) hnot hdiv
  rw [hval, hN] at hdN
  have hdt : toNat d ∣ t := c1.dvd_of_dvd_mul_right (c2.dvd_of_dvd_mul_right (c3.dvd_of_dvd_mul_right hdN))
  have hdeq : toNat d = t := (ht.eq_one_or_self_of_dvd _ hdt).resolve_left hd1.ne'
  have hfin := factorize_prefix cfg 128 3072 number _ (powers exponent (between (a + b) c)) d hr
  rw [← hpw] at hfin
  refine ⟨some d, ?_, d, rfl, hdeq⟩
  have hstep : factorizeLiteral cfg alnum value (primePowers exponent) =
      factorize cfg 128 3072 number (primePowers exponent) := by
    unfold factorizeLiteral
    rw [hnum, ok_bind]
  exact hstep.trans hfin

private theorem enough {exponent : Nat → Nat} (he : ExponentOk exponent) (K : Nat) (ps qs : List Nat)
    (h : ∀ p ∈ ps, p.Prime ∧ p ≤ 20000) (hnd : qs.Nodup) (hsub : ∀ q ∈ qs, q ∈ ps) (a e : Nat) (ha : 0 < a)
    (hge : ∀ q ∈ qs, a ≤ q ∧ e ≤ exponent q) (hbig : K ≤ (a ^ e) ^ qs.length) :
    K ≤ prodOf (powers exponent ps) := by
  have h1 := dvd_powers he ps qs h hnd hsub exponent fun q _ => le_refl _
  have h2 : 0 < prodOf (powers exponent ps) := by
    unfold prodOf
    refine List.prod_pos ?_
    intro x hx
    obtain ⟨f, hf, rfl⟩ := List.mem_map.mp hx
    exact pos_powers he ps h f hf
  exact (hbig.trans (prod_ge e exponent a qs hge ha)).trans (Nat.le_of_dvd h2 h1)

/-- The primes from 1187 to 1621. -/
private def firstLater : List Nat :=
  [1187, 1193, 1201, 1213, 1217, 1223, 1229, 1231, 1237, 1249, 1259, 1277, 1279, 1283, 1289, 1291,
   1297, 1301, 1303, 1307, 1319, 1321, 1327, 1361, 1367, 1373, 1381, 1399, 1409, 1423, 1427, 1429,
   1433, 1439, 1447, 1451, 1453, 1459, 1471, 1481, 1483, 1487, 1489, 1493, 1499, 1511, 1523, 1531,
   1543, 1549, 1553, 1559, 1567, 1571, 1579, 1583, 1597, 1601, 1607, 1609, 1613, 1619, 1621]

/-- The primes from 19237 to 19997. -/
private def secondLater : List Nat :=
  [19237, 19249, 19259, 19267, 19273, 19289, 19301, 19309, 19319, 19333, 19373, 19379, 19381,
   19387, 19391, 19403, 19417, 19421, 19423, 19427, 19429, 19433, 19441, 19447, 19457, 19463,
   19469, 19471, 19477, 19483, 19489, 19501, 19507, 19531, 19541, 19543, 19553, 19559, 19571,
   19577, 19583, 19597, 19603, 19609, 19661, 19681, 19687, 19697, 19699, 19709, 19717, 19727,
   19739, 19751, 19753, 19759, 19763, 19777, 19793, 19801, 19813, 19819, 19841, 19843, 19853,
   19861, 19867, 19889, 19891, 19913, 19919, 19927, 19937, 19949, 19961, 19963, 19973, 19979,
   19991, 19993, 19997]

private theorem firstLater_prime : ∀ q ∈ firstLater, q.Prime := by
  simp only [firstLater, List.forall_mem_cons, List.forall_mem_nil, and_true]
  norm_num

private theorem secondLater_prime : ∀ q ∈ secondLater, q.Prime := by
  simp only [secondLater, List.forall_mem_cons, List.forall_mem_nil, and_true]
  norm_num

private theorem between_bound {a k : Nat} (h : a + k ≤ 20001) : ∀ p ∈ between a k, p.Prime ∧ p ≤ 20000 := by
  intro p hp
  rw [mem_between] at hp
  exact ⟨hp.1, by omega⟩

private theorem smooth {exponent : Nat → Nat} (he : ExponentOk exponent) (a : Nat) (ha : a ≤ 20001) (qs : List Nat)
    (hq : ∀ q ∈ qs, q.Prime ∧ q < a) (hnd : qs.Nodup) (x : Nat) (hx : x ∣ (qs.map fun q => q ^ 3).prod) :
    x ∣ prodOf (powers exponent (between 0 a)) := by
  refine hx.trans (dvd_powers he _ qs (between_bound (by omega)) hnd ?_ (fun _ => 3) ?_)
  · intro q hqm
    rw [mem_between]
    exact ⟨(hq q hqm).1, by omega, by have := (hq q hqm).2; omega⟩
  · intro q hqm
    have h1 := (hq q hqm).2
    refine least he (hq q hqm).1 (by omega) ?_
    calc q ^ (3 + 1) ≤ 20001 ^ 4 := Nat.pow_le_pow_left (by omega) 4
      _ ≤ 2 ^ 64 - 1 := by norm_num

/-- C89, the first number of the shipped program: whatever the rounding of `log` and `pow`, the program prints
`0x99cae8879f` for it - not `0xa9ab4314cf`, the factor its comment is about: all four prime factors are smooth, and
this one is found first. -/
theorem C89_shipped_first (cfg : Cfg) (alnum : Int → Bool) (hl : LocaleOk alnum) (exponent : Nat → Nat)
    (he : ExponentOk exponent) :
    Sat (factorizeLiteral cfg alnum pollardFirst (primePowers exponent)) fun r =>
      ∃ c, r = some c ∧ toNat c = 0x99cae8879f := by
  refine core cfg alnum hl he pollardFirst 660534232991 728722773199 55819280947 1015038731879 2351 3539 5683 1182 440 18379
    (by norm_num) (by decide +kernel) (by decide +kernel) (by decide +kernel) Pratt.prime_660534232991
    ⟨Pratt.prime_728722773199, by norm_num, by decide +kernel⟩ ⟨Pratt.prime_55819280947, by norm_num, by decide +kernel⟩
    ⟨Pratt.prime_1015038731879, by norm_num, by decide +kernel⟩ ?_ ?_
  · refine smooth he _ (by norm_num) [2, 5, 251, 443, 503, 1181] ?_ (by decide) _ ?_
    · simp only [List.forall_mem_cons, List.forall_mem_nil, and_true]
      norm_num
    · exact Nat.dvd_of_mod_eq_zero (by decide +kernel)
  · refine enough he _ _ firstLater (between_bound (by norm_num)) (by decide +kernel) ?_ 1187 5 (by norm_num) ?_
      (by decide +kernel)
    · intro q hq
      have hb : ∀ q ∈ firstLater, 1182 ≤ q ∧ q < 1182 + 440 := by decide +kernel
      rw [mem_between]
      exact ⟨firstLater_prime q hq, hb q hq⟩
    · intro q hq
      have hb : ∀ q ∈ firstLater, 1187 ≤ q ∧ q ≤ 1621 := by decide +kernel
      refine ⟨(hb q hq).1, least he (firstLater_prime q hq) (by have := hb q hq; omega) ?_⟩
      calc q ^ (5 + 1) ≤ 1621 ^ 6 := Nat.pow_le_pow_left (hb q hq).2 6
        _ ≤ 2 ^ 64 - 1 := by norm_num

/-- C89, the second number of the shipped program: it prints `0x2fdd8d6ba69`, whatever the rounding. -/
theorem C89_shipped_second (cfg : Cfg) (alnum : Int → Bool) (hl : LocaleOk alnum) (exponent : Nat → Nat)
    (he : ExponentOk exponent) :
    Sat (factorizeLiteral cfg alnum pollardSecond (primePowers exponent)) fun r =>
      ∃ c, r = some c ∧ toNat c = 0x2fdd8d6ba69 := by
  refine core cfg alnum hl he pollardSecond 3289287932521 4172251885630957 12097103251173337 12583617834262403
    8402413 5091373422211 493793057 19232 769 0
    (by norm_num) (by decide +kernel) (by decide +kernel) (by decide +kernel) Pratt.prime_3289287932521
    ⟨Pratt.prime_4172251885630957, Pratt.prime_8402413, by decide +kernel⟩
    ⟨Pratt.prime_12097103251173337, Pratt.prime_5091373422211, by decide +kernel⟩
    ⟨Pratt.prime_12583617834262403, Pratt.prime_493793057, by decide +kernel⟩ ?_ ?_
  · refine smooth he _ (by norm_num) [2, 3, 5, 647, 2203, 19231] ?_ (by decide) _ ?_
    · simp only [List.forall_mem_cons, List.forall_mem_nil, and_true]
      norm_num
    · exact Nat.dvd_of_mod_eq_zero (by decide +kernel)
  · refine enough he _ _ secondLater (between_bound (by norm_num)) (by decide +kernel) ?_ 19237 3 (by norm_num) ?_
      (by decide +kernel)
    · intro q hq
      have hb : ∀ q ∈ secondLater, 19232 ≤ q ∧ q < 19232 + 769 := by decide +kernel
      rw [mem_between]
      exact ⟨secondLater_prime q hq, hb q hq⟩
    · intro q hq
      have hb : ∀ q ∈ secondLater, 19237 ≤ q ∧ q ≤ 20000 := by decide +kernel
      refine ⟨(hb q hq).1, least he (secondLater_prime q hq) (by have := hb q hq; omega) ?_⟩
      calc q ^ (3 + 1) ≤ 20000 ^ 4 := Nat.pow_le_pow_left (hb q hq).2 4
        _ ≤ 2 ^ 64 - 1 := by norm_num

/-- The exact exponents meet the hypothesis. -/
example : ExponentOk fun p => Nat.log p (2 ^ 64 - 1) - 1 := by
  intro p hp _
  refine ⟨le_refl _, ?_⟩
  have h1 := Nat.pow_log_le_self p (x := 2 ^ 64 - 1) (by norm_num)
  have h2 := Nat.pow_le_pow_right hp.pos (Nat.sub_le (Nat.log p (2 ^ 64 - 1)) 1)
  show p ^ (Nat.log p (2 ^ 64 - 1) - 1) < 2 ^ 64
  omega

end AesiMP
