import Verif.Lemmas.SignedText

/-!
# Properties C36–C42, C45, C47–C50, C52: signed arithmetic

`toInt a` is the integer the object represents; `Canon a`: its sign field is `Zero` if that integer is
0 (every constructor except the one from `Aeu` and every in-range operation except `%=` with a built-in
produce such objects, see C43); `Fits n v`: `|v| < 2^(32 n)`.
-/

namespace AesiMP
open Aesi
open Aeu (toNat)
variable {n m : Nat}

/-- The build used by the examples: checked access, asserts on, LP64. -/
abbrev lp64 : Cfg := ⟨false, false, false⟩

/-! ### C36 -/

/-- C36: `a + b`, `a += b`: every sign combination, every history of the operands. -/
theorem C36_add (cfg : Cfg) (a b : Aesi n) (h : Fits n (toInt a + toInt b)) :
    Sat (add cfg a b) fun r => toInt r = toInt a + toInt b :=
  Sat.mono (add_spec cfg a b h) fun _ h => h.1

/-- C36: `a - b`, `a -= b`. -/
theorem C36_sub (cfg : Cfg) (a b : Aesi n) (h : Fits n (toInt a - toInt b)) :
    Sat (sub cfg a b) fun r => toInt r = toInt a - toInt b :=
  Sat.mono (sub_spec cfg a b h) fun _ h => h.1

example : Fits 2 (toInt (ofInt 2 (2 ^ 63)) + toInt (ofInt 2 (-(2 ^ 63 + 5)))) ∧
    add lp64 (ofInt 2 (2 ^ 63)) (ofInt 2 (-(2 ^ 63 + 5))) = .ok (ofInt 2 (-5)) := by decide +kernel
example : sub lp64 (ofInt 2 3) (ofInt 2 (-(2 ^ 40))) = .ok (ofInt 2 (2 ^ 40 + 3)) := by decide +kernel

/-! ### C37 -/

/-- C37: `a * b`, `a *= b`. -/
theorem C37_mul (a b : Aesi n) (h : Fits n (toInt a * toInt b)) :
    Sat (mul a b) fun r => toInt r = toInt a * toInt b :=
  Sat.mono (mul_spec a b h) fun _ h => h.1

example : Fits 2 (toInt (ofInt 2 (2 ^ 31 + 1)) * toInt (ofInt 2 (-(2 ^ 31 + 3)))) ∧
    mul (ofInt 2 (2 ^ 31 + 1)) (ofInt 2 (-(2 ^ 31 + 3))) =
      .ok (ofInt 2 (-((2 ^ 31 + 1) * (2 ^ 31 + 3)))) := by decide +kernel

/-! ### C38 -/

/-- C38: `a / b`, `a /= b`: truncation toward zero. -/
theorem C38_div (cfg : Cfg) (hn : 0 < n) (a b : Aesi n) (hb : toInt b ≠ 0) :
    Sat (div cfg a b) fun r => toInt r = (toInt a).tdiv (toInt b) :=
  Sat.mono (div_spec cfg hn a b hb) fun _ h => h.1

/-- C38, in words of inequalities: the quotient times the divisor is at most `|a|` away from zero, and
the difference has the sign of `a` and is smaller than `|b|`. -/
theorem C38_div_truncates (cfg : Cfg) (hn : 0 < n) (a b : Aesi n) (hb : toInt b ≠ 0) :
    Sat (div cfg a b) fun q => |toInt a - toInt q * toInt b| < |toInt b| ∧
      0 ≤ (toInt a - toInt q * toInt b) * toInt a := by
  refine Sat.mono (div_spec cfg hn a b hb) fun q h => ?_
  have e : toInt a - toInt q * toInt b = (toInt a).tmod (toInt b) := by
    have := Int.mul_tdiv_add_tmod (toInt a) (toInt b)
    rw [h.1, Int.mul_comm]; omega
  rw [e]
  constructor
  · have h1 := Int.natAbs_tmod (toInt a) (toInt b)
    have h2 := Nat.mod_lt (toInt a).natAbs (show 0 < (toInt b).natAbs by omega)
    rw [Int.abs_eq_natAbs, Int.abs_eq_natAbs]; omega
  · rcases le_total 0 (toInt a) with h0 | h0
    · exact Int.mul_nonneg (Int.tmod_nonneg _ h0) h0
    · have : 0 ≤ (-toInt a).tmod (toInt b) := Int.tmod_nonneg _ (by omega)
      rw [Int.neg_tmod] at this
      nlinarith

/-- C38: division by zero yields zero. -/
theorem C38_div_zero_partial (cfg : Cfg) (a b : Aesi n) (hc : Canon b) (hb : toInt b = 0) :
    Sat (div cfg a b) fun r => toInt r = 0 := by
  have hs : b.sign = .zero := (canon_iff.mp hc).mpr hb
  rw [div, if_pos (by simp [isZero, hs])]
  exact Sat.ok (by simp [toInt])

example : div lp64 (ofInt 2 (-(2 ^ 40 + 3))) (ofInt 2 (2 ^ 33)) = .ok (ofInt 2 (-128)) := by
  decide +kernel
example : (div lp64 (ofInt 2 7) (ofInt 2 0)).map toInt = .ok 0 ∧ Canon (ofInt 2 0) := by
  exact ⟨by decide +kernel, fun h => absurd rfl h⟩

/-! ### C39 -/

/-- C39 for a positive divisor: the division identity, and the remainder is smaller than the divisor
and has the sign of the dividend.  Missing: negative divisors, where `%` returns the negated
remainder (`C39_mod_exact`, `C39_counterexample`). -/
theorem C39_identity_partial (cfg : Cfg) (hn : 0 < n) (a b : Aesi n) (hb : 0 < toInt b) :
    Sat (div cfg a b) fun q => Sat (mod cfg a b) fun r =>
      toInt q * toInt b + toInt r = toInt a ∧ |toInt r| < toInt b ∧ 0 ≤ toInt r * toInt a := by
  refine Sat.mono (div_spec cfg hn a b (by omega)) fun q hq => ?_
  refine Sat.mono (mod_spec cfg hn a b (by omega)) fun r hr => ?_
  have h2 : toInt r = (toInt a).tmod (toInt b) := by rw [hr.1, if_neg (by omega), Int.one_mul]
  have e := Int.mul_tdiv_add_tmod (toInt a) (toInt b)
  refine ⟨by rw [hq.1, h2, Int.mul_comm]; exact e, ?_, ?_⟩
  · rw [h2, Int.abs_eq_natAbs]
    have h1 := Int.natAbs_tmod (toInt a) (toInt b)
    have h2 := Nat.mod_lt (toInt a).natAbs (show 0 < (toInt b).natAbs by omega)
    omega
  · rw [h2]
    rcases le_total 0 (toInt a) with h0 | h0
    · exact Int.mul_nonneg (Int.tmod_nonneg _ h0) h0
    · have : 0 ≤ (-toInt a).tmod (toInt b) := Int.tmod_nonneg _ (by omega)
      rw [Int.neg_tmod] at this
      nlinarith

/-- C39, what `a % b` is for every divisor: the remainder of the truncated division, negated when the
divisor is negative; its magnitude is below the divisor's. -/
theorem C39_mod_exact (cfg : Cfg) (hn : 0 < n) (a b : Aesi n) (hb : toInt b ≠ 0) :
    Sat (mod cfg a b) fun r => |toInt r| < |toInt b| ∧
      toInt r = if toInt b < 0 then -((toInt a).tmod (toInt b)) else (toInt a).tmod (toInt b) := by
  refine Sat.mono (mod_spec cfg hn a b hb) fun r hr => ?_
  have h1 := Int.natAbs_tmod (toInt a) (toInt b)
  have h2 := Nat.mod_lt (toInt a).natAbs (show 0 < (toInt b).natAbs by omega)
  have h3 : toInt r = if toInt b < 0 then -((toInt a).tmod (toInt b)) else (toInt a).tmod (toInt b) := by
    rw [hr.1]; split <;> ring
  refine ⟨?_, h3⟩
  rw [h3, Int.abs_eq_natAbs, Int.abs_eq_natAbs]
  split <;> omega

/-- C39 is false: `7 / -3 = -2`, `7 % -3 = -1`, and `(-2) * (-3) + (-1) ≠ 7`. -/
theorem C39_counterexample : div lp64 (ofInt 2 7) (ofInt 2 (-3)) = .ok (ofInt 2 (-2)) ∧
    mod lp64 (ofInt 2 7) (ofInt 2 (-3)) = .ok (ofInt 2 (-1)) := by decide +kernel

/-- C39, divisor zero: `a % 0` is `a` when the zero is an `Aesi` and zero when it is a built-in. -/
theorem C39_mod_zero (cfg : Cfg) (t : ITy) (a b : Aesi n) (hc : Canon b) (hb : toInt b = 0) :
    mod cfg a b = .ok a ∧ Sat (modIntegral cfg t a 0) fun r => toInt r = 0 := by
  have hs : b.sign = .zero := (canon_iff.mp hc).mpr hb
  refine ⟨by rw [mod, if_pos (by simp [isZero, hs])], ?_⟩
  rw [modIntegral, if_pos rfl]
  exact Sat.ok (by simp [toInt])

example : mod lp64 (ofInt 2 (-(2 ^ 40 + 3))) (ofInt 2 (2 ^ 33)) = .ok (ofInt 2 (-3)) := by
  decide +kernel

/-! ### C40 -/

/-- C40: `divide(a, b, q, r)`: the division identity; whatever the outputs held before. -/
theorem C40_divide (cfg : Cfg) (hn : 0 < n) (a b q0 r0 : Aesi n) (hb : toInt b ≠ 0) :
    Sat (divide cfg a b q0 r0) fun (q, r) => toInt q * toInt b + toInt r = toInt a ∧
      |toInt r| < |toInt b| ∧ 0 ≤ toInt r * toInt a := by
  refine Sat.mono (divide_spec cfg hn a b q0 r0 hb) ?_
  rintro ⟨q, r⟩ ⟨h1, h2, _⟩
  simp only at h1 h2 ⊢
  have e := Int.mul_tdiv_add_tmod (toInt a) (toInt b)
  refine ⟨by rw [h1, h2, Int.mul_comm]; exact e, ?_, ?_⟩
  · rw [h2, Int.abs_eq_natAbs, Int.abs_eq_natAbs]
    have h1 := Int.natAbs_tmod (toInt a) (toInt b)
    have h2 := Nat.mod_lt (toInt a).natAbs (show 0 < (toInt b).natAbs by omega)
    omega
  · rw [h2]
    rcases le_total 0 (toInt a) with h0 | h0
    · exact Int.mul_nonneg (Int.tmod_nonneg _ h0) h0
    · have : 0 ≤ (-toInt a).tmod (toInt b) := Int.tmod_nonneg _ (by omega)
      rw [Int.neg_tmod] at this
      nlinarith

/-- C40: a zero operand gives two zeros. -/
theorem C40_divide_zero_partial (cfg : Cfg) (a b q0 r0 : Aesi n) (ha : Canon a) (hb : Canon b)
    (h : toInt a = 0 ∨ toInt b = 0) :
    Sat (divide cfg a b q0 r0) fun (q, r) => toInt q = 0 ∧ toInt r = 0 := by
  rw [divide, if_pos (h.imp (canon_iff.mp ha).mpr (canon_iff.mp hb).mpr)]
  exact Sat.ok ⟨by simp [toInt], by simp [toInt]⟩

example : divide lp64 (ofInt 2 (-(2 ^ 40 + 3))) (ofInt 2 (-(2 ^ 33))) (ofInt 2 99) (ofInt 2 98) =
    .ok (ofInt 2 128, ofInt 2 (-3)) := by decide +kernel

/-! ### C41 -/

/-- C41: `compareTo`, `==`, `<=>`, `<` are those of the integers, for canonical operands.  Missing:
objects whose sign field is not `Zero` although they represent 0 (see the counterexample and C43). -/
theorem C41_compare_partial (cfg : Cfg) (a b : Aesi n) (ha : Canon a) (hb : Canon b) :
    compareTo cfg a b = .ok (if toInt a < toInt b then .less else if toInt a = toInt b then .equal
      else .greater) ∧
    Aesi.eq cfg a b = .ok (decide (toInt a = toInt b)) ∧
    spaceship cfg a b = .ok (if toInt a < toInt b then .less else if toInt a = toInt b then .equal
      else .greater) ∧
    Aesi.lt cfg a b = .ok (decide (toInt a < toInt b)) := by
  have h := compareTo_spec cfg a b ha hb
  unfold cmpInt at h
  refine ⟨h, ?_, ?_, ?_⟩
  · unfold Aesi.eq; rw [h]; simp only [ok_bind]; congr 1
    split_ifs with h1 h2
    · exact (decide_eq_false (by omega)).symm
    · exact (decide_eq_true h2).symm
    · exact (decide_eq_false h2).symm
  · unfold spaceship; rw [h]; simp only [ok_bind]; congr 1
    split_ifs <;> rfl
  · unfold Aesi.lt spaceship; rw [h]; simp only [ok_bind]; congr 1
    split_ifs with h1 h2
    · exact (decide_eq_true h1).symm
    · exact (decide_eq_false h1).symm
    · exact (decide_eq_false h1).symm

example : Canon (ofInt 2 (-(2 ^ 40))) ∧ Aesi.lt lp64 (ofInt 2 (-(2 ^ 40))) (ofInt 2 (-3)) = .ok true := by
  exact ⟨fun _ => by decide +kernel, by decide +kernel⟩

/-- C41 is false in general: `Aesi<64>(Aeu<64>(0)) == Aesi<64>(0)` is false, although both represent 0. -/
theorem C41_counterexample : toInt (ofAeu (Aeu.ofNat 2 0)) = toInt (ofInt 2 0) ∧
    Aesi.eq lp64 (ofAeu (Aeu.ofNat 2 0)) (ofInt 2 0) = .ok false := by decide +kernel

/-! ### C42 -/

/-- C42: comparison with a built-in value of any type.  Missing: one-block numbers, the built-in
`-2^63`, non-canonical objects. -/
theorem C42_compare_builtin_partial (hn : 2 ≤ n) {t : ITy} (ht : t ∈ ITy.all) (a : Aesi n) (ha : Canon a)
    {i : Int} (hr : t.InRange i) (hm : i ≠ -(2 : Int) ^ 63) :
    compareToIntegral a i = .ok (if toInt a < i then .less else if toInt a = i then .equal
      else .greater) ∧
    eqIntegral a i = .ok (decide (toInt a = i)) ∧
    spaceshipIntegral a i = .ok (if toInt a < i then .less else if toInt a = i then .equal
      else .greater) := by
  have h := compareToIntegral_spec hn ht a ha hr hm
  unfold cmpInt at h
  refine ⟨h, ?_, ?_⟩
  · unfold eqIntegral; rw [h]; simp only [ok_bind]; congr 1
    split_ifs with h1 h2
    · exact (decide_eq_false (by omega)).symm
    · exact (decide_eq_true h2).symm
    · exact (decide_eq_false h2).symm
  · unfold spaceshipIntegral; rw [h]; simp only [ok_bind]; congr 1
    split_ifs <;> rfl

/-- C42: comparison with 0 needs no restriction on the precision. -/
theorem C42_compare_zero (a : Aesi n) (ha : Canon a) : eqIntegral a 0 = .ok (decide (toInt a = 0)) := by
  have := canon_sign ha
  unfold eqIntegral compareToIntegral signOnly
  simp only [if_true, ok_bind]
  congr 1
  by_cases h0 : toInt a = 0
  · rw [this.1.mpr h0, decide_eq_true h0]; rfl
  · rw [decide_eq_false h0]
    cases hs : a.sign with
    | zero => exact absurd (this.1.mp hs) h0
    | positive => rfl
    | negative => rfl

example : ITy.InRange ITy.i32 (-7) ∧ compareToIntegral (ofInt 2 (-(2 ^ 40))) (-7) = .ok .less := by
  decide +kernel

/-- C42 is false: comparing a negative number with `INT64_MIN` negates it (overflow). -/
theorem C42_min_counterexample :
    eqIntegral (ofInt 2 (-5)) (-(2 : Int) ^ 63) = .error .signedOverflow := by decide +kernel

/-- C42 is false for one-block numbers: the comparison reads past the object. -/
theorem C42_one_block_counterexample :
    eqIntegral (ofInt 1 5) 5 = .error .outOfBounds := by decide +kernel

/-! ### C45 -/

/-- C45: `++a` and `--a`, including the step over zero. -/
theorem C45_inc_dec_partial (hn : 0 < n) (a : Aesi n) (ha : Canon a) :
    (Fits n (toInt a + 1) → Sat (inc a) fun r => toInt r = toInt a + 1) ∧
    (Fits n (toInt a - 1) → Sat (dec a) fun r => toInt r = toInt a - 1) :=
  ⟨fun h => Sat.mono (inc_spec hn a ha h) fun _ h => h.1,
    fun h => Sat.mono (dec_spec hn a ha h) fun _ h => h.1⟩

/-- C45: the postfix forms return the old object. -/
theorem C45_postfix_partial (hn : 0 < n) (a : Aesi n) (ha : Canon a) :
    (Fits n (toInt a + 1) → Sat (postInc a) fun (new, old) => toInt new = toInt a + 1 ∧ old = a) ∧
    (Fits n (toInt a - 1) → Sat (postDec a) fun (new, old) => toInt new = toInt a - 1 ∧ old = a) := by
  constructor
  · intro h
    exact Sat.bind (inc_spec hn a ha h) fun r hr => Sat.ok ⟨hr.1, rfl⟩
  · intro h
    exact Sat.bind (dec_spec hn a ha h) fun r hr => Sat.ok ⟨hr.1, rfl⟩

example : inc (ofInt 2 (-1)) = .ok (ofInt 2 0) ∧ dec (ofInt 2 0) = .ok (ofInt 2 (-1)) ∧
    dec (ofInt 2 (2 ^ 32)) = .ok (ofInt 2 (2 ^ 32 - 1)) := by decide +kernel

/-! ### C47 -/

/-- C47: construction and assignment from a built-in value.  Missing: the minima of `int` and of wider
signed types; 64-bit values that do not fit a 32-bit number are reduced. -/
theorem C47_construct_partial {t : ITy} (ht : t ∈ ITy.all) {i : Int} (hr : t.InRange i)
    (hm : ¬ (t.signed = true ∧ 32 ≤ t.width ∧ i = -(2 : Int) ^ (t.width - 1))) (hfit : Fits n i) :
    Sat (ofIntegral n t i) fun r => toInt r = i ∧ Canon r :=
  ofIntegral_spec ht hr (fun h => hm ⟨h.1.1, h.2, h.1.2⟩) hfit

/-- C47 is false at exactly these minima: `-value` overflows. -/
theorem C47_min_counterexample {t : ITy} (ht : t ∈ ITy.all)
    (hm : t.signed = true ∧ 32 ≤ t.width) :
    t.InRange (-(2 : Int) ^ (t.width - 1)) ∧
      ofIntegral n t (-(2 : Int) ^ (t.width - 1)) = .error .signedOverflow := by
  refine ⟨?_, ofIntegral_wideMin ht ⟨⟨hm.1, rfl⟩, hm.2⟩⟩
  rcases ITy.mem_all ht with rfl | rfl | rfl | rfl | rfl | rfl | rfl | rfl | rfl <;>
    first | decide | exact absurd hm (by decide)

example : ofIntegral 2 ITy.i64 (-(2 ^ 63) + 1) = .ok (ofInt 2 (-(2 ^ 63) + 1)) ∧
    ofIntegral 2 ITy.i8 (-128) = .ok (ofInt 2 (-128)) ∧ Fits 2 (-128) := by decide +kernel

/-! ### C48 -/

/-- C48: `integralCast<T>()` when the value fits `T`.  Missing: one-block numbers, and the minima of
`int` and wider signed types. -/
theorem C48_cast_partial (hn : 2 ≤ n) {t : ITy} (ht : t ∈ ITy.all) (a : Aesi n)
    (hr : t.InRange (toInt a))
    (hm : ¬ (t.signed = true ∧ 32 ≤ t.width ∧ toInt a = -(2 : Int) ^ (t.width - 1))) :
    integralCast t a = .ok (toInt a) :=
  integralCast_spec hn ht a hr (fun h => hm ⟨h.1.1, h.2, h.1.2⟩)

example : integralCast ITy.i64 (ofInt 3 (-(2 ^ 63) + 1)) = .ok (-(2 ^ 63) + 1) ∧
    integralCast ITy.i8 (ofInt 3 (-128)) = .ok (-128) := by decide +kernel

/-- C48 is false for `int` and its minimum: the magnitude is converted first, giving the minimum, and
multiplied by `-1`. -/
theorem C48_counterexample :
    integralCast ITy.i32 (ofInt 2 (-(2 ^ 31))) = .error .signedOverflow ∧
    integralCast ITy.i64 (ofInt 2 (-(2 ^ 63))) = .error .signedOverflow := by decide +kernel

/-! ### C49 -/

/-- C49: `a * i`, `a *= i`.  Missing: `i` the minimum of its type; on a platform where `uint64_t` is not
`unsigned long long` (LP64), factors beyond `2^32` in magnitude. -/
theorem C49_mul_partial (cfg : Cfg) {t : ITy} (ht : t ∈ ITy.all) (a : Aesi n) {i : Int}
    (hr : t.InRange i) (hm : ¬ (t.signed = true ∧ i = -(2 : Int) ^ (t.width - 1)))
    (hc : cfg.u64IsULL = true ∨ i.natAbs ≤ 2 ^ 32) (hfit : Fits n (toInt a * i)) :
    Sat (mulIntegral cfg t a i) fun r => toInt r = toInt a * i :=
  Sat.mono (mulIntegral_spec cfg ht a hr hm hc hfit) fun _ h => h.1

/-- C49: `a / i`, `a /= i`.  Missing: `i` the minimum of its type. -/
theorem C49_div_partial (cfg : Cfg) (hn : 0 < n) {t : ITy} (ht : t ∈ ITy.all) (a : Aesi n) {i : Int}
    (hr : t.InRange i) (hm : ¬ (t.signed = true ∧ i = -(2 : Int) ^ (t.width - 1))) (h0 : i ≠ 0)
    (hfit : Fits n i) : Sat (divIntegral cfg t a i) fun r => toInt r = (toInt a).tdiv i :=
  Sat.mono (divIntegral_spec cfg hn ht a hr hm h0 hfit) fun _ h => h.1

/-- C49: `a % i`, `a %= i`, positive `i`.  For negative `i` it is the negated remainder. -/
theorem C49_mod_partial (cfg : Cfg) (hn : 0 < n) {t : ITy} (ht : t ∈ ITy.all) (a : Aesi n) {i : Int}
    (hr : t.InRange i) (hm : ¬ (t.signed = true ∧ i = -(2 : Int) ^ (t.width - 1))) (h0 : i ≠ 0)
    (hfit : Fits n i) : Sat (modIntegral cfg t a i) fun r =>
      toInt r = if i < 0 then -((toInt a).tmod i) else (toInt a).tmod i := by
  refine Sat.mono (modIntegral_spec cfg hn ht a hr hm h0 hfit) fun r h => ?_
  rw [h]; split <;> ring

/-- C49: the value agrees with the operation on the converted operand (so `a % i` has the defect of
C39, no other). -/
theorem C49_agrees_partial (cfg : Cfg) (hn : 0 < n) {t : ITy} (ht : t ∈ ITy.all) (a : Aesi n) {i : Int}
    (hr : t.InRange i) (hm : ¬ (t.signed = true ∧ i = -(2 : Int) ^ (t.width - 1))) (h0 : i ≠ 0)
    (hfit : Fits n i) :
    Sat (ofIntegral n t i) fun b =>
      (Sat (modIntegral cfg t a i) fun r => Sat (mod cfg a b) fun r' => toInt r = toInt r') ∧
      (Sat (divIntegral cfg t a i) fun r => Sat (div cfg a b) fun r' => toInt r = toInt r') := by
  refine Sat.mono (ofIntegral_spec ht hr (fun h => hm h.1) hfit) ?_
  rintro b ⟨hb, _⟩
  constructor
  · refine Sat.mono (modIntegral_spec cfg hn ht a hr hm h0 hfit) fun r h => ?_
    refine Sat.mono (mod_spec cfg hn a b (by omega)) fun r' h' => ?_
    rw [h, h'.1, hb]
  · refine Sat.mono (divIntegral_spec cfg hn ht a hr hm h0 hfit) fun r h => ?_
    refine Sat.mono (div_spec cfg hn a b (by omega)) fun r' h' => ?_
    rw [h.1, h'.1, hb]

/-- C49: `i + a`, `a + i` and `a += i` (the built-in is converted first). -/
theorem C49_add_partial (cfg : Cfg) {t : ITy} (ht : t ∈ ITy.all) (a : Aesi n) {i : Int}
    (hr : t.InRange i) (hm : ¬ (t.signed = true ∧ 32 ≤ t.width ∧ i = -(2 : Int) ^ (t.width - 1)))
    (hi : Fits n i) (hfit : Fits n (toInt a + i)) :
    (Sat (addRight cfg t a i) fun r => toInt r = toInt a + i) ∧
    (Sat (addLeft cfg t i a) fun r => toInt r = i + toInt a) := by
  have h := ofIntegral_spec (n := n) ht hr (fun h => hm ⟨h.1.1, h.2, h.1.2⟩) hi
  constructor
  · refine Sat.bind h ?_
    rintro b ⟨hb, _⟩
    rw [← hb] at hfit ⊢
    exact C36_add cfg a b hfit
  · refine Sat.bind h ?_
    rintro b ⟨hb, _⟩
    rw [← hb, Int.add_comm] at hfit
    rw [← hb]
    exact C36_add cfg b a hfit

/-- C49: `a - i`, `a -= i`. -/
theorem C49_sub_partial (cfg : Cfg) {t : ITy} (ht : t ∈ ITy.all) (a : Aesi n) {i : Int}
    (hr : t.InRange i) (hm : ¬ (t.signed = true ∧ 32 ≤ t.width ∧ i = -(2 : Int) ^ (t.width - 1)))
    (hi : Fits n i) (hfit : Fits n (toInt a - i)) :
    (Sat (subRight cfg t a i) fun r => toInt r = toInt a - i) ∧
    (Sat (subLeft cfg t i a) fun r => toInt r = i - toInt a) := by
  have h := ofIntegral_spec (n := n) ht hr (fun h => hm ⟨h.1.1, h.2, h.1.2⟩) hi
  constructor
  · refine Sat.bind h ?_
    rintro b ⟨hb, _⟩
    rw [← hb] at hfit ⊢
    exact C36_sub cfg a b hfit
  · refine Sat.bind h ?_
    rintro b ⟨hb, _⟩
    rw [← hb]
    refine C36_sub cfg b a ?_
    rw [hb]; unfold Fits at *; omega

/-- C49: a built-in on the left of `*` and `/`. -/
theorem C49_left_partial (cfg : Cfg) (hn : 0 < n) {t : ITy} (ht : t ∈ ITy.all) (a : Aesi n) {i : Int}
    (hr : t.InRange i) (hm : ¬ (t.signed = true ∧ 32 ≤ t.width ∧ i = -(2 : Int) ^ (t.width - 1)))
    (hi : Fits n i) :
    (Fits n (i * toInt a) → Sat (mulLeft t i a) fun r => toInt r = i * toInt a) ∧
    (toInt a ≠ 0 → Sat (divLeft cfg t i a) fun r => toInt r = i.tdiv (toInt a)) ∧
    (toInt a ≠ 0 → Sat (modLeft cfg t i a) fun r =>
      toInt r = if toInt a < 0 then -(i.tmod (toInt a)) else i.tmod (toInt a)) := by
  have h := ofIntegral_spec (n := n) ht hr (fun h => hm ⟨h.1.1, h.2, h.1.2⟩) hi
  refine ⟨fun hfit => ?_, fun h0 => ?_, fun h0 => ?_⟩ <;> refine Sat.bind h ?_ <;>
    rintro b ⟨hb, _⟩ <;> rw [← hb]
  · exact C37_mul b a (by rw [hb]; exact hfit)
  · exact C38_div cfg hn b a h0
  · exact Sat.mono (C39_mod_exact cfg hn b a h0) fun _ h => h.2

example : ITy.InRange ITy.i8 (-127) ∧ Fits 2 (toInt (ofInt 2 (2 ^ 40)) * (-127)) ∧
    mulIntegral lp64 ITy.i8 (ofInt 2 (2 ^ 40)) (-127) = .ok (ofInt 2 (-(127 * 2 ^ 40))) ∧
    divIntegral lp64 ITy.i32 (ofInt 2 (-(2 ^ 40))) (-7) = .ok (ofInt 2 (2 ^ 40 / 7)) ∧
    modIntegral lp64 ITy.i32 (ofInt 2 (-(2 ^ 40))) 7 = .ok (ofInt 2 (-(2 ^ 40 % 7))) := by
  decide +kernel

/-- C49 is false for the minimum of a narrow type: `1 * int8_t(-128)` is not `-128`.  The negated
factor does not fit `int8_t`, stays `-128`, and becomes the unsigned factor `2^64 - 128`. -/
theorem C49_min_counterexample :
    mulIntegral ⟨false, false, true⟩ ITy.i8 (ofInt 3 1) (-128) = .ok (ofInt 3 (-(2 ^ 64 - 128))) ∧
    divIntegral lp64 ITy.i8 (ofInt 3 1000) (-128) = .ok (ofInt 3 0) ∧
    mulIntegral lp64 ITy.i32 (ofInt 3 1) (-(2 ^ 31)) = .error .signedOverflow := by decide +kernel

/-- C49 is false for large factors where `unsigned long long` is not `uint64_t` (LP64):
`(2^32 - 1) * (2^64 - 1)` in 96 bits. -/
theorem C49_factor_counterexample :
    mulIntegral lp64 ITy.u64 (ofInt 3 (2 ^ 32 - 1)) (2 ^ 64 - 1) ≠
      .ok (ofInt 3 ((2 ^ 32 - 1) * (2 ^ 64 - 1))) := by decide +kernel

/-! ### C50 -/

/-- C50: `precisionCast<M>()`: the value when it fits, in general the sign and the magnitude modulo
`2^M`. -/
theorem C50_precision_cast (cfg : Cfg) (hn : 0 < n) (hm : 0 < m) (a : Aesi n) :
    Sat (precisionCast cfg m a) fun r => (Fits m (toInt a) → toInt r = toInt a) ∧
      (toInt r).natAbs = (toInt a).natAbs % 2 ^ (32 * m) ∧ 0 ≤ toInt r * toInt a := by
  refine Sat.mono (precisionCast_exact cfg hn hm a) ?_
  rintro r ⟨h1, h2⟩
  have hval : toInt r = match a.sign with
      | .zero => 0
      | .positive => ((toNat a.base % 2 ^ (32 * m) : Nat) : Int)
      | .negative => -((toNat a.base % 2 ^ (32 * m) : Nat) : Int) := by
    unfold toInt; rw [h1, h2]; cases a.sign <;> simp
  rw [hval]
  unfold toInt Fits
  cases hs : a.sign with
  | zero => simp
  | positive =>
    refine ⟨fun h => ?_, by simp only [Int.natAbs_natCast], ?_⟩
    · simp only [Int.natAbs_natCast] at h
      rw [Nat.mod_eq_of_lt h]
    · exact Int.mul_nonneg (Int.natCast_nonneg _) (Int.natCast_nonneg _)
  | negative =>
    refine ⟨fun h => ?_, by simp only [Int.natAbs_neg, Int.natAbs_natCast], ?_⟩
    · simp only [Int.natAbs_neg, Int.natAbs_natCast] at h
      rw [Nat.mod_eq_of_lt h]
    · simp only [Int.neg_mul_neg]
      exact Int.mul_nonneg (Int.natCast_nonneg _) (Int.natCast_nonneg _)

/-- C50: equality and comparison across precisions, when the left operand fits the right operand's
precision.  Missing: larger left operands, which are truncated first. -/
theorem C50_across_partial (cfg : Cfg) (hn : 0 < n) (hm : 0 < m) (a : Aesi n) (b : Aesi m)
    (ha : Canon a) (hb : Canon b) (hfit : Fits m (toInt a)) :
    eqAcross cfg a b = .ok (decide (toInt a = toInt b)) ∧
    compareToAcross cfg a b = .ok (if toInt a < toInt b then .less else if toInt a = toInt b then .equal
      else .greater) := by
  obtain ⟨c, hc, e, hcc⟩ := precisionCast_spec cfg hn hm a hfit
  have h := C41_compare_partial cfg c b (hcc ha) hb
  rw [e] at h
  unfold eqAcross compareToAcross
  rw [hc]
  exact ⟨h.2.1, h.1⟩

example : precisionCast lp64 3 (ofInt 2 (-(2 ^ 40))) = .ok (ofInt 3 (-(2 ^ 40))) ∧
    eqAcross lp64 (ofInt 4 (-5)) (ofInt 2 (-5)) = .ok true ∧
    compareToAcross lp64 (ofInt 2 (-5)) (ofInt 4 (-(2 ^ 100))) = .ok .greater := by decide +kernel

/-- C50 is false: `Aesi<128>(2^100 + 5) == Aesi<64>(5)`. -/
theorem C50_counterexample : eqAcross lp64 (ofInt 4 (2 ^ 100 + 5)) (ofInt 2 5) = .ok true ∧
    compareToAcross lp64 (ofInt 4 (2 ^ 100 + 5)) (ofInt 2 6) = .ok .less := by decide +kernel

/-! ### C52 -/

/-- C52: `swap` exchanges the objects, unary plus is the identity, `inverse`/unary minus negate and
are involutive. -/
theorem C52_swap_plus_minus (a b : Aesi n) : Aesi.swap a b = (b, a) ∧ plus a = a ∧
    toInt (neg a) = -toInt a ∧ toInt (inverse a) = -toInt a ∧ neg (neg a) = a ∧
    inverse (inverse a) = a :=
  ⟨rfl, rfl, toInt_inverse a, toInt_inverse a, inverse_inverse a, inverse_inverse a⟩

/-- C52: `Aeu::swap`. -/
theorem C52_swap_unsigned (a b : Aeu n) : Aeu.swap a b = (b, a) := rfl

/-- C52: unary plus of `Aeu`. -/
theorem C52_plus_unsigned (a : Aeu n) : Aeu.plus a = .ok a := rfl

example : Aesi.swap (ofInt 2 (-5)) (ofInt 2 (2 ^ 40)) = (ofInt 2 (2 ^ 40), ofInt 2 (-5)) ∧
    neg (ofInt 2 (2 ^ 40)) = ofInt 2 (-(2 ^ 40)) := by decide +kernel

/-! ### Concrete cases that meet the hypotheses -/

/-- The hypotheses of `C49_mul_partial` are met. -/
example := C49_mul_partial ⟨false, false, false⟩ (t := .i64) (by decide) (Aesi.ofInt 2 (-2 ^ 20)) (i := -77) (by decide)
  (by decide) (Or.inr (by decide)) (by decide +kernel)

/-- The hypotheses of `C49_div_partial` are met. -/
example := C49_div_partial ⟨false, false, false⟩ (by omega) (t := .i64) (by decide) (Aesi.ofInt 2 (-2 ^ 40)) (i := -77)
  (by decide) (by decide) (by decide) (by decide +kernel)

/-- The hypotheses of `C49_mod_partial` are met. -/
example := C49_mod_partial ⟨false, false, false⟩ (by omega) (t := .i64) (by decide) (Aesi.ofInt 2 (-2 ^ 40)) (i := -77)
  (by decide) (by decide) (by decide) (by decide +kernel)

/-- The hypotheses of `C49_agrees_partial` are met. -/
example := C49_agrees_partial ⟨false, false, false⟩ (by omega) (t := .i64) (by decide) (Aesi.ofInt 2 (-2 ^ 40)) (i := -77)
  (by decide) (by decide) (by decide) (by decide +kernel)

end AesiMP
