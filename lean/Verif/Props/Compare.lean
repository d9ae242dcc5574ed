import Verif.Props.Access
import Verif.Props.Signed

/-!
# Comparison: C72 (unsigned number against a signed built-in), C16 (operators before C++20),
C41, C42 (exact results for every object)
-/

namespace AesiMP
variable {n : Nat}

section Unsigned
open Aeu

/-! ### C16, before C++20 -/

/-- C16: the operators provided where `<=>` is not available decide the numeric order. -/
theorem C16_oldstyle (cfg : Cfg) (a b : Aeu n) :
    oldLt cfg a b = .ok (decide (toNat a < toNat b)) ∧
    oldLe cfg a b = .ok (decide (toNat a ≤ toNat b)) ∧
    oldGt cfg a b = .ok (decide (toNat a > toNat b)) ∧
    oldGe cfg a b = .ok (decide (toNat a ≥ toNat b)) := by
  have h1 : oldLt cfg a b = .ok (decide (toNat a < toNat b)) := by
    simp only [oldLt, compareTo_spec, ok_bind, cmpNat]
    congr 1
    split_ifs <;> first | exact (decide_eq_true (by omega)).symm | exact (decide_eq_false (by omega)).symm
  have h2 : oldGt cfg a b = .ok (decide (toNat a > toNat b)) := by
    simp only [oldGt, compareTo_spec, ok_bind, cmpNat]
    congr 1
    split_ifs <;> first | exact (decide_eq_true (by omega)).symm | exact (decide_eq_false (by omega)).symm
  refine ⟨h1, ?_, h2, ?_⟩
  · simp only [oldLe, h2, ok_bind]; congr 1; rw [← decide_not, decide_eq_decide]; omega
  · simp only [oldGe, h1, ok_bind]; congr 1; rw [← decide_not, decide_eq_decide]; omega

example : oldLe lp64 (ofNat 3 (2 ^ 70)) (ofNat 3 (2 ^ 40)) = .ok false := by decide +kernel

/-! ### C72 -/

private theorem asU64_toNat (i : Int) (h1 : -(2 : Int) ^ 63 ≤ i) (h2 : i < (2 : Int) ^ 63) :
    ((asU64 i).toNat : Int) = if 0 ≤ i then i else i + 2 ^ 64 := by
  unfold asU64
  rw [BitVec.toNat_ofInt]
  have : ((2 ^ 64 : Nat) : Int) = 2 ^ 64 := by norm_num
  rw [this, Int.toNat_of_nonneg (Int.emod_nonneg _ (by norm_num))]
  split <;> omega

private theorem compareToU64_short (hn : n < 2) (a : Aeu n) (u : BitVec 64) :
    compareToU64 a u = .error .outOfBounds ∧ eqU64 a u = .error .outOfBounds := by
  obtain ⟨k, hk, h1, _, _⟩ := filledBlocksNumber_nat a
  have h2 : k ≤ 2 := by omega
  have h3 : ¬ k > 2 := by omega
  have h4 : low64 a = .error .outOfBounds := by
    unfold low64
    rw [rd_oob (show ¬ 1 < n by omega)]
    rfl
  simp [eqU64, compareToU64, hk, h2, h3, h4]

/-- C72 (`int` stands for any signed type of at most 64 bits): comparison with a built-in signed value
that is not negative is numeric.  Missing: negative values and one-block numbers, for which the claim
is false (below). -/
theorem C72_signed_partial (hn : 2 ≤ n) (a : Aeu n) (i : Int) (h0 : 0 ≤ i) (h1 : i < (2 : Int) ^ 63) :
    eqSigned a i = .ok (decide ((toNat a : Int) = i)) ∧
    compareToSigned a i = .ok (if (toNat a : Int) < i then .less else if (toNat a : Int) = i then .equal
      else .greater) ∧
    spaceshipSigned a i = .ok (if (toNat a : Int) < i then .less else if (toNat a : Int) = i then .equal
      else .greater) := by
  have hv := asU64_toNat i (by omega) h1
  rw [if_pos h0] at hv
  have h2 : compareToSigned a i = .ok (if (toNat a : Int) < i then .less
      else if (toNat a : Int) = i then .equal else .greater) := by
    simp only [compareToSigned, compareToU64_spec (show 1 < n by omega), cmpNat]
    congr 1
    split_ifs <;> first | rfl | omega
  refine ⟨?_, h2, ?_⟩
  · simp only [eqSigned, eqU64_spec (show 1 < n by omega)]
    congr 1
    rw [decide_eq_decide]
    omega
  · simp only [spaceshipSigned, h2, ok_bind]
    congr 1
    split_ifs <;> rfl

example : compareToSigned (ofNat 2 (2 ^ 40)) 7 = .ok .greater := by decide +kernel

/-- C72, exactly, for a negative value: it is compared as `i + 2^64`. -/
theorem C72_negative_exact (hn : 2 ≤ n) (a : Aeu n) (i : Int) (h0 : i < 0) (h1 : -(2 : Int) ^ 63 ≤ i) :
    eqSigned a i = .ok (decide ((toNat a : Int) = i + 2 ^ 64)) ∧
    compareToSigned a i = .ok (if (toNat a : Int) < i + 2 ^ 64 then .less
      else if (toNat a : Int) = i + 2 ^ 64 then .equal else .greater) := by
  have hv := asU64_toNat i h1 (by omega)
  rw [if_neg (by omega)] at hv
  constructor
  · simp only [eqSigned, eqU64_spec (show 1 < n by omega)]
    congr 1
    rw [decide_eq_decide]
    omega
  · simp only [compareToSigned, compareToU64_spec (show 1 < n by omega), cmpNat]
    congr 1
    split_ifs <;> first | rfl | omega

/-- C72 is false for every negative built-in value: zero compares as less than it, and the number
`2^64 + i` as equal to it. -/
theorem C72_counterexample (hn : 2 ≤ n) (i : Int) (h0 : i < 0) (h1 : -(2 : Int) ^ 63 ≤ i) :
    compareToSigned (ofNat n 0) i = .ok .less ∧
    eqSigned (ofNat n (i + 2 ^ 64).toNat) i = .ok true := by
  have hz : toNat (ofNat n 0) = 0 := by rw [toNat_ofNat]; simp
  have hv : toNat (ofNat n (i + 2 ^ 64).toNat) = (i + 2 ^ 64).toNat := by
    rw [toNat_ofNat, Nat.mod_eq_of_lt]
    have : (2 : Nat) ^ 64 ≤ 2 ^ (32 * n) := Nat.pow_le_pow_right (by norm_num) (by omega)
    omega
  refine ⟨?_, ?_⟩
  · rw [(C72_negative_exact hn _ i h0 h1).2, hz, if_pos (by omega)]
  · rw [(C72_negative_exact hn _ i h0 h1).1, hv]
    congr 1
    exact decide_eq_true (by omega)

/-- C72 is false for one-block numbers and every signed value (`a == 5`): the comparison reads past
the object. -/
theorem C72_one_block_counterexample (a : Aeu 1) (i : Int) :
    eqSigned a i = .error .outOfBounds ∧ compareToSigned a i = .error .outOfBounds ∧
      spaceshipSigned a i = .error .outOfBounds := by
  obtain ⟨h1, h2⟩ := compareToU64_short (by norm_num) a (asU64 i)
  refine ⟨h2, h1, ?_⟩
  simp only [spaceshipSigned, compareToSigned, h1]
  rfl

end Unsigned

section Signed
open Aesi

/-! ### C41, exactly -/

/-- C41, exactly, for every object: the sign field is compared first, the value second. -/
theorem C41_compare_exact (cfg : Cfg) (a b : Aesi n) :
    compareTo cfg a b = .ok (
      if sgn a < sgn b ∨ sgn a = sgn b ∧ toInt a < toInt b then .less
      else if sgn a = sgn b ∧ toInt a = toInt b then .equal else .greater) ∧
    Aesi.eq cfg a b = .ok (decide (sgn a = sgn b ∧ toInt a = toInt b)) ∧
    Aesi.lt cfg a b = .ok (decide (sgn a < sgn b ∨ sgn a = sgn b ∧ toInt a < toInt b)) := by
  have h : compareTo cfg a b = .ok (
      if sgn a < sgn b ∨ sgn a = sgn b ∧ toInt a < toInt b then .less
      else if sgn a = sgn b ∧ toInt a = toInt b then .equal else .greater) := by
    unfold compareTo isZero isNegative
    simp only [Aeu.compareTo_spec, ok_bind]
    unfold Aeu.cmpNat signOnly toInt sgn
    cases hsa : a.sign <;> cases hsb : b.sign <;> simp [hsa, hsb] <;> split_ifs <;>
      first | rfl | omega
  refine ⟨h, ?_, ?_⟩
  · unfold Aesi.eq
    rw [h]
    simp only [ok_bind]
    congr 1
    split_ifs with h1 h2
    · exact (decide_eq_false (by omega)).symm
    · exact (decide_eq_true h2).symm
    · exact (decide_eq_false h2).symm
  · unfold Aesi.lt spaceship
    rw [h]
    simp only [ok_bind]
    congr 1
    split_ifs with h1 h2
    · exact (decide_eq_true h1).symm
    · exact (decide_eq_false h1).symm
    · exact (decide_eq_false h1).symm

/-- C41: `==` on two objects representing the same value is false exactly when they claim different
signs. -/
theorem C41_eq_iff (cfg : Cfg) (a b : Aesi n) (h : toInt a = toInt b) :
    Aesi.eq cfg a b = .ok true ↔ sgn a = sgn b := by
  rw [(C41_compare_exact cfg a b).2.1]
  simp [h]

/-- C41: the other operators, for canonical operands. -/
theorem C41_operators_partial (cfg : Cfg) (a b : Aesi n) (ha : Canon a) (hb : Canon b) :
    Aesi.ne cfg a b = .ok (decide (toInt a ≠ toInt b)) ∧
    Aesi.le cfg a b = .ok (decide (toInt a ≤ toInt b)) ∧
    Aesi.gt cfg a b = .ok (decide (toInt a > toInt b)) ∧
    Aesi.ge cfg a b = .ok (decide (toInt a ≥ toInt b)) := by
  obtain ⟨_, he, hs, _⟩ := C41_compare_partial cfg a b ha hb
  refine ⟨?_, ?_, ?_, ?_⟩
  · simp [Aesi.ne, he]
  all_goals
    simp only [Aesi.le, Aesi.gt, Aesi.ge, hs, ok_bind]
    congr 1
    split_ifs <;> first | exact (decide_eq_true (by omega)).symm | exact (decide_eq_false (by omega)).symm

example : Aesi.ge lp64 (ofInt 2 (-(2 ^ 40))) (ofInt 2 (-3)) = .ok false := by decide +kernel

/-- C41: whatever objects are compared, valid or not, `compareTo` is a total order: antisymmetric and
transitive, with `==` as its equality. -/
theorem C41_total_order (cfg : Cfg) (a b c : Aesi n) :
    (compareTo cfg a b = .ok .less ↔ compareTo cfg b a = .ok .greater) ∧
    (compareTo cfg a b = .ok .equal ↔ compareTo cfg b a = .ok .equal) ∧
    (compareTo cfg a b = .ok .less → compareTo cfg b c = .ok .less → compareTo cfg a c = .ok .less) ∧
    (Aesi.eq cfg a b = .ok true → Aesi.eq cfg b c = .ok true → Aesi.eq cfg a c = .ok true) ∧
    Aesi.eq cfg a a = .ok true := by
  simp only [(C41_compare_exact cfg _ _).1, (C41_compare_exact cfg _ _).2.1, Except.ok.injEq,
    decide_eq_true_eq]
  refine ⟨?_, ?_, ?_, ?_, ?_⟩
  · constructor <;> intro h <;> split_ifs at h ⊢ <;> first | rfl | omega
  · constructor <;> intro h <;> split_ifs at h ⊢ <;> first | rfl | omega
  · intro h1 h2
    split_ifs at h1 h2 ⊢ <;> first | rfl | omega
  · omega
  · simp

/-! ### C42, exactly -/

/-- C42, exactly, for every object, precision and built-in value: signs are compared first; between
equal signs one-block numbers read past the object (except for zero), and `INT64_MIN` overflows. -/
theorem C42_compare_exact {t : ITy} (ht : t ∈ ITy.all) (a : Aesi n) {i : Int} (hr : t.InRange i) :
    compareToIntegral a i =
      if sgn a < i.sign then .ok .less
      else if i.sign < sgn a then .ok .greater
      else if i = 0 then .ok .equal
      else if i = -(2 : Int) ^ 63 then .error .signedOverflow
      else if n < 2 then .error .outOfBounds
      else if toInt a < i then .ok .less
      else if toInt a = i then .ok .equal
      else .ok .greater := by
  obtain ⟨hb1, hb2, hb3⟩ := ITy.inRange_bounds ht hr
  unfold compareToIntegral
  by_cases h0 : i = 0
  · subst h0
    rw [if_pos rfl]
    unfold signOnly sgn
    cases hs : a.sign <;> simp [hs]
  rw [if_neg h0]
  by_cases hneg : i < 0
  · rw [if_pos hneg, Int.sign_eq_neg_one_of_neg hneg]
    by_cases hs : a.sign = .negative
    · have hsg : sgn a = -1 := by unfold sgn; rw [hs]
      rw [if_pos hs, hsg, if_neg (by omega), if_neg (by omega), if_neg h0]
      by_cases hm : i = -(2 : Int) ^ 63
      · rw [if_pos hm, hm]
        have : ITy.i64.negate (ITy.i64.conv (-2 ^ 63)) = .error .signedOverflow := by decide +kernel
        rw [this]
        rfl
      rw [if_neg hm]
      have hconv : ITy.i64.conv i = i := ITy.conv_self (by simp [ITy.all]) (by
        simp [ITy.InRange, ITy.i64]; omega)
      rw [hconv, ITy.negate_spec (t := ITy.i64) (by simp [ITy.all]) (by
        simp [ITy.InRange, ITy.i64]; omega) hneg (by
        simp [ITy.IsWideMin, ITy.IsMin, ITy.i64]; omega)]
      simp only [ok_bind]
      by_cases hn : n < 2
      · rw [if_pos hn, (compareToU64_short hn a.base _).1]
        rfl
      rw [if_neg hn, Aeu.compareToU64_spec (by omega), toULL_toNat (by omega) (by omega)]
      simp only [ok_bind]
      rw [toInt_neg hs]
      unfold Aeu.cmpNat
      split_ifs <;> first | rfl | omega
    · rw [if_neg hs]
      unfold sgn
      cases hs' : a.sign <;> simp [hs'] at hs ⊢
  · have hpos : 0 < i := by omega
    rw [if_neg hneg, Int.sign_eq_one_of_pos hpos]
    by_cases hs : a.sign = .positive
    · have hsg : sgn a = 1 := by unfold sgn; rw [hs]
      rw [if_pos hs, hsg, if_neg (by omega), if_neg (by omega), if_neg h0, if_neg (by omega), toULL_conv]
      by_cases hn : n < 2
      · rw [if_pos hn, (compareToU64_short hn a.base _).1]
      rw [if_neg hn, Aeu.compareToU64_spec (by omega), toULL_toNat (by omega) (by omega)]
      rw [toInt_pos hs]
      unfold Aeu.cmpNat
      split_ifs <;> first | rfl | omega
    · rw [if_neg hs]
      unfold sgn
      cases hs' : a.sign <;> simp [hs'] at hs ⊢

/-- C42: `a < i`, `a > i`, for canonical objects.  Missing: one-block numbers, `-2^63`. -/
theorem C42_operators_partial (hn : 2 ≤ n) {t : ITy} (ht : t ∈ ITy.all) (a : Aesi n) (ha : Canon a)
    {i : Int} (hr : t.InRange i) (hm : i ≠ -(2 : Int) ^ 63) :
    ltIntegral a i = .ok (decide (toInt a < i)) ∧ gtIntegral a i = .ok (decide (toInt a > i)) := by
  obtain ⟨_, _, h⟩ := C42_compare_builtin_partial hn ht a ha hr hm
  constructor <;> simp only [ltIntegral, gtIntegral, h, ok_bind] <;> congr 1 <;> split_ifs <;>
    first | exact (decide_eq_true (by omega)).symm | exact (decide_eq_false (by omega)).symm

example : ltIntegral (ofInt 2 (-(2 ^ 40))) (-7) = .ok true := by decide +kernel

end Signed
/-! ### Concrete cases that meet the hypotheses -/

/-- The hypotheses of `C72_negative_exact` are met. -/
example := C72_negative_exact (by omega) (Aeu.ofNat 2 (2 ^ 64 - 7)) (-7) (by omega) (by omega)

/-- The hypotheses of `C42_compare_exact` are met. -/
example := C42_compare_exact (t := .i64) (by decide) (Aesi.ofInt 2 (-5)) (i := -2 ^ 40) (by decide +kernel)

end AesiMP
