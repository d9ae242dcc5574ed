import Verif.SpecInt
import Verif.Lemmas.Count
import Verif.Lemmas.Parse

/-!
# Signed numbers: lemmas
-/

namespace AesiMP
namespace Aesi
open Aeu (toNat Returns cmpNat)
variable {n m : Nat}

theorem toInt_pos {a : Aesi n} (h : a.sign = .positive) : toInt a = toNat a.base := by simp [toInt, h]
theorem toInt_neg {a : Aesi n} (h : a.sign = .negative) : toInt a = -(toNat a.base : Int) := by
  simp [toInt, h]
theorem toInt_zero {a : Aesi n} (h : a.sign = .zero) : toInt a = 0 := by simp [toInt, h]

theorem toInt_natAbs_lt (a : Aesi n) : (toInt a).natAbs < 2 ^ (32 * n) := by
  have := Aeu.toNat_lt a.base
  unfold toInt; split <;> omega

theorem fits_toInt (a : Aesi n) : Fits n (toInt a) := toInt_natAbs_lt a

/-- For a canonical object the sign field is the sign of the value. -/
theorem canon_iff {a : Aesi n} : Canon a ↔ (a.sign = .zero ↔ toInt a = 0) := by
  unfold Canon toInt
  cases a.sign <;> simp

theorem canon_sign {a : Aesi n} (h : Canon a) :
    (a.sign = .zero ↔ toInt a = 0) ∧ (a.sign = .positive ↔ 0 < toInt a) ∧
      (a.sign = .negative ↔ toInt a < 0) := by
  unfold Canon at h
  unfold toInt
  cases hs : a.sign <;> simp_all <;> omega

theorem toInt_inverse (a : Aesi n) : toInt (inverse a) = - toInt a := by
  unfold inverse toInt
  cases a.sign <;> simp

theorem canon_inverse {a : Aesi n} (h : Canon a) : Canon (inverse a) := by
  unfold Canon inverse at *
  cases hs : a.sign <;> simp_all

@[simp] theorem inverse_base (a : Aesi n) : (inverse a).base = a.base := rfl
@[simp] theorem inverse_inverse (a : Aesi n) : inverse (inverse a) = a := by
  unfold inverse; rcases a with ⟨s, b⟩; cases s <;> rfl

/-- Normalisation keeps the value and makes the object canonical. -/
theorem normalise_spec (a : Aesi n) : Sat (normalise a) fun r =>
    toInt r = toInt a ∧ Canon r ∧ r.base = a.base := by
  unfold normalise
  rw [Aeu.isZero_spec]
  simp only [ok_bind, sat_ok]
  by_cases h : toNat a.base = 0
  · simp only [h, decide_true, if_true]
    refine ⟨?_, fun h => absurd rfl h, trivial⟩
    unfold toInt; cases a.sign <;> simp [h]
  · simp only [h, decide_false, Bool.false_eq_true, if_false]
    exact ⟨trivial, fun _ => h, trivial⟩

/-! ### Addition -/

theorem subMagnitude_spec (cfg : Cfg) (a : Aesi n) (b : Aeu n) (o : Sign)
    (h : (a.sign = .positive ∧ o = .negative) ∨ (a.sign = .negative ∧ o = .positive)) :
    Sat (subMagnitude cfg a b o) fun r =>
      toInt r = toInt a + (if a.sign = .positive then -1 else 1) * (toNat b : Int) ∧ Canon r := by
  unfold subMagnitude
  rw [Aeu.compareTo_spec]
  simp only [ok_bind, cmpNat]
  rcases Nat.lt_trichotomy (toNat a.base) (toNat b) with hlt | heq | hgt
  · simp only [hlt, if_true]
    obtain ⟨r, hr, e⟩ := Aeu.sub_spec_le (Nat.le_of_lt hlt)
    simp only [hr, ok_bind, sat_ok]
    rcases h with ⟨h1, rfl⟩ | ⟨h1, rfl⟩
    · refine ⟨?_, fun _ => by simp only; omega⟩
      simp only [toInt, h1, if_true, e]; omega
    · refine ⟨?_, fun _ => by simp only; omega⟩
      simp only [toInt, h1, e, reduceCtorEq, if_false]; omega
  · have h1 : ¬ toNat a.base < toNat b := by omega
    rw [if_neg h1, if_pos heq]
    refine Sat.ok ?_
    refine ⟨?_, fun h => absurd rfl h⟩
    rcases h with ⟨h1, rfl⟩ | ⟨h1, rfl⟩
    · simp only [toInt, h1, if_true, heq]; omega
    · simp only [toInt, h1, heq, reduceCtorEq, if_false]; omega
  · have h1 : ¬ toNat a.base < toNat b := by omega
    have h2 : ¬ toNat a.base = toNat b := by omega
    simp only [h1, h2, if_false]
    obtain ⟨r, hr, e⟩ := Aeu.sub_spec_le (Nat.le_of_lt hgt)
    simp only [hr, ok_bind, sat_ok]
    refine ⟨?_, fun _ => by simp only; omega⟩
    rcases h with ⟨h1, rfl⟩ | ⟨h1, rfl⟩
    · simp only [toInt, h1, if_true, e]; omega
    · simp only [toInt, h1, e, reduceCtorEq, if_false]; omega

theorem add_spec (cfg : Cfg) (a b : Aesi n) (hfit : Fits n (toInt a + toInt b)) :
    Sat (add cfg a b) fun r => toInt r = toInt a + toInt b ∧ (Canon a → Canon b → Canon r) := by
  unfold Fits at hfit
  unfold add
  by_cases hb : b.sign = .zero
  · rw [if_pos hb]; exact Sat.ok ⟨by rw [toInt_zero hb]; simp, fun h _ => h⟩
  rw [if_neg hb]
  by_cases ha : a.sign = .zero
  · rw [if_pos ha]; exact Sat.ok ⟨by rw [toInt_zero ha]; simp, fun _ h => h⟩
  rw [if_neg ha]
  by_cases hab : a.sign = b.sign
  · rw [if_pos hab]
    obtain ⟨r, hr, e⟩ := Aeu.add_spec a.base b.base
    simp only [hr, ok_bind, sat_ok]
    have hs : toNat r = toNat a.base + toNat b.base := by
      rw [e, Nat.mod_eq_of_lt]
      unfold toInt at hfit
      rw [← hab] at hfit
      cases hs : a.sign with
      | zero => exact absurd hs ha
      | positive => simp only [hs] at hfit; omega
      | negative => simp only [hs] at hfit; omega
    constructor
    · unfold toInt; rw [← hab]
      cases hs' : a.sign with
      | zero => exact absurd hs' ha
      | positive => simp only [hs]; omega
      | negative => simp only [hs]; omega
    · intro h1 _ _
      have := h1 ha
      simp only; omega
  · rw [if_neg hab]
    by_cases hp : a.sign = .positive
    · rw [if_pos hp]
      have hbn : b.sign = .negative := by
        cases hs : b.sign with
        | zero => exact absurd hs hb
        | positive => exact absurd (hp.trans hs.symm) hab
        | negative => rfl
      refine Sat.mono (subMagnitude_spec cfg a b.base .negative (Or.inl ⟨hp, rfl⟩)) ?_
      rintro r ⟨h1, h2⟩
      refine ⟨?_, fun _ _ => h2⟩
      rw [h1, if_pos hp, toInt_neg hbn]; omega
    · rw [if_neg hp]
      have han : a.sign = .negative := by
        cases hs : a.sign with
        | zero => exact absurd hs ha
        | positive => exact absurd hs hp
        | negative => rfl
      have hbp : b.sign = .positive := by
        cases hs : b.sign with
        | zero => exact absurd hs hb
        | positive => rfl
        | negative => exact absurd (han.trans hs.symm) hab
      refine Sat.mono (subMagnitude_spec cfg a b.base .positive (Or.inr ⟨han, rfl⟩)) ?_
      rintro r ⟨h1, h2⟩
      refine ⟨?_, fun _ _ => h2⟩
      rw [h1, if_neg hp, toInt_pos hbp]; omega

/-- `a - b` computes the same object as `a + (-b)`. -/
theorem sub_eq_add_inverse (cfg : Cfg) (a b : Aesi n) : sub cfg a b = add cfg a (inverse b) := by
  unfold sub add
  rcases a with ⟨sa, ba⟩
  rcases b with ⟨sb, bb⟩
  cases sa <;> cases sb <;> simp [inverse]

theorem sub_spec (cfg : Cfg) (a b : Aesi n) (hfit : Fits n (toInt a - toInt b)) :
    Sat (sub cfg a b) fun r => toInt r = toInt a - toInt b ∧ (Canon a → Canon b → Canon r) := by
  rw [sub_eq_add_inverse]
  refine Sat.mono (add_spec cfg a (inverse b) ?_) ?_
  · rw [toInt_inverse]; exact hfit
  · rintro r ⟨h1, h2⟩
    exact ⟨by rw [h1, toInt_inverse]; ring, fun ha hb => h2 ha (canon_inverse hb)⟩

/-! ### Multiplication -/

/-- Replacing the magnitude. -/
theorem toInt_with_base (a : Aesi n) (x : Aeu n) : toInt { a with base := x } =
    (match a.sign with | .zero => 0 | .positive => 1 | .negative => -1) * (toNat x : Int) := by
  unfold toInt; cases a.sign <;> simp

theorem toInt_sign_mul (a : Aesi n) : toInt a =
    (match a.sign with | .zero => 0 | .positive => 1 | .negative => -1) * (toNat a.base : Int) := by
  unfold toInt; cases a.sign <;> simp

theorem mul_spec (a b : Aesi n) (hfit : Fits n (toInt a * toInt b)) :
    Sat (mul a b) fun r => toInt r = toInt a * toInt b ∧ (Canon a → Canon b → Canon r) := by
  unfold Fits at hfit
  unfold mul isZero isNegative
  by_cases hb : b.sign = .zero
  · rw [if_pos (by simp [hb])]
    exact Sat.ok ⟨by rw [toInt_zero hb]; simp [toInt], fun _ _ h => absurd rfl h⟩
  rw [if_neg (by simp [hb])]
  have hbase : (if (b.sign == Sign.negative) = true then inverse a else a).base = a.base := by
    split <;> rfl
  dsimp only
  rw [hbase]
  obtain ⟨r, hr, e⟩ := Aeu.mul_spec a.base b.base
  simp only [hr, ok_bind, sat_ok]
  by_cases ha : a.sign = .zero
  · have : (if (b.sign == Sign.negative) = true then inverse a else a).sign = .zero := by
      split <;> simp [inverse, ha]
    refine ⟨?_, fun _ _ h => absurd this h⟩
    rw [toInt_zero ha, this]; simp [toInt]
  have hprod : toNat r = toNat a.base * toNat b.base := by
    rw [e, Nat.mod_eq_of_lt]
    rw [Int.natAbs_mul] at hfit
    have h1 : (toInt a).natAbs = toNat a.base := by
      unfold toInt; cases h : a.sign <;> simp_all
    have h2 : (toInt b).natAbs = toNat b.base := by
      unfold toInt; cases h : b.sign <;> simp_all
    rwa [h1, h2] at hfit
  constructor
  · unfold toInt inverse
    cases hsa : a.sign <;> cases hsb : b.sign <;>
      first | exact absurd hsb hb | simp [hsa, hprod]
  · intro h1 h2 _
    have := Nat.mul_ne_zero (h1 ha) (h2 hb)
    simp only; omega

/-! ### Division -/

theorem div_spec (cfg : Cfg) (hn : 0 < n) (a b : Aesi n) (hb : toInt b ≠ 0) :
    Sat (div cfg a b) fun r => toInt r = (toInt a).tdiv (toInt b) ∧ Canon r := by
  have hs : b.sign ≠ .zero := fun h => hb (toInt_zero h)
  have hbb : toNat b.base ≠ 0 := by
    intro h; apply hb; unfold toInt; cases b.sign <;> simp [h]
  unfold div isZero isNegative
  rw [if_neg (by simp [hs])]
  have hbase : (if (b.sign == Sign.negative) = true then inverse a else a).base = a.base := by
    split <;> rfl
  dsimp only
  rw [hbase]
  obtain ⟨r, hr, e⟩ := Aeu.div_spec cfg hn a.base b.base hbb
  simp only [hr, ok_bind]
  refine Sat.mono (normalise_spec _) ?_
  rintro c ⟨h1, h2, _⟩
  refine ⟨?_, h2⟩
  rw [h1]
  unfold toInt inverse
  cases hsa : a.sign <;> cases hsb : b.sign <;> simp_all [Int.neg_tdiv, Int.tdiv_neg]

theorem mod_spec (cfg : Cfg) (hn : 0 < n) (a b : Aesi n) (hb : toInt b ≠ 0) :
    Sat (mod cfg a b) fun r =>
      toInt r = (if toInt b < 0 then -1 else 1) * (toInt a).tmod (toInt b) ∧ Canon r := by
  have hs : b.sign ≠ .zero := fun h => hb (toInt_zero h)
  have hbb : toNat b.base ≠ 0 := by
    intro h; apply hb; unfold toInt; cases b.sign <;> simp [h]
  unfold mod isZero isNegative
  rw [if_neg (by simp [hs])]
  have hbase : (if (b.sign == Sign.negative) = true then inverse a else a).base = a.base := by
    split <;> rfl
  dsimp only
  rw [hbase]
  obtain ⟨r, hr, e⟩ := Aeu.mod_spec cfg hn a.base b.base hbb
  simp only [hr, ok_bind]
  refine Sat.mono (normalise_spec _) ?_
  rintro c ⟨h1, h2, _⟩
  refine ⟨?_, h2⟩
  rw [h1]
  have hneg : toInt b < 0 ↔ b.sign = .negative := by
    unfold toInt; cases hsb : b.sign <;> simp_all <;> omega
  simp only [hneg]
  unfold toInt inverse
  cases hsa : a.sign <;> cases hsb : b.sign <;> simp_all [Int.neg_tmod, Int.tmod_neg] <;>
    exact Int.ofNat_tmod ..

/-! ### Comparison -/

/-- Three-way comparison of integers. -/
def cmpInt (x y : Int) : Comparison :=
  if x < y then .less else if x = y then .equal else .greater

theorem compareTo_spec (cfg : Cfg) (a b : Aesi n) (ha : Canon a) (hb : Canon b) :
    compareTo cfg a b = .ok (cmpInt (toInt a) (toInt b)) := by
  unfold compareTo isZero isNegative
  simp only [Aeu.compareTo_spec, ok_bind]
  unfold Canon at ha hb
  unfold cmpInt cmpNat signOnly toInt
  cases hsa : a.sign <;> cases hsb : b.sign <;> simp [hsa, hsb] at ha hb ⊢ <;>
    (try split_ifs <;> first | rfl | omega)

/-! ### Increment and decrement -/

theorem inc_spec (hn : 0 < n) (a : Aesi n) (ha : Canon a) (hfit : Fits n (toInt a + 1)) :
    Sat (inc a) fun r => toInt r = toInt a + 1 ∧ Canon r := by
  unfold Fits at hfit
  unfold inc
  have hlt := Aeu.toNat_lt a.base
  cases hs : a.sign with
  | zero =>
    obtain ⟨r, hr, e⟩ := Aeu.ofUnsigned32_one hn
    simp only [hr, ok_bind, sat_ok]
    exact ⟨by simp [toInt, hs, e], fun _ => by simp [e]⟩
  | positive =>
    obtain ⟨r, hr, e⟩ := Aeu.inc_spec a.base
    simp only [hr, ok_bind, sat_ok]
    rw [toInt_pos hs] at hfit
    rw [Nat.mod_eq_of_lt (by omega)] at e
    exact ⟨by simp only [toInt, hs, e]; omega, fun _ => by simp only; omega⟩
  | negative =>
    obtain ⟨r, hr, e⟩ := Aeu.dec_spec a.base
    simp only [hr, ok_bind]
    have h0 : toNat a.base ≠ 0 := ha (by simp [hs])
    have e' : toNat r = toNat a.base - 1 := by
      rw [e, show toNat a.base + (2 ^ (32 * n) - 1) = (toNat a.base - 1) + 2 ^ (32 * n) by omega,
        Nat.add_mod_right, Nat.mod_eq_of_lt (by omega)]
    refine Sat.mono (normalise_spec _) ?_
    rintro c ⟨h1, h2, _⟩
    refine ⟨?_, h2⟩
    rw [h1]; simp only [toInt, hs, e']; omega

/-- `--a` is `-(++(-a))`. -/
theorem dec_eq (a : Aesi n) : dec a = (do let r ← inc (inverse a); .ok (inverse r)) := by
  unfold dec inc inverse normalise
  rcases a with ⟨s, b⟩
  cases s
  · simp only []
    cases Aeu.ofUnsigned n 1#32 <;> rfl
  · simp only []
    cases h : Aeu.dec b with
    | error e => rfl
    | ok r =>
      simp only [ok_bind, Aeu.isZero_spec]
      by_cases h0 : toNat r = 0 <;> simp [h0]
  · simp only []
    cases Aeu.inc b <;> rfl

theorem dec_spec (hn : 0 < n) (a : Aesi n) (ha : Canon a) (hfit : Fits n (toInt a - 1)) :
    Sat (dec a) fun r => toInt r = toInt a - 1 ∧ Canon r := by
  rw [dec_eq]
  refine Sat.bind (inc_spec hn (inverse a) (canon_inverse ha) ?_) ?_
  · rw [toInt_inverse]; unfold Fits at *; omega
  · rintro r ⟨h1, h2⟩
    refine Sat.ok ⟨?_, canon_inverse h2⟩
    rw [toInt_inverse, h1, toInt_inverse]; ring

/-! ### `divide` -/

theorem divide_spec (cfg : Cfg) (hn : 0 < n) (a b q0 r0 : Aesi n) (hb : toInt b ≠ 0) :
    Sat (divide cfg a b q0 r0) fun r =>
      toInt r.1 = (toInt a).tdiv (toInt b) ∧ toInt r.2 = (toInt a).tmod (toInt b) ∧
      Canon r.1 ∧ Canon r.2 := by
  have hs : b.sign ≠ .zero := fun h => hb (toInt_zero h)
  have hbb : toNat b.base ≠ 0 := by
    intro h; apply hb; unfold toInt; cases b.sign <;> simp [h]
  unfold divide
  by_cases ha : a.sign = .zero
  · rw [if_pos (Or.inl ha)]
    refine Sat.ok ⟨?_, ?_, fun h => absurd rfl h, fun h => absurd rfl h⟩ <;>
    simp [toInt, ha]
  rw [if_neg (by simp [ha, hs])]
  obtain ⟨⟨q, r⟩, hqr, e1, e2⟩ := Aeu.divide_spec cfg hn a.base b.base hbb
  simp only at e1 e2
  simp only [hqr, ok_bind]
  refine Sat.bind (normalise_spec _) ?_
  rintro q' ⟨h1, h2, _⟩
  refine Sat.bind (normalise_spec _) ?_
  rintro r' ⟨h3, h4, _⟩
  refine Sat.ok ⟨?_, ?_, h2, h4⟩
  · simp only [h1]
    unfold toInt
    cases hsa : a.sign <;> cases hsb : b.sign <;>
      first | exact absurd hsa ha | exact absurd hsb hs | simp [hsa, hsb, e1]
  · simp only [h3]
    unfold toInt
    cases hsa : a.sign <;> cases hsb : b.sign <;>
      first
      | exact absurd hsa ha
      | exact absurd hsb hs
      | (simp only [hsa, hsb, e2, reduceCtorEq, if_true, if_false, Int.neg_tmod, Int.tmod_neg,
          Int.ofNat_tmod])

end Aesi
end AesiMP
