import Verif.Props.Signed
import Verif.Props.SignedTotal
import Verif.Props.SignedExact
import Verif.Props.Arith

/-!
# C38, C40, C45, C70: zeros that claim a sign

`Aesi(Aeu(0))`, and every computation that overflows to magnitude 0, is an object that represents 0 but reports
`isPositive()` or `isNegative()`.  Division, `++` and `--` go by what the object reports.  Here is what they do for every
object, and that the properties fail for these zeros.
-/

namespace AesiMP
namespace Aesi
open Aeu (toNat)
variable {n : Nat}

/-- What the unsigned division answers for the quotient of `m` by 0 (C07): one for 0, and otherwise ones in all the blocks
that `m` occupies. -/
def quotientByZero (m : Nat) : Nat := if m = 0 then 1 else 2 ^ (32 * (Nat.log (2 ^ 32) m + 1)) - 1

private theorem divide_by_zero (cfg : Cfg) (hn : 0 < n) (x d : Aeu n) (hd : toNat d = 0) :
    Sat (Aeu.divide cfg x d) fun (q, r) => toNat q = quotientByZero (toNat x) ∧ toNat r = toNat x := by
  unfold quotientByZero
  by_cases hx : toNat x = 0
  · refine Sat.mono (C07_divide_zero_by_zero cfg hn x d hd hx) ?_
    rintro ⟨q, r⟩ ⟨h1, h2⟩
    exact ⟨by rw [if_pos hx]; exact h1, by rw [hx]; exact h2⟩
  · refine Sat.mono (C07_divide_by_zero cfg hn x d hd hx) ?_
    rintro ⟨q, r⟩ ⟨h1, k, hk, hlo, hhi, hq⟩
    refine ⟨?_, h1⟩
    have : Nat.log (2 ^ 32) (toNat x) = k - 1 := by
      rw [Nat.log_eq_iff (Or.inr ⟨by norm_num, hx⟩), ← Nat.pow_mul, ← Nat.pow_mul]
      exact ⟨hlo, by rwa [show k - 1 + 1 = k by omega]⟩
    rw [if_neg hx, this, show k - 1 + 1 = k by omega]
    exact hq

/-- C38 for every pair of objects: the truncated quotient; 0 for a zero that reports `isZero()`; and for a zero that reports
a sign, the unsigned quotient by 0 with the sign of the product. -/
theorem C38_exact (cfg : Cfg) (hn : 0 < n) (a b : Aesi n) :
    Sat (div cfg a b) fun r => toInt r =
      if toInt b ≠ 0 then (toInt a).tdiv (toInt b)
      else if sgn b = 0 then 0
      else sgn a * sgn b * quotientByZero (toNat (unsignedCast a)) := by
  by_cases hb : toInt b ≠ 0
  · simp only [if_pos hb]
    exact C38_div cfg hn a b hb
  · simp only [if_neg hb]
    by_cases hs : b.sign = .zero
    · have h0 : sgn b = 0 := by simp [sgn, hs]
      simp only [if_pos h0]
      unfold div
      rw [if_pos (by simp [isZero, hs])]
      exact Sat.ok (by simp [toInt])
    · have h0 : ¬ sgn b = 0 := by
        unfold sgn
        cases h : b.sign <;> simp_all
      simp only [if_neg h0]
      have hbase : toNat b.base = 0 := by
        have : toInt b = 0 := by omega
        unfold toInt at this
        cases h : b.sign <;> simp_all
      unfold div
      rw [if_neg (by simp [isZero, hs])]
      obtain ⟨⟨q, r⟩, hqr, hq, -⟩ := divide_by_zero cfg hn a.base b.base hbase
      have hbase' : (if isNegative b then inverse a else a).base = a.base := by
        split <;> simp [inverse]
      have hdiv : Aeu.div cfg (if isNegative b then inverse a else a).base b.base = .ok q := by
        rw [hbase']; unfold Aeu.div; rw [hqr]; rfl
      simp only [hdiv, ok_bind]
      refine Sat.mono (normalise_spec _) ?_
      rintro c ⟨h1, -, -⟩
      rw [h1]
      have hu : unsignedCast a = a.base := rfl
      rw [hu, ← hq]
      cases hsa : a.sign <;> cases hsb : b.sign <;>
        simp_all [toInt, sgn, isNegative, inverse]

/-- C38 is false of the code: 7 divided by `Aesi(Aeu(0))` is 2^32 - 1. -/
theorem C38_counterexample : toInt (ofAeu (Aeu.ofNat 2 0)) = 0 ∧
    (div lp64 (ofInt 2 7) (ofAeu (Aeu.ofNat 2 0))).map toInt = .ok (2 ^ 32 - 1) := by decide +kernel

/-- C40 for every pair of objects. -/
theorem C40_exact (cfg : Cfg) (hn : 0 < n) (a b q0 r0 : Aesi n) :
    Sat (divide cfg a b q0 r0) fun (q, r) =>
      (toInt q = if toInt b ≠ 0 then (toInt a).tdiv (toInt b)
        else if sgn b = 0 then 0 else sgn a * sgn b * quotientByZero (toNat (unsignedCast a))) ∧
      toInt r = if sgn b = 0 then 0 else (toInt a).tmod (toInt b) := by
  obtain ⟨⟨q, r⟩, h, hr⟩ := C40_divide_every cfg hn a b q0 r0
  refine ⟨(q, r), h, ?_, hr⟩
  by_cases hb : toInt b ≠ 0
  · simp only [if_pos hb]
    obtain ⟨⟨q', r'⟩, h', h1, h2, h3⟩ := C40_divide cfg hn a b q0 r0 hb
    rw [h] at h'
    cases h'
    have hsb : ¬ sgn b = 0 := by
      intro h0
      apply hb
      unfold sgn at h0
      unfold toInt
      cases h : b.sign <;> simp_all
    rw [if_neg hsb] at hr
    rw [hr] at h1
    have h4 : toInt q * toInt b = (toInt a).tdiv (toInt b) * toInt b := by
      have := Int.tdiv_mul_add_tmod (toInt a) (toInt b)
      omega
    exact mul_right_cancel₀ hb h4
  · simp only [if_neg hb]
    by_cases hs : a.sign = .zero ∨ b.sign = .zero
    · unfold divide at h
      rw [if_pos hs] at h
      cases h
      have : toInt ({ q0 with sign := .zero } : Aesi n) = 0 := by simp [toInt]
      rw [this]
      split
      · rfl
      · rename_i h0
        have : a.sign = .zero := hs.resolve_right fun hz => h0 (by simp [sgn, hz])
        simp [sgn, this]
    · unfold divide at h
      rw [if_neg hs] at h
      push Not at hs
      have hbase : toNat b.base = 0 := by
        have : toInt b = 0 := by omega
        unfold toInt at this
        cases h : b.sign <;> simp_all
      have h0 : ¬ sgn b = 0 := by
        unfold sgn
        cases h : b.sign <;> simp_all
      rw [if_neg h0]
      obtain ⟨⟨uq, ur⟩, hqr, hq, -⟩ := divide_by_zero cfg hn a.base b.base hbase
      simp only [hqr, ok_bind] at h
      obtain ⟨c, hc, h1, -⟩ := normalise_spec (n := n) ⟨(if a.sign = .positive then
        if b.sign = .positive then (Sign.positive, Sign.positive) else (.negative, .positive)
      else
        if b.sign = .positive then (.negative, .negative) else (.positive, .negative)).1, uq⟩
      simp only [hc, ok_bind] at h
      obtain ⟨d, hd, -⟩ := normalise_spec (n := n) ⟨(if a.sign = .positive then
        if b.sign = .positive then (Sign.positive, Sign.positive) else (.negative, .positive)
      else
        if b.sign = .positive then (.negative, .negative) else (.positive, .negative)).2, ur⟩
      simp only [hd, ok_bind] at h
      cases h
      rw [h1]
      have hu : unsignedCast a = a.base := rfl
      rw [hu, ← hq]
      cases hsa : a.sign <;> cases hsb : b.sign <;>
        simp_all [toInt, sgn]

/-- C40 is false of the code: `divide(7, Aesi(Aeu(0)), q, r)` gives 2^32 - 1 and 7, not zeros. -/
theorem C40_counterexample : toInt (ofAeu (Aeu.ofNat 2 0)) = 0 ∧
    (divide lp64 (ofInt 2 7) (ofAeu (Aeu.ofNat 2 0)) (ofInt 2 0) (ofInt 2 0)).map (fun (q, r) => (toInt q, toInt r)) =
      .ok (2 ^ 32 - 1, 7) := by decide +kernel

/-- C45, C70 for every object: one more or one less, reduced to the precision; except that `++` takes a zero that reports
`isNegative()` to -(2^bitness - 1), and `--` one that reports `isPositive()` to 2^bitness - 1. -/
theorem C70_inc_dec_exact (hn : 0 < n) (a : Aesi n) :
    (Sat (inc a) fun r => toInt r =
      if toInt a = 0 ∧ sgn a = -1 then -(2 ^ (32 * n) - 1) else (toInt a + 1).tmod (2 ^ (32 * n))) ∧
    (Sat (dec a) fun r => toInt r =
      if toInt a = 0 ∧ sgn a = 1 then 2 ^ (32 * n) - 1 else (toInt a - 1).tmod (2 ^ (32 * n))) := by
  by_cases hc : Canon a
  · obtain ⟨h1, h2⟩ := C70_inc_dec_wrap_partial hn a hc
    have hne : ∀ s : Int, s ≠ 0 → ¬ (toInt a = 0 ∧ sgn a = s) := by
      rintro s hs ⟨hz, hsg⟩
      unfold Canon at hc
      unfold toInt at hz
      unfold sgn at hsg
      cases h : a.sign <;> simp_all
    simp only [if_neg (hne (-1) (by norm_num)), if_neg (hne 1 (by norm_num))]
    exact ⟨h1, h2⟩
  · unfold Canon at hc
    push Not at hc
    obtain ⟨hs, h0⟩ := hc
    have hp : 1 < 2 ^ (32 * n) := Nat.one_lt_two_pow (by omega)
    have ht : toInt a = 0 := by unfold toInt; cases h : a.sign <;> simp_all
    have hinc := C08_inc a.base
    have hdec := C08_dec a.base
    rw [h0] at hinc hdec
    obtain ⟨i, hi, vi⟩ := hinc
    obtain ⟨d, hd, vd⟩ := hdec
    have vi' : toNat i = 1 := by rw [vi]; exact Nat.mod_eq_of_lt hp
    have hpz : (1 : Int) < 2 ^ (32 * n) := by exact_mod_cast hp
    have vd' : (toNat d : Int) = 2 ^ (32 * n) - 1 := by
      rw [vd]
      have : ((0 : Nat) : Int) - 1 = -1 := by norm_num
      rw [this, ← Int.add_emod_right, Int.emod_eq_of_lt (by omega) (by omega)]
      ring
    have htm : (1 : Int).tmod (2 ^ (32 * n)) = 1 := Int.tmod_eq_of_lt (by norm_num) hpz
    have htm' : (-1 : Int).tmod (2 ^ (32 * n)) = -1 := by rw [Int.neg_tmod, htm]
    cases hsa : a.sign with
    | zero => exact absurd hsa hs
    | positive =>
      have h1 : sgn a = 1 := by simp [sgn, hsa]
      refine ⟨?_, ?_⟩
      · unfold inc
        simp only [hsa, hi, ok_bind]
        refine Sat.ok ?_
        rw [if_neg (by omega), ht]
        simp [toInt, hsa, vi', htm]
      · unfold dec
        simp only [hsa, hd, ok_bind]
        refine Sat.mono (normalise_spec _) ?_
        rintro c ⟨hv, -, -⟩
        rw [hv, if_pos ⟨ht, h1⟩]
        simp [toInt, hsa, vd']
    | negative =>
      have h1 : sgn a = -1 := by simp [sgn, hsa]
      refine ⟨?_, ?_⟩
      · unfold inc
        simp only [hsa, hd, ok_bind]
        refine Sat.mono (normalise_spec _) ?_
        rintro c ⟨hv, -, -⟩
        rw [hv, if_pos ⟨ht, h1⟩]
        simp [toInt, hsa, vd']
      · unfold dec
        simp only [hsa, hi, ok_bind]
        refine Sat.ok ?_
        rw [if_neg (by omega), ht]
        simp [toInt, hsa, vi', htm']

/-- C45 for every object. -/
theorem C45_exact (hn : 0 < n) (a : Aesi n) :
    (Fits n (toInt a + 1) → Sat (inc a) fun r => toInt r = toInt a + 1 ↔ ¬ (toInt a = 0 ∧ sgn a = -1)) ∧
    (Fits n (toInt a - 1) → Sat (dec a) fun r => toInt r = toInt a - 1 ↔ ¬ (toInt a = 0 ∧ sgn a = 1)) := by
  obtain ⟨h1, h2⟩ := C70_inc_dec_exact hn a
  have hp : (1 : Int) < 2 ^ (32 * n) := by exact_mod_cast Nat.one_lt_two_pow (n := 32 * n) (by omega)
  refine ⟨fun hf => Sat.mono h1 fun r hr => ?_, fun hf => Sat.mono h2 fun r hr => ?_⟩
  · rw [tmod_of_fits hf] at hr
    rw [hr]
    split
    · rename_i h; constructor
      · intro e; omega
      · intro e; exact absurd h e
    · rename_i h; simp [h]
  · rw [tmod_of_fits hf] at hr
    rw [hr]
    split
    · rename_i h; constructor
      · intro e; omega
      · intro e; exact absurd h e
    · rename_i h; simp [h]

/-- C45, C70 are false of the code: `--` on `Aesi(Aeu(0))` in 64 bits gives 2^64 - 1, and `++` on its negation -(2^64 - 1). -/
theorem C45_counterexample : toInt (ofAeu (Aeu.ofNat 2 0)) = 0 ∧
    (dec (ofAeu (Aeu.ofNat 2 0))).map toInt = .ok (2 ^ 64 - 1) ∧
    (inc (inverse (ofAeu (Aeu.ofNat 2 0)))).map toInt = .ok (-(2 ^ 64 - 1)) := by decide +kernel

/-- C70 is false of the code for the same zeros. -/
theorem C70_counterexample : ∃ a : Aesi 2, toInt a = 0 ∧
    ∃ r, dec a = .ok r ∧ toInt r ≠ (toInt a - 1).tmod (2 ^ 64) :=
  ⟨ofAeu (Aeu.ofNat 2 0), by decide +kernel, ⟨.positive, Aeu.ofNat 2 (2 ^ 64 - 1)⟩, by decide +kernel⟩

end Aesi
end AesiMP
