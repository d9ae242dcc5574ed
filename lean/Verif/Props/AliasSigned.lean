import Verif.Props.Alias
import Verif.Props.SignedTotal

/-!
# C54, signed: `Aesi::divide` with outputs that are inputs

Every sharing pattern reduces to the unsigned one; the signs of the outputs are those of truncated division.
-/

namespace AesiMP
open Aeu
variable {n : Nat}

private theorem normalise_heap (h : SHeap n) (p : Nat) : Sat (SAlias.normalise h p) fun h' =>
    h'.base = h.base ∧ (∀ q, Aesi.toInt (h'.obj q) = Aesi.toInt (h.obj q)) ∧ ∀ q, q ≠ p → h'.sign q = h.sign q := by
  unfold SAlias.normalise
  rw [isZero_spec]
  refine Sat.ok ?_
  by_cases hz : toNat (h.base p) = 0
  · simp only [hz, decide_true, if_true]
    refine ⟨rfl, fun q => ?_, fun q hq => ?_⟩
    · by_cases hq : q = p
      · subst hq
        simp only [SHeap.obj, SHeap.setSign, if_true, Aesi.toInt, hz]
        cases h.sign q <;> simp
      · simp only [SHeap.obj, SHeap.setSign, if_neg hq]
    · simp only [SHeap.setSign, if_neg hq]
  · simp only [hz, decide_false, Bool.false_eq_true, if_false]
    exact ⟨trivial, fun _ => trivial, fun _ _ => trivial⟩

/-- C54, signed: whatever is shared, the magnitudes are those the unsigned `divide` leaves, and the signs are
those of truncated division. -/
theorem C54_signed_reduces (cfg : Cfg) (h : SHeap n) (N D Q R : Nat) (hQR : Q ≠ R)
    (hN : h.sign N ≠ .zero) (hD : h.sign D ≠ .zero) (P : Heap n → Prop)
    (hP : Sat (Alias.divide cfg h.base N D Q R) P) : Sat (SAlias.divide cfg h N D Q R) fun h' =>
      P h'.base ∧
      Aesi.toInt (h'.obj Q) = Aesi.sgn (h.obj N) * Aesi.sgn (h.obj D) * toNat (h'.base Q) ∧
      Aesi.toInt (h'.obj R) = Aesi.sgn (h.obj N) * toNat (h'.base R) ∧
      ∀ p, p ≠ Q → p ≠ R → h'.sign p = h.sign p := by
  unfold SAlias.divide
  rw [if_neg (by simp [hN, hD])]
  refine Sat.bind hP fun b hb => ?_
  simp only
  refine Sat.bind (normalise_heap _ Q) ?_
  intro h1 ⟨e1, e2, e3⟩
  refine Sat.mono (normalise_heap h1 R) ?_
  intro h2 ⟨f1, f2, f3⟩
  have hbase : h2.base = b := by
    rw [f1, e1]
    split <;> split <;> rfl
  rw [hbase]
  refine ⟨hb, ?_, ?_, ?_⟩
  · rw [f2, e2]
    cases hs : h.sign N <;> cases hd : h.sign D <;>
      simp_all [SHeap.obj, SHeap.setSign, Aesi.toInt, Aesi.sgn]
  · rw [f2, e2]
    cases hs : h.sign N <;> cases hd : h.sign D <;>
      simp_all [SHeap.obj, SHeap.setSign, Aesi.toInt, Aesi.sgn]
  · intro p hq hr
    rw [f3 p hr, e3 p hq]
    split <;> split <;> simp [SHeap.setSign, hq, hr]

/-- C54, signed: equal magnitudes are divided correctly whatever is shared. -/
theorem C54_signed_equal (cfg : Cfg) (hn : 0 < n) (h : SHeap n) (N D Q R : Nat) (hQR : Q ≠ R)
    (hN : h.sign N ≠ .zero) (hD : h.sign D ≠ .zero)
    (he : toNat (h.base N) = toNat (h.base D)) : Sat (SAlias.divide cfg h N D Q R) fun h' =>
      Aesi.toInt (h'.obj Q) = Aesi.sgn (h.obj N) * Aesi.sgn (h.obj D) ∧ Aesi.toInt (h'.obj R) = 0 ∧
      ∀ p, p ≠ Q → p ≠ R → h'.obj p = h.obj p := by
  refine Sat.mono (C54_signed_reduces cfg h N D Q R hQR hN hD _ (C54_equal cfg hn h.base N D Q R hQR he)) ?_
  rintro h' ⟨⟨h1, h2, h3⟩, h4, h5, h6⟩
  rw [h4, h5, h1, h2]
  refine ⟨by simp, by simp, fun p hp hp' => ?_⟩
  simp only [SHeap.obj, h3 p hp hp', h6 p hp hp']

/-- C54, signed: when the number is also an output and the magnitudes differ, both outputs become 0. -/
theorem C54_signed_number_shared (cfg : Cfg) (h : SHeap n) (N D Q R : Nat) (hs : N = Q ∨ N = R) (hQR : Q ≠ R)
    (hN : h.sign N ≠ .zero) (hD : h.sign D ≠ .zero)
    (hne : toNat (h.base N) ≠ toNat (h.base D)) : Sat (SAlias.divide cfg h N D Q R) fun h' =>
      Aesi.toInt (h'.obj Q) = 0 ∧ Aesi.toInt (h'.obj R) = 0 ∧ ∀ p, p ≠ Q → p ≠ R → h'.obj p = h.obj p := by
  refine Sat.mono (C54_signed_reduces cfg h N D Q R hQR hN hD _
    (C54_number_shared cfg h.base N D Q R hs hQR hne)) ?_
  rintro h' ⟨⟨h1, h2, h3⟩, h4, h5, h6⟩
  rw [h4, h5, h1, h2]
  refine ⟨by simp, by simp, fun p hp hp' => ?_⟩
  simp only [SHeap.obj, h3 p hp hp', h6 p hp hp']

/-- C54, signed: a divisor of greater magnitude may be an output, if the number is not. -/
theorem C54_signed_smaller (cfg : Cfg) (h : SHeap n) (N D Q R : Nat) (hNQ : N ≠ Q) (hNR : N ≠ R) (hQR : Q ≠ R)
    (hN : h.sign N ≠ .zero) (hD : h.sign D ≠ .zero)
    (hlt : toNat (h.base N) < toNat (h.base D)) : Sat (SAlias.divide cfg h N D Q R) fun h' =>
      Aesi.toInt (h'.obj Q) = 0 ∧ Aesi.toInt (h'.obj R) = Aesi.toInt (h.obj N) ∧
      ∀ p, p ≠ Q → p ≠ R → h'.obj p = h.obj p := by
  refine Sat.mono (C54_signed_reduces cfg h N D Q R hQR hN hD _
    (C54_smaller cfg h.base N D Q R hNQ hNR hQR hlt)) ?_
  rintro h' ⟨⟨h1, h2, h3⟩, h4, h5, h6⟩
  rw [h4, h5, h1, h2]
  refine ⟨by simp, ?_, fun p hp hp' => ?_⟩
  · cases hs : h.sign N <;> simp [SHeap.obj, Aesi.toInt, Aesi.sgn, hs]
  · simp only [SHeap.obj, h3 p hp hp', h6 p hp hp']

private def S1 : SHeap 2 := ⟨fun p => if p % 2 = 0 then .negative else .positive, fun p => ofNat 2 p⟩

/-- `b / b` into `b`; `-6 / 9` with the divisor as remainder; `17 / -6` into the number. -/
example :
    (SAlias.divide ⟨false, false, false⟩ S1 6 6 6 2).map (fun h => (Aesi.toInt (h.obj 6), Aesi.toInt (h.obj 2))) =
      .ok (1, 0) ∧
    (SAlias.divide ⟨false, false, false⟩ S1 6 9 1 9).map (fun h => (Aesi.toInt (h.obj 1), Aesi.toInt (h.obj 9))) =
      .ok (0, -6) ∧
    (SAlias.divide ⟨false, false, false⟩ S1 17 6 17 2).map (fun h => (Aesi.toInt (h.obj 17), Aesi.toInt (h.obj 2))) =
      .ok (0, 0) := by decide +kernel

/-! ### Concrete cases that meet the hypotheses -/

/-- The hypotheses of `C54_signed_reduces` are met. -/
example := C54_signed_reduces ⟨false, false, false⟩
  ⟨fun i => if i = 0 then .positive else .negative, fun i => Aeu.ofNat 2 (2 ^ 40 / (i + 1))⟩ 0 1 2 3 (by omega)
  (by decide) (by decide) _ (C54_divide_partial ⟨false, false, false⟩ (by omega)
    (fun i => Aeu.ofNat 2 (2 ^ 40 / (i + 1))) 0 1 2 3 (by omega) (by omega) (by omega) (by omega) (by omega)
    (by decide +kernel))

end AesiMP
