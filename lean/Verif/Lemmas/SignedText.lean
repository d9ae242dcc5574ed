import Verif.Lemmas.SignedBuiltin
import Verif.Lemmas.Stream

/-!
# Signed numbers and text: lemmas
-/

namespace AesiMP
namespace Aesi
open Aeu (toNat Returns)
variable {n cap : Nat}

/-- `traverseDashes`: the parity of the number of dashes. -/
theorem traverseDashes_spec {size : Nat} (data : Vector Int size) :
    traverseDashes data = .ok (if data.toList.count 45 % 2 = 0 then .positive else .negative) := by
  have h : Sat (traverseDashes data) fun s =>
      s = if data.toList.count 45 % 2 = 0 then .positive else .negative := by
    unfold traverseDashes
    refine Sat.bind (Sat.forUp (fun i (p : Bool) => p = decide ((data.toList.take i).count 45 % 2 = 0))
      (Nat.zero_le _) (Q := fun p => p = decide (data.toList.count 45 % 2 = 0)) ?_ ?_ ?_) ?_
    · simp
    · rintro i p _ hi rfl
      simp only [rd_ok hi, ok_bind, sat_ok]
      have hl : i < data.toList.length := by simpa using hi
      rw [List.take_add_one, List.getElem?_eq_getElem hl, List.count_append, Vector.getElem_toList]
      simp only [Option.toList_some, List.count_singleton]
      by_cases hc : data[i] = 45
      · simp only [hc, if_true, beq_self_eq_true]
        generalize List.count 45 (List.take i data.toList) = k
        rcases Nat.mod_two_eq_zero_or_one k with hk | hk
        · have : (k + 1) % 2 = 1 := by omega
          simp [hk, this]
        · have : (k + 1) % 2 = 0 := by omega
          simp [hk, this]
      · simp [hc]
    · intro p hp
      rw [hp, List.take_of_length_le (by simp)]
    · rintro p rfl
      refine Sat.ok ?_
      simp
  obtain ⟨s, hs, rfl⟩ := h
  exact hs

theorem ofChars_spec (kind : CharKind) (alnum : Int → Bool) {size : Nat} (data : Vector Int size)
    (v : Nat) (hv : Returns (Aeu.ofChars kind alnum n data) v) :
    Sat (ofChars kind alnum n data) fun r =>
      toInt r = (if data.toList.count 45 % 2 = 0 then 1 else -1) * (v : Int) ∧ Canon r ∧
        toNat r.base = v := by
  obtain ⟨b, hb, e⟩ := hv
  unfold ofChars
  simp only [hb, ok_bind, Aeu.isZero_spec, traverseDashes_spec]
  by_cases h0 : toNat b = 0
  · simp only [h0, decide_true, Bool.not_true, Bool.false_eq_true, if_false, sat_ok]
    subst e
    exact ⟨by simp [toInt, h0], fun h => absurd rfl h, h0.symm⟩
  · simp only [h0, decide_false, Bool.not_false, if_true, sat_ok]
    subst e
    refine ⟨?_, fun _ => h0, rfl⟩
    split <;> simp [toInt]

/-- `onTail`: the part before the pointer is untouched. -/
theorem onTail_spec (buffer : Vector Int cap) (k : Nat) (hk : k ≤ cap)
    (f : Vector Int (cap - k) → Exec (Vector Int (cap - k) × Nat))
    (P : List Int → Nat → Prop)
    (h : ∀ t : Vector Int (cap - k), t.toList = buffer.toList.drop k →
      Sat (f t) fun r => P r.1.toList r.2) :
    Sat (onTail buffer k f) fun r => ∃ tail, r.1.toList = buffer.toList.take k ++ tail ∧ P tail r.2 := by
  unfold onTail
  refine Sat.bind (h _ ?_) ?_
  · apply List.ext_getElem
    · simp
    · intro i h1 h2; simp
  · rintro ⟨t, c⟩ hp
    refine Sat.ok ⟨t.toList, ?_, hp⟩
    apply List.ext_getElem
    · simp; omega
    · intro i h1 h2
      simp only [Vector.getElem_toList, Vector.getElem_ofFn, List.getElem_append, List.length_take,
        Vector.length_toList]
      by_cases hi : k ≤ i
      · rw [dif_pos hi, dif_neg (by omega)]
        simp [Nat.min_eq_left hk]
      · rw [dif_neg hi, dif_pos (by omega)]
        simp

end Aesi
end AesiMP
