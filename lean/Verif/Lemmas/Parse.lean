import Verif.Model.Text
import Verif.Lemmas.Count
import Mathlib.Data.Nat.Digits.Lemmas
import Mathlib.Data.List.TakeWhile

/-!
# The character constructor refines `parsed`
-/

namespace AesiMP
open Aeu
variable {n : Nat}

/-! ### `textValue` -/

theorem textValue_nil (b : Nat) : textValue b [] = 0 := rfl

theorem textValue_snoc (b : Nat) (cs : List Int) (c : Int) :
    textValue b (cs ++ [c]) =
      match digitVal c with
      | some d => if d < b then textValue b cs * b + d else textValue b cs
      | none => textValue b cs := by
  unfold textValue
  rw [List.filterMap_append, List.filter_append, List.foldl_append]
  cases h : digitVal c with
  | none => simp [h]
  | some d =>
    by_cases hd : d < b
    · simp [h, hd]
    · simp [h, hd]

theorem digitVal_digitOf (c : Int) (b : Nat) (hb : b ≤ 16) :
    (digitOf c < b ↔ ∃ d, digitVal c = some d ∧ d < b) ∧
    (∀ d, digitVal c = some d → digitOf c = d) ∧ digitOf c < 100 := by
  unfold digitOf digitVal
  split
  · rename_i h
    refine ⟨by simp, by simp, by omega⟩
  · split
    · rename_i h
      have : (c - 97).toNat + 10 = (c - 87).toNat := by omega
      rw [this]
      refine ⟨by simp, by simp, by omega⟩
    · split
      · rename_i h
        have : (c - 65).toNat + 10 = (c - 55).toNat := by omega
        rw [this]
        refine ⟨by simp, by simp, by omega⟩
      · refine ⟨by simp; omega, by simp, by omega⟩

namespace Aeu

/-! ### the digit loop -/

theorem digitLoop_spec {size : Nat} (data : Vector Int size) (pos : Nat) (hpos : pos ≤ size)
    (base : BitVec 32) (hb : base.toNat ≤ 16) :
    Returns (forUp pos size (zero n) fun position this => do
        let ch ← rd data position
        let digit := BitVec.ofNat 32 (digitOf ch)
        if digit < base then do
          let this ← mulNarrow this base
          addBuiltin this digit
        else .ok this)
      (textValue base.toNat (data.toList.drop pos) % 2 ^ (32 * n)) := by
  refine Sat.forUp (fun i (s : Aeu n) => toNat s =
    textValue base.toNat ((data.toList.drop pos).take (i - pos)) % 2 ^ (32 * n)) hpos ?_ ?_ ?_
  · simp [textValue_nil]
  · intro i s h1 h2 hs
    simp only [rd_ok h2, ok_bind]
    have hlen : i - pos < (data.toList.drop pos).length := by simp; omega
    have htake : (data.toList.drop pos).take (i + 1 - pos) =
        (data.toList.drop pos).take (i - pos) ++ [data[i]] := by
      rw [show i + 1 - pos = (i - pos) + 1 by omega, List.take_add_one,
        List.getElem?_eq_getElem hlen]
      simp [show pos + (i - pos) = i by omega]
    rw [htake, textValue_snoc]
    obtain ⟨hd1, hd2, hd3⟩ := digitVal_digitOf data[i] base.toNat hb
    have hdn : (BitVec.ofNat 32 (digitOf data[i])).toNat = digitOf data[i] := by
      rw [BitVec.toNat_ofNat, Nat.mod_eq_of_lt (by omega)]
    have hlt : (BitVec.ofNat 32 (digitOf data[i]) < base) ↔ digitOf data[i] < base.toNat := by
      rw [BitVec.lt_def, hdn]
    by_cases hc : digitOf data[i] < base.toNat
    · obtain ⟨d, hd, hdb⟩ := hd1.mp hc
      rw [if_pos (hlt.mpr hc), hd]
      simp only [hdb, if_true]
      refine Sat.bind (mulNarrow_spec s base (by omega)) fun t ht => ?_
      refine Sat.mono (addBuiltin_spec (by norm_num) (by norm_num) t _ (by rw [hdn]; omega)) ?_
      intro r hr
      rw [hr, ht, hs, hdn, hd2 d hd]
      conv_lhs => rw [Nat.add_mod, Nat.mod_mod, Nat.mod_mul_mod, ← Nat.add_mod]
    · rw [if_neg (fun h => hc (hlt.mp h))]
      refine Sat.ok ?_
      rw [hs]
      cases hv : digitVal data[i] with
      | none => rfl
      | some d =>
        have : ¬ d < base.toNat := fun h => hc (hd1.mpr ⟨d, hv, h⟩)
        simp [this]
  · intro s hs
    rw [hs, List.take_of_length_le (by simp)]

theorem splitBase_ne (cs : List Int) (h : cs[0]? ≠ some 48) : splitBase cs = (10, cs) := by
  unfold splitBase
  split
  · simp at h
  · rfl

/-- The base lambda refines `splitBase`. -/
theorem detectBase_spec {size : Nat} (data : Vector Int size) (p : Nat) (hp : p < size) :
    Sat (detectBase data p) fun r => r.1.toNat = (splitBase (data.toList.drop p)).1 ∧ r.1.toNat ≤ 16 ∧
      data.toList.drop r.2 = (splitBase (data.toList.drop p)).2 ∧ r.2 ≤ size := by
  unfold detectBase
  simp only [rd_ok hp, ok_bind]
  have hd0 : data.toList.drop p = data[p] :: data.toList.drop (p + 1) := by
    rw [List.drop_eq_getElem_cons (by simpa using hp)]; simp
  by_cases h48 : data[p] = 48
  · by_cases hs : p + 1 < size
    · have hd1 : data.toList.drop (p + 1) = data[p + 1] :: data.toList.drop (p + 2) := by
        rw [List.drop_eq_getElem_cons (by simpa using hs)]; simp
      rw [if_pos ⟨h48, hs⟩]
      simp only [rd_ok hs, ok_bind]
      rw [hd0, hd1, h48]
      simp only [splitBase]
      split
      · exact Sat.ok ⟨rfl, show (_ : Nat) ≤ _ by norm_num, rfl, by omega⟩
      · split
        · exact Sat.ok ⟨rfl, show (_ : Nat) ≤ _ by norm_num, rfl, by omega⟩
        · split
          · exact Sat.ok ⟨rfl, show (_ : Nat) ≤ _ by norm_num, rfl, by omega⟩
          · exact Sat.ok ⟨rfl, show (_ : Nat) ≤ _ by norm_num, by rw [← h48, ← hd1, ← hd0], by omega⟩
    · rw [if_neg (by omega)]
      have : data.toList.drop (p + 1) = [] := by simp; omega
      rw [hd0, this, h48]
      refine Sat.ok ⟨rfl, show (_ : Nat) ≤ _ by norm_num, ?_, by omega⟩
      rw [hd0, this, h48]; rfl
  · rw [if_neg (by simp [h48])]
    rw [splitBase_ne _ (by rw [hd0]; simpa using h48)]
    exact Sat.ok ⟨rfl, show (_ : Nat) ≤ _ by norm_num, rfl, by omega⟩

/-- The values `std::isalnum` may be called with. -/
def CtypeOk (kind : CharKind) (c : Int) : Prop := kind = .wchar ∨ c = -1 ∨ (0 ≤ c ∧ c ≤ 255)

theorem isAlnum_ok {kind : CharKind} {alnum : Int → Bool} {c : Int} (h : CtypeOk kind c) :
    isAlnum kind alnum c = .ok (alnum c) := by
  unfold isAlnum
  cases kind with
  | wchar => rfl
  | char =>
    have : c = -1 ∨ (0 ≤ c ∧ c ≤ 255) := by simpa [CtypeOk] using h
    simp [this]

theorem dropWhile_drop {l : List Int} {f : Int → Bool} {p : Nat} (hp : p < l.length)
    (h1 : ∀ j, (h : j < p) → f l[j] = true) (h2 : f l[p] = false) : l.dropWhile f = l.drop p := by
  induction l generalizing p with
  | nil => simp at hp
  | cons a l ih =>
    cases p with
    | zero => simp at h2; simp [List.dropWhile, h2]
    | succ p =>
      have := h1 0 (by omega)
      simp at this
      simp only [List.dropWhile, this, List.drop_succ_cons]
      exact ih (by simpa using hp) (fun j hj => by simpa using h1 (j + 1) (by omega)) (by simpa using h2)

/-- The constructor from characters.  Only the characters up to the first alphanumeric one have to
be in the domain of `isalnum`. -/
theorem ofChars_spec (kind : CharKind) (alnum : Int → Bool) {size : Nat} (data : Vector Int size)
    (hdom : ∀ p (hp : p < size), (∀ j (hj : j < p), alnum data[j] = false) → CtypeOk kind data[p]) :
    Returns (ofChars kind alnum n data) (parsed alnum data.toList % 2 ^ (32 * n)) := by
  unfold ofChars
  split
  · rename_i h0
    subst h0
    refine Sat.ok ?_
    have : data.toList = [] := by simp
    simp [this, toNat_zero, parsed, splitBase, textValue]
  · rename_i h0
    refine Sat.bind (P := CtlP (fun _ => ∀ j (hj : j < size), alnum data[j] = false)
      (fun p => ∃ hp : p < size, alnum data[p] = true ∧ ∀ j (hj : j < p), alnum data[j] = false)) ?_ ?_
    · refine Sat.forUpC (fun i _ => ∀ j (hj : j < size), j < i → alnum data[j] = false)
        (fun p => ∃ hp : p < size, alnum data[p] = true ∧ ∀ j (hj : j < p), alnum data[j] = false)
        (Nat.zero_le _) (by simp) ?_ ?_
      · intro i _ _ hi hinv
        simp only [rd_ok hi, ok_bind, isAlnum_ok (hdom i hi (fun j hj => hinv j (by omega) hj))]
        cases ha : alnum data[i] with
        | false =>
          refine Sat.ok ?_
          intro j hj hji
          rcases Nat.lt_succ_iff_lt_or_eq.mp hji with h | h
          · exact hinv j hj h
          · subst h; exact ha
        | true =>
          exact Sat.ok ⟨hi, ha, fun j hj => hinv j (by omega) hj⟩
      · intro c hc
        cases c with
        | next s => intro j hj; exact hc j hj hj
        | leave p => exact hc
    · intro c hc
      cases c with
      | next s =>
        refine Sat.ok ?_
        have : data.toList.dropWhile (fun c => !alnum c) = [] := by
          rw [List.dropWhile_eq_nil_iff]
          intro x hx
          obtain ⟨j, hj, rfl⟩ := List.mem_iff_getElem.mp hx
          simp at hj
          simp [hc j hj]
        simp [parsed, this, splitBase, textValue, toNat_zero]
      | leave p =>
        obtain ⟨hp, ha, hlt⟩ := hc
        simp only
        have hdrop : data.toList.dropWhile (fun c => !alnum c) = data.toList.drop p := by
          apply dropWhile_drop (by simpa using hp)
          · intro j hj; simp [hlt j hj]
          · simp [ha]
        refine Sat.bind (detectBase_spec data p hp) ?_
        rintro ⟨base, pos⟩ ⟨h1, h2, h3, h4⟩
        simp only at h1 h2 h3 h4 ⊢
        have := digitLoop_spec (n := n) data pos h4 base h2
        simpa [parsed, hdrop, ← h1, ← h3, Returns, Sat] using this

/-! ### canonical numerals -/

theorem digitVal_digitChar (upper : Bool) {d : Nat} (hd : d < 16) :
    digitVal (digitChar upper d) = some d := by
  have : ∀ u : Bool, ∀ d : Fin 16, digitVal (digitChar u d.val) = some d.val := by decide
  exact this upper ⟨d, hd⟩

theorem textValue_append_digits (upper : Bool) (b : Nat) (hb : b ≤ 16) (cs : List Int) (ds : List Nat)
    (hds : ∀ d ∈ ds, d < b) :
    textValue b (cs ++ ds.reverse.map (digitChar upper)) =
      textValue b cs * b ^ ds.length + Nat.ofDigits b ds := by
  induction ds generalizing cs with
  | nil => simp
  | cons d ds ih =>
    rw [List.reverse_cons, List.map_append, ← List.append_assoc, List.map_cons, List.map_nil,
      textValue_snoc, digitVal_digitChar upper (lt_of_lt_of_le (hds d (by simp)) hb)]
    simp only [hds d (by simp), if_true]
    rw [ih cs (fun x hx => hds x (by simp [hx])), Nat.ofDigits_cons, List.length_cons, pow_succ]
    ring

/-- A canonical numeral denotes its number. -/
theorem textValue_numeral (upper : Bool) {b : Nat} (hb1 : 1 < b) (hb : b ≤ 16) (v : Nat) :
    textValue b (numeral upper b v) = v := by
  unfold numeral
  split
  · rename_i h; subst h
    have : textValue b ([] ++ [48]) = 0 := by
      rw [textValue_snoc]
      simp [digitVal, textValue_nil]
    simpa using this
  · have := textValue_append_digits upper b hb [] (Nat.digits b v)
      (fun d hd => Nat.digits_lt_base hb1 hd)
    simpa [textValue_nil, Nat.ofDigits_digits] using this

/-- The first character of a numeral is a digit character below the base. -/
theorem numeral_head (upper : Bool) {b : Nat} (hb1 : 1 < b) (v : Nat) :
    ∃ d rest, numeral upper b v = digitChar upper d :: rest ∧ d < b ∧ (v ≠ 0 → d ≠ 0) := by
  unfold numeral
  split
  · exact ⟨0, [], by simp [digitChar], by omega, by omega⟩
  · rename_i h
    have hne : Nat.digits b v ≠ [] := Nat.digits_ne_nil_iff_ne_zero.mpr h
    obtain ⟨d, ds, hds⟩ : ∃ d ds, (Nat.digits b v).reverse = d :: ds :=
      List.exists_cons_of_ne_nil (by simpa using hne)
    refine ⟨d, ds.map (digitChar upper), by rw [hds]; rfl, ?_, fun _ => ?_⟩
    · apply Nat.digits_lt_base hb1 (m := v)
      rw [← List.mem_reverse, hds]; simp
    · have := Nat.getLast_digit_ne_zero b h
      rw [List.getLast_eq_head_reverse] at this
      simpa [hds] using this

end Aeu
end AesiMP
