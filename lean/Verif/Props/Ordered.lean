import Verif.Model.Ordered
import Verif.Props.Compare

/-!
# C111: sorting and searching numbers with the library's comparison
-/

namespace AesiMP
open Client Aeu
variable {α : Type} {n m : Nat}

/-! ### The algorithms, for any comparison -/

private theorem lowerBound_spec {P : α → Prop} [DecidablePred P] {less : α → Exec Bool} {v : List α}
    (hless : ∀ x ∈ v, less x = .ok (decide (P x))) (hmono : v.Pairwise fun a b => P b → P a) :
    lowerBound less v = .ok (v.countP fun x => P x) := by
  have key : Sat (lowerBound less v) fun r => r ≤ v.length ∧ (∀ i (hi : i < v.length), i < r → P v[i]) ∧
      ∀ i (hi : i < v.length), r ≤ i → ¬ P v[i] := by
    unfold lowerBound
    refine Sat.whileC (fun s : Nat × Nat => s.1 + s.2 ≤ v.length ∧ (∀ i (hi : i < v.length), i < s.1 → P v[i]) ∧
      ∀ i (hi : i < v.length), s.1 + s.2 ≤ i → ¬ P v[i]) (fun s => s.2) ⟨by simp, by simp, by simp; omega⟩ (by simp) ?_
    rintro ⟨first, len⟩ ⟨h1, h2, h3⟩
    simp only at h1 h2 h3
    by_cases h0 : len = 0
    · subst h0
      simp only [if_true]
      exact ⟨_, rfl, by omega, h2, by simpa using h3⟩
    · have hlt : first + len / 2 < v.length := by omega
      simp only [h0, if_false, List.getElem?_eq_getElem hlt, hless _ (List.getElem_mem hlt)]
      have hpw := List.pairwise_iff_getElem.1 hmono
      by_cases hP : P v[first + len / 2]
      · simp only [hP, decide_true]
        refine ⟨_, rfl, ⟨by simp only; omega, fun i hi hlt' => ?_, fun i hi hle => h3 i hi (by simp only at hle; omega)⟩,
          by simp only; omega⟩
        rcases Nat.lt_or_ge i (first + len / 2) with h | h
        · exact hpw i _ hi hlt h hP
        · obtain rfl : i = first + len / 2 := by simp only at hlt'; omega
          exact hP
      · simp only [hP, decide_false]
        refine ⟨_, rfl, ⟨by simp only; omega, h2, fun i hi hle => ?_⟩, by simp only; omega⟩
        rcases Nat.lt_or_ge (first + len / 2) i with h | h
        · exact fun hPi => hP (hpw _ i hlt hi h hPi)
        · obtain rfl : i = first + len / 2 := by simp only at hle; omega
          exact hP
  obtain ⟨r, hr, hle, h1, h2⟩ := key
  rw [hr]
  refine congrArg Except.ok ?_
  have e1 : (v.take r).countP (fun x => P x) = (v.take r).length := by
    rw [List.countP_eq_length]
    intro x hx
    obtain ⟨i, hi, rfl⟩ := List.mem_iff_getElem.1 hx
    simp only [List.length_take] at hi
    rw [List.getElem_take]
    simpa using h1 i (by omega) (by omega)
  have e2 : (v.drop r).countP (fun x => P x) = 0 := by
    rw [List.countP_eq_zero]
    intro x hx
    obtain ⟨i, hi, rfl⟩ := List.mem_iff_getElem.1 hx
    simp only [List.length_drop] at hi
    rw [List.getElem_drop]
    simpa using h2 (r + i) (by omega) (by omega)
  conv_rhs => rw [← List.take_append_drop r v, List.countP_append, e1, e2]
  simp [hle]

/-- Searching a sequence sorted by `f` for a value `k`. -/
private theorem binarySearch_spec {f : α → Int} {k : Int} {less greater : α → Exec Bool} {v : List α}
    (hless : ∀ x ∈ v, less x = .ok (decide (f x < k))) (hgreater : ∀ x ∈ v, greater x = .ok (decide (k < f x)))
    (hsorted : v.Pairwise fun a b => f a ≤ f b) :
    binarySearch less greater v = .ok (decide (∃ x ∈ v, f x = k)) := by
  have hlb := lowerBound_spec (P := fun x => f x < k) hless (hsorted.imp fun h h' => by omega)
  have hchar : ∀ i (hi : i < v.length), f v[i] < k ↔ i < v.countP fun x => decide (f x < k) := by
    -- the elements below the key are those before the bound
    have hpw := List.pairwise_iff_getElem.1 hsorted
    intro i hi
    constructor
    · intro h
      have : (v.take (i + 1)).countP (fun x => decide (f x < k)) = (v.take (i + 1)).length := by
        rw [List.countP_eq_length]
        intro x hx
        obtain ⟨j, hj, rfl⟩ := List.mem_iff_getElem.1 hx
        simp only [List.length_take] at hj
        rw [List.getElem_take]
        rcases Nat.lt_or_ge j i with h' | h'
        · have := hpw j i (by omega) hi h'; simpa using by omega
        · obtain rfl : j = i := by omega
          simpa using h
      have hs := (List.take_sublist (i + 1) v).countP_le (p := fun x => decide (f x < k))
      rw [this, List.length_take] at hs
      omega
    · intro h
      by_contra hn
      have : (v.drop i).countP (fun x => decide (f x < k)) = 0 := by
        rw [List.countP_eq_zero]
        intro x hx
        obtain ⟨j, hj, rfl⟩ := List.mem_iff_getElem.1 hx
        simp only [List.length_drop] at hj
        rw [List.getElem_drop]
        rcases Nat.eq_zero_or_pos j with rfl | h'
        · simpa using hn
        · have := hpw i (i + j) hi (by omega) (by omega); simpa using by omega
      have h2 := (v.take i).countP_le_length (p := fun x => decide (f x < k))
      rw [← List.take_append_drop i v, List.countP_append, this] at h
      simp only [List.length_take] at h2
      omega
  unfold binarySearch
  rw [hlb]
  simp only [bind, Except.bind]
  generalize hr : v.countP (fun x => decide (f x < k)) = r at hchar
  have hpw := List.pairwise_iff_getElem.1 hsorted
  cases hv : v[r]? with
  | none =>
    refine congrArg Except.ok (decide_eq_false ?_).symm
    rintro ⟨x, hx, hk⟩
    obtain ⟨i, hi, rfl⟩ := List.mem_iff_getElem.1 hx
    have := (hchar i hi).2 (by have := List.getElem?_eq_none_iff.1 hv; omega)
    omega
  | some x =>
    obtain ⟨hlt, rfl⟩ := List.getElem?_eq_some_iff.1 hv
    simp only
    rw [hgreater _ (List.getElem_mem hlt)]
    refine congrArg Except.ok ?_
    have hge : ¬ f v[r] < k := fun h => by have := (hchar r hlt).1 h; omega
    by_cases hk : k < f v[r]
    · simp only [hk, decide_true, Bool.not_true]
      refine (decide_eq_false ?_).symm
      rintro ⟨x, hx, hk'⟩
      obtain ⟨i, hi, rfl⟩ := List.mem_iff_getElem.1 hx
      rcases Nat.lt_trichotomy i r with h | h | h
      · have := (hchar i hi).2 h; omega
      · subst h; omega
      · have := hpw r i hlt hi h; omega
    · simp only [hk, decide_false, Bool.not_false]
      exact (decide_eq_true ⟨v[r], List.getElem_mem hlt, by omega⟩).symm

private theorem insertBack_spec {R : α → α → Prop} [DecidableRel R] {less : α → α → Exec Bool}
    (hless : ∀ x y, less x y = .ok (decide (R x y))) (hasymm : ∀ x y, R x y → ¬ R y x)
    (htrans : ∀ x y z, ¬ R x y → ¬ R y z → ¬ R x z) (x : α) (l : List α) (hl : l.Pairwise fun a b => ¬ R a b) :
    Sat (insertBack less x l) fun r => r.Perm (x :: l) ∧ r.Pairwise fun a b => ¬ R a b := by
  induction l with
  | nil => exact ⟨_, rfl, List.Perm.refl _, List.pairwise_singleton _ _⟩
  | cons y l ih =>
    obtain ⟨hy, hl'⟩ := List.pairwise_cons.1 hl
    simp only [insertBack, hless, bind, Except.bind]
    by_cases h : R x y
    · simp only [h, decide_true, if_true]
      obtain ⟨r, hr, hperm, hsort⟩ := ih hl'
      rw [hr]
      refine ⟨_, rfl, (hperm.cons y).trans (List.Perm.swap x y l), List.pairwise_cons.2 ⟨fun z hz => ?_, hsort⟩⟩
      rcases List.mem_cons.1 (hperm.mem_iff.1 hz) with rfl | hz
      · exact hasymm _ _ h
      · exact hy z hz
    · simp only [h, decide_false]
      refine ⟨_, rfl, List.Perm.refl _, List.pairwise_cons.2 ⟨fun z hz => ?_, hl⟩⟩
      rcases List.mem_cons.1 hz with rfl | hz
      · exact h
      · exact htrans x y z h (hy z hz)

private theorem insertionSort_spec {R : α → α → Prop} [DecidableRel R] {less : α → α → Exec Bool}
    (hless : ∀ x y, less x y = .ok (decide (R x y))) (hasymm : ∀ x y, R x y → ¬ R y x)
    (htrans : ∀ x y z, ¬ R x y → ¬ R y z → ¬ R x z) (v : List α) :
    Sat (insertionSort less v) fun r => r.Perm v ∧ r.Pairwise fun a b => ¬ R b a := by
  have key : ∀ (v l : List α), (l.Pairwise fun a b => ¬ R a b) →
      Sat (v.foldlM (fun l x => insertBack less x l) l) fun r => r.Perm (v ++ l) ∧ r.Pairwise fun a b => ¬ R a b := by
    intro v
    induction v with
    | nil => exact fun l hl => ⟨l, rfl, List.Perm.refl _, hl⟩
    | cons x v ih =>
      intro l hl
      obtain ⟨r, hr, hperm, hsort⟩ := insertBack_spec hless hasymm htrans x l hl
      obtain ⟨r', hr', hperm', hsort'⟩ := ih r hsort
      refine ⟨r', by simp only [List.foldlM_cons, hr, bind, Except.bind]; exact hr', ?_, hsort'⟩
      exact hperm'.trans ((List.Perm.append_left v hperm).trans List.perm_middle)
  obtain ⟨r, hr, hperm, hsort⟩ := key v [] List.Pairwise.nil
  refine ⟨r.reverse, by simp only [insertionSort, hr, bind, Except.bind], (List.reverse_perm r).trans (by simpa using hperm), ?_⟩
  rw [List.pairwise_reverse]
  exact hsort

/-! ### Unsigned numbers -/

private theorem lt_u (cfg : Cfg) (a b : Aeu n) : Aeu.lt cfg a b = .ok (decide (toNat a < toNat b)) :=
  (C16_compare cfg a b).2.2.1

/-- C111: sorting leaves the same numbers in nondecreasing order. -/
theorem C111_sort (cfg : Cfg) (v : List (Aeu n)) :
    Sat (sortU cfg v) fun r => r.Perm v ∧ r.Pairwise fun a b => toNat a ≤ toNat b := by
  refine Sat.mono (insertionSort_spec (R := fun a b : Aeu n => toNat a < toNat b) (lt_u cfg) (fun x y h => by omega)
    (fun x y z h1 h2 => by omega) v) fun r h => ⟨h.1, h.2.imp fun h => by omega⟩

/-- C111: the result of sorting does not depend on the algorithm: whatever rearrangement satisfies what `std::sort`
promises of the library's `<` (no element less than an earlier one) is the sequence `sortU` returns. -/
theorem C111_any_sort (cfg : Cfg) (v r : List (Aeu n)) (hperm : r.Perm v)
    (hsort : r.Pairwise fun a b => Aeu.lt cfg b a = .ok false) : sortU cfg v = .ok r := by
  obtain ⟨r', hr', hperm', hsort'⟩ := C111_sort cfg v
  rw [hr']
  refine congrArg Except.ok ((hperm'.trans hperm.symm).eq_of_pairwise (le := fun a b => toNat a ≤ toNat b) ?_ hsort' ?_)
  · exact fun a b _ _ h1 h2 => toNat_inj (by omega)
  · refine hsort.imp fun {a b} h => ?_
    rw [lt_u] at h
    simpa using h

/-- C111: the insertion point in a sorted sequence is the number of smaller elements. -/
theorem C111_lower_bound (cfg : Cfg) (v : List (Aeu n)) (key : Aeu n)
    (hv : v.Pairwise fun a b => toNat a ≤ toNat b) :
    lowerBoundU cfg v key = .ok (v.countP fun x => toNat x < toNat key) :=
  lowerBound_spec (P := fun x => toNat x < toNat key) (fun x _ => lt_u cfg x key) (hv.imp fun h h' => by omega)

/-- C111: binary search in a sorted sequence finds exactly the numbers that are there. -/
theorem C111_find (cfg : Cfg) (v : List (Aeu n)) (key : Aeu n) (hv : v.Pairwise fun a b => toNat a ≤ toNat b) :
    findU cfg v key = .ok (decide (key ∈ v)) := by
  refine (binarySearch_spec (f := fun x => (toNat x : Int)) (k := toNat key) (fun x _ => ?_) (fun x _ => ?_)
    (hv.imp fun h => by omega)).trans (congrArg Except.ok ?_)
  · rw [lt_u]; simp
  · rw [lt_u]; simp
  · refine decide_eq_decide.2 ⟨fun ⟨x, hx, h⟩ => ?_, fun h => ⟨key, h, rfl⟩⟩
    rwa [← toNat_inj (show toNat x = toNat key by omega)]

/-- C111: a number is found after sorting exactly if it was there before. -/
theorem C111_sort_then_find (cfg : Cfg) (v : List (Aeu n)) (key : Aeu n) :
    (do let r ← sortU cfg v; findU cfg r key) = .ok (decide (key ∈ v)) := by
  obtain ⟨r, hr, hperm, hsort⟩ := C111_sort cfg v
  rw [hr]
  simp only [bind, Except.bind]
  rw [C111_find cfg r key hsort]
  exact congrArg Except.ok (decide_eq_decide.2 hperm.mem_iff)

/-- C111: searching for a built-in value of at most 32 bits. -/
theorem C111_find_builtin (hn : 0 < n) {w : Nat} (hw : w ≤ 32) (v : List (Aeu n)) (key : BitVec w)
    (hv : v.Pairwise fun a b => toNat a ≤ toNat b) :
    findNarrow v key = .ok (decide (∃ x ∈ v, toNat x = key.toNat)) := by
  have hc : ∀ x : Aeu n, Aeu.spaceshipNarrow x key =
      .ok (if toNat x < key.toNat then .less else if toNat x = key.toNat then .equal else .greater) := by
    intro x
    obtain ⟨-, -, -, -, h1, h2, h3⟩ := C17_compare_narrow hn hw x key
    rcases Nat.lt_trichotomy (toNat x) key.toNat with h | h | h
    · rw [h1.2 h, if_pos h]
    · rw [h2.2 h, if_neg (by omega), if_pos h]
    · rw [h3.2 h, if_neg (by omega), if_neg (by omega)]
  refine (binarySearch_spec (f := fun x => (toNat x : Int)) (k := key.toNat) (fun x _ => ?_) (fun x _ => ?_)
    (hv.imp fun h => by omega)).trans (congrArg Except.ok (decide_eq_decide.2 (by simp)))
  · rw [hc]
    simp only [bind, Except.bind]
    refine congrArg Except.ok ?_
    rcases Nat.lt_trichotomy (toNat x) key.toNat with h | h | h
    · simp [h]
    · simp [h]
    · simp [Nat.not_lt.2 (Nat.le_of_lt h), Nat.ne_of_gt h]
  · rw [hc]
    simp only [bind, Except.bind]
    refine congrArg Except.ok ?_
    rcases Nat.lt_trichotomy (toNat x) key.toNat with h | h | h
    · rw [if_pos h, decide_eq_false (by omega)]; rfl
    · simp [h]
    · rw [if_neg (by omega), if_neg (by omega), decide_eq_true (by omega)]; rfl

private theorem lt_across (cfg : Cfg) (a : Aeu n) (b : Aeu m) (ha : toNat a < 2 ^ (32 * min n m))
    (hb : toNat b < 2 ^ (32 * min n m)) : Aeu.lt cfg a b = .ok (decide (toNat a < toNat b)) := by
  obtain ⟨h1, h2, h3⟩ := C19_order_across_partial cfg a b ha hb
  unfold Aeu.lt Aeu.spaceship
  rcases Nat.lt_trichotomy (toNat a) (toNat b) with h | h | h
  · rw [h1.2 h]; simp [bind, Except.bind, Aeu.toOrdering, h]
  · rw [h2.2 h]; simp [bind, Except.bind, Aeu.toOrdering, h]
  · rw [h3.2 h]; simp only [bind, Except.bind, Aeu.toOrdering, decide_eq_false (Nat.lt_asymm h)]; rfl

/-- C111: searching for a number of another precision, if everything fits the smaller precision (partial: without
this it is false, C111_across_counterexample). -/
theorem C111_find_across_partial (cfg : Cfg) (v : List (Aeu n)) (key : Aeu m)
    (hv : v.Pairwise fun a b => toNat a ≤ toNat b) (hfit : ∀ x ∈ v, toNat x < 2 ^ (32 * min n m))
    (hkey : toNat key < 2 ^ (32 * min n m)) :
    findU cfg v key = .ok (decide (∃ x ∈ v, toNat x = toNat key)) := by
  refine (binarySearch_spec (f := fun x => (toNat x : Int)) (k := toNat key) (fun x hx => ?_) (fun x hx => ?_)
    (hv.imp fun h => by omega)).trans (congrArg Except.ok (decide_eq_decide.2 (by simp)))
  · rw [lt_across cfg x key (hfit x hx) hkey]; simp
  · rw [lt_across cfg key x (by rwa [Nat.min_comm]) (by rw [Nat.min_comm]; exact hfit x hx)]; simp

/-- C111: 7 is in the sorted sequence, and not found when asked for in the smaller precision. -/
theorem C111_across_counterexample (cfg : Cfg) :
    (toNat (ofNat 4 7) ≤ toNat (ofNat 4 (2 ^ 64 + 5)) ∧ toNat (ofNat 4 7) = toNat (ofNat 2 7)) ∧
    findU cfg [ofNat 4 7, ofNat 4 (2 ^ 64 + 5)] (ofNat 2 7) = .ok false := by
  constructor
  · decide +kernel
  · obtain ⟨a, b, c⟩ := cfg
    cases a <;> cases b <;> cases c <;> decide +kernel

/-- C111: between numbers of different precisions `<` runs in circles. -/
theorem C111_circle (cfg : Cfg) :
    Aeu.lt cfg (ofNat 4 7) (ofNat 4 (2 ^ 64 + 5)) = .ok true ∧ Aeu.lt cfg (ofNat 4 (2 ^ 64 + 5)) (ofNat 2 6) = .ok true ∧
    Aeu.lt cfg (ofNat 2 6) (ofNat 4 7) = .ok true := by
  obtain ⟨a, b, c⟩ := cfg
  cases a <;> cases b <;> cases c <;> decide +kernel

/-! ### Signed numbers -/

private theorem lt_s (cfg : Cfg) (a b : Aesi n) : Aesi.lt cfg a b =
    .ok (decide (Aesi.sgn a < Aesi.sgn b ∨ Aesi.sgn a = Aesi.sgn b ∧ Aesi.toInt a < Aesi.toInt b)) :=
  (C41_compare_exact cfg a b).2.2

/-- C111: sorting leaves the same signed numbers in nondecreasing order, whatever their sign fields hold. -/
theorem C111_sort_signed (cfg : Cfg) (v : List (Aesi n)) :
    Sat (sortS cfg v) fun r => r.Perm v ∧ r.Pairwise fun a b => Aesi.toInt a ≤ Aesi.toInt b := by
  refine Sat.mono (insertionSort_spec (R := fun a b : Aesi n => Aesi.sgn a < Aesi.sgn b ∨
    Aesi.sgn a = Aesi.sgn b ∧ Aesi.toInt a < Aesi.toInt b) (lt_s cfg) (fun x y h => by omega)
    (fun x y z h1 h2 => by omega) v) fun r h => ⟨h.1, h.2.imp fun {a b} h => ?_⟩
  have hs : ∀ x : Aesi n, (Aesi.sgn x = 1 ∧ 0 ≤ Aesi.toInt x) ∨ (Aesi.sgn x = 0 ∧ Aesi.toInt x = 0) ∨
      (Aesi.sgn x = -1 ∧ Aesi.toInt x ≤ 0) := by
    rintro ⟨s, b⟩
    cases s <;> simp [Aesi.sgn, Aesi.toInt]
  have ha := hs a
  have hb := hs b
  omega

/-- C111: whatever rearrangement satisfies what `std::sort` promises of the library's `<` is in nondecreasing order of
the values. -/
theorem C111_any_sort_signed (cfg : Cfg) (r : List (Aesi n))
    (hsort : r.Pairwise fun a b => Aesi.lt cfg b a = .ok false) :
    r.Pairwise fun a b => Aesi.toInt a ≤ Aesi.toInt b := by
  refine hsort.imp fun {a b} h => ?_
  rw [lt_s] at h
  have h := of_decide_eq_false (Except.ok.inj h)
  have hs : ∀ x : Aesi n, (Aesi.sgn x = 1 ∧ 0 ≤ Aesi.toInt x) ∨ (Aesi.sgn x = 0 ∧ Aesi.toInt x = 0) ∨
      (Aesi.sgn x = -1 ∧ Aesi.toInt x ≤ 0) := by
    rintro ⟨s, b⟩
    cases s <;> simp [Aesi.sgn, Aesi.toInt]
  have ha := hs a
  have hb := hs b
  omega

/-- C111: binary search among signed numbers whose sign fields agree with their values (partial: without this it is
false, C111_signed_counterexample). -/
theorem C111_find_signed_partial (cfg : Cfg) (v : List (Aesi n)) (key : Aesi n)
    (hv : v.Pairwise fun a b => Aesi.toInt a ≤ Aesi.toInt b) (hcanon : ∀ x ∈ v, Aesi.Canon x)
    (hkey : Aesi.Canon key) :
    findS cfg v key = .ok (decide (∃ x ∈ v, Aesi.toInt x = Aesi.toInt key)) :=
  binarySearch_spec (f := Aesi.toInt) (k := Aesi.toInt key)
    (fun x hx => (C41_compare_partial cfg x key (hcanon x hx) hkey).2.2.2)
    (fun x hx => (C41_compare_partial cfg key x hkey (hcanon x hx)).2.2.2) hv

/-- C111: a zero made from an unsigned zero stands in the sequence; the search for zero does not find it. -/
theorem C111_signed_counterexample (cfg : Cfg) :
    Aesi.toInt (Aesi.ofAeu (ofNat 2 0)) = Aesi.toInt (Aesi.ofInt 2 0) ∧
    findS cfg [Aesi.ofAeu (ofNat 2 0)] (Aesi.ofInt 2 0) = .ok false := by
  constructor
  · decide +kernel
  · obtain ⟨a, b, c⟩ := cfg
    cases a <;> cases b <;> cases c <;> decide +kernel

/-- The order in which `<` puts signed numbers: first by what they report of their sign. -/
private def rank (x : Aesi n) : Int := Aesi.sgn x * (2 * 2 ^ (32 * n)) + Aesi.toInt x

private theorem sgn_cases (x : Aesi n) : (Aesi.sgn x = 1 ∧ 0 ≤ Aesi.toInt x ∧ Aesi.toInt x < 2 ^ (32 * n)) ∨
    (Aesi.sgn x = 0 ∧ Aesi.toInt x = 0) ∨ (Aesi.sgn x = -1 ∧ Aesi.toInt x ≤ 0 ∧ -2 ^ (32 * n) < Aesi.toInt x) := by
  obtain ⟨s, b⟩ := x
  have h := toNat_lt b
  have h' : ((toNat b : Nat) : Int) < 2 ^ (32 * n) := by exact_mod_cast h
  cases s <;> simp [Aesi.sgn, Aesi.toInt] <;> omega

private theorem rank_lt (a b : Aesi n) : rank a < rank b ↔
    Aesi.sgn a < Aesi.sgn b ∨ Aesi.sgn a = Aesi.sgn b ∧ Aesi.toInt a < Aesi.toInt b := by
  have ha := sgn_cases a
  have hb := sgn_cases b
  have hp : (0 : Int) < 2 ^ (32 * n) := by positivity
  unfold rank
  generalize (2 : Int) ^ (32 * n) = P at *
  rcases ha with ⟨h, _⟩ | ⟨h, _⟩ | ⟨h, _⟩ <;> rcases hb with ⟨h', _⟩ | ⟨h', _⟩ | ⟨h', _⟩ <;> rw [h, h'] <;> omega

private theorem rank_eq (a b : Aesi n) : rank a = rank b ↔
    Aesi.sgn a = Aesi.sgn b ∧ Aesi.toInt a = Aesi.toInt b := by
  have h1 := rank_lt a b
  have h2 := rank_lt b a
  constructor
  · intro h; omega
  · intro h; omega

private theorem lt_rank (cfg : Cfg) (a b : Aesi n) : Aesi.lt cfg a b = .ok (decide (rank a < rank b)) := by
  rw [lt_s]; exact congrArg Except.ok (decide_eq_decide.2 (rank_lt a b).symm)

/-- C111, all signed numbers, exactly: in a sequence sorted by `<`, the search finds a number if and only if one of the
same value is there that reports the same sign. -/
theorem C111_find_signed_exact (cfg : Cfg) (v : List (Aesi n)) (key : Aesi n)
    (hv : v.Pairwise fun a b => Aesi.lt cfg b a = .ok false) :
    findS cfg v key = .ok (decide (∃ x ∈ v, Aesi.sgn x = Aesi.sgn key ∧ Aesi.toInt x = Aesi.toInt key)) := by
  refine (binarySearch_spec (f := rank) (k := rank key) (fun x _ => lt_rank cfg x key) (fun x _ => lt_rank cfg key x)
    (hv.imp fun {a b} h => ?_)).trans (congrArg Except.ok (decide_eq_decide.2 (by simp only [rank_eq])))
  rw [lt_rank] at h
  simpa using h

/-- C111: searching for a 64-bit built-in value (partial: with one block every search that looks at an element reads out
of bounds, C17_one_block_exact). -/
theorem C111_find_u64_partial (hn : 2 ≤ n) (v : List (Aeu n)) (key : BitVec 64)
    (hv : v.Pairwise fun a b => toNat a ≤ toNat b) :
    findU64 v key = .ok (decide (∃ x ∈ v, toNat x = key.toNat)) := by
  have hc : ∀ x : Aeu n, Aeu.spaceshipU64 x key =
      .ok (if toNat x < key.toNat then .less else if toNat x = key.toNat then .equal else .greater) := by
    intro x
    obtain ⟨-, -, -, -, h1, h2, h3⟩ := C17_compare_u64_partial hn x key
    rcases Nat.lt_trichotomy (toNat x) key.toNat with h | h | h
    · rw [h1.2 h, if_pos h]
    · rw [h2.2 h, if_neg (by omega), if_pos h]
    · rw [h3.2 h, if_neg (by omega), if_neg (by omega)]
  refine (binarySearch_spec (f := fun x => (toNat x : Int)) (k := key.toNat) (fun x _ => ?_) (fun x _ => ?_)
    (hv.imp fun h => by omega)).trans (congrArg Except.ok (decide_eq_decide.2 (by simp)))
  · rw [hc]
    simp only [bind, Except.bind]
    refine congrArg Except.ok ?_
    rcases Nat.lt_trichotomy (toNat x) key.toNat with h | h | h
    · simp [h]
    · simp [h]
    · simp [Nat.not_lt.2 (Nat.le_of_lt h), Nat.ne_of_gt h]
  · rw [hc]
    simp only [bind, Except.bind]
    refine congrArg Except.ok ?_
    rcases Nat.lt_trichotomy (toNat x) key.toNat with h | h | h
    · rw [if_pos h, decide_eq_false (by omega)]; rfl
    · simp [h]
    · rw [if_neg (by omega), if_neg (by omega), decide_eq_true (by omega)]; rfl

/-- C111: searching for a built-in value among signed numbers whose sign fields agree with their values (partial: C42). -/
theorem C111_find_signed_builtin_partial (hn : 2 ≤ n) {t : ITy} (ht : t ∈ ITy.all) (v : List (Aesi n)) {key : Int}
    (hr : t.InRange key) (hm : key ≠ -(2 : Int) ^ 63) (hv : v.Pairwise fun a b => Aesi.toInt a ≤ Aesi.toInt b)
    (hcanon : ∀ x ∈ v, Aesi.Canon x) :
    findIntegral v key = .ok (decide (∃ x ∈ v, Aesi.toInt x = key)) :=
  binarySearch_spec (f := Aesi.toInt) (k := key)
    (fun x hx => (C42_operators_partial hn ht x (hcanon x hx) hr hm).1)
    (fun x hx => (C42_operators_partial hn ht x (hcanon x hx) hr hm).2) hv

/-! ### Sets -/

private theorem setInsert_spec {f : α → Int} {less : α → α → Exec Bool}
    (hless : ∀ x y, less x y = .ok (decide (f x < f y))) (v : List α) (x : α) (hv : v.Pairwise fun a b => f a < f b) :
    Sat (setInsert less v x) fun r => (r.Pairwise fun a b => f a < f b) ∧
      (∀ y ∈ r, y ∈ v ∨ y = x) ∧ (∀ y ∈ v, y ∈ r) ∧ ∃ y ∈ r, f y = f x := by
  have hlb := lowerBound_spec (P := fun y => f y < f x) (v := v) (less := fun y => less y x)
    (fun y _ => hless y x) (hv.imp fun h h' => by omega)
  set c := v.countP fun y => decide (f y < f x) with hc
  -- the elements below `x` are those before the bound
  have hsplit : (∀ y ∈ v.take c, f y < f x) ∧ ∀ y ∈ v.drop c, f x ≤ f y := by
    rw [hc]
    clear hlb hc c
    induction v with
    | nil => simp
    | cons z v ih =>
      obtain ⟨hz, hv⟩ := List.pairwise_cons.1 hv
      by_cases h : f z < f x
      · rw [List.countP_cons_of_pos (by simpa using h)]
        have := ih hv
        refine ⟨fun y hy => ?_, fun y hy => ?_⟩
        · rw [List.take_succ_cons] at hy
          rcases List.mem_cons.1 hy with rfl | hy
          · exact h
          · exact this.1 y hy
        · rw [List.drop_succ_cons] at hy
          exact this.2 y hy
      · have h0 : (z :: v).countP (fun y => decide (f y < f x)) = 0 := by
          rw [List.countP_eq_zero]
          intro y hy
          rcases List.mem_cons.1 hy with rfl | hy
          · simpa using h
          · have := hz y hy
            simp; omega
        rw [h0]
        refine ⟨by simp, fun y hy => ?_⟩
        rcases List.mem_cons.1 hy with rfl | hy
        · omega
        · have := hz y hy
          omega
  have hcl : c ≤ v.length := List.countP_le_length
  unfold setInsert
  rw [hlb]
  simp only [bind, Except.bind]
  by_cases hi : c < v.length
  · rw [List.getElem?_eq_getElem hi]
    simp only [hless]
    have hmem : v[c] ∈ v.drop c := by
      rw [List.drop_eq_getElem_cons hi]; exact List.mem_cons_self
    by_cases h : f x < f v[c]
    · simp only [h, decide_true, if_true]
      refine ⟨_, rfl, ?_, fun y hy => ?_, fun y hy => ?_, x, by simp, rfl⟩
      · rw [List.pairwise_append]
        rw [← List.take_append_drop c v, List.pairwise_append] at hv
        refine ⟨hv.1, List.pairwise_cons.2 ⟨fun y hy => ?_, hv.2.1⟩, fun a ha b hb => ?_⟩
        · rw [List.drop_eq_getElem_cons hi] at hy
          rcases List.mem_cons.1 hy with rfl | hy
          · exact h
          · have hd := hv.2.1
            rw [List.drop_eq_getElem_cons hi] at hd
            have := (List.pairwise_cons.1 hd).1 y hy
            omega
        · rcases List.mem_cons.1 hb with rfl | hb
          · exact hsplit.1 a ha
          · exact hv.2.2 a ha b hb
      · rcases List.mem_append.1 hy with hy | hy
        · exact Or.inl (List.mem_of_mem_take hy)
        · rcases List.mem_cons.1 hy with rfl | hy
          · exact Or.inr rfl
          · exact Or.inl (List.mem_of_mem_drop hy)
      · rw [← List.take_append_drop c v, List.mem_append] at hy
        rcases hy with hy | hy
        · exact List.mem_append.2 (Or.inl hy)
        · exact List.mem_append.2 (Or.inr (List.mem_cons_of_mem _ hy))
    · simp only [h, decide_false]
      have := hsplit.2 _ hmem
      exact ⟨_, rfl, hv, fun y hy => Or.inl hy, fun y hy => hy, v[c], List.getElem_mem hi, by omega⟩
  · rw [List.getElem?_eq_none (by omega)]
    have htake : v.take c = v := List.take_of_length_le (by omega)
    rw [htake] at hsplit
    refine ⟨_, rfl, ?_, fun y hy => ?_, fun y hy => by simp [hy], x, by simp, rfl⟩
    · rw [List.pairwise_append]
      exact ⟨hv, by simp, fun a ha b hb => by simp at hb; subst hb; exact hsplit.1 a ha⟩
    · simpa using hy

private theorem foldSet_spec {f : α → Int} {less : α → α → Exec Bool}
    (hless : ∀ x y, less x y = .ok (decide (f x < f y))) (w v : List α) (hv : v.Pairwise fun a b => f a < f b) :
    Sat (w.foldlM (setInsert less) v) fun r => (r.Pairwise fun a b => f a < f b) ∧
      (∀ y ∈ r, y ∈ v ∨ y ∈ w) ∧ (∀ y ∈ v, ∃ z ∈ r, f z = f y) ∧ ∀ y ∈ w, ∃ z ∈ r, f z = f y := by
  induction w generalizing v with
  | nil => exact ⟨v, rfl, hv, fun y hy => Or.inl hy, fun y hy => ⟨y, hy, rfl⟩, by simp⟩
  | cons x w ih =>
    obtain ⟨r, hr, h1, h2, h3, h4⟩ := setInsert_spec hless v x hv
    obtain ⟨r', hr', g1, g2, g3, g4⟩ := ih r h1
    refine ⟨r', by simp only [List.foldlM_cons, hr, bind, Except.bind]; exact hr', g1, fun y hy => ?_, fun y hy => ?_,
      fun y hy => ?_⟩
    · rcases g2 y hy with h | h
      · rcases h2 y h with h | rfl
        · exact Or.inl h
        · exact Or.inr (by simp)
      · exact Or.inr (List.mem_cons_of_mem _ h)
    · exact g3 y (h3 y hy)
    · rcases List.mem_cons.1 hy with rfl | hy
      · obtain ⟨z, hz, he⟩ := h4
        obtain ⟨z', hz', he'⟩ := g3 z hz
        exact ⟨z', hz', he'.trans he⟩
      · exact g4 y hy

/-- C111: a `std::set` holds each number inserted once, in increasing order. -/
theorem C111_set (cfg : Cfg) (v : List (Aeu n)) :
    Sat (setU cfg v) fun r => (r.Pairwise fun a b => toNat a < toNat b) ∧ ∀ x, x ∈ r ↔ x ∈ v := by
  refine Sat.mono (foldSet_spec (f := fun x : Aeu n => (toNat x : Int)) (less := Aeu.lt cfg)
    (fun x y => by rw [lt_u]; simp) v [] List.Pairwise.nil) fun r h => ⟨h.1.imp fun h => by omega, fun x => ⟨fun hx => ?_, fun hx => ?_⟩⟩
  · simpa using h.2.1 x hx
  · obtain ⟨z, hz, he⟩ := h.2.2.2 x hx
    rwa [← toNat_inj (show toNat z = toNat x by omega)]

/-- C111, sets of signed numbers, exactly: the set holds numbers that were inserted, one for each value and sign
reported: zeros that report different signs stand beside each other. -/
theorem C111_set_signed_exact (cfg : Cfg) (v : List (Aesi n)) :
    Sat (setS cfg v) fun r => (∀ x ∈ r, x ∈ v) ∧
      (r.Pairwise fun a b => Aesi.toInt a < Aesi.toInt b ∨ Aesi.toInt a = 0 ∧ Aesi.toInt b = 0 ∧ Aesi.sgn a < Aesi.sgn b) ∧
      ∀ y ∈ v, ∃ x ∈ r, Aesi.sgn x = Aesi.sgn y ∧ Aesi.toInt x = Aesi.toInt y := by
  refine Sat.mono (foldSet_spec (f := rank) (less := Aesi.lt cfg) (lt_rank cfg) v [] List.Pairwise.nil)
    fun r h => ⟨fun x hx => by simpa using h.2.1 x hx, h.1.imp fun {a b} h => ?_, fun y hy => ?_⟩
  · rw [rank_lt] at h
    have ha := sgn_cases a
    have hb := sgn_cases b
    omega
  · obtain ⟨z, hz, he⟩ := h.2.2.2 y hy
    exact ⟨z, hz, (rank_eq z y).1 he⟩

/-- C111: signed numbers whose sign fields agree with their values: each value once, in increasing order (partial:
without this it is false, C111_set_counterexample). -/
theorem C111_set_signed_partial (cfg : Cfg) (v : List (Aesi n)) (hcanon : ∀ x ∈ v, Aesi.Canon x) :
    Sat (setS cfg v) fun r => (r.Pairwise fun a b => Aesi.toInt a < Aesi.toInt b) ∧
      (∀ x ∈ r, x ∈ v) ∧ ∀ y ∈ v, ∃ x ∈ r, Aesi.toInt x = Aesi.toInt y := by
  refine Sat.mono (C111_set_signed_exact cfg v) fun r h => ⟨h.2.1.imp_of_mem fun {a b} ha hb hab => ?_, h.1, fun y hy => ?_⟩
  · rcases hab with h | ⟨h1, h2, h3⟩
    · exact h
    · exfalso
      have e1 := (Aesi.canon_iff.1 (hcanon a (h.1 a ha))).2 h1
      have e2 := (Aesi.canon_iff.1 (hcanon b (h.1 b hb))).2 h2
      simp [Aesi.sgn, e1, e2] at h3
  · obtain ⟨x, hx, hs, he⟩ := h.2.2 y hy
    exact ⟨x, hx, he⟩

/-- C111: 0 and `Aesi(Aeu(0))` both stand in the set. -/
theorem C111_set_counterexample (cfg : Cfg) :
    setS cfg [Aesi.ofAeu (ofNat 2 0), Aesi.ofInt 2 0] = .ok [Aesi.ofInt 2 0, Aesi.ofAeu (ofNat 2 0)] := by
  obtain ⟨a, b, c⟩ := cfg
  cases a <;> cases b <;> cases c <;> decide +kernel

example : setU lp64 [ofNat 4 (2 ^ 100), ofNat 4 3, ofNat 4 (2 ^ 64), ofNat 4 3] =
    .ok [ofNat 4 3, ofNat 4 (2 ^ 64), ofNat 4 (2 ^ 100)] := by decide +kernel

/-! ### Cases -/

private def some4 : List (Aeu 4) := [ofNat 4 (2 ^ 100), ofNat 4 3, ofNat 4 (2 ^ 64), ofNat 4 3]

example : sortU lp64 some4 = .ok [ofNat 4 3, ofNat 4 3, ofNat 4 (2 ^ 64), ofNat 4 (2 ^ 100)] := by decide +kernel

example : sortU lp64 some4 = .ok [ofNat 4 3, ofNat 4 3, ofNat 4 (2 ^ 64), ofNat 4 (2 ^ 100)] :=
  C111_any_sort lp64 some4 _ (by decide +kernel) (by decide +kernel)

example : (do let r ← sortU lp64 some4; findU lp64 r (ofNat 4 (2 ^ 64))) = .ok true :=
  (C111_sort_then_find lp64 some4 _).trans (congrArg Except.ok (decide_eq_true (by simp [some4])))

example : lowerBoundU lp64 [ofNat 4 3, ofNat 4 3, ofNat 4 (2 ^ 64), ofNat 4 (2 ^ 100)] (ofNat 4 (2 ^ 65)) = .ok 3 :=
  (C111_lower_bound lp64 _ _ (by decide +kernel)).trans (by decide +kernel)

example : findU lp64 [ofNat 4 3, ofNat 4 (2 ^ 63)] (ofNat 2 (2 ^ 63)) = .ok true :=
  (C111_find_across_partial lp64 _ _ (by decide +kernel)
    (by simp [toNat_ofNat]) (by simp [toNat_ofNat])).trans
    (by decide +kernel)

example : findNarrow [ofNat 4 3, ofNat 4 (2 ^ 63)] (3#16) = .ok true :=
  (C111_find_builtin (by decide) (by decide) _ _ (by decide +kernel)).trans (by decide +kernel)

example : sortS lp64 [Aesi.ofInt 2 5, Aesi.ofInt 2 (-7), Aesi.ofAeu (ofNat 2 0), Aesi.ofInt 2 0] =
    .ok [Aesi.ofInt 2 (-7), Aesi.ofInt 2 0, Aesi.ofAeu (ofNat 2 0), Aesi.ofInt 2 5] := by decide +kernel

example : findS lp64 [Aesi.ofInt 2 (-7), Aesi.ofInt 2 0, Aesi.ofInt 2 5] (Aesi.ofInt 2 (-7)) = .ok true :=
  (C111_find_signed_partial lp64 _ _ (by decide +kernel) (by decide +kernel) (by decide +kernel)).trans
    (by decide +kernel)

end AesiMP
