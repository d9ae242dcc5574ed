import Verif.Model.BinIO
import Verif.Lemmas.Access

/-!
# Binary input and output: lemmas
-/

namespace AesiMP
open Aeu
variable {n : Nat}

theorem blockByte_store (host : Host) (b : Block) (v : BitVec 8) :
    ∀ j, j < 4 → ∀ k, k < 4 → blockByte host (storeByte host b k v) j =
      if j = k then v else blockByte host b j := by
  intro j hj k hk
  have key : ∀ p q : Nat, p < 4 → q < 4 → ((b &&& ~~~(0xff#32 <<< (8 * q))) ||| (v.setWidth 32 <<< (8 * q))).extractLsb'
      (8 * p) 8 = if p = q then v else b.extractLsb' (8 * p) 8 := by
    intro p q hp hq
    apply BitVec.eq_of_getLsbD_eq
    intro i hi
    have hff : ∀ t, (255#32).getLsbD t = decide (t < 8) := by
      intro t
      by_cases h : t < 32
      · have : ∀ t : Fin 32, (255#32).getLsbD t = decide (t.val < 8) := by decide
        exact this ⟨t, h⟩
      · rw [BitVec.getLsbD_of_ge _ _ (by omega)]; simp; omega
    simp only [BitVec.getLsbD_extractLsb', BitVec.getLsbD_or, BitVec.getLsbD_and, BitVec.getLsbD_not,
      BitVec.getLsbD_shiftLeft, BitVec.getLsbD_setWidth, hff]
    split
    · rename_i h; subst h
      have h1 : 8 * p + i < 32 := by omega
      have h2 : ¬ (8 * p + i < 8 * p) := by omega
      have h3 : 8 * p + i - 8 * p = i := by omega
      simp [h1, h2, h3, hi]; omega
    · rename_i h
      rw [BitVec.getLsbD_extractLsb']
      have h1 : 8 * p + i < 32 := by omega
      by_cases hlt : 8 * p + i < 8 * q
      · simp [h1, hlt, hi]
      · have : ¬ (8 * p + i - 8 * q < 8) := by omega
        have h5 : v.getLsbD (8 * p + i - 8 * q) = false := BitVec.getLsbD_of_ge _ _ (by omega)
        simp [h1, hlt, hi, this, h5]
  cases host with
  | little => exact key j k hj hk
  | big =>
    have := key (3 - j) (3 - k) (by omega) (by omega)
    simp only [blockByte, storeByte, this]
    have : (3 - j = 3 - k) ↔ j = k := by omega
    simp only [this]

theorem blockByte_zero (host : Host) (k : Nat) : blockByte host 0#32 k = 0#8 := by
  cases host <;> (simp only [blockByte]; apply BitVec.eq_of_getLsbD_eq; intro i hi; simp)

/-- The bytes determine the block. -/
theorem block_ext_bytes (host : Host) (b c : Block) (h : ∀ k, k < 4 → blockByte host b k = blockByte host c k) :
    b = c := by
  apply BitVec.eq_of_getLsbD_eq
  intro i hi
  have key : ∀ p, p < 4 → b.extractLsb' (8 * p) 8 = c.extractLsb' (8 * p) 8 := by
    intro p hp
    cases host with
    | little => exact h p hp
    | big =>
      have := h (3 - p) (by omega)
      simpa only [blockByte, show 3 - (3 - p) = p by omega] using this
  have := congrArg (fun t => t.getLsbD (i % 8)) (key (i / 8) (by omega))
  simp only [BitVec.getLsbD_extractLsb'] at this
  have h8 : i % 8 < 8 := Nat.mod_lt _ (by norm_num)
  simpa [h8, Nat.div_add_mod i 8] using this

/-- What one `read` leaves in a zeroed block. -/
theorem read_bytes (host : Host) (is : IStream) (hf : is.fail = false) :
    (is.read host 0#32).1.data = is.data.drop 4 ∧
    (is.read host 0#32).1.fail = decide (is.data.length < 4) ∧
    ∀ k, k < 4 → blockByte host (is.read host 0#32).2 k = is.data.getD k 0 := by
  unfold IStream.read
  simp only [hf, Bool.false_eq_true, if_false]
  refine ⟨?_, trivial, ?_⟩
  · by_cases h : is.data.length ≤ 4
    · rw [Nat.min_eq_left h, List.drop_of_length_le (le_refl _), List.drop_of_length_le h]
    · rw [Nat.min_eq_right (by omega)]
  · have : ∀ m, m ≤ 4 → ∀ k, k < 4 → blockByte host ((List.range m).foldl
        (fun b j => storeByte host b j (is.data.getD j 0)) 0#32) k = if k < m then is.data.getD k 0 else 0 := by
      intro m
      induction m with
      | zero => intro _ k _; simp [blockByte_zero]
      | succ m ih =>
        intro hm k hk
        rw [List.range_succ, List.foldl_append]
        simp only [List.foldl_cons, List.foldl_nil]
        rw [blockByte_store host _ _ k hk m (by omega), ih (by omega) k hk]
        by_cases h1 : k = m
        · subst h1; simp
        · have : (k < m + 1) ↔ k < m := by omega
          simp only [h1, if_false, this]
    intro k hk
    rw [this _ (Nat.min_le_right _ _) k hk]
    split
    · rfl
    · rename_i h
      have : is.data.length ≤ k := by omega
      simp [List.getD, List.getElem?_eq_none this]

namespace Aeu

theorem visit_lt (be : Bool) {i : Nat} (h : i < n) : visit n be i < n := by
  unfold visit; split <;> omega

theorem visit_inj (be : Bool) {i j : Nat} (hi : i < n) (hj : j < n) :
    visit n be i = visit n be j ↔ i = j := by
  unfold visit; split <;> omega

/-- The whole read: byte `k` (in memory) of the `j`-th visited block is byte `4 j + k` of the stream,
zero beyond its end. -/
theorem readBinary_spec (host : Host) (this : Aeu n) (is : IStream) (hf : is.fail = false) (be : Bool) :
    Sat (readBinary host this is be) fun r =>
      (∀ j k, j < n → k < 4 → blockByte host (r.1[visit n be j]?.getD 0) k = is.data.getD (4 * j + k) 0) ∧
      r.2.data = is.data.drop (4 * n) ∧ (r.2.fail = true ↔ is.data.length < 4 * n) := by
  unfold readBinary
  let Inv := fun (i : Nat) (s : Aeu n × IStream) => (∀ j k, j < n → k < 4 →
      blockByte host (s.1[visit n be j]?.getD 0) k = if j < i then is.data.getD (4 * j + k) 0 else 0) ∧
      s.2.data = is.data.drop (4 * i) ∧ s.2.fail = false ∧ 4 * i ≤ is.data.length
  let Post := fun (s : Aeu n × IStream) => (∀ j k, j < n → k < 4 →
      blockByte host (s.1[visit n be j]?.getD 0) k = is.data.getD (4 * j + k) 0) ∧
      s.2.data = is.data.drop (4 * n) ∧ s.2.fail = true ∧ is.data.length < 4 * n
  refine Sat.bind (Sat.forUpC Inv Post (Nat.zero_le n) (Q := CtlP (Inv n) Post) ?_ ?_ (fun _ h => h)) ?_
  · refine ⟨fun j k hj _ => ?_, by simp, hf, by omega⟩
    have := visit_lt be hj
    simp [this, blockByte_zero]
  · rintro i ⟨this, st⟩ _ hi ⟨h1, h2, h3, h4⟩
    simp only at h1 h2 h3 h4 ⊢
    have hv := visit_lt be hi
    have hz : this[visit n be i] = 0#32 := by
      apply block_ext_bytes host
      intro k hk
      have := h1 i k hi hk
      rw [if_neg (by omega)] at this
      rw [blockByte_zero]
      simpa [hv] using this
    simp only [rd_ok hv, ok_bind, hz, wr_ok hv]
    obtain ⟨g1, g2, g3⟩ := read_bytes host st h3
    have hset : ∀ j k, j < n → k < 4 → blockByte host
        ((this.set (visit n be i) (st.read host 0#32).2)[visit n be j]?.getD 0) k =
        if j < i + 1 then is.data.getD (4 * j + k) 0 else 0 := by
      intro j k hj hk
      have hvj := visit_lt be hj
      by_cases hji : j = i
      · subst hji
        simp only [hvj, getElem?_pos, Vector.getElem_set_self, Option.getD_some, g3 k hk, h2]
        rw [if_pos (by omega)]
        simp [List.getD, List.getElem?_drop]
      · have hne : visit n be i ≠ visit n be j := fun h => hji ((visit_inj be hi hj).mp h).symm
        have := h1 j k hj hk
        simp only [hvj, getElem?_pos, Option.getD_some] at this ⊢
        rw [Vector.getElem_set_ne _ _ hne, this]
        have : (j < i + 1) ↔ j < i := by omega
        simp only [this]
    have hlen : st.data.length = is.data.length - 4 * i := by rw [h2, List.length_drop]
    by_cases hlast : st.data.length < 4
    · rw [if_pos (by rw [g2]; simpa using hlast)]
      refine Sat.ok (show Post _ from ⟨fun j k hj hk => ?_, ?_, ?_, ?_⟩)
      · rw [hset j k hj hk]
        split
        · rfl
        · have : is.data.length ≤ 4 * j + k := by omega
          simp [List.getD, List.getElem?_eq_none this]
      · simp only
        rw [g1, h2, List.drop_drop, List.drop_of_length_le (by omega), List.drop_of_length_le (by omega)]
      · simp only; rw [g2]; simpa using hlast
      · omega
    · rw [if_neg (by rw [g2]; simpa using hlast)]
      refine Sat.ok (show Inv (i + 1) _ from ⟨hset, ?_, ?_, by omega⟩)
      · simp only
        rw [g1, h2, List.drop_drop]
        congr 1
      · simp only; rw [g2]; simpa using hlast
  · rintro (s | s) h
    · obtain ⟨h1, h2, h3, h4⟩ : Inv n s := h
      refine Sat.ok ⟨fun j k hj hk => ?_, h2, ?_⟩
      · rw [h1 j k hj hk, if_pos hj]
      · rw [h3]; simp; omega
    · obtain ⟨h1, h2, h3, h4⟩ : Post s := h
      exact Sat.ok ⟨h1, h2, by rw [h3]; simpa using h4⟩

/-- The bytes `writeBinary` produces for the first `k` visited blocks. -/
def written (host : Host) (be : Bool) (x : Aeu n) (k : Nat) : List (BitVec 8) :=
  (List.range (4 * k)).map fun p => blockByte host (x[visit n be (p / 4)]?.getD 0) (p % 4)

theorem written_length (host : Host) (be : Bool) (x : Aeu n) (k : Nat) :
    (written host be x k).length = 4 * k := by simp [written]

theorem written_succ (host : Host) (be : Bool) (x : Aeu n) (k : Nat) (b : Block)
    (hb : x[visit n be k]?.getD 0 = b) : written host be x (k + 1) = written host be x k ++
      [blockByte host b 0, blockByte host b 1, blockByte host b 2, blockByte host b 3] := by
  unfold written
  rw [show 4 * (k + 1) = 4 * k + 4 by ring]
  simp only [List.range_succ, List.map_append, List.map_cons, List.map_nil, List.append_assoc,
    List.cons_append, List.nil_append]
  have e : ∀ j, j < 4 → (4 * k + j) / 4 = k ∧ (4 * k + j) % 4 = j := fun j h => by omega
  have e0 := e 0 (by omega)
  rw [Nat.add_zero] at e0
  simp only [e0, e 1 (by omega), e 2 (by omega), e 3 (by omega), hb]

theorem written_take (host : Host) (be : Bool) (x : Aeu n) {j k : Nat} (h : j ≤ k) :
    (written host be x k).take (4 * j) = written host be x j := by
  unfold written
  rw [← List.map_take, List.take_range, Nat.min_eq_left (by omega)]

/-- `writeBinary` onto a stream that breaks after `room` bytes. -/
theorem writeBinary_room (host : Host) (x : Aeu n) (os : BSink) (hf : os.fail = false) (be : Bool) :
    Sat (writeBinary host x os be) fun r =>
      r.out = os.out ++ (written host be x n).take os.room ∧ (r.fail = true ↔ os.room < 4 * n) ∧
        (4 * n ≤ os.room → r.room = os.room - 4 * n) := by
  unfold writeBinary
  let Inv := fun (i : Nat) (s : BSink) => s.out = os.out ++ written host be x i ∧ s.fail = false ∧
    s.room = os.room - 4 * i ∧ 4 * i ≤ os.room
  let Post := fun (s : BSink) => s.out = os.out ++ (written host be x n).take os.room ∧ s.fail = true ∧
    os.room < 4 * n
  refine Sat.bind (Sat.forUpC Inv Post (Nat.zero_le n) (Q := CtlP (Inv n) Post) ?_ ?_ (fun _ h => h)) ?_
  · exact ⟨by simp [written], hf, by omega, by omega⟩
  · rintro i s _ hi ⟨h1, h2, h3, h4⟩
    have hv := visit_lt be hi
    simp only [rd_ok hv, ok_bind]
    have hws := written_succ host be x i x[visit n be i] (by simp [hv])
    generalize hbs : [blockByte host x[visit n be i] 0, blockByte host x[visit n be i] 1,
      blockByte host x[visit n be i] 2, blockByte host x[visit n be i] 3] = bs at hws ⊢
    have hbl : bs.length = 4 := by rw [← hbs]; rfl
    unfold BSink.write
    simp only [h2, Bool.false_eq_true, if_false, hbl]
    by_cases hlast : s.room < 4
    · rw [if_pos (by simpa using hlast)]
      refine Sat.ok (show Post _ from ⟨?_, by simpa using hlast, by omega⟩)
      simp only
      have e1 : (written host be x n).take os.room = (written host be x (i + 1)).take os.room := by
        rw [← written_take host be x (show i + 1 ≤ n by omega), List.take_take, Nat.min_eq_left (by omega)]
      have e2 : (written host be x (i + 1)).take os.room = written host be x i ++ bs.take s.room := by
        rw [hws, List.take_append, written_length, ← h3,
          List.take_of_length_le (by rw [written_length]; omega)]
      rw [h1, e1, e2, List.append_assoc]
    · rw [if_neg (by simpa using hlast)]
      refine Sat.ok (show Inv (i + 1) _ from ⟨?_, by simpa using hlast, ?_, by omega⟩)
      · simp only
        rw [List.take_of_length_le (by omega), h1, hws, List.append_assoc]
      · simp only; omega
  · rintro (s | s) h
    · obtain ⟨h1, h2, h3, h4⟩ : Inv n s := h
      refine Sat.ok ⟨?_, by rw [h2]; simp; omega, fun _ => h3⟩
      rw [h1, List.take_of_length_le (by rw [written_length]; omega)]
    · obtain ⟨h1, h2, h3⟩ : Post s := h
      exact Sat.ok ⟨h1, by rw [h2]; simpa using h3, fun h => absurd h (by omega)⟩

theorem writeBinary_spec (host : Host) (x : Aeu n) (os : BSink) (hf : os.fail = false) (be : Bool) :
    Sat (writeBinary host x os be) fun r =>
      r.out = os.out ++ (written host be x n).take os.room ∧ (r.fail = true ↔ os.room < 4 * n) :=
  (writeBinary_room host x os hf be).mono fun _ h => ⟨h.1, h.2.1⟩

end Aeu
end AesiMP
