import Verif.Props.Trace
import Verif.Lemmas.Parse
import Verif.Props.Signed

/-!
# C117: what the blocks touched by reading a text tell
-/

namespace AesiMP
open Aeu Counted

/-- The digits the character constructor takes from a text: behind the first alphanumeric character and the base prefix,
the digits below the base. -/
def digitsTaken (alnum : Int → Bool) (text : List Int) : List Nat :=
  let cs := text.dropWhile fun c => !alnum c
  ((splitBase cs).2.filterMap digitVal).filter (· < (splitBase cs).1)

/-- `std::isalnum` is called only within its domain (always so for `wchar_t`). -/
def Readable (kind : CharKind) (alnum : Int → Bool) {size : Nat} (data : Vector Int size) : Prop :=
  ∀ p (hp : p < size), (∀ j (hj : j < p), alnum data[j] = false) → CtypeOk kind data[p]

namespace Work
variable {n : Nat}

/-- The accesses for one digit: multiplication by the base and addition of the digit. -/
def digitTrace (n : Nat) : List Touch :=
  (mulNarrow (zero n) (0#32)).trace ++ (addBuiltin (zero n) (0#32)).trace

theorem digitTrace_length : (digitTrace n).length = 4 * n := by
  have h1 := (takes_mulNarrow (zero n) (0#32)).1
  have h2 := (takes_addBuiltin (zero n) (0#32)).1
  unfold Counted.accesses at h1 h2
  unfold digitTrace
  rw [List.length_append]
  omega

theorem digits_trace {size : Nat} (data : Vector Int size) (base : BitVec 32) (hb : base.toNat ≤ 16) :
    ∀ len pos (this : Aeu n), pos + len = size →
      (Counted.forUpN (fun position this => do
        let ch ← Counted.lift (AesiMP.rd data position)
        let digit := BitVec.ofNat 32 (digitOf ch)
        if digit < base then do
          let this ← mulNarrow this base
          addBuiltin this digit
        else pure this) len pos this).trace =
      (List.replicate (((data.toList.drop pos).filterMap digitVal).filter (· < base.toNat)).length (digitTrace n)).flatten := by
  intro len
  induction len with
  | zero =>
    intro pos this h
    have : data.toList.drop pos = [] := by simp; omega
    rw [this]
    rfl
  | succ len ih =>
    intro pos this h
    have hp : pos < size := by omega
    have hd0 : data.toList.drop pos = data[pos] :: data.toList.drop (pos + 1) := by
      rw [List.drop_eq_getElem_cons (by simpa using hp)]; simp
    obtain ⟨hd1, hd2, hd3⟩ := digitVal_digitOf data[pos] base.toNat hb
    have hdn : (BitVec.ofNat 32 (digitOf data[pos])).toNat = digitOf data[pos] := by
      rw [BitVec.toNat_ofNat, Nat.mod_eq_of_lt (by omega)]
    have hlt : (BitVec.ofNat 32 (digitOf data[pos]) < base) ↔ digitOf data[pos] < base.toNat := by
      rw [BitVec.lt_def, hdn]
    rw [Counted.forUpN, hd0]
    by_cases hc : digitOf data[pos] < base.toNat
    · obtain ⟨d, hd, hdb⟩ := hd1.mp hc
      obtain ⟨t1, ⟨v1, r1⟩, -⟩ := same_mulNarrow this (zero n) base (0#32)
      obtain ⟨t2, ⟨v2, r2⟩, -⟩ := same_addBuiltin v1 (zero n) (BitVec.ofNat 32 (digitOf data[pos])) (0#32)
      have hr : (do
          let ch ← Counted.lift (AesiMP.rd data pos)
          let digit := BitVec.ofNat 32 (digitOf ch)
          if digit < base then do
            let this ← mulNarrow this base
            addBuiltin this digit
          else pure this : Counted (Aeu n)).run = .ok v2 := by
        rw [run_bind, run_lift, rd_ok hp, ok_bind]
        simp only [if_pos (hlt.mpr hc)]
        rw [run_bind, r1, ok_bind, r2]
      rw [trace_bind _ _ hr, ih (pos + 1) v2 (by omega)]
      rw [trace_bind _ _ (show (Counted.lift (AesiMP.rd data pos)).run = .ok data[pos] by rw [run_lift, rd_ok hp])]
      simp only [if_pos (hlt.mpr hc)]
      rw [trace_bind _ _ r1, t1, t2]
      simp only [List.filterMap_cons, hd, List.filter_cons, decide_eq_true hdb, if_true, List.length_cons,
        List.replicate_succ, List.flatten_cons, digitTrace]
      simp [Counted.lift]
    · have hr : (do
          let ch ← Counted.lift (AesiMP.rd data pos)
          let digit := BitVec.ofNat 32 (digitOf ch)
          if digit < base then do
            let this ← mulNarrow this base
            addBuiltin this digit
          else pure this : Counted (Aeu n)).run = .ok this := by
        rw [run_bind, run_lift, rd_ok hp, ok_bind]
        simp only [if_neg (fun h => hc (hlt.mp h))]
        rfl
      rw [trace_bind _ _ hr, ih (pos + 1) this (by omega)]
      rw [trace_bind _ _ (show (Counted.lift (AesiMP.rd data pos)).run = .ok data[pos] by rw [run_lift, rd_ok hp])]
      simp only [if_neg (fun h => hc (hlt.mp h))]
      have e : ((data[pos] :: data.toList.drop (pos + 1)).filterMap digitVal).filter (· < base.toNat) =
          ((data.toList.drop (pos + 1)).filterMap digitVal).filter (· < base.toNat) := by
        cases hv : digitVal data[pos] with
        | none => simp [hv]
        | some d =>
          have : ¬ d < base.toNat := fun h => hc (hd1.mpr ⟨d, hv, h⟩)
          simp only [List.filterMap_cons, hv, List.filter_cons]
          simp [this]
      rw [e]
      rfl

theorem scan_text (kind : CharKind) (alnum : Int → Bool) {size : Nat} (data : Vector Int size)
    (hdom : Readable kind alnum data) :
    Sat (AesiMP.forUpC 0 size () fun position _ => do
      let c ← AesiMP.rd data position
      let a ← isAlnum kind alnum c
      if !a then .ok (.next ()) else .ok (.leave position))
      (CtlP (fun _ => ∀ j (hj : j < size), alnum data[j] = false)
        (fun p => ∃ hp : p < size, alnum data[p] = true ∧ ∀ j (hj : j < p), alnum data[j] = false)) := by
  refine Sat.forUpC (fun i _ => ∀ j (hj : j < size), j < i → alnum data[j] = false)
    (fun p => ∃ hp : p < size, alnum data[p] = true ∧ ∀ j (hj : j < p), alnum data[j] = false)
    (Nat.zero_le _) (by simp) ?_ ?_
  · intro i _ _ hi hinv
    simp only [rd_ok hi, ok_bind, isAlnum_ok (hdom i hi (fun j hj => hinv j (by omega) hj))]
    cases ha : alnum data[i] with
    | false =>
      refine Sat.ok ?_
      intro j hj hji
      rcases Nat.lt_succ_iff_lt_or_eq.mp hji with h | h
      · exact hinv j hj h
      · subst h; exact ha
    | true =>
      exact Sat.ok ⟨hi, ha, fun j hj => hinv j (by omega) hj⟩
  · intro c hc
    cases c with
    | next s => intro j hj; exact hc j hj hj
    | leave p => exact hc

theorem ofChars_trace (kind : CharKind) (alnum : Int → Bool) {size : Nat} (data : Vector Int size)
    (hdom : Readable kind alnum data) :
    (ofChars kind alnum n data).trace =
      (List.replicate (digitsTaken alnum data.toList).length (digitTrace n)).flatten := by
  unfold ofChars
  split
  · rename_i h0
    subst h0
    have : data.toList = [] := by simp
    rw [this]
    rfl
  · obtain ⟨c, hrun, hc⟩ := scan_text kind alnum data hdom
    rw [trace_bind _ _ (show (Counted.lift (AesiMP.forUpC 0 size () _)).run = .ok c from hrun)]
    cases c with
    | next s =>
      have : data.toList.dropWhile (fun c => !alnum c) = [] := by
        rw [List.dropWhile_eq_nil_iff]
        intro x hx
        obtain ⟨j, hj, rfl⟩ := List.mem_iff_getElem.mp hx
        simp at hj
        have := hc j hj
        simp [this]
      simp only [digitsTaken, this]
      rfl
    | leave p =>
      obtain ⟨hp, ha, hlt⟩ := hc
      have hdrop : data.toList.dropWhile (fun c => !alnum c) = data.toList.drop p := by
        apply dropWhile_drop (by simpa using hp)
        · intro j hj; simp [hlt j hj]
        · simp [ha]
      obtain ⟨⟨base, pos⟩, hr, h1, h2, h3, h4⟩ := detectBase_spec data p hp
      simp only at h1 h2 h3 h4 ⊢
      rw [trace_bind _ _ (show (Counted.lift (detectBase data p)).run = .ok (base, pos) from hr)]
      simp only [digitsTaken, hdrop, ← h1, ← h3]
      have := digits_trace (n := n) data base h2 (size - pos) pos (zero n) (by omega)
      rw [← this]
      rfl

end Work

variable {n : Nat}

/-- C117: the block accesses of construction from text tell exactly how many digits were read: not their values, not the
base, not the characters skipped. -/
theorem C117_parse (hn : 0 < n) (kind kind' : CharKind) (alnum alnum' : Int → Bool) {size size' : Nat}
    (data : Vector Int size) (data' : Vector Int size')
    (h : Readable kind alnum data) (h' : Readable kind' alnum' data') :
    (Work.ofChars kind alnum n data).trace = (Work.ofChars kind' alnum' n data').trace ↔
      (digitsTaken alnum data.toList).length = (digitsTaken alnum' data'.toList).length := by
  rw [Work.ofChars_trace kind alnum data h, Work.ofChars_trace kind' alnum' data' h']
  constructor
  · intro e
    have := congrArg List.length e
    simp only [List.length_flatten, List.map_replicate, List.sum_replicate, smul_eq_mul, Work.digitTrace_length] at this
    exact Nat.eq_of_mul_eq_mul_right (by omega) this
  · intro e
    rw [e]

/-- `"123"` and `"0xffa"`: three digits each. -/
example : (Work.ofChars .char asciiAlnum 2 #v[49, 50, 51]).trace =
    (Work.ofChars .wchar asciiAlnum 2 #v[48, 120, 102, 102, 97]).trace := by
  refine (C117_parse (by omega) _ _ _ _ _ _ ?_ fun _ _ _ => .inl rfl).2 (by decide +kernel)
  intro p hp _
  exact .inr (.inr (by interval_cases p <;> simp))

example : (Work.ofChars .char asciiAlnum 2 #v[49, 50, 51]).trace ≠
    (Work.ofChars .char asciiAlnum 2 #v[49, 50]).trace := by decide +kernel

end AesiMP
