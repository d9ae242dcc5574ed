import Verif.Props.TestsText
import Verif.Props.Text

/-! # C97: the randomised output tests, for every draw -/

namespace AesiMP
open Tests
variable {n : Nat}

theorem fieldBase_eq (bf : BaseField) : streamRadix bf = fieldBase bf := by cases bf <;> rfl
theorem testPrefix_eq (b : Nat) : testPrefix b = basePrefix b := rfl

/-- C97, streams: the tests of `Aeu` pass for every draw, with and without `showbase`, in every notation. -/
theorem C97_stream_unsigned (cfg : Cfg) {bufSize : Nat} (hb : Aeu.IsStreamBuf n bufSize) (hn : 3 ≤ n)
    (bf : BaseField) (upper showbase : Bool) (head : List Int) {value : Int} (h : Drawn (32 * n - 20) value) :
    streamU cfg bufSize n bf upper showbase head value = .ok true := by
  obtain ⟨a, ha, ha'⟩ := ofMpz_drawn (n := n) cfg h.1 (h.signed.le (by omega))
  obtain ⟨r, hr, hr'⟩ := C35_stream_partial cfg bufSize hb
    { stringstream with basefield := bf, showbase := showbase, uppercase := upper, out := head } rfl a
    (by cases bf <;> simp <;> omega)
  have h1 : Aeu.toNat a = value.natAbs := by omega
  unfold streamU
  simp only [ha, ok_bind, hr, hr', mpzText_nonneg _ _ h.1, h1]
  refine congrArg Except.ok ?_
  rw [beq_iff_eq, List.append_assoc]
  simp only [fieldBase_eq, testPrefix_eq, stringstream]

/-- C97, streams: the tests of `Aesi` without `showbase` pass for every draw; those with `showbase` fail for 0
except in decimal (the library prints `0`, the tests expect a prefix) and pass for every other draw. -/
theorem C97_stream_signed_exact (cfg : Cfg) {bufSize : Nat} (hb : Aeu.IsStreamBuf n bufSize) (hn : 3 ≤ n)
    (bf : BaseField) {value : Int} (h : DrawnS (32 * n - 20) value) :
    streamS cfg bufSize n bf value = .ok true ∧
    ∀ (upper even : Bool), (if even then 0 ≤ value else value ≤ 0) →
      streamBaseS cfg bufSize n bf upper even value = .ok (decide (bf = .other ∨ value ≠ 0)) := by
  obtain ⟨a, ha, ha', hac⟩ := C60_signed (n := n) cfg value (h.fits (by omega))
  have hbf : ∀ os : OStream, os.basefield = bf → (os.basefield = .hex ∧ 1 ≤ n) ∨ (os.basefield = .other ∧ 2 ≤ n) ∨
      (os.basefield = .oct ∧ 3 ≤ n) := by
    intro os e; rw [e]; cases bf <;> simp <;> omega
  constructor
  · obtain ⟨r, hr, hr'⟩ := C62_stream_partial cfg bufSize hb { stringstream with basefield := bf } rfl a hac
      (hbf _ rfl)
    unfold streamS
    simp only [ha, ok_bind, hr, hr', ha']
    refine congrArg Except.ok ?_
    rw [beq_iff_eq]
    simp [stringstream, mpzText, fieldBase_eq]
  · intro upper even hs
    obtain ⟨r, hr, hr'⟩ := C62_stream_partial cfg bufSize hb
      { stringstream with basefield := bf, showbase := true, uppercase := upper } rfl a hac (hbf _ rfl)
    unfold streamBaseS
    simp only [ha, ok_bind, hr, hr', ha']
    refine congrArg Except.ok (Bool.eq_iff_iff.mpr ?_)
    rw [beq_iff_eq, decide_eq_true_iff, fieldBase_eq]
    simp only [stringstream, List.nil_append, true_and]
    rw [mpzText_nonneg _ _ (by omega : (0 : Int) ≤ (value.natAbs : Int)), Int.natAbs_natCast]
    by_cases h0 : value = 0
    · subst h0
      cases bf <;> cases even <;> simp [testPrefix, fieldBase, mpzText, numeral]
    · have hneg : (value < 0) ↔ even = false := by
        cases even <;> simp only [Bool.false_eq_true, if_false, if_true] at hs <;> simp <;> omega
      have hu : ∀ u, numeral u 10 value.natAbs = numeral false 10 value.natAbs := by
        intro u
        unfold numeral
        split
        · rfl
        · refine List.map_congr_left fun d hd => ?_
          have := Nat.digits_lt_base (b := 10) (by norm_num) (List.mem_reverse.mp hd)
          simp [digitChar, this]
      by_cases ho : bf = .other
      · subst ho
        simp [h0, fieldBase, basePrefix, mpzText, hu upper]
      · simp only [ho, h0, if_neg, not_false_eq_true, ne_eq, iff_true, or_true, if_false, if_true, testPrefix_eq]
        congr 2
        cases even <;> simp [hneg]

/-! ### Buffers -/

/-- Behind what was written the buffer holds what it held before. -/
theorem buffer_tail {cap : Nat} {buffer old : Vector Int cap} {pre : List Int}
    (h : buffer.toList = pre ++ old.toList.drop pre.length) {i : Nat} (hi : i < cap) (hp : pre.length ≤ i) :
    buffer[i] = old[i] := by
  have e : buffer[i] = (buffer.toList)[i]'(by simpa using hi) := by rw [Vector.getElem_toList]
  rw [e]
  simp only [h]
  rw [List.getElem_append_right hp, List.getElem_drop]
  simp only [Nat.add_sub_cancel' hp, Vector.getElem_toList]

theorem cString_of {cap : Nat} {buffer : Vector Int cap} {text rest : List Int} (h : buffer.toList = text ++ [0] ++ rest)
    (ht : ∀ c ∈ text, c ≠ 0) : cString buffer = .ok text := by
  unfold cString
  rw [if_pos (by rw [h]; simp), h]
  refine congrArg Except.ok ?_
  rw [List.append_assoc, List.takeWhile_append_of_pos (by simpa using ht)]
  simp

/-- A text without terminator: what stood behind it in the buffer is read as well. -/
theorem cString_open {cap : Nat} {buffer old : Vector Int cap} {text : List Int}
    (h : buffer.toList = text ++ old.toList.drop text.length) (ht : ∀ c ∈ text, c ≠ 0) (hlt : text.length < cap)
    (hlast : old[cap - 1]'(by omega) = 0) :
    Sat (cString buffer) fun s => (s = text ↔ old[text.length] = 0) ∧ text.length ≤ s.length ∧
      s.take text.length = text := by
  have hlen : text.length < old.toList.length := by simpa using hlt
  have hmem : (0 : Int) ∈ buffer.toList := by
    rw [h]
    refine List.mem_append_right _ ?_
    rw [List.mem_iff_getElem]
    refine ⟨cap - 1 - text.length, by simp; omega, ?_⟩
    rw [List.getElem_drop, Vector.getElem_toList]
    simp only [show text.length + (cap - 1 - text.length) = cap - 1 by omega]
    exact hlast
  unfold cString
  rw [if_pos hmem, h, List.takeWhile_append_of_pos (by simpa using ht)]
  refine Sat.ok ⟨?_, by simp, by simp⟩
  rw [List.drop_eq_getElem_cons hlen, Vector.getElem_toList, List.takeWhile_cons]
  constructor
  · intro e
    by_contra hne
    rw [if_pos (by simpa using hne)] at e
    have := congrArg List.length e
    simp at this
  · intro e
    rw [if_neg (by simp [e])]; simp

theorem prefix_chars (b : Nat) : ∀ c ∈ basePrefix b, c ≠ 0 := by
  unfold basePrefix
  split_ifs <;> simp

theorem numeral_ne_zero (u : Bool) {b : Nat} (hb1 : 1 < b) (hb : b ≤ 16) (v : Nat) : ∀ c ∈ numeral u b v, c ≠ 0 :=
  fun c hc => by have := numeral_chars u hb1 hb v c hc; omega

theorem numeral_short (u : Bool) {b : Nat} (hb1 : 2 ≤ b) {v k : Nat} (hk : 1 ≤ k) (h : v < 2 ^ k) :
    (numeral u b v).length ≤ k := by
  unfold numeral
  split
  · simpa using hk
  · rw [List.length_map, List.length_reverse, Nat.digits_length_le_iff (by omega)]
    exact lt_of_lt_of_le h (Nat.pow_le_pow_left hb1 k)

theorem basePrefix_len (b : Nat) : (basePrefix b).length ≤ 2 := by
  unfold basePrefix; split_ifs <;> simp

theorem terminated {cap : Nat} {buffer old : Vector Int cap} {text : List Int}
    (h : buffer.toList = text ++ [0] ++ old.toList.drop (text.length + 1)) {i : Nat} {hi : i < cap}
    (hold : old[i] = 0) (hp : text.length ≤ i) : buffer[i] = 0 := by
  by_cases he : i = text.length
  · have e : buffer[i] = (buffer.toList)[i]'(by simpa using hi) := by rw [Vector.getElem_toList]
    rw [e]
    simp only [h]
    rw [List.getElem_append_left (by simp; omega), List.getElem_append_right (by omega)]
    simp
  · exact (buffer_tail (pre := text ++ [0]) (by rw [h]; simp) hi (by simp; omega)).trans hold

/-- The four notations of the tests. -/
def TestBase (base : BitVec 8) : Prop := base = 2#8 ∨ base = 8#8 ∨ base = 10#8 ∨ base = 16#8

theorem TestBase.ok {base : BitVec 8} (h : TestBase base) (hn : 2 ≤ n) :
    ((2 ≤ base.toNat ∧ base.toNat ≤ 10 ∧ 2 ≤ n) ∨ (base.toNat = 16 ∧ 0 < n)) ∧ 1 < base.toNat ∧ base.toNat ≤ 16 := by
  rcases h with rfl | rfl | rfl | rfl <;> simp <;> omega

theorem digitsText_eq (u : Bool) {base : BitVec 8} (v : Int) (h0 : 0 ≤ v) :
    digitsText u base v = .ok (if base = 2#8 ∧ v = 0 then [] else numeral u base.toNat v.natAbs) := by
  unfold digitsText
  by_cases h2 : base = 2#8
  · subst h2
    rw [if_pos rfl, byteText_eq]
    refine congrArg Except.ok ?_
    simp only [true_and]
    split
    · rfl
    · unfold numeral
      split
      · rfl
      · refine List.map_congr_left fun d hd => ?_
        have := Nat.digits_lt_base (b := 2) (by norm_num) (List.mem_reverse.mp hd)
        simp [digitChar, show d < 10 by omega]
  · rw [if_neg h2, mpzText_nonneg _ _ h0]
    simp [h2]

/-- C97, `getString` of `Aeu`, one iteration on whatever the static buffer holds: the test passes for every nonzero
draw; for 0 it passes exactly in notations other than binary and if the buffer happens to have a terminator where
`getString` writes none. -/
theorem C97_buffer_unsigned_exact (cfg : Cfg) (kind : CharKind) (hn : 2 ≤ n) (hcap : 32 * n + 2 < 2 ^ 63)
    {base : BitVec 8} (hbase : TestBase base) (upper showBase : Bool) (askii : Vector Int (32 * n + 2))
    (hlast : askii[32 * n + 1] = 0) {value : Int} (h : Drawn (32 * n - 32) value) :
    Sat (bufferU cfg kind n base upper showBase askii value) fun r => r.1[32 * n + 1] = 0 ∧
      (r.2 = true ↔ value ≠ 0 ∨ (base ≠ 2#8 ∧
        askii[(if showBase then (testPrefix base.toNat).length else 0) + 1]'(by
          have := basePrefix_len base.toNat
          rw [testPrefix_eq]; split <;> omega) = 0)) := by
  obtain ⟨a, ha, ha'⟩ := ofMpz_drawn (n := n) cfg h.1 (h.signed.le (by omega))
  have h1 : Aeu.toNat a = value.natAbs := by omega
  obtain ⟨hb1, hb2, hb3⟩ := hbase.ok hn
  have hlt : value.natAbs < 2 ^ (32 * n - 32) := h.signed
  have hpl := basePrefix_len base.toNat
  unfold bufferU
  rw [ha, ok_bind, digitsText_eq _ _ h.1, ok_bind]
  by_cases h0 : value = 0
  · subst h0
    have ht : (if showBase = true ∧ 3 < 32 * n + 2 then basePrefix base.toNat else []) ++ [(48 : Int)] =
        (if showBase then basePrefix base.toNat else []) ++ [48] := by
      simp [show 3 < 32 * n + 2 by omega]
    obtain ⟨r, hr, hr1, -⟩ := C24_get_string_zero cfg kind base upper a h1 askii showBase (by omega) _ ht.symm
    have hplen : ((if showBase then basePrefix base.toNat else []) ++ [(48 : Int)]).length ≤ 3 := by
      split <;> simp <;> omega
    obtain ⟨s, hs, hs1, hs2, hs3⟩ := cString_open hr1 (by
      intro c hc
      rcases List.mem_append.mp hc with hc | hc
      · split at hc
        · exact prefix_chars _ c hc
        · simp at hc
      · simp at hc; omega) (by omega) hlast
    rw [hr, ok_bind, hs, ok_bind]
    refine Sat.ok ⟨?_, ?_⟩
    · rw [buffer_tail hr1 (by omega) (by omega)]; exact hlast
    · simp only [ne_eq, not_true_eq_false, false_or, beq_iff_eq, testPrefix_eq]
      by_cases h2 : base = 2#8
      · subst h2
        simp only [true_and, if_true, not_true_eq_false, false_and, iff_false, List.append_nil]
        intro e
        rw [e] at hs2
        simp at hs2
      · simp only [h2, false_and, if_false, not_false_eq_true, true_and, Int.natAbs_zero]
        rw [show numeral upper base.toNat 0 = [48] from rfl, hs1]
        constructor
        · intro e; rw [← e]; congr 1; cases showBase <;> simp
        · intro e; rw [← e]; congr 1; cases showBase <;> simp
  · have hfit : ((if showBase then basePrefix base.toNat else []) ++
        numeral upper base.toNat (Aeu.toNat a)).length < 32 * n + 2 := by
      have := numeral_short upper hb2 (show 1 ≤ 32 * n - 32 by omega) (h1 ▸ hlt)
      rw [List.length_append]
      split
      · omega
      · simp; omega
    have ht : (if showBase = true ∧ 3 < 32 * n + 2 then basePrefix base.toNat else []) ++
        numeral upper base.toNat (Aeu.toNat a) =
        (if showBase then basePrefix base.toNat else []) ++ numeral upper base.toNat (Aeu.toNat a) := by
      simp [show 3 < 32 * n + 2 by omega]
    obtain ⟨r, hr, hr1, -⟩ := C24_get_string_partial cfg kind base upper a (by omega) askii showBase hcap hb1 _
      ht.symm hfit
    rw [hr, ok_bind, cString_of hr1 (by
      intro c hc
      rcases List.mem_append.mp hc with hc | hc
      · split at hc
        · exact prefix_chars _ c hc
        · simp at hc
      · exact numeral_ne_zero _ hb2 hb3 _ c hc), ok_bind]
    refine Sat.ok ⟨?_, ?_⟩
    · exact terminated hr1 hlast (by omega)
    · simp [h0, testPrefix_eq, h1]

theorem text_chars (b : Nat) (hb1 : 1 < b) (hb : b ≤ 16) (u showBase : Bool) (v : Nat) :
    ∀ c ∈ (if showBase then basePrefix b else []) ++ numeral u b v, c ≠ 0 := by
  intro c hc
  rcases List.mem_append.mp hc with hc | hc
  · split at hc
    · exact prefix_chars _ c hc
    · simp at hc
  · exact numeral_ne_zero _ hb1 hb _ c hc

theorem text_short {b : Nat} (hb1 : 2 ≤ b) (u showBase : Bool) {v k : Nat} (hk : 1 ≤ k) (h : v < 2 ^ k) :
    ((if showBase then basePrefix b else []) ++ numeral u b v).length ≤ k + 2 := by
  have := numeral_short u hb1 hk h
  have := basePrefix_len b
  rw [List.length_append]
  split
  · omega
  · simp; omega

theorem numeral_upper10 (u : Bool) (v : Nat) : numeral u 10 v = numeral false 10 v := by
  unfold numeral
  split
  · rfl
  · refine List.map_congr_left fun d hd => ?_
    have := Nat.digits_lt_base (b := 10) (by norm_num) (List.mem_reverse.mp hd)
    simp [digitChar, this]

/-- C97, `getString` of `Aesi`, one iteration on whatever the static buffer holds; `even` is the parity of the
iteration, which gives the draw its sign. The test passes for every nonzero draw; for 0 it needs a notation other
than binary, an even iteration if a prefix is expected, and a terminator left by an earlier iteration. -/
theorem C97_buffer_signed_exact (cfg : Cfg) (kind : CharKind) (hn : 2 ≤ n) (hcap : 32 * n + 2 < 2 ^ 63)
    {base : BitVec 8} (hbase : TestBase base) (upper showBase even : Bool) (askii : Vector Int (32 * n + 2))
    (hlast : askii[32 * n + 1] = 0) {value : Int} (h : DrawnS (32 * n - 32) value)
    (hs : if even then 0 ≤ value else value ≤ 0) :
    Sat (bufferS cfg kind n base upper showBase even askii value) fun r => r.1[32 * n + 1] = 0 ∧
      (r.2 = true ↔ value ≠ 0 ∨ (base ≠ 2#8 ∧ (showBase = true ∧ base ≠ 10#8 → even = true) ∧
        askii[(if showBase then (testPrefix base.toNat).length else 0) + 1]'(by
          have := basePrefix_len base.toNat
          rw [testPrefix_eq]; split <;> omega) = 0)) := by
  obtain ⟨a, ha, ha', hac⟩ := C60_signed (n := n) cfg value (h.fits (by omega))
  obtain ⟨hb1, hb2, hb3⟩ := hbase.ok hn
  have hlt : value.natAbs < 2 ^ (32 * n - 32) := h
  have hpl := basePrefix_len base.toNat
  have hshort := text_short hb2 upper showBase (show 1 ≤ 32 * n - 32 by omega) hlt
  have hchars := text_chars _ hb2 hb3 upper showBase value.natAbs
  unfold bufferS
  rw [ha, ok_bind, digitsText_eq _ _ (by omega), ok_bind, Int.natAbs_natCast]
  by_cases h0 : value = 0
  · subst h0
    have hplen : ((if showBase then basePrefix base.toNat else []) ++ [(48 : Int)]).length ≤ 3 := by
      split <;> simp <;> omega
    obtain ⟨r, hr, hr1, -⟩ := C51_zero cfg kind base upper a hac ha' askii showBase _ rfl (by omega)
    obtain ⟨s, hs, hs1, hs2, hs3⟩ := cString_open hr1 (by simpa [numeral] using hchars) (by omega) hlast
    rw [hr, ok_bind, hs, ok_bind]
    refine Sat.ok ⟨?_, ?_⟩
    · exact (buffer_tail hr1 (by omega) (by omega)).trans hlast
    · simp only [ne_eq, not_true_eq_false, false_or, beq_iff_eq, testPrefix_eq]
      have hidx : (askii[((if showBase then basePrefix base.toNat else []) ++ [(48 : Int)]).length]'(by omega) = 0) ↔
          askii[(if showBase then (basePrefix base.toNat).length else 0) + 1]'(by split <;> omega) = 0 := by
        cases showBase <;> simp
      rw [hidx] at hs1
      have hs2' : ((if showBase then basePrefix base.toNat else []).length + 1) ≤ s.length := by simpa using hs2
      have hs3' : s.take 1 ≠ [45] := by
        intro e
        have hs4 := congrArg (List.take 1) hs3
        rw [List.take_take] at hs4
        simp only [List.length_append, List.length_singleton,
          Nat.min_eq_left (show 1 ≤ (if showBase then basePrefix base.toNat else []).length + 1 by omega)] at hs4
        rw [e] at hs4
        rcases hbase with rfl | rfl | rfl | rfl <;> cases showBase <;> simp [basePrefix] at hs4
      rcases hbase with rfl | rfl | rfl | rfl
      · have : s ≠ (if even then [] else [45]) ++ (if showBase then basePrefix 2 else []) := by
          intro e
          cases even
          · rw [e] at hs3'; simp at hs3'
          · rw [e] at hs2'; simp at hs2'
        simpa [mpzText, testPrefix_eq] using this
      · cases showBase
        · rw [← hs1]; simp [mpzText, numeral]
        · cases even
          · have : s ≠ [45] ++ basePrefix 8 ++ numeral upper 8 0 := by
              intro e; rw [e] at hs3'; simp at hs3'
            simpa [testPrefix_eq] using this
          · simpa [mpzText, numeral, basePrefix] using hs1
      · cases showBase
        · rw [← hs1]; simp [mpzText, numeral]
        · simpa [mpzText, numeral, basePrefix] using hs1
      · cases showBase
        · rw [← hs1]; simp [mpzText, numeral]
        · cases even
          · have : s ≠ [45] ++ basePrefix 16 ++ numeral upper 16 0 := by
              intro e; rw [e] at hs3'; simp at hs3'
            simpa [testPrefix_eq] using this
          · simpa [mpzText, numeral, basePrefix] using hs1
  · have hfit := hshort
    have hch := hchars
    rcases lt_or_gt_of_ne h0 with hneg | hpos
    · have he : even = false := by
        cases even
        · rfl
        · simp at hs; omega
      have ht : (if showBase = true ∧ 4 < 32 * n + 2 then basePrefix base.toNat else []) ++
          numeral upper base.toNat (Aesi.toInt a).natAbs =
          (if showBase then basePrefix base.toNat else []) ++ numeral upper base.toNat value.natAbs := by
        simp [show 4 < 32 * n + 2 by omega, ha']
      obtain ⟨r, hr, hr1, -⟩ := C51_negative cfg kind base upper a (by omega) askii showBase hcap hb1 _
        ht.symm (by omega)
      have hr2 : r.1.toList = ([45] ++ ((if showBase then basePrefix base.toNat else []) ++
        numeral upper base.toNat value.natAbs)) ++ [0] ++ askii.toList.drop (([45] ++ ((if showBase then basePrefix base.toNat else []) ++
        numeral upper base.toNat value.natAbs)).length + 1) := by
        rw [hr1]; simp only [List.length_append, List.length_singleton]; congr 2; omega
      rw [hr, ok_bind, cString_of hr2 (by
        intro c hc
        rcases List.mem_append.mp hc with hc | hc
        · simp at hc; omega
        · exact hch c hc), ok_bind]
      refine Sat.ok ⟨terminated hr2 hlast (by rw [List.length_append]; simp only [List.length_singleton]; omega), ?_⟩
      subst he
      rcases hbase with rfl | rfl | rfl | rfl <;> cases showBase <;>
        simp [mpzText, h0, hneg, basePrefix, testPrefix]
    · have he : even = true := by
        cases even
        · simp at hs; omega
        · rfl
      have ht : (if showBase = true ∧ 3 < 32 * n + 2 then basePrefix base.toNat else []) ++
          numeral upper base.toNat (Aesi.toInt a).natAbs =
          (if showBase then basePrefix base.toNat else []) ++ numeral upper base.toNat value.natAbs := by
        simp [show 3 < 32 * n + 2 by omega, ha']
      obtain ⟨r, hr, hr1, -⟩ := C51_positive_partial cfg kind base upper a (by omega) askii showBase hcap hb1 _
        ht.symm (by omega)
      rw [hr, ok_bind, cString_of hr1 hch, ok_bind]
      refine Sat.ok ⟨terminated hr1 hlast (by omega), ?_⟩
      subst he
      rcases hbase with rfl | rfl | rfl | rfl <;> cases showBase <;>
        simp [mpzText, h0, hpos.not_gt, basePrefix, testPrefix]

private theorem getD_lt {l : List Int} {i : Nat} (h : i < l.length) : l.getD i 0 = l[i] := by
  simp [List.getD, h]

/-- C97, the whole `FormatAskii`/`FormatUtf` test of `Aeu`, any number of iterations on one static buffer: it passes
if no draw is 0 and fails if the draw of a binary iteration is 0. -/
theorem C97_format_unsigned (cfg : Cfg) (kind : CharKind) (hn : 2 ≤ n) (hcap : 32 * n + 2 < 2 ^ 63)
    (draws : List Int) (h : ∀ v ∈ draws, Drawn (32 * n - 32) v) :
    Sat (formatU cfg kind n draws) fun good =>
      ((∀ v ∈ draws, v ≠ 0) → good = true) ∧
      ((∃ i, i < draws.length ∧ i % 5 = 4 ∧ draws.getD i 0 = 0) → good = false) := by
  unfold formatU
  refine Sat.bind (forUp_inv (σ := Vector Int (32 * n + 2) × Bool) (fun i s => s.1[32 * n + 1] = 0 ∧
      ((∀ j, j < i → draws.getD j 0 ≠ 0) → s.2 = true) ∧
      ((∃ j, j < i ∧ j % 5 = 4 ∧ draws.getD j 0 = 0) → s.2 = false)) (by omega)
    ⟨Vector.getElem_replicate .., by simp, by simp⟩ ?_) ?_
  · rintro i ⟨askii, good⟩ - hi ⟨hz, hg, hb⟩
    simp only at hz hg hb
    have hv : Drawn (32 * n - 32) (draws.getD i 0) := by
      rw [getD_lt hi]; exact h _ (List.getElem_mem hi)
    have hbase : TestBase (if i % 5 = 0 then 8 else if i % 5 = 1 then 16 else if i % 5 = 2 then 16
      else if i % 5 = 3 then 10 else 2) := by
      unfold TestBase; split_ifs <;> simp
    obtain ⟨r, hr, hr1, hr2⟩ := C97_buffer_unsigned_exact cfg kind hn hcap hbase (i % 5 == 2) false askii hz hv
    simp only [hr, ok_bind]
    refine Sat.ok ⟨hr1, ?_, ?_⟩
    · intro hall
      show (good && r.2) = true
      rw [hg fun j hj => hall j (by omega), hr2.mpr (Or.inl (hall i (by omega)))]
      rfl
    · rintro ⟨j, hj, hj4, hj0⟩
      show (good && r.2) = false
      by_cases hji : j = i
      · subst hji
        have : r.2 = false := by
          rw [← Bool.not_eq_true, hr2, hj0]
          simp [hj4]
        rw [this, Bool.and_false]
      · rw [hb ⟨j, by omega, hj4, hj0⟩, Bool.false_and]
  · rintro ⟨askii, good⟩ ⟨-, hg, hb⟩
    refine Sat.ok ⟨fun hall => hg fun j hj => ?_, hb⟩
    rw [getD_lt hj]
    exact hall _ (List.getElem_mem hj)

/-- C97, the whole `FormatAskii`/`FormatUtf` test of `Aesi`; the sign of a draw alternates. -/
theorem C97_format_signed (cfg : Cfg) (kind : CharKind) (hn : 2 ≤ n) (hcap : 32 * n + 2 < 2 ^ 63)
    (draws : List Int) (h : ∀ v ∈ draws, Drawn (32 * n - 32) v) :
    Sat (formatS cfg kind n draws) fun good =>
      ((∀ v ∈ draws, v ≠ 0) → good = true) ∧
      ((∃ i, i < draws.length ∧ i % 5 = 4 ∧ draws.getD i 0 = 0) → good = false) := by
  unfold formatS
  refine Sat.bind (forUp_inv (σ := Vector Int (32 * n + 2) × Bool) (fun i s => s.1[32 * n + 1] = 0 ∧
      ((∀ j, j < i → draws.getD j 0 ≠ 0) → s.2 = true) ∧
      ((∃ j, j < i ∧ j % 5 = 4 ∧ draws.getD j 0 = 0) → s.2 = false)) (by omega)
    ⟨Vector.getElem_replicate .., by simp, by simp⟩ ?_) ?_
  · rintro i ⟨askii, good⟩ - hi ⟨hz, hg, hb⟩
    simp only at hz hg hb
    have hv : Drawn (32 * n - 32) (draws.getD i 0) := by
      rw [getD_lt hi]; exact h _ (List.getElem_mem hi)
    have hbase : TestBase (if i % 5 = 0 then 8 else if i % 5 = 1 then 16 else if i % 5 = 2 then 16
      else if i % 5 = 3 then 10 else 2) := by
      unfold TestBase; split_ifs <;> simp
    have hs : if (i % 2 == 0) = true then 0 ≤ (if i % 2 = 0 then (1 : Int) else -1) * draws.getD i 0
        else (if i % 2 = 0 then (1 : Int) else -1) * draws.getD i 0 ≤ 0 := by
      have := hv.1
      by_cases he : i % 2 = 0 <;> simp only [he, beq_iff_eq, if_true, if_false] <;> omega
    have hv' : DrawnS (32 * n - 32) ((if i % 2 = 0 then (1 : Int) else -1) * draws.getD i 0) := by
      have := hv.signed
      unfold DrawnS at this ⊢
      split
      · rwa [one_mul]
      · rwa [neg_one_mul, Int.natAbs_neg]
    obtain ⟨r, hr, hr1, hr2⟩ := C97_buffer_signed_exact cfg kind hn hcap hbase (i % 5 == 2) false (i % 2 == 0) askii hz
      hv' hs
    simp only [hr, ok_bind]
    refine Sat.ok ⟨hr1, ?_, ?_⟩
    · intro hall
      show (good && r.2) = true
      rw [hg fun j hj => hall j (by omega), hr2.mpr (Or.inl (by have := hall i (by omega); split <;> simpa using this))]
      rfl
    · rintro ⟨j, hj, hj4, hj0⟩
      show (good && r.2) = false
      by_cases hji : j = i
      · subst hji
        have : r.2 = false := by
          rw [← Bool.not_eq_true, hr2, hj0]
          simp [hj4]
        rw [this, Bool.and_false]
      · rw [hb ⟨j, by omega, hj4, hj0⟩, Bool.false_and]
  · rintro ⟨askii, good⟩ ⟨-, hg, hb⟩
    refine Sat.ok ⟨fun hall => hg fun j hj => ?_, hb⟩
    rw [getD_lt hj]
    exact hall _ (List.getElem_mem hj)

/-- Draws for which the shipped tests fail: 0 with `showbase` (signed streams), 0 in a binary iteration. -/
theorem C97_flaky : Drawn (32 * 3 - 32) 0 ∧
    streamBaseS lp64 48 3 .hex false true 0 = .ok false ∧
    formatU lp64 .char 3 [1, 2, 3, 4, 0] = .ok false ∧ formatS lp64 .char 3 [1, 2, 3, 4, 0] = .ok false ∧
    formatU lp64 .char 3 [0x123456789, 0, 3, 4, 5] = .ok false ∧
    formatU lp64 .char 3 [0, 2, 3, 4, 5] = .ok true := by
  refine ⟨by unfold Drawn; decide, ?_⟩
  decide +kernel

example : TestBase 16#8 ∧ Drawn (32 * 3 - 32) 0xFEDCBA987654321 ∧
    (∀ v ∈ ([1, 0xFEDCBA987654321, 3, 4, 5] : List Int), Drawn (32 * 3 - 32) v ∧ v ≠ 0) := by
  unfold TestBase Drawn; decide +kernel
example : formatS lp64 .char 3 [1, 0xFEDCBA987654321, 3, 4, 5] = .ok true := by decide +kernel
example : streamU lp64 48 3 .oct true true [48] 0xFEDCBA987654321 = .ok true := by decide +kernel

/-! ### Concrete cases that meet the hypotheses -/

/-- The hypotheses of `C97_stream_unsigned` are met. -/
example := C97_stream_unsigned (n := 3) ⟨false, false, false⟩ (bufSize := 32) (by decide) (by omega) .hex true true []
  (value := 2 ^ 70) (by decide +kernel)

/-- The hypotheses of `C97_stream_signed_exact` are met. -/
example := C97_stream_signed_exact (n := 3) ⟨false, false, false⟩ (bufSize := 32) (by decide) (by omega) .hex
  (value := -2 ^ 70) (by decide)

/-- The hypotheses of `C97_buffer_unsigned_exact` are met. -/
example := C97_buffer_unsigned_exact (n := 3) ⟨false, false, false⟩ .char (by omega) (by omega) (base := 16#8)
  (Or.inr (Or.inr (Or.inr rfl))) true true (Vector.replicate 98 0) (by decide) (value := 2 ^ 60) (by decide +kernel)

/-- The hypotheses of `C97_buffer_signed_exact` are met. -/
example := C97_buffer_signed_exact (n := 3) ⟨false, false, false⟩ .char (by omega) (by omega) (base := 16#8)
  (Or.inr (Or.inr (Or.inr rfl))) true true false (Vector.replicate 98 0) (by decide) (value := -2 ^ 60) (by decide)
  (by decide)

/-- The hypotheses of `C97_format_unsigned` are met. -/
example := C97_format_unsigned (n := 3) ⟨false, false, false⟩ .char (by omega) (by omega) [2 ^ 60, 77, 0]
  (by intro v hv; simp at hv; rcases hv with rfl | rfl | rfl <;> decide +kernel)

end AesiMP
