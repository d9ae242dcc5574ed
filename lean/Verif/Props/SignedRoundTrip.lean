import Verif.Props.Complete

/-!
# C62, C74 for all signed objects: what is printed, and what it reads back as
-/

namespace AesiMP
open Aesi
variable {n m : Nat}

/-- C62 for every object, whatever its sign field and its digits say: a dash for a negative sign field, the prefix for a
sign field other than zero, the digits of the integer it stands for.  Missing: pending width (C62_width_exact), octal
output below 96 bits, decimal output below 64 bits (C35). -/
theorem C62_stream_all_partial (cfg : Cfg) (bufSize : Nat) (hb : Aeu.IsStreamBuf n bufSize) (os : OStream)
    (hw : os.width = 0) (a : Aesi n)
    (hn : (os.basefield = .hex ∧ 1 ≤ n) ∨ (os.basefield = .other ∧ 2 ≤ n) ∨ (os.basefield = .oct ∧ 3 ≤ n)) :
    Sat (Aesi.streamOut cfg bufSize os a) fun r => r.out = os.out ++
      ((if a.sign = .negative then [45] else []) ++
        ((if os.showbase = true ∧ a.sign ≠ .zero then basePrefix (streamRadix os.basefield) else []) ++
        numeral os.uppercase (streamRadix os.basefield) (toInt a).natAbs)) := by
  unfold Aesi.streamOut
  by_cases h0 : a.sign = .zero
  · rw [if_neg (by simp [h0])]
    refine Sat.ok ?_
    have hz : toInt a = 0 := by simp [toInt, h0]
    rw [hz, show (os.putText [48]).out = _ from (Aeu.put_width_zero os hw [48]).1]
    simp [numeral, h0]
  · rw [if_pos h0]
    dsimp only
    by_cases hneg : a.sign = .negative
    · rw [if_pos hneg]
      refine Sat.mono (C35_stream_partial cfg bufSize hb (os.putText [45]) rfl a.base hn) fun r h => ?_
      rw [h, show (os.putText [45]).out = _ from (Aeu.put_width_zero os hw [45]).1]
      have h2 : (toInt a).natAbs = Aeu.toNat a.base := by rw [toInt_neg hneg]; simp
      simp only [hneg, h2, ne_eq, reduceCtorEq, not_false_eq_true, and_true, if_true, List.append_assoc]
      rfl
    · have hpos : a.sign = .positive := by revert h0 hneg; cases a.sign <;> simp
      rw [if_neg hneg]
      refine Sat.mono (C35_stream_partial cfg bufSize hb os hw a.base hn) fun r h => ?_
      have h2 : (toInt a).natAbs = Aeu.toNat a.base := by rw [toInt_pos hpos]; simp
      rw [h]
      simp only [hpos, h2, ne_eq, reduceCtorEq, not_false_eq_true, and_true, if_false, List.nil_append]

private theorem numeral_head_ok {alnum : Int → Bool} (hl : LocaleOk alnum) (u : Bool) {b : Nat} (hb1 : 1 < b)
    (hb2 : b ≤ 16) (v : Nat) : ∀ c ∈ (numeral u b v).head?, 0 ≤ c ∧ c ≤ 255 ∧ alnum c = true := by
  intro c hc
  have hm := List.mem_of_mem_head? hc
  have : asciiAlnum c = true ∧ 0 ≤ c ∧ c ≤ 255 := by
    unfold numeral at hm
    split at hm
    · simp at hm; subst hm; decide
    · simp only [List.mem_map, List.mem_reverse] at hm
      obtain ⟨d, hd, rfl⟩ := hm
      have := Nat.digits_lt_base hb1 hd
      unfold digitChar asciiAlnum
      split
      · simp; omega
      · cases u <;> simp <;> omega
  exact ⟨this.2.1, this.2.2, hl _ this.1⟩

/-- Reading a text that begins with an alphanumeric character and has no dash, after a dash or not. -/
theorem read_signed (kind : CharKind) (alnum : Int → Bool) (hdash : alnum 45 = false) (neg : Prop)
    [Decidable neg] (body : List Int) (hcount : body.count 45 = 0)
    (hh : ∀ c ∈ body.head?, 0 ≤ c ∧ c ≤ 255 ∧ alnum c = true) :
    ∀ text : List Int, text = (if neg then [45] else []) ++ body →
      Sat (Aesi.ofChars kind alnum n ⟨text.toArray, rfl⟩) fun b =>
      toInt b = (if neg then -1 else 1) * ((parsed alnum body % 2 ^ (32 * n) : Nat) : Int) ∧ Canon b := by
  have key : ∀ text : List Int, parsed alnum text = parsed alnum body →
      (∀ p (hp : p < text.length), (∀ j (hj : j < p), alnum text[j] = false) → 0 ≤ text[p] ∧ text[p] ≤ 255) →
      Sat (Aesi.ofChars kind alnum n ⟨text.toArray, rfl⟩) fun b => toInt b =
        (if text.count 45 % 2 = 0 then 1 else -1) * ((parsed alnum body % 2 ^ (32 * n) : Nat) : Int) ∧ Canon b := by
    intro text h1 h2
    rw [← h1]
    cases kind with
    | char => exact C46_narrow_partial alnum text h2
    | wchar => exact C46_wide alnum text
  intro text htext
  by_cases hneg : neg
  · rw [if_pos hneg] at htext ⊢
    subst htext
    refine Sat.mono (key ([45] ++ body) ?_ ?_) fun b hb => ⟨?_, hb.2⟩
    · unfold parsed
      rw [List.singleton_append, List.dropWhile_cons_of_pos (by simp [hdash])]
    · intro p hp hj
      cases p with
      | zero => simp
      | succ p =>
        cases p with
        | zero =>
          rcases body with _ | ⟨c, t⟩
          · simp at hp
          · have := hh c (by simp)
            simpa using ⟨this.1, this.2.1⟩
        | succ p =>
          exfalso
          rcases body with _ | ⟨c, t⟩
          · simp at hp
          · have h1 := hh c (by simp)
            have h2 := hj 1 (by omega)
            simp only [List.singleton_append, List.getElem_cons_succ, List.getElem_cons_zero] at h2
            rw [h1.2.2] at h2
            cases h2
    · rw [hb.1, List.count_append, hcount]; simp
  · rw [if_neg hneg, List.nil_append] at htext
    rw [if_neg hneg]
    rw [htext]
    refine Sat.mono (key body rfl ?_) fun b hb => ⟨?_, hb.2⟩
    · intro p hp hj
      rcases body with _ | ⟨c, t⟩
      · simp at hp
      · have h1 := hh c (by simp)
        cases p with
        | zero => simpa using ⟨h1.1, h1.2.1⟩
        | succ p =>
          exfalso
          have h2 := hj 0 (by omega)
          simp only [List.getElem_cons_zero] at h2
          rw [h1.2.2] at h2
          cases h2
    · rw [hb.1, hcount]; simp

private theorem sign_natAbs (a : Aesi n) :
    (if a.sign = .negative then (-1 : Int) else 1) * ((toInt a).natAbs : Int) = toInt a := by
  obtain ⟨s, b⟩ := a
  cases s <;> simp [toInt]

private theorem natAbs_fits (a : Aesi n) : (toInt a).natAbs < 2 ^ (32 * n) := by
  have := Aeu.toNat_lt a.base
  unfold toInt
  cases a.sign <;> simp <;> omega

/-- C74 for every object and for reading in every precision: what `os << a` writes (decimal; or octal, hexadecimal with
`showbase`; no pending width) makes a number with the sign of `a` and its magnitude reduced to the precision it is read
in, in a locale where the dash is not alphanumeric.  Missing: octal output below 96 bits, decimal output below 64 bits
(C35), output without prefix (C74_hex_iff, C74_oct_iff). -/
theorem C74_round_trip_partial (cfg : Cfg) (bufSize : Nat) (hb : Aeu.IsStreamBuf n bufSize)
    (os : OStream) (hw : os.width = 0) (a : Aesi n)
    (hn : (os.basefield = .hex ∧ os.showbase = true ∧ 1 ≤ n) ∨ (os.basefield = .other ∧ 2 ≤ n) ∨
      (os.basefield = .oct ∧ os.showbase = true ∧ 3 ≤ n))
    (kind : CharKind) (alnum : Int → Bool) (hl : LocaleOk alnum) (hdash : alnum 45 = false) :
    Sat (Aesi.streamOut cfg bufSize os a) fun r => ∃ text, r.out = os.out ++ text ∧
      (∀ m, Sat (Aesi.ofChars kind alnum m ⟨text.toArray, rfl⟩) fun b =>
        toInt b = (toInt a).sign * (((toInt a).natAbs % 2 ^ (32 * m) : Nat) : Int) ∧ Canon b) ∧
      Sat (Aesi.ofChars kind alnum n ⟨text.toArray, rfl⟩) fun b => toInt b = toInt a ∧ Canon b := by
  have hn' : (os.basefield = .hex ∧ 1 ≤ n) ∨ (os.basefield = .other ∧ 2 ≤ n) ∨ (os.basefield = .oct ∧ 3 ≤ n) := by
    rcases hn with h | h | h
    · exact Or.inl ⟨h.1, h.2.2⟩
    · exact Or.inr (Or.inl h)
    · exact Or.inr (Or.inr ⟨h.1, h.2.2⟩)
  refine Sat.mono (C62_stream_all_partial cfg bufSize hb os hw a hn') fun r h => ⟨_, h, ?_⟩
  generalize hbody : (if os.showbase = true ∧ a.sign ≠ .zero then basePrefix (streamRadix os.basefield) else []) ++
    numeral os.uppercase (streamRadix os.basefield) (toInt a).natAbs = body
  have h48 : alnum 48 = true := hl _ (by decide)
  have hzero : a.sign = .zero → toInt a = 0 := fun h => by simp [toInt, h]
  have hval : parsed alnum body = (toInt a).natAbs ∧ body.count 45 = 0 ∧
      ∀ c ∈ body.head?, 0 ≤ c ∧ c ≤ 255 ∧ alnum c = true := by
    have hz : a.sign = .zero → parsed alnum body = (toInt a).natAbs ∧ body.count 45 = 0 ∧
        ∀ c ∈ body.head?, 0 ≤ c ∧ c ≤ 255 ∧ alnum c = true := by
      intro h
      rw [if_neg (by simp [h]), hzero h, List.nil_append] at hbody
      subst hbody
      simp only [Int.natAbs_zero, numeral, if_true, hzero h]
      refine ⟨by simpa [numeral] using parsed_numeral hl false 0, by simp, ?_⟩
      intro c hc; simp at hc; subst hc; exact ⟨by norm_num, by norm_num, h48⟩
    by_cases h0 : a.sign = .zero
    · exact hz h0
    rcases hn with ⟨h1, h2, _⟩ | ⟨h1, _⟩ | ⟨h1, h2, _⟩
    · rw [if_pos ⟨h2, h0⟩, h1] at hbody
      subst hbody
      refine ⟨parsed_prefixed (b := 16) (letter := 120) hl _ _ (by simp), ?_, ?_⟩
      · rw [List.count_append, numeral_no_dash _ (by norm_num [streamRadix])]; decide
      · intro c hc; simp [basePrefix, streamRadix] at hc; subst hc; exact ⟨by norm_num, by norm_num, h48⟩
    · have e : (if os.showbase = true ∧ a.sign ≠ .zero then basePrefix (streamRadix os.basefield) else []) = [] := by
        rw [h1]; simp [basePrefix, streamRadix]
      rw [e, List.nil_append, h1] at hbody
      subst hbody
      exact ⟨parsed_numeral hl _ _, numeral_no_dash _ (by norm_num [streamRadix]) _,
        numeral_head_ok hl _ (by norm_num [streamRadix]) (by norm_num [streamRadix]) _⟩
    · rw [if_pos ⟨h2, h0⟩, h1] at hbody
      subst hbody
      refine ⟨parsed_prefixed (b := 8) (letter := 111) hl _ _ (by simp), ?_, ?_⟩
      · rw [List.count_append, numeral_no_dash _ (by norm_num [streamRadix])]; decide
      · intro c hc; simp [basePrefix, streamRadix] at hc; subst hc; exact ⟨by norm_num, by norm_num, h48⟩
  obtain ⟨hv, hcount, hh⟩ := hval
  have hread := fun m => read_signed (n := m) kind alnum hdash (a.sign = .negative) body hcount hh _ rfl
  simp only [hv] at hread
  refine ⟨fun m => Sat.mono (hread m) fun b hb => ⟨?_, hb.2⟩, Sat.mono (hread n) fun b hb => ⟨?_, hb.2⟩⟩
  · rw [hb.1]
    by_cases h0 : toInt a = 0
    · simp [h0]
    · congr 1
      obtain ⟨s, x⟩ := a
      cases s with
      | zero => exact absurd rfl h0
      | positive =>
        have : (0 : Int) < toInt (⟨.positive, x⟩ : Aesi n) := by simp only [toInt] at h0 ⊢; omega
        rw [Int.sign_eq_one_of_pos this]; rfl
      | negative =>
        have : toInt (⟨.negative, x⟩ : Aesi n) < 0 := by simp only [toInt] at h0 ⊢; omega
        rw [Int.sign_eq_neg_one_of_neg this]; rfl
  · rw [hb.1, Nat.mod_eq_of_lt (natAbs_fits a), sign_natAbs]

/-- The text of an object printed in base `b` without prefix, read back. -/
private theorem read_unprefixed (cfg : Cfg) (bufSize : Nat) (hb : Aeu.IsStreamBuf n bufSize) (os : OStream)
    (hw : os.width = 0) (ho : os.out = []) (hs : os.showbase = false)
    (hn : (os.basefield = .hex ∧ 1 ≤ n) ∨ (os.basefield = .other ∧ 2 ≤ n) ∨ (os.basefield = .oct ∧ 3 ≤ n))
    (a : Aesi n) (kind : CharKind) (alnum : Int → Bool) (hl : LocaleOk alnum) (hdash : alnum 45 = false) :
    Sat (Aesi.streamOut cfg bufSize os a) fun r => ∀ m, Sat (Aesi.ofChars kind alnum m ⟨r.out.toArray, rfl⟩) fun b =>
      toInt b = (if a.sign = .negative then -1 else 1) *
        ((textValue 10 (numeral os.uppercase (streamRadix os.basefield) (toInt a).natAbs) % 2 ^ (32 * m) : Nat) : Int) := by
  have hr : 1 < streamRadix os.basefield ∧ streamRadix os.basefield ≤ 16 := by
    cases os.basefield <;> simp [streamRadix]
  refine Sat.mono (C62_stream_all_partial cfg bufSize hb os hw a hn) fun r h m => ?_
  rw [ho, if_neg (by simp [hs] : ¬ (os.showbase = true ∧ a.sign ≠ .zero)), List.nil_append, List.nil_append] at h
  refine Sat.mono (read_signed (n := m) kind alnum hdash (a.sign = .negative) _ (numeral_no_dash _ hr.1 _)
    (numeral_head_ok hl _ hr.1 hr.2 _) _ h) fun b hb => ?_
  rw [hb.1, parsed_unprefixed hl _ hr.1 hr.2]

/-- C74 without `showbase`, exactly: hexadecimal output reads back as the number exactly for magnitudes below 10. -/
theorem C74_hex_iff (cfg : Cfg) (bufSize : Nat) (hb : Aeu.IsStreamBuf n bufSize) (os : OStream)
    (hw : os.width = 0) (ho : os.out = []) (hbf : os.basefield = .hex) (hs : os.showbase = false)
    (hn : 1 ≤ n) (a : Aesi n) (kind : CharKind) (alnum : Int → Bool) (hl : LocaleOk alnum) (hdash : alnum 45 = false) :
    Sat (Aesi.streamOut cfg bufSize os a) fun r => Sat (Aesi.ofChars kind alnum n ⟨r.out.toArray, rfl⟩) fun b =>
      (toInt b = toInt a ↔ (toInt a).natAbs < 10) := by
  refine Sat.mono (read_unprefixed cfg bufSize hb os hw ho hs (Or.inl ⟨hbf, hn⟩) a kind alnum hl hdash) fun r h => ?_
  refine Sat.mono (h n) fun b hb => ?_
  rw [hbf, show streamRadix .hex = 16 from rfl] at hb
  have hh := hex_as_decimal os.uppercase (toInt a).natAbs
  rw [Nat.mod_eq_of_lt (Nat.lt_of_le_of_lt hh.1 (natAbs_fits a))] at hb
  rw [hb, ← hh.2]
  have := sign_natAbs a
  constructor
  · intro h
    split at h <;> split at this <;> omega
  · intro h; rw [h]; exact this

/-- C74 without `showbase`, exactly: the number octal output denotes when read is of greater magnitude from 8 on. -/
theorem C74_oct_iff (cfg : Cfg) (bufSize : Nat) (hb : Aeu.IsStreamBuf n bufSize) (os : OStream)
    (hw : os.width = 0) (ho : os.out = []) (hbf : os.basefield = .oct) (hs : os.showbase = false)
    (hn : 3 ≤ n) (a : Aesi n) (kind : CharKind) (alnum : Int → Bool) (hl : LocaleOk alnum) (hdash : alnum 45 = false) :
    Sat (Aesi.streamOut cfg bufSize os a) fun r => ∃ v : Nat,
      (∀ m, Sat (Aesi.ofChars kind alnum m ⟨r.out.toArray, rfl⟩) fun b =>
        toInt b = (if a.sign = .negative then -1 else 1) * ((v % 2 ^ (32 * m) : Nat) : Int)) ∧
      (toInt a).natAbs ≤ v ∧ (v = (toInt a).natAbs ↔ (toInt a).natAbs < 8) := by
  refine Sat.mono (read_unprefixed cfg bufSize hb os hw ho hs (Or.inr (Or.inr ⟨hbf, hn⟩)) a kind alnum hl hdash)
    fun r h => ?_
  rw [hbf, show streamRadix .oct = 8 from rfl] at h
  exact ⟨_, h, oct_as_decimal os.uppercase (toInt a).natAbs⟩

/-- C74: -16 printed in hexadecimal is "-10", which reads as -10. -/
theorem C74_counterexample :
    (Aesi.streamOut ⟨false, false, false⟩ 21 (freshStream .hex 0) (ofInt 2 (-16))).map (·.out) = .ok [45, 49, 48] ∧
    Aesi.ofChars .char asciiAlnum 2 #v[45, 49, 48] = .ok (ofInt 2 (-10)) := by decide +kernel

/-! ### Cases -/

/-- The hypotheses of `C74_round_trip_partial` are met by a zero with a negative sign field. -/
example := C74_round_trip_partial (n := 3) ⟨false, false, false⟩ 32 (by decide)
  ⟨.oct, true, false, .right, 32, 0, []⟩ rfl ⟨.negative, Aeu.ofNat 3 0⟩ (by decide) .char asciiAlnum
  (fun _ h => h) (by decide)

/-- The hypotheses of `C74_hex_iff` are met. -/
example := C74_hex_iff (n := 2) ⟨false, false, false⟩ 21 (by decide) (freshStream .hex 0) rfl rfl rfl rfl (by decide)
  (ofInt 2 (-16)) .char asciiAlnum (fun _ h => h) (by decide)

/-- The hypotheses of `C74_oct_iff` are met. -/
example := C74_oct_iff (n := 3) ⟨false, false, false⟩ 32 (by decide) (freshStream .oct 0) rfl rfl rfl rfl (by decide)
  (ofInt 3 (-2 ^ 70)) .char asciiAlnum (fun _ h => h) (by decide)

end AesiMP
