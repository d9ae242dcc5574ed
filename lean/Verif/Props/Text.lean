import Verif.Lemmas.Stream

/-!
# Properties C23–C25, C35, C61: text

Characters are codes.  `numeral`, `basePrefix`, `parsed` are defined in `Verif/SpecText.lean` from
`Nat.digits` alone.
-/

namespace AesiMP
open Aeu
variable {n m cap : Nat}

/-- A locale in which the ASCII letters and digits are alphanumeric. -/
def LocaleOk (alnum : Int → Bool) : Prop := ∀ c, asciiAlnum c = true → alnum c = true

/-! ### C23 -/

/-- C23, `wchar_t` text: every character sequence, every locale. -/
theorem C23_wide (alnum : Int → Bool) (text : List Int) :
    Returns (ofChars .wchar alnum n ⟨text.toArray, rfl⟩) (parsed alnum text % 2 ^ (32 * n)) := by
  simpa using ofChars_spec (n := n) .wchar alnum ⟨text.toArray, rfl⟩ fun _ _ _ => Or.inl rfl

/-- C23, `char` text.  Missing: texts in which a negative `char` precedes the first alphanumeric
character (see `C23_negative_char_counterexample`). -/
theorem C23_narrow_partial (alnum : Int → Bool) (text : List Int)
    (hdom : ∀ p (hp : p < text.length), (∀ j (hj : j < p), alnum text[j] = false) →
      0 ≤ text[p] ∧ text[p] ≤ 255) :
    Returns (ofChars .char alnum n ⟨text.toArray, rfl⟩) (parsed alnum text % 2 ^ (32 * n)) := by
  have := ofChars_spec (n := n) .char alnum ⟨text.toArray, rfl⟩ fun p hp h => by
    have := hdom p hp (by simpa using h)
    exact Or.inr (Or.inr (by simpa using this))
  simpa using this

/-- C23 is false for `char` text in general: `isalnum` of a negative `char` (here `'\x80'` as a
signed `char`) is undefined. -/
theorem C23_negative_char_counterexample :
    ofChars .char asciiAlnum 2 #v[-128, 49] = .error .ctypeDomain := by decide +kernel

/-- The text after a skipped prefix. -/
theorem parsed_numeral {alnum : Int → Bool} (hl : LocaleOk alnum) (u : Bool) (v : Nat) :
    parsed alnum (numeral u 10 v) = v := by
  obtain ⟨d, rest, h, hd, hz⟩ := numeral_head u (b := 10) (by norm_num) v
  have hc : digitChar u d = 48 + d := by simp [digitChar, hd]
  have ha : alnum (digitChar u d) = true := hl _ (by rw [hc]; simp [asciiAlnum]; omega)
  have ht := textValue_numeral u (b := 10) (by norm_num) (by norm_num) v
  unfold parsed
  rw [h] at ht ⊢
  rw [List.dropWhile_cons_of_neg (by simp [ha])]
  have hs : splitBase (digitChar u d :: rest) = (10, digitChar u d :: rest) := by
    by_cases h0 : v = 0
    · subst h0
      simp [numeral] at h
      rw [← h.1, h.2]; rfl
    · have := hz h0
      unfold splitBase
      split
      · rename_i hh
        have := (List.cons.inj hh).1
        omega
      · rfl
  simp only [hs, ht]

theorem parsed_prefixed {alnum : Int → Bool} (hl : LocaleOk alnum) (u : Bool) (v : Nat) {b : Nat}
    {letter : Int} (hb : (b = 2 ∧ (letter = 98 ∨ letter = 66)) ∨ (b = 8 ∧ (letter = 111 ∨ letter = 79)) ∨
      (b = 16 ∧ (letter = 120 ∨ letter = 88))) :
    parsed alnum ([48, letter] ++ numeral u b v) = v := by
  have ht := textValue_numeral u (b := b) (by omega) (by omega) v
  unfold parsed
  have ha : alnum 48 = true := hl _ (by decide)
  rw [show [48, letter] ++ numeral u b v = 48 :: letter :: numeral u b v from rfl,
    List.dropWhile_cons_of_neg (by simp [ha])]
  have hs : splitBase (48 :: letter :: numeral u b v) = (b, numeral u b v) := by
    unfold splitBase
    rcases hb with ⟨rfl, h | h⟩ | ⟨rfl, h | h⟩ | ⟨rfl, h | h⟩ <;> subst h <;> simp
  simp only [hs, ht]

theorem ofChars_ascii (kind : CharKind) (alnum : Int → Bool) (text : List Int)
    (h : ∀ c ∈ text.head?, 0 ≤ c ∧ c ≤ 255 ∧ alnum c = true) :
    Returns (ofChars kind alnum n ⟨text.toArray, rfl⟩) (parsed alnum text % 2 ^ (32 * n)) := by
  have := ofChars_spec (n := n) kind alnum ⟨text.toArray, rfl⟩ fun p hp hj => by
    cases text with
    | nil => simp at hp
    | cons c t =>
      have hc := h c (by simp)
      cases p with
      | zero => exact Or.inr (Or.inr (by simpa using ⟨hc.1, hc.2.1⟩))
      | succ p =>
        have := hj 0 (by omega)
        simp [hc.2.2] at this
  simpa using this

/-- C23: a canonical decimal numeral of any `v`, in either character type, constructs
`v mod 2^bitness`. -/
theorem C23_decimal (kind : CharKind) (alnum : Int → Bool) (hl : LocaleOk alnum) (v : Nat) :
    Returns (ofChars kind alnum n ⟨(numeral false 10 v).toArray, rfl⟩) (v % 2 ^ (32 * n)) := by
  have := ofChars_ascii (n := n) kind alnum (numeral false 10 v) fun c hc => by
    obtain ⟨d, rest, h, hd, _⟩ := numeral_head false (b := 10) (by norm_num) v
    rw [h] at hc
    simp only [List.head?_cons, Option.mem_def, Option.some.injEq] at hc
    subst hc
    have e : digitChar false d = 48 + d := by simp [digitChar, hd]
    refine ⟨by omega, by omega, hl _ ?_⟩
    rw [e]; simp [asciiAlnum]; omega
  rwa [parsed_numeral hl] at this

/-- C23: a prefixed numeral in base 2, 8 or 16, prefix letter and hexadecimal digits in either case,
either character type. -/
theorem C23_prefixed (kind : CharKind) (alnum : Int → Bool) (hl : LocaleOk alnum) (upper : Bool)
    (b : Nat) (letter : Int) (hb : (b = 2 ∧ (letter = 98 ∨ letter = 66)) ∨
      (b = 8 ∧ (letter = 111 ∨ letter = 79)) ∨ (b = 16 ∧ (letter = 120 ∨ letter = 88))) (v : Nat) :
    Returns (ofChars kind alnum n ⟨([48, letter] ++ numeral upper b v).toArray, rfl⟩)
      (v % 2 ^ (32 * n)) := by
  have := ofChars_ascii (n := n) kind alnum ([48, letter] ++ numeral upper b v) fun c hc => by
    simp only [List.cons_append, List.head?_cons, Option.mem_def, Option.some.injEq] at hc
    subst hc
    exact ⟨by norm_num, by norm_num, hl _ (by decide)⟩
  rwa [parsed_prefixed hl upper v hb] at this

example : LocaleOk asciiAlnum := fun _ h => h
-- "  -0xFf_1g" : skips " -", prefix, ignores '_' and 'g'
example : ofChars .char asciiAlnum 2 #v[32, 45, 48, 120, 70, 102, 95, 49, 103] =
    .ok (ofNat 2 0xFF1) := by decide +kernel
example : ofChars .char asciiAlnum 2 #v[49, 56, 52, 52, 54, 55, 52, 52, 48, 55, 51, 55, 48, 57, 53, 53,
    49, 54, 49, 57] = .ok (ofNat 2 3) := by decide +kernel  -- 2^64 + 3
example : parsed asciiAlnum [48, 111, 49, 57, 55] = 15 := by decide +kernel

/-! ### C24 -/

/-- C24: for a non-zero number and a buffer with room for the text and its terminator, `getString`
writes prefix, canonical numeral and terminator, leaves the rest of the buffer alone and returns the
number of characters written (terminator included).  Missing: bases other than 16 in one-block
numbers (see `C24_one_block_counterexample`). -/
theorem C24_get_string_partial (cfg : Cfg) (kind : CharKind) (base : BitVec 8) (upper : Bool) (a : Aeu n)
    (ha : toNat a ≠ 0) (buffer : Vector Int cap) (showBase : Bool) (hcap : cap < 2 ^ 63)
    (hbase : (2 ≤ base.toNat ∧ base.toNat ≤ 10 ∧ 2 ≤ n) ∨ (base.toNat = 16 ∧ 0 < n)) (text : List Int)
    (htext : text = (if showBase ∧ 3 < cap then basePrefix base.toNat else []) ++
      numeral upper base.toNat (toNat a))
    (hfit : text.length < cap) :
    Sat (getString cfg kind base upper a buffer showBase) fun r =>
      r.1.toList = text ++ [0] ++ buffer.toList.drop (text.length + 1) ∧ r.2 = text.length + 1 :=
  Sat.mono (getString_fits cfg kind base upper a ha buffer showBase hcap hbase text htext hfit)
    fun _ h => ⟨h.2, h.1⟩

/-- C24: zero (any precision, any base); no terminator is written, and the count has none. -/
theorem C24_get_string_zero (cfg : Cfg) (kind : CharKind) (base : BitVec 8) (upper : Bool) (a : Aeu n)
    (ha : toNat a = 0) (buffer : Vector Int cap) (showBase : Bool) (hc : 2 ≤ cap) (text : List Int)
    (htext : text = (if showBase ∧ 3 < cap then basePrefix base.toNat else []) ++ [48]) :
    Sat (getString cfg kind base upper a buffer showBase) fun r =>
      r.1.toList = text ++ buffer.toList.drop text.length ∧ r.2 = text.length :=
  Sat.mono (getString_zero cfg kind base upper a ha buffer showBase hc text htext)
    fun _ h => ⟨h.2, h.1⟩

/-- C24, round trip: the text `getString` writes, given to the string constructor, yields the number
again (base 10, or base 2, 8, 16 with the prefix); the constructed object may have another
precision. -/
theorem C24_round_trip_partial (cfg : Cfg) (kind : CharKind) (alnum : Int → Bool) (hl : LocaleOk alnum)
    (base : BitVec 8) (upper : Bool) (a : Aeu n) (ha : toNat a ≠ 0) (buffer : Vector Int cap)
    (showBase : Bool) (hcap : cap < 2 ^ 63)
    (hbase : (base.toNat = 10 ∧ 2 ≤ n) ∨
      (showBase = true ∧ 3 < cap ∧ ((base.toNat = 2 ∨ base.toNat = 8) ∧ 2 ≤ n ∨ base.toNat = 16 ∧ 0 < n)))
    (hfit : (numeral upper base.toNat (toNat a)).length + 2 < cap) :
    Sat (getString cfg kind base upper a buffer showBase) fun r => 0 < r.2 ∧ r.2 ≤ cap ∧
      Returns (ofChars kind alnum m ⟨(r.1.toList.take (r.2 - 1)).toArray, rfl⟩)
        (toNat a % 2 ^ (32 * m)) := by
  have hb : (2 ≤ base.toNat ∧ base.toNat ≤ 10 ∧ 2 ≤ n) ∨ (base.toNat = 16 ∧ 0 < n) := by omega
  have hplen : ((if showBase ∧ 3 < cap then basePrefix base.toNat else []) : List Int).length ≤ 2 := by
    split <;> simp [basePrefix]; split_ifs <;> simp
  refine Sat.mono (C24_get_string_partial cfg kind base upper a ha buffer showBase hcap hb _ rfl
    (by rw [List.length_append]; omega)) ?_
  rintro ⟨buf, cnt⟩ ⟨h1, h2⟩
  simp only at h1 h2 ⊢
  refine ⟨by omega, by rw [h2, List.length_append]; omega, ?_⟩
  have ht : buf.toList.take (cnt - 1) = (if showBase ∧ 3 < cap then basePrefix base.toNat else []) ++
      numeral upper base.toNat (toNat a) := by
    rw [h1, h2, Nat.add_sub_cancel, List.append_assoc, List.take_left]
  rw [ht]
  rcases hbase with ⟨h10, _⟩ | ⟨hs, hc, hb'⟩
  · have : (if showBase ∧ 3 < cap then basePrefix base.toNat else []) = [] := by
      rw [h10]; simp [basePrefix]
    rw [this, h10, List.nil_append]
    have := ofChars_ascii (n := m) kind alnum (numeral upper 10 (toNat a)) fun c hc => by
      obtain ⟨d, rest, h, hd, _⟩ := numeral_head upper (b := 10) (by norm_num) (toNat a)
      rw [h] at hc
      simp only [List.head?_cons, Option.mem_def, Option.some.injEq] at hc
      subst hc
      have e : digitChar upper d = 48 + d := by simp [digitChar, hd]
      refine ⟨by omega, by omega, hl _ ?_⟩
      rw [e]; simp [asciiAlnum]; omega
    rwa [parsed_numeral hl] at this
  · rw [if_pos ⟨hs, hc⟩]
    rcases hb' with ⟨h | h, _⟩ | ⟨h, _⟩
    · rw [h]; exact C23_prefixed kind alnum hl upper 2 98 (by simp) (toNat a)
    · rw [h]; exact C23_prefixed kind alnum hl upper 8 111 (by simp) (toNat a)
    · rw [h]; exact C23_prefixed kind alnum hl upper 16 120 (by simp) (toNat a)

example : getString ⟨false, false, false⟩ .char 10#8 false (ofNat 2 (2 ^ 32 + 5)) (Vector.replicate 14 1)
    true = .ok (#v[52, 50, 57, 52, 57, 54, 55, 51, 48, 49, 0, 1, 1, 1], 11) := by decide +kernel
example : getString ⟨false, false, false⟩ .char 16#8 true (ofNat 2 (0xAB * 2 ^ 32 + 0xF))
    (Vector.replicate 14 1) true =
    .ok (#v[48, 120, 65, 66, 48, 48, 48, 48, 48, 48, 48, 70, 0, 1], 13) := by decide +kernel
example : getString ⟨false, false, false⟩ .char 2#8 true (ofNat 2 0) (Vector.replicate 4 1) true =
    .ok (#v[48, 98, 48, 1], 3) := by decide +kernel

/-- C24 is false for one-block numbers in decimal: extracting a digit reads beyond the object. -/
theorem C24_one_block_counterexample :
    getString ⟨false, false, false⟩ .char 10#8 false (ofNat 1 7) (Vector.replicate 20 0) false =
      .error .outOfBounds := by decide +kernel

/-! ### C25 -/

/-- C25: the writes stay inside the buffer (whose size is that of the model's vector) whenever the
buffer is shorter than two characters, or the number is zero, or the text *and its terminator*
fit.  Missing: shorter buffers, see `C25_overrun`. -/
theorem C25_in_bounds_partial (cfg : Cfg) (kind : CharKind) (base : BitVec 8) (upper : Bool) (a : Aeu n)
    (buffer : Vector Int cap) (showBase : Bool) (hcap : cap < 2 ^ 63)
    (hbase : (2 ≤ base.toNat ∧ base.toNat ≤ 10 ∧ 2 ≤ n) ∨ (base.toNat = 16 ∧ 0 < n))
    (h : cap < 2 ∨ toNat a = 0 ∨
      ((if showBase ∧ 3 < cap then basePrefix base.toNat else []) ++
        numeral upper base.toNat (toNat a)).length < cap) :
    ∃ r, getString cfg kind base upper a buffer showBase = .ok r := by
  by_cases h2 : cap < 2
  · exact ⟨(buffer, 0), by rw [getString, if_pos h2]⟩
  by_cases h0 : toNat a = 0
  · obtain ⟨r, hr, _⟩ := getString_zero cfg kind base upper a h0 buffer showBase (by omega) _ rfl
    exact ⟨r, hr⟩
  · obtain ⟨r, hr, _⟩ := getString_fits cfg kind base upper a h0 buffer showBase hcap hbase _ rfl
      (by simpa [h2, h0, prefixFor] using h)
    exact ⟨r, hr⟩

/-- C25 fails in all other cases (`char`): `getString` writes outside the buffer. -/
theorem C25_overrun (cfg : Cfg) (base : BitVec 8) (upper : Bool) (a : Aeu n)
    (buffer : Vector Int cap) (showBase : Bool) (hcap : cap < 2 ^ 63)
    (hbase : (2 ≤ base.toNat ∧ base.toNat ≤ 10 ∧ 2 ≤ n) ∨ (base.toNat = 16 ∧ 0 < n))
    (hc : 2 ≤ cap) (h0 : toNat a ≠ 0)
    (h : cap ≤ ((if showBase ∧ 3 < cap then basePrefix base.toNat else []) ++
        numeral upper base.toNat (toNat a)).length) :
    getString cfg .char base upper a buffer showBase = .error .outOfBounds :=
  getString_overruns cfg base upper a h0 buffer showBase hc hcap hbase
    (by simpa [prefixFor] using h)

/-- C25 is false: `char buf[4]; a.getString<10>(buf, 4)` for `a = 1234` writes `buf[4]`. -/
theorem C25_counterexample :
    getString ⟨false, false, false⟩ .char 10#8 false (ofNat 2 1234) (Vector.replicate 4 0) false =
      .error .outOfBounds := by decide +kernel

/-! ### C35 -/

/-- The radix the stream's `basefield` selects. -/
def streamRadix : BaseField → Nat
  | .hex => 16 | .oct => 8 | .other => 10

theorem streamPrefix_eq (os : OStream) :
    streamPrefix os = if os.showbase then basePrefix (streamRadix os.basefield) else [] := by
  unfold streamPrefix
  cases os.basefield <;> cases os.showbase <;> simp [basePrefix, streamRadix]

/-- The digit buffer of `operator<<` is long enough from 96 bits on (octal), 64 bits on (decimal). -/
theorem digits_fit {bufSize : Nat} (hb : IsStreamBuf n bufSize) (a : Aeu n) :
    (3 ≤ n → (Nat.digits 8 (toNat a)).length ≤ bufSize) ∧
    (2 ≤ n → (Nat.digits 10 (toNat a)).length ≤ bufSize) := by
  have hlt := toNat_lt a
  have h3 : 3 ≤ n → 32 * n ≤ 3 * bufSize := by
    intro h
    unfold IsStreamBuf at hb
    by_cases h6 : n < 6
    · interval_cases n <;> omega
    · omega
  have h8 : (8 : Nat) ^ bufSize = 2 ^ (3 * bufSize) := by rw [Nat.pow_mul]
  constructor
  · intro h
    rw [Nat.digits_length_le_iff (by norm_num), h8]
    exact Nat.lt_of_lt_of_le hlt (Nat.pow_le_pow_right (by norm_num) (h3 h))
  · intro h
    rw [Nat.digits_length_le_iff (by norm_num)]
    by_cases h2 : n = 2
    · subst h2
      have : bufSize = 21 := by unfold IsStreamBuf at hb; omega
      subst this
      exact Nat.lt_of_lt_of_le hlt (by norm_num)
    · refine Nat.lt_of_lt_of_le hlt (Nat.le_trans (Nat.pow_le_pow_right (by norm_num) (h3 (by omega))) ?_)
      rw [← h8]
      exact Nat.pow_le_pow_left (by norm_num) _

/-- C35: `os << a` appends prefix and canonical numeral and nothing else, when no field width is
set.  Missing: a pending `setw`, octal output of 32- and 64-bit numbers and decimal output of 32-bit
numbers (see the counterexamples). -/
theorem C35_stream_partial (cfg : Cfg) (bufSize : Nat) (hb : IsStreamBuf n bufSize) (os : OStream)
    (hw : os.width = 0) (a : Aeu n)
    (hn : (os.basefield = .hex ∧ 1 ≤ n) ∨ (os.basefield = .other ∧ 2 ≤ n) ∨
      (os.basefield = .oct ∧ 3 ≤ n)) :
    Sat (streamOut cfg bufSize os a) fun r => r.out = os.out ++
      ((if os.showbase then basePrefix (streamRadix os.basefield) else []) ++
        numeral os.uppercase (streamRadix os.basefield) (toNat a)) := by
  rw [← streamPrefix_eq, ← List.append_assoc]
  by_cases h0 : toNat a = 0
  · refine Sat.mono (streamOut_zero cfg bufSize os hw a h0) fun r h => ?_
    rw [h.1, h0]; simp [numeral]
  · by_cases hbf : os.basefield = .hex
    · refine Sat.mono (streamOut_hex cfg bufSize os hw hbf (by rcases hn with h | h | h <;> omega) a h0)
        fun r h => ?_
      rw [h.1, hbf]; rfl
    · have hrad : streamRadix os.basefield = os.basefield.radix := by cases os.basefield <;> rfl
      have h2 : 2 ≤ n := by
        rcases hn with ⟨h, _⟩ | h | h
        · exact absurd h hbf
        · exact h.2
        · omega
      refine Sat.mono (streamOut_digits cfg bufSize os hw hbf h2 a h0) fun r h => ?_
      have hlen : (Nat.digits os.basefield.radix (toNat a)).length ≤ bufSize := by
        rcases hn with ⟨h, _⟩ | ⟨h, _⟩ | ⟨h, h3⟩
        · exact absurd h hbf
        · rw [h]; exact (digits_fit hb a).2 h2
        · rw [h]; exact (digits_fit hb a).1 h3
      have hr10 : 1 < os.basefield.radix ∧ os.basefield.radix ≤ 10 := by
        cases h : os.basefield with
        | hex => exact absurd h hbf
        | oct => decide
        | other => decide
      rw [h.2, hrad, numeral_eq_lowDigits _ hr10.1 hr10.2 _ h0, Nat.min_eq_left hlen]

/-- C35 for octal output of 64-bit numbers: right exactly below `2^63`; from there on the leading
digit is lost. -/
theorem C35_octal64 (cfg : Cfg) (bufSize : Nat) (hb : IsStreamBuf 2 bufSize) (os : OStream)
    (hw : os.width = 0) (hbf : os.basefield = .oct) (a : Aeu 2) :
    Sat (streamOut cfg bufSize os a) fun r =>
      (r.out = os.out ++ ((if os.showbase then basePrefix 8 else []) ++ numeral os.uppercase 8 (toNat a))
        ↔ toNat a < 2 ^ 63) := by
  have hbs : bufSize = 21 := by unfold IsStreamBuf at hb; omega
  subst hbs
  have hp := streamPrefix_eq os
  rw [hbf] at hp
  simp only [streamRadix] at hp
  rw [← hp]
  by_cases h0 : toNat a = 0
  · refine Sat.mono (streamOut_zero cfg 21 os hw a h0) fun r h => ?_
    rw [h.1, h0]; simp [numeral]
  · refine Sat.mono (streamOut_digits cfg 21 os hw (by simp [hbf]) (le_refl 2) a h0) fun r h => ?_
    rw [h.2, hbf, ← List.append_assoc, numeral_eq_lowDigits _ (by norm_num) (by norm_num) _ h0]
    have hiff := Nat.digits_length_le_iff (b := 8) (by norm_num) (toNat a) (k := 21)
    simp only [BaseField.radix]
    rw [List.append_cancel_left_eq]
    constructor
    · intro he
      have := congrArg List.length he
      simp only [List.length_reverse, lowDigits_length] at this
      have := hiff.mp (by omega)
      simpa using this
    · intro hlt
      rw [Nat.min_eq_left (hiff.mpr (by simpa using hlt))]

/-- A fresh stream with the given base and width. -/
def freshStream (bf : BaseField) (width : Nat) : OStream :=
  { basefield := bf, showbase := false, uppercase := false, adjust := .unset, fill := 32,
    width := width, out := [] }

example : IsStreamBuf 2 21 ∧ IsStreamBuf 1 10 ∧ IsStreamBuf 3 32 ∧ IsStreamBuf 4 43 := by decide +kernel
example : (streamOut ⟨false, false, false⟩ 21 (freshStream .other 0) (ofNat 2 (2 ^ 40))).map (·.out) =
    .ok [49, 48, 57, 57, 53, 49, 49, 54, 50, 55, 55, 55, 54] := by decide +kernel
example : (streamOut ⟨false, false, false⟩ 32 { freshStream .hex 0 with showbase := true, uppercase := true }
    (ofNat 3 0xB0000000A)).map (·.out) =
    .ok [48, 120, 66, 48, 48, 48, 48, 48, 48, 48, 65] := by decide +kernel

/-- C35 is false for octal output of a 64-bit number: `2^63` prints as twenty-one zeros. -/
theorem C35_octal_counterexample :
    (streamOut ⟨false, false, false⟩ 21 (freshStream .oct 0) (ofNat 2 (2 ^ 63))).map (·.out) =
      .ok (List.replicate 21 48) := by decide +kernel

/-- C35 is false for decimal output of a 32-bit number: a read beyond the object. -/
theorem C35_one_block_counterexample :
    streamOut ⟨false, false, false⟩ 10 (freshStream .other 0) (ofNat 1 7) = .error .outOfBounds := by
  decide +kernel

/-- C35 with a pending `setw(4)`, left adjusted: `15` prints as `1   5`: the padding lands between
the digits. -/
theorem C35_width_counterexample :
    (streamOut ⟨false, false, false⟩ 21 { freshStream .other 4 with adjust := .left } (ofNat 2 15)).map
      (·.out) = .ok [49, 32, 32, 32, 53] := by decide +kernel

/-! ### C61 -/

/-- Same formatting flags (everything but the pending width and the text). -/
def SameFlags (os r : OStream) : Prop :=
  r.basefield = os.basefield ∧ r.showbase = os.showbase ∧ r.uppercase = os.uppercase ∧
    r.adjust = os.adjust ∧ r.fill = os.fill

theorem put_same (os os' : OStream) (h : SameFlags os os') (t : List Int) :
    SameFlags os (os'.putText t) := h

theorem forDown_pres {σ : Type} (I : σ → Prop) (body : Nat → σ → Exec σ)
    (hstep : ∀ i s s', I s → body i s = .ok s' → I s') (hi lo : Nat) (s r : σ) (h0 : I s)
    (h : forDown hi lo s body = .ok r) : I r := by
  unfold forDown at h
  generalize hi - lo = k at h
  induction k generalizing s with
  | zero => cases h; exact h0
  | succ k ih =>
    unfold forDownN at h
    cases hb : body (lo + k) s with
    | error e => rw [hb] at h; cases h
    | ok s' => rw [hb] at h; exact ih s' (hstep _ _ _ h0 hb) h

theorem streamDigits_flags (cfg : Cfg) (bufSize : Nat) (base : BitVec 32) (os r : OStream) (a : Aeu n)
    (h : streamDigits cfg bufSize base os a = .ok r) : SameFlags os r := by
  unfold streamDigits at h
  revert h
  generalize whileC (bufSize + 1) (a, Vector.replicate bufSize (0 : Int), 0) _ = w
  cases w with
  | error e => intro h; cases h
  | ok st =>
    intro h
    refine forDown_pres (SameFlags os) _ ?_ st.2 0 os r ⟨rfl, rfl, rfl, rfl, rfl⟩ h
    intro i s s' hs hb
    cases hr : rd st.1 i with
    | error e => rw [hr] at hb; cases hb
    | ok c => rw [hr] at hb; cases hb; exact put_same os s hs _

/-- C61: printing in decimal leaves all formatting flags of the stream as they were, for every
number, precision, flag state and width.  Missing: octal and hexadecimal output, where they are
changed as stated by `C61_octal_flags` and `C61_hex_flags`. -/
theorem C61_decimal_flags_partial (cfg : Cfg) (bufSize : Nat) (os r : OStream) (a : Aeu n)
    (hbf : os.basefield = .other) (h : streamOut cfg bufSize os a = .ok r) : SameFlags os r := by
  have hhead : streamHead os = os := by simp [streamHead, hbf, streamBase]
  unfold streamOut at h
  rw [hhead, hbf, isZero_spec] at h
  simp only [ok_bind] at h
  split at h
  · cases h; exact ⟨rfl, rfl, rfl, rfl, rfl⟩
  · rw [if_neg (by decide)] at h
    exact streamDigits_flags _ _ _ _ _ _ h

/-- C61, octal: `showbase` is switched off, nothing else changes. -/
theorem C61_octal_flags (cfg : Cfg) (bufSize : Nat) (os r : OStream) (a : Aeu n)
    (hbf : os.basefield = .oct) (h : streamOut cfg bufSize os a = .ok r) :
    SameFlags { os with showbase := false } r := by
  have hhead : SameFlags { os with showbase := false } (streamHead os) := by
    unfold streamHead
    cases hs : os.showbase with
    | false => simp [SameFlags, hs]
    | true => rw [if_pos (by simp [streamBase, hbf])]; exact ⟨rfl, rfl, rfl, rfl, rfl⟩
  unfold streamOut at h
  rw [isZero_spec] at h
  generalize streamHead os = os1 at h hhead
  rw [hbf] at h
  simp only [ok_bind] at h
  split at h
  · cases h; exact hhead
  · rw [if_neg (by decide)] at h
    obtain ⟨h1, h2, h3, h4, h5⟩ := streamDigits_flags _ _ _ _ _ _ h
    obtain ⟨g1, g2, g3, g4, g5⟩ := hhead
    exact ⟨h1.trans g1, h2.trans g2, h3.trans g3, h4.trans g4, h5.trans g5⟩

/-- C61, hexadecimal: `showbase` is switched off, and from `2^32` on the stream is left right-adjusted
with fill character `'0'`; nothing else changes. -/
theorem C61_hex_flags (cfg : Cfg) (bufSize : Nat) (hn : 0 < n) (os : OStream) (a : Aeu n)
    (hbf : os.basefield = .hex) : Sat (streamOut cfg bufSize os a) fun r =>
    SameFlags (if toNat a < 2 ^ 32 then { os with showbase := false }
      else { os with showbase := false, fill := 48, adjust := .right }) r := by
  have hhead : SameFlags { os with showbase := false } (streamHead os) := by
    unfold streamHead
    cases hs : os.showbase with
    | false => simp [SameFlags, hs]
    | true => rw [if_pos (by simp [streamBase, hbf])]; exact ⟨rfl, rfl, rfl, rfl, rfl⟩
  unfold streamOut streamHex
  generalize streamHead os = os1 at hhead
  simp only [isZero_spec, ok_bind]
  by_cases h0 : toNat a = 0
  · simp only [h0, decide_true, if_true, sat_ok]
    rw [if_pos (by norm_num)]
    exact hhead
  · have hb : streamBase os.basefield = 16#32 := by rw [hbf]; rfl
    simp only [h0, decide_false, Bool.false_eq_true, if_false, hb, if_true]
    refine Sat.bind (scan_top hn a h0) ?_
    rintro l ⟨hl, hd0, hdiv⟩
    simp only [rd_ok hl, ok_bind]
    have hiff : toNat a < 2 ^ 32 ↔ l = 0 := by
      constructor
      · intro hlt
        by_contra hne
        have : toNat a / 2 ^ (32 * l) = 0 := Nat.div_eq_of_lt
          (Nat.lt_of_lt_of_le hlt (Nat.pow_le_pow_right (by norm_num) (by omega)))
        omega
      · intro h; subst h
        simp only [Nat.mul_zero, Nat.pow_zero, Nat.div_one] at hdiv
        rw [hdiv, dig_of_lt hl]
        exact a[0].isLt
    simp only [hiff]
    refine Sat.forDown (fun i (r : OStream) => SameFlags (if i = l then { os with showbase := false }
      else { os with showbase := false, fill := 48, adjust := .right }) r) (Nat.zero_le _) ?_ ?_ ?_
    · simp only [if_true]; exact hhead
    · rintro i r _ hi ⟨h1, h2, h3, h4, h5⟩
      have hin : i < n := by omega
      simp only [rd_ok hin, ok_bind, sat_ok]
      rw [if_neg (by omega)]
      have e1 : r.basefield = os.basefield := by rw [h1]; split <;> rfl
      have e2 : r.showbase = false := by rw [h2]; split <;> rfl
      have e3 : r.uppercase = os.uppercase := by rw [h3]; split <;> rfl
      exact ⟨e1, e2, e3, rfl, rfl⟩
    · intro r h
      simpa [eq_comm] using h

/-- C61 is false: after `os << std::hex << a` with `a = 2^32`, the stream's fill character has become
`'0'`. -/
theorem C61_counterexample :
    (streamOut ⟨false, false, false⟩ 21 (freshStream .hex 0) (ofNat 2 (2 ^ 32))).map (·.fill) = .ok 48 := by
  decide +kernel

/-! ### Concrete cases that meet the hypotheses -/

/-- The hypotheses of `C23_narrow_partial` are met. -/
example := C23_narrow_partial (n := 2) asciiAlnum [48, 120, 70, 49] (fun p hp _ => by
  simp only [List.length_cons, List.length_nil] at hp; interval_cases p <;> simp)

/-- The hypotheses of `C24_get_string_partial` are met. -/
example := C24_get_string_partial (cap := 30) ⟨false, false, false⟩ .wchar 16#8 true (Aeu.ofNat 2 (2 ^ 40 + 5))
  (by decide +kernel) (Vector.replicate 30 7) true (by omega) (by decide) _ rfl (by decide +kernel)

/-- The hypotheses of `C25_in_bounds_partial` are met. -/
example := C25_in_bounds_partial (cap := 30) ⟨false, false, false⟩ .wchar 16#8 true (Aeu.ofNat 2 (2 ^ 40 + 5))
  (Vector.replicate 30 7) true (by omega) (by decide) (by decide +kernel)

/-- The hypotheses of `C25_overrun` are met. -/
example := C25_overrun (cap := 10) ⟨false, false, false⟩ 16#8 true (Aeu.ofNat 2 (2 ^ 40 + 5))
  (Vector.replicate 10 7) true (by omega) (by decide) (by omega) (by decide +kernel) (by decide +kernel)

/-- The hypotheses of `C35_stream_partial` are met. -/
example := C35_stream_partial (n := 3) ⟨false, false, false⟩ 32 (by decide) ⟨.oct, true, false, .right, 32, 0, []⟩
  rfl (Aeu.ofNat 3 (2 ^ 70)) (by decide)

/-- The hypotheses of `C61_decimal_flags_partial` are met. -/
example := C61_decimal_flags_partial (n := 3) ⟨false, false, false⟩ 32 ⟨.other, true, false, .right, 32, 20, []⟩ _
  (Aeu.ofNat 3 77) rfl (by decide +kernel : _ = Except.ok
    (⟨.other, true, false, .right, 32, 0, List.replicate 19 32 ++ [55, 55]⟩ : OStream))

/-- The hypotheses of `C61_hex_flags` are met. -/
example := C61_hex_flags (n := 3) ⟨false, false, false⟩ 32 (by omega) ⟨.hex, true, false, .left, 32, 20, []⟩
  (Aeu.ofNat 3 (2 ^ 70)) rfl

end AesiMP
