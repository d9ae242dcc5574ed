import Verif.Model.ReadBack
import Verif.Props.SignedRoundTrip

/-!
# C113: a number printed into a character array and constructed from it again
-/

namespace AesiMP
open Client
variable {n m cap : Nat}

/-- How many digits of base `b` a text has. -/
def digitsIn (b : Nat) (text : List Int) : Nat := ((text.filterMap digitVal).filter (· < b)).length

private theorem textValue_append (b : Nat) (s t : List Int) :
    textValue b (s ++ t) = textValue b s * b ^ digitsIn b t + textValue b t := by
  have key : ∀ (l : List Nat) (v : Nat), l.foldl (fun v d => v * b + d) v =
      v * b ^ l.length + l.foldl (fun v d => v * b + d) 0 := by
    intro l
    induction l with
    | nil => intro v; simp
    | cons d l ih =>
      intro v
      rw [List.foldl_cons, ih, List.foldl_cons, ih (0 * b + d), List.length_cons, Nat.pow_succ]
      ring
  unfold textValue digitsIn
  rw [List.filterMap_append, List.filter_append, List.foldl_append, key]

/-- A text with the value `v`: decimal digits, or a prefix and the digits of its base. -/
private def Printed (b : Nat) (text : List Int) (v : Nat) : Prop :=
  (b = 10 ∧ ∃ u, text = numeral u 10 v) ∨
  ∃ u letter, ((b = 2 ∧ letter = 98) ∨ (b = 8 ∧ letter = 111) ∨ (b = 16 ∧ letter = 120)) ∧
    text = [48, letter] ++ numeral u b v

private theorem Printed.bound {b v : Nat} {text : List Int} (h : Printed b text v) : 1 < b ∧ b ≤ 16 := by
  rcases h with ⟨rfl, _⟩ | ⟨_, _, h, _⟩
  · omega
  · omega

private theorem numeral_chars (u : Bool) {b : Nat} (hb1 : 1 < b) (hb : b ≤ 16) (v : Nat) :
    ∀ c ∈ numeral u b v, 48 ≤ c ∧ asciiAlnum c = true := by
  intro c hm
  unfold numeral at hm
  split at hm
  · simp at hm; subst hm; decide
  · simp only [List.mem_map, List.mem_reverse] at hm
    obtain ⟨d, hd, rfl⟩ := hm
    have := Nat.digits_lt_base hb1 hd
    unfold digitChar asciiAlnum
    split
    · simp; omega
    · cases u <;> simp <;> omega

private theorem Printed.chars {b v : Nat} {text : List Int} (h : Printed b text v) :
    ∀ c ∈ text, 48 ≤ c ∧ c ≤ 255 ∧ asciiAlnum c = true := by
  have up : ∀ c : Int, asciiAlnum c = true → c ≤ 255 := by
    intro c hc; simp [asciiAlnum] at hc; omega
  have hb := h.bound
  intro c hc
  have : 48 ≤ c ∧ asciiAlnum c = true := by
    rcases h with ⟨rfl, u, rfl⟩ | ⟨u, letter, hlet, rfl⟩
    · exact numeral_chars u hb.1 hb.2 v c hc
    · rcases List.mem_append.1 hc with h1 | h1
      · rcases hlet with ⟨rfl, rfl⟩ | ⟨rfl, rfl⟩ | ⟨rfl, rfl⟩ <;> simp at h1 <;> rcases h1 with rfl | rfl <;> decide
      · exact numeral_chars u hb.1 hb.2 v c h1
  exact ⟨this.1, up c this.2, this.2⟩

private theorem Printed.ne_nil {b v : Nat} {text : List Int} (h : Printed b text v) : text ≠ [] := by
  rcases h with ⟨rfl, u, rfl⟩ | ⟨u, letter, _, rfl⟩
  · obtain ⟨d, rest, h, _⟩ := Aeu.numeral_head u (b := 10) (by norm_num) v
    rw [h]; simp
  · simp

private theorem Printed.head {b v : Nat} {text : List Int} (h : Printed b text v) {alnum : Int → Bool}
    (hl : LocaleOk alnum) (tail : List Int) : ∀ c ∈ (text ++ tail).head?, 0 ≤ c ∧ c ≤ 255 ∧ alnum c = true := by
  intro c hc
  cases text with
  | nil => exact absurd rfl h.ne_nil
  | cons d t =>
    simp only [List.cons_append, List.head?_cons, Option.mem_def, Option.some.injEq] at hc
    subst hc
    have := h.chars d (by simp)
    exact ⟨by omega, this.2.1, hl _ this.2.2⟩

/-- Reading a printed number with something behind it. -/
private theorem Printed.parsed {b v : Nat} {text : List Int} (h : Printed b text v) {alnum : Int → Bool}
    (hl : LocaleOk alnum) (tail : List Int) (hv : v ≠ 0 ∨ b ≠ 10) :
    AesiMP.parsed alnum (text ++ tail) = v * b ^ digitsIn b tail + textValue b tail := by
  have hb := h.bound
  have h48 : alnum 48 = true := hl _ (by decide)
  rcases h with ⟨rfl, u, rfl⟩ | ⟨u, letter, hlet, rfl⟩
  · obtain ⟨d, rest, h, hd, hz⟩ := Aeu.numeral_head u (b := 10) (by norm_num) v
    have hd0 := hz (by simpa using hv)
    have hc : digitChar u d = 48 + d := by simp [digitChar, hd]
    have ha : alnum (digitChar u d) = true := hl _ (by rw [hc]; simp [asciiAlnum]; omega)
    have ht := Aeu.textValue_numeral u (b := 10) (by omega) (by omega) v
    unfold AesiMP.parsed
    have hs : splitBase (numeral u 10 v ++ tail) = (10, numeral u 10 v ++ tail) := by
      rw [h]
      unfold splitBase
      split
      · rename_i heq
        have := (List.cons.inj heq).1
        omega
      · rfl
    have hdrop : (numeral u 10 v ++ tail).dropWhile (fun c => !alnum c) = numeral u 10 v ++ tail := by
      rw [h, List.cons_append, List.dropWhile_cons_of_neg (by simp [ha])]
    rw [hdrop]
    simp only [hs, textValue_append, ht]
  · have ht := Aeu.textValue_numeral u (b := b) hb.1 hb.2 v
    unfold AesiMP.parsed
    have hdrop : ([48, letter] ++ numeral u b v ++ tail).dropWhile (fun c => !alnum c) =
        48 :: letter :: (numeral u b v ++ tail) := by
      simp only [List.cons_append, List.nil_append]
      rw [List.dropWhile_cons_of_neg (by simp [h48])]
    have hs : splitBase (48 :: letter :: (numeral u b v ++ tail)) = (b, numeral u b v ++ tail) := by
      unfold splitBase
      rcases hlet with ⟨rfl, rfl⟩ | ⟨rfl, rfl⟩ | ⟨rfl, rfl⟩ <;> simp
    rw [hdrop]
    simp only [hs, textValue_append, ht]

private theorem textValue_none (b : Nat) (t : List Int) (h : ∀ c ∈ t, digitVal c = none) :
    textValue b t = 0 ∧ digitsIn b t = 0 := by
  have : t.filterMap digitVal = [] := List.filterMap_eq_nil_iff.2 h
  simp [textValue, digitsIn, this]

/-- Reading a printed number with no digits behind it. -/
private theorem Printed.parsed_clean {b v : Nat} {text : List Int} (h : Printed b text v) {alnum : Int → Bool}
    (hl : LocaleOk alnum) (tail : List Int) (ht : ∀ c ∈ tail, digitVal c = none) :
    AesiMP.parsed alnum (text ++ tail) = v := by
  by_cases hv : v ≠ 0 ∨ b ≠ 10
  · rw [h.parsed hl tail hv, (textValue_none b tail ht).1, (textValue_none b tail ht).2]; simp
  · have hv0 : v = 0 := by by_contra h; exact hv (Or.inl h)
    have hb10 : b = 10 := by by_contra h; exact hv (Or.inr h)
    subst hv0 hb10
    rcases h with ⟨-, u, rfl⟩ | ⟨u, letter, hlet, rfl⟩
    · have e : numeral u 10 0 = [48] := by simp [numeral]
      rw [e]
      have h48 : alnum 48 = true := hl _ (by decide)
      unfold AesiMP.parsed
      rw [List.singleton_append, List.dropWhile_cons_of_neg (by simp [h48])]
      have hz : ∀ b t, (∀ c ∈ t, digitVal c = none) → textValue b (48 :: t) = 0 := by
        intro b t ht
        rw [← List.singleton_append, textValue_append, (textValue_none b t ht).1]
        have : textValue b [48] = 0 := by
          simp [textValue, digitVal]
          by_cases h0 : 0 < b <;> simp [h0]
        rw [this]; simp
      cases tail with
      | nil => simpa [splitBase] using hz 10 [] (by simp)
      | cons c rest =>
        have hrest : ∀ d ∈ rest, digitVal d = none := fun d hd => ht d (by simp [hd])
        unfold splitBase
        simp only
        split_ifs
        · exact (textValue_none 2 rest hrest).1
        · exact (textValue_none 8 rest hrest).1
        · exact (textValue_none 16 rest hrest).1
        · exact hz 10 (c :: rest) ht
    · omega

private theorem digitVal_zero : digitVal 0 = none := by decide

/-- Which calls are considered: decimal, or base 2, 8, 16 with prefix; the array holds a sign, a prefix, the digits and a
terminator. -/
def Prints (n cap : Nat) (base : BitVec 8) (upper showBase : Bool) (v : Nat) : Prop :=
  ((base.toNat = 10 ∧ 2 ≤ n) ∨
    showBase = true ∧ ((base.toNat = 2 ∨ base.toNat = 8) ∧ 2 ≤ n ∨ base.toNat = 16 ∧ 0 < n)) ∧
  (numeral upper base.toNat v).length + 3 < cap ∧ cap < 2 ^ 63

private theorem numeral_pos (u : Bool) {b : Nat} (hb : 1 < b) (v : Nat) : 0 < (numeral u b v).length := by
  obtain ⟨d, rest, h, _⟩ := Aeu.numeral_head u hb v
  rw [h]; simp

private theorem Prints.facts {base : BitVec 8} {upper showBase : Bool} {v : Nat}
    (h : Prints n cap base upper showBase v) (k : Nat) (hk : k ≤ 4) :
    ((2 ≤ base.toNat ∧ base.toNat ≤ 10 ∧ 2 ≤ n) ∨ (base.toNat = 16 ∧ 0 < n)) ∧ 4 < cap ∧
    Printed base.toNat ((if showBase = true ∧ k < cap then basePrefix base.toNat else []) ++ numeral upper base.toNat v) v ∧
    ((if showBase = true ∧ k < cap then basePrefix base.toNat else []) ++ numeral upper base.toNat v).length + 1 < cap := by
  obtain ⟨h1, h2, h3⟩ := h
  have hb : 1 < base.toNat := by omega
  have hp := numeral_pos upper hb v
  have hc : 4 < cap := by omega
  have hlen : ((if showBase = true ∧ k < cap then basePrefix base.toNat else []) : List Int).length ≤ 2 := by
    split <;> simp [basePrefix]; split_ifs <;> simp
  refine ⟨by omega, hc, ?_, by rw [List.length_append]; omega⟩
  rcases h1 with ⟨h10, _⟩ | ⟨hs, h⟩
  · refine Or.inl ⟨h10, upper, ?_⟩
    rw [h10]; simp [basePrefix]
  · refine Or.inr ⟨upper, if base.toNat = 2 then 98 else if base.toNat = 8 then 111 else 120, by split_ifs <;> omega, ?_⟩
    rw [if_pos ⟨hs, by omega⟩]
    congr 1
    unfold basePrefix
    rcases h with ⟨h | h, _⟩ | ⟨h, _⟩ <;> simp [h]

/-! ### Unsigned numbers -/

private theorem reads (kind : CharKind) (alnum : Int → Bool) (text t : List Int) (h : text = t)
    (hh : ∀ c ∈ t.head?, 0 ≤ c ∧ c ≤ 255 ∧ alnum c = true) (v : Nat) (hv : parsed alnum t = v) :
    Aeu.Returns (Aeu.ofChars kind alnum m ⟨text.toArray, rfl⟩) (v % 2 ^ (32 * m)) := by
  subst h hv
  exact ofChars_ascii (n := m) kind alnum text hh

/-- A string literal `"0x..."` is read as its number. -/
theorem readsLiteral (kind : CharKind) (alnum : Int → Bool) (hl : LocaleOk alnum) (m v : Nat) :
    Aeu.Returns (Aeu.ofChars kind alnum m ⟨([48, 120] ++ numeral false 16 v ++ [0]).toArray, rfl⟩) (v % 2 ^ (32 * m)) := by
  have h : Printed 16 ([48, 120] ++ numeral false 16 v) v := Or.inr ⟨false, 120, Or.inr (Or.inr ⟨rfl, rfl⟩), rfl⟩
  refine reads kind alnum _ _ rfl (fun c hc => ?_) v (h.parsed_clean hl [0] (by simp [digitVal_zero]))
  have : c = 48 := by simpa [eq_comm] using hc
  subst this
  exact ⟨by norm_num, by norm_num, hl _ (by decide)⟩

private theorem take_printed {buf : Vector Int cap} {text tail : List Int} (h : buf.toList = text ++ tail) :
    text.length ≤ cap ∧ firstChars buf text.length = .ok text := by
  have : buf.toList.length = cap := by simp
  have hle : text.length ≤ cap := by rw [h, List.length_append] at this; omega
  refine ⟨hle, ?_⟩
  unfold firstChars
  rw [if_pos hle, h, List.take_left]

private theorem cString_printed {buf : Vector Int cap} {text tail : List Int} (h : buf.toList = text ++ [0] ++ tail)
    (h0 : (0 : Int) ∉ text) : cString buf = .ok text := by
  unfold cString
  rw [if_pos (by rw [h]; simp), h, List.append_assoc, List.takeWhile_append_of_pos]
  · simp
  · intro c hc
    simp only [ne_eq, decide_not, Bool.not_eq_true', decide_eq_false_iff_not]
    rintro rfl
    exact h0 hc

private theorem Printed.no_zero {b v : Nat} {text : List Int} (h : Printed b text v) : (0 : Int) ∉ text :=
  fun h0 => by have := (h.chars 0 h0).1; omega

/-- C113: constructed from as many characters as `getString` says it wrote, the number is back, zero included, whatever
the array held before; in any precision, reduced to it. -/
theorem C113_count (cfg : Cfg) (kind : CharKind) (alnum : Int → Bool) (hl : LocaleOk alnum) (base : BitVec 8)
    (upper : Bool) (a : Aeu n) (buffer : Vector Int cap) (showBase : Bool) (m : Nat)
    (hp : Prints n cap base upper showBase (Aeu.toNat a)) :
    Aeu.Returns (readCount cfg kind alnum base upper a buffer showBase m) (Aeu.toNat a % 2 ^ (32 * m)) := by
  obtain ⟨hbase, hc, hpr, hlen⟩ := hp.facts 3 (by omega)
  unfold readCount
  by_cases ha : Aeu.toNat a = 0
  · obtain ⟨⟨buf, cnt⟩, hr, h1, h2⟩ := C24_get_string_zero cfg kind base upper a ha buffer showBase (by omega) _ rfl
    rw [ha, show numeral upper base.toNat 0 = [48] by simp [numeral]] at hpr
    simp only at h1 h2
    rw [hr]
    simp only [bind, Except.bind]
    rw [h2, (take_printed h1).2]
    simp only
    rw [ha]
    exact reads kind alnum _ _ (List.append_nil _).symm (hpr.head hl []) _ (hpr.parsed_clean hl [] (by simp))
  · obtain ⟨⟨buf, cnt⟩, hr, h1, h2⟩ := C24_get_string_partial cfg kind base upper a ha buffer showBase hp.2.2 hbase _ rfl
      (by omega)
    simp only at h1 h2
    rw [hr]
    simp only [bind, Except.bind]
    have := (take_printed h1).2
    rw [h2]
    rw [List.length_append, List.length_singleton] at this
    rw [this]
    simp only
    have := ofChars_ascii (n := m) kind alnum _ (hpr.head hl [0])
    rwa [hpr.parsed_clean hl [0] (by simp [digitVal_zero])] at this

/-- C113: constructed from the C string in the array, a number other than zero is back, whatever the array held before
(partial: `getString` does not terminate the text of zero, C113_cstring_counterexample). -/
theorem C113_cstring_partial (cfg : Cfg) (kind : CharKind) (alnum : Int → Bool) (hl : LocaleOk alnum) (base : BitVec 8)
    (upper : Bool) (a : Aeu n) (ha : Aeu.toNat a ≠ 0) (buffer : Vector Int cap) (showBase : Bool) (m : Nat)
    (hp : Prints n cap base upper showBase (Aeu.toNat a)) :
    Aeu.Returns (readCString cfg kind alnum base upper a buffer showBase m) (Aeu.toNat a % 2 ^ (32 * m)) := by
  obtain ⟨hbase, hc, hpr, hlen⟩ := hp.facts 3 (by omega)
  unfold readCString
  obtain ⟨⟨buf, cnt⟩, hr, h1, h2⟩ := C24_get_string_partial cfg kind base upper a ha buffer showBase hp.2.2 hbase _ rfl
    (by omega)
  simp only at h1 h2
  rw [hr]
  simp only [bind, Except.bind]
  rw [cString_printed h1 hpr.no_zero]
  simp only
  exact reads kind alnum _ _ (List.append_nil _).symm (hpr.head hl []) _ (hpr.parsed_clean hl [] (by simp))

/-- C113: printing 0 over the text "123" leaves the C string "023": the number read is 23. -/
theorem C113_cstring_counterexample :
    readCString ⟨false, false, false⟩ .char asciiAlnum 10#8 false (Aeu.ofNat 2 0) #v[49, 50, 51, 0, 0, 0] false 2 =
      .ok (Aeu.ofNat 2 23) := by decide +kernel

/-- C113: in an array of zeros, all three ways give the number back, zero included. -/
theorem C113_fresh_partial (cfg : Cfg) (kind : CharKind) (alnum : Int → Bool) (hl : LocaleOk alnum) (base : BitVec 8)
    (upper : Bool) (a : Aeu n) (showBase : Bool) (m : Nat)
    (hp : Prints n cap base upper showBase (Aeu.toNat a)) :
    Aeu.Returns (readCount cfg kind alnum base upper a (Vector.replicate cap 0) showBase m) (Aeu.toNat a % 2 ^ (32 * m)) ∧
    Aeu.Returns (readCString cfg kind alnum base upper a (Vector.replicate cap 0) showBase m) (Aeu.toNat a % 2 ^ (32 * m)) ∧
    Aeu.Returns (readArray cfg kind alnum base upper a (Vector.replicate cap 0) showBase m) (Aeu.toNat a % 2 ^ (32 * m)) := by
  refine ⟨C113_count cfg kind alnum hl base upper a _ showBase m hp, ?_, ?_⟩
  · by_cases ha : Aeu.toNat a = 0
    · obtain ⟨hbase, hc, hpr, hlen⟩ := hp.facts 3 (by omega)
      unfold readCString
      obtain ⟨⟨buf, cnt⟩, hr, h1, h2⟩ := C24_get_string_zero cfg kind base upper a ha (Vector.replicate cap 0) showBase
        (by omega) _ rfl
      rw [ha, show numeral upper base.toNat 0 = [48] by simp [numeral]] at hpr hlen
      simp only at h1 h2
      rw [hr]
      simp only [bind, Except.bind]
      have h1' : buf.toList = ((if showBase = true ∧ 3 < cap then basePrefix base.toNat else []) ++ [48]) ++ [0] ++
          List.replicate (cap - ((if showBase = true ∧ 3 < cap then basePrefix base.toNat else []) ++ [48]).length - 1) 0 := by
        rw [h1, Vector.toList_replicate, List.drop_replicate, List.append_assoc _ [0]]
        congr 1
        rw [List.singleton_append, ← List.replicate_succ]
        congr 1
        omega
      rw [cString_printed h1' hpr.no_zero]
      simp only
      rw [ha]
      exact reads kind alnum _ _ (List.append_nil _).symm (hpr.head hl []) _ (hpr.parsed_clean hl [] (by simp))
    · exact C113_cstring_partial cfg kind alnum hl base upper a ha _ showBase m hp
  · obtain ⟨hbase, hc, hpr, hlen⟩ := hp.facts 3 (by omega)
    unfold readArray
    have hz : ∀ k, ∀ c ∈ (Vector.replicate cap (0 : Int)).toList.drop k, digitVal c = none := by
      intro k c hc
      rw [Vector.toList_replicate, List.drop_replicate] at hc
      rw [List.eq_of_mem_replicate hc]; rfl
    by_cases ha : Aeu.toNat a = 0
    · obtain ⟨⟨buf, cnt⟩, hr, h1, h2⟩ := C24_get_string_zero cfg kind base upper a ha (Vector.replicate cap 0) showBase
        (by omega) _ rfl
      rw [ha, show numeral upper base.toNat 0 = [48] by simp [numeral]] at hpr
      simp only at h1 h2
      rw [hr]
      simp only [bind, Except.bind]
      rw [ha]
      exact reads kind alnum _ _ h1 (hpr.head hl _) _ (hpr.parsed_clean hl _ (hz _))
    · obtain ⟨⟨buf, cnt⟩, hr, h1, h2⟩ := C24_get_string_partial cfg kind base upper a ha (Vector.replicate cap 0) showBase
        hp.2.2 hbase _ rfl (by omega)
      simp only at h1 h2
      rw [hr]
      simp only [bind, Except.bind]
      rw [List.append_assoc _ [0]] at h1
      refine reads kind alnum _ _ h1 (hpr.head hl _) _ (hpr.parsed_clean hl _ ?_)
      intro c hc
      rcases List.mem_append.1 hc with hc | hc
      · simp at hc; subst hc; rfl
      · exact hz _ c hc

/-- C113, a used array, exactly: constructed from the whole array, the digits behind the terminator are read as further
digits of the number. -/
theorem C113_array_exact (cfg : Cfg) (kind : CharKind) (alnum : Int → Bool) (hl : LocaleOk alnum) (base : BitVec 8)
    (upper : Bool) (a : Aeu n) (ha : Aeu.toNat a ≠ 0) (buffer : Vector Int cap) (showBase : Bool) (m : Nat)
    (hp : Prints n cap base upper showBase (Aeu.toNat a)) (rest : List Int)
    (hrest : rest = buffer.toList.drop (((if showBase = true then basePrefix base.toNat else []) ++
      numeral upper base.toNat (Aeu.toNat a)).length + 1)) :
    Aeu.Returns (readArray cfg kind alnum base upper a buffer showBase m)
      ((Aeu.toNat a * base.toNat ^ digitsIn base.toNat rest + textValue base.toNat rest) % 2 ^ (32 * m)) := by
  obtain ⟨hbase, hc, hpr, hlen⟩ := hp.facts 3 (by omega)
  unfold readArray
  obtain ⟨⟨buf, cnt⟩, hr, h1, h2⟩ := C24_get_string_partial cfg kind base upper a ha buffer showBase hp.2.2 hbase _ rfl
    (by omega)
  simp only at h1 h2
  rw [hr]
  simp only [bind, Except.bind]
  have hif : (if showBase = true ∧ 3 < cap then basePrefix base.toNat else []) =
      if showBase = true then basePrefix base.toNat else [] := by
    simp only [show 3 < cap by omega, and_true]
  rw [hif] at h1 hpr
  rw [List.append_assoc _ [0], ← hrest] at h1
  have := reads (m := m) kind alnum _ _ h1 (hpr.head hl ([0] ++ rest)) _ (hpr.parsed hl _ (Or.inl ha))
  have e1 : digitsIn base.toNat ([0] ++ rest) = digitsIn base.toNat rest := by
    simp [digitsIn, digitVal_zero]
  have e2 : textValue base.toNat ([0] ++ rest) = textValue base.toNat rest := by
    simp [textValue, digitVal_zero]
  rwa [e1, e2] at this

/-- C113, zero printed over a used array, exactly: the text of zero is not terminated, so what the array held behind it
is read as part of the text; the C string is out of bounds if no zero follows. -/
theorem C113_zero_exact (cfg : Cfg) (kind : CharKind) (alnum : Int → Bool) (hl : LocaleOk alnum) (base : BitVec 8)
    (upper : Bool) (a : Aeu n) (ha : Aeu.toNat a = 0) (buffer : Vector Int cap) (showBase : Bool) (m : Nat)
    (hp : Prints n cap base upper showBase 0) (zero rest : List Int)
    (hzero : zero = (if showBase = true then basePrefix base.toNat else []) ++ [48])
    (hrest : rest = buffer.toList.drop zero.length) :
    Aeu.Returns (readArray cfg kind alnum base upper a buffer showBase m) (parsed alnum (zero ++ rest) % 2 ^ (32 * m)) ∧
    (0 ∈ rest → Aeu.Returns (readCString cfg kind alnum base upper a buffer showBase m)
      (parsed alnum (zero ++ rest.takeWhile (· ≠ 0)) % 2 ^ (32 * m))) ∧
    (0 ∉ rest → readCString cfg kind alnum base upper a buffer showBase m = .error .outOfBounds) := by
  obtain ⟨hbase, hc, hpr, hlen⟩ := hp.facts 3 (by omega)
  obtain ⟨⟨buf, cnt⟩, hr, h1, h2⟩ := C24_get_string_zero cfg kind base upper a ha buffer showBase (by omega) _ rfl
  have hif : (if showBase = true ∧ 3 < cap then basePrefix base.toNat else []) =
      if showBase = true then basePrefix base.toNat else [] := by
    simp only [show 3 < cap by omega, and_true]
  rw [show numeral upper base.toNat 0 = [48] by simp [numeral], hif, ← hzero] at hpr
  simp only [hif, ← hzero, ← hrest] at h1
  refine ⟨?_, fun h => ?_, fun h => ?_⟩
  · unfold readArray
    rw [hr]
    simp only [bind, Except.bind]
    exact reads kind alnum _ _ h1 (hpr.head hl rest) _ rfl
  · unfold readCString
    rw [hr]
    simp only [bind, Except.bind]
    have : cString buf = .ok (zero ++ rest.takeWhile (· ≠ 0)) := by
      unfold cString
      rw [if_pos (by rw [h1]; simp [h]), h1, List.takeWhile_append_of_pos]
      intro c hc
      simp only [ne_eq, decide_not, Bool.not_eq_true', decide_eq_false_iff_not]
      rintro rfl
      exact hpr.no_zero hc
    rw [this]
    simp only
    exact reads kind alnum _ _ rfl (hpr.head hl _) _ rfl
  · unfold readCString
    rw [hr]
    simp only [bind, Except.bind]
    have : cString buf = .error .outOfBounds := by
      unfold cString
      rw [if_neg]
      rw [h1, List.mem_append, not_or]
      exact ⟨hpr.no_zero, h⟩
    rw [this]

/-- Zero printed over "123" and over "0x41": the arrays read as 23 and as 0x41. -/
example :
    readArray ⟨false, false, false⟩ .char asciiAlnum 10#8 false (Aeu.ofNat 2 0) #v[49, 50, 51, 0, 0, 0] false 2 =
      .ok (Aeu.ofNat 2 23) ∧
    readArray ⟨false, false, false⟩ .char asciiAlnum 10#8 false (Aeu.ofNat 2 0) #v[48, 120, 52, 49, 0, 0] false 2 =
      .ok (Aeu.ofNat 2 0x41) ∧ Prints 2 6 10#8 false false 0 := by
  refine ⟨?_, ?_, ?_, ?_, ?_⟩ <;> decide +kernel

/-- C113: printing 7 over the text "12345" and constructing from the array gives 7345. -/
theorem C113_array_counterexample :
    readArray ⟨false, false, false⟩ .char asciiAlnum 10#8 false (Aeu.ofNat 2 7) #v[49, 50, 51, 52, 53, 0] false 2 =
      .ok (Aeu.ofNat 2 7345) := by decide +kernel

/-- The hypotheses are met: base 16 with prefix, base 10 without, into 32 characters. -/
example : Prints 2 32 16#8 true true (Aeu.toNat (Aeu.ofNat 2 0xABCDEF0123456789)) ∧
    Prints 2 32 10#8 false false (Aeu.toNat (Aeu.ofNat 2 0xABCDEF0123456789)) := by
  constructor <;> refine ⟨?_, ?_, ?_⟩ <;> decide +kernel

/-! ### Signed numbers -/

open Aesi

private theorem Printed.no_dash {b v : Nat} {text : List Int} (h : Printed b text v) : text.count 45 = 0 :=
  List.count_eq_zero.2 fun h0 => by have := (h.chars 45 h0).1; omega

/-- What `getString` leaves in the array. -/
private theorem printedS (cfg : Cfg) (kind : CharKind) (base : BitVec 8) (upper : Bool) (a : Aesi n) (hc : Canon a)
    (buffer : Vector Int cap) (showBase : Bool) (hp : Prints n cap base upper showBase (toInt a).natAbs) :
    ∃ body, Printed base.toNat body (toInt a).natAbs ∧ body.length + 1 < cap ∧
      (toInt a ≠ 0 → ∃ buf, Aesi.getString cfg kind base upper a buffer showBase = .ok (buf, body.length + 1) ∧
        buf.toList = ((if toInt a < 0 then [45] else []) ++ body) ++ [0] ++
          buffer.toList.drop (((if toInt a < 0 then [45] else []) ++ body).length + 1)) ∧
      (toInt a = 0 → ∃ buf, Aesi.getString cfg kind base upper a buffer showBase = .ok (buf, body.length) ∧
        buf.toList = body ++ buffer.toList.drop body.length) := by
  obtain ⟨hbase, hcap, hpr, hlen⟩ := hp.facts 3 (by omega)
  obtain ⟨_, _, _, hlen4⟩ := hp.facts 4 (by omega)
  refine ⟨_, hpr, hlen, fun h => ?_, fun h => ?_⟩
  · rcases lt_or_gt_of_ne h with hneg | hpos
    · obtain ⟨⟨buf, cnt⟩, hr, h1, h2⟩ := C51_negative cfg kind base upper a hneg buffer showBase hp.2.2 hbase _ rfl hlen4
      have hif : (if showBase = true ∧ 4 < cap then basePrefix base.toNat else []) =
          if showBase = true ∧ 3 < cap then basePrefix base.toNat else [] := by
        simp only [hcap, show 3 < cap by omega, and_true]
      simp only [hif] at h1 h2
      refine ⟨buf, by rw [hr, h2], ?_⟩
      rw [if_pos hneg, h1]
      congr 1
    · obtain ⟨⟨buf, cnt⟩, hr, h1, h2⟩ := C51_positive_partial cfg kind base upper a hpos buffer showBase hp.2.2 hbase _ rfl
        (by omega)
      simp only at h1 h2
      refine ⟨buf, by rw [hr, h2], ?_⟩
      rw [if_neg (by omega), h1]; rfl
  · have hif : (if showBase = true ∧ 3 < cap then basePrefix base.toNat else []) =
        if showBase = true then basePrefix base.toNat else [] := by
      simp only [show 3 < cap by omega, and_true]
    have e : numeral upper base.toNat (toInt a).natAbs = [48] := by rw [h]; simp [numeral]
    rw [hif, e] at hlen ⊢
    obtain ⟨⟨buf, cnt⟩, hr, h1, h2⟩ := C51_zero cfg kind base upper a hc h buffer showBase _ rfl (by omega)
    simp only at h1 h2
    exact ⟨buf, by rw [hr, h2], h1⟩

private theorem readsS (kind : CharKind) {alnum : Int → Bool} (hl : LocaleOk alnum) (hdash : alnum 45 = false) (v : Int)
    {b : Nat} {body : List Int} (hpr : Printed b body v.natAbs) (tail : List Int)
    (htail : ∀ c ∈ tail, digitVal c = none ∧ c ≠ 45) (text : List Int)
    (ht : text = ((if v < 0 then [45] else []) ++ body) ++ tail) :
    Sat (Aesi.ofChars kind alnum m ⟨text.toArray, rfl⟩) fun b =>
      toInt b = v.sign * ((v.natAbs % 2 ^ (32 * m) : Nat) : Int) ∧ Canon b := by
  rw [List.append_assoc] at ht
  refine Sat.mono (read_signed (n := m) kind alnum hdash (v < 0) (body ++ tail) ?_ (hpr.head hl tail) text ht)
    fun r hr => ⟨?_, hr.2⟩
  · rw [List.count_append, hpr.no_dash, Nat.zero_add]
    exact List.count_eq_zero.2 fun h0 => (htail 45 h0).2 rfl
  · rw [hr.1, hpr.parsed_clean hl tail fun c hc => (htail c hc).1]
    rcases lt_trichotomy v 0 with h | h | h
    · rw [if_pos h, Int.sign_eq_neg_one_of_neg h]
    · subst h; simp
    · rw [if_neg (by omega), Int.sign_eq_one_of_pos h]

/-- C113, signed numbers: constructed from as many characters as `getString` says it wrote, the number is back (for a
negative number the count leaves out the terminator, C51_negative), whatever the array held before. -/
theorem C113_signed_count (cfg : Cfg) (kind : CharKind) (alnum : Int → Bool) (hl : LocaleOk alnum) (hdash : alnum 45 = false)
    (base : BitVec 8) (upper : Bool) (a : Aesi n) (hc : Canon a) (buffer : Vector Int cap) (showBase : Bool) (m : Nat)
    (hp : Prints n cap base upper showBase (toInt a).natAbs) :
    Sat (readCountS cfg kind alnum base upper a buffer showBase m) fun b =>
      toInt b = (toInt a).sign * (((toInt a).natAbs % 2 ^ (32 * m) : Nat) : Int) ∧ Canon b := by
  obtain ⟨body, hpr, hlen, hnz, hz⟩ := printedS cfg kind base upper a hc buffer showBase hp
  unfold readCountS
  by_cases h : toInt a = 0
  · obtain ⟨buf, hr, h1⟩ := hz h
    rw [hr]
    simp only [bind, Except.bind]
    rw [(take_printed h1).2]
    simp only
    exact readsS kind hl hdash _ hpr [] (by simp) _ (by rw [if_neg (by omega)]; simp)
  · obtain ⟨buf, hr, h1⟩ := hnz h
    rw [hr]
    simp only [bind, Except.bind]
    by_cases hneg : toInt a < 0
    · rw [if_pos hneg, List.append_assoc _ [0]] at h1
      have := (take_printed h1).2
      rw [List.length_append, List.length_singleton, Nat.add_comm] at this
      rw [this]
      simp only
      exact readsS kind hl hdash _ hpr [] (by simp) _ (by rw [if_pos hneg]; simp)
    · rw [if_neg hneg, List.nil_append] at h1
      have := (take_printed h1).2
      rw [List.length_append, List.length_singleton] at this
      rw [this]
      simp only
      exact readsS kind hl hdash _ hpr [0] (by simp [digitVal_zero]) _ (by rw [if_neg hneg]; simp)

private theorem Printed.no_zero' {b v : Nat} {body : List Int} (h : Printed b body v) (neg : Prop) [Decidable neg] :
    (0 : Int) ∉ (if neg then [45] else []) ++ body := by
  intro h0
  rcases List.mem_append.1 h0 with h1 | h1
  · split at h1 <;> simp at h1
  · exact h.no_zero h1

/-- C113, signed numbers: constructed from the C string in the array, a number other than zero is back, whatever the array
held before (partial: zero is not terminated). -/
theorem C113_signed_cstring_partial (cfg : Cfg) (kind : CharKind) (alnum : Int → Bool) (hl : LocaleOk alnum)
    (hdash : alnum 45 = false) (base : BitVec 8) (upper : Bool) (a : Aesi n) (hc : Canon a) (ha : toInt a ≠ 0)
    (buffer : Vector Int cap) (showBase : Bool) (m : Nat) (hp : Prints n cap base upper showBase (toInt a).natAbs) :
    Sat (readCStringS cfg kind alnum base upper a buffer showBase m) fun b =>
      toInt b = (toInt a).sign * (((toInt a).natAbs % 2 ^ (32 * m) : Nat) : Int) ∧ Canon b := by
  obtain ⟨body, hpr, hlen, hnz, hz⟩ := printedS cfg kind base upper a hc buffer showBase hp
  unfold readCStringS
  obtain ⟨buf, hr, h1⟩ := hnz ha
  rw [hr]
  simp only [bind, Except.bind]
  rw [cString_printed h1 (hpr.no_zero' _)]
  simp only
  exact readsS kind hl hdash _ hpr [] (by simp) _ (by simp)

/-- C113, signed numbers: in an array of zeros, all three ways give the number back, zero included. -/
theorem C113_signed_fresh_partial (cfg : Cfg) (kind : CharKind) (alnum : Int → Bool) (hl : LocaleOk alnum)
    (hdash : alnum 45 = false) (base : BitVec 8) (upper : Bool) (a : Aesi n) (hc : Canon a) (showBase : Bool) (m : Nat)
    (hp : Prints n cap base upper showBase (toInt a).natAbs) :
    (Sat (readCountS cfg kind alnum base upper a (Vector.replicate cap 0) showBase m) fun b =>
      toInt b = (toInt a).sign * (((toInt a).natAbs % 2 ^ (32 * m) : Nat) : Int) ∧ Canon b) ∧
    (Sat (readCStringS cfg kind alnum base upper a (Vector.replicate cap 0) showBase m) fun b =>
      toInt b = (toInt a).sign * (((toInt a).natAbs % 2 ^ (32 * m) : Nat) : Int) ∧ Canon b) ∧
    Sat (readArrayS cfg kind alnum base upper a (Vector.replicate cap 0) showBase m) fun b =>
      toInt b = (toInt a).sign * (((toInt a).natAbs % 2 ^ (32 * m) : Nat) : Int) ∧ Canon b := by
  have hzero : ∀ k, ∀ c ∈ (Vector.replicate cap (0 : Int)).toList.drop k, digitVal c = none ∧ c ≠ 45 := by
    intro k c hc
    rw [Vector.toList_replicate, List.drop_replicate] at hc
    rw [List.eq_of_mem_replicate hc]; decide
  refine ⟨C113_signed_count cfg kind alnum hl hdash base upper a hc _ showBase m hp, ?_, ?_⟩
  · by_cases h : toInt a = 0
    · obtain ⟨body, hpr, hlen, hnz, hz⟩ := printedS cfg kind base upper a hc (Vector.replicate cap 0) showBase hp
      unfold readCStringS
      obtain ⟨buf, hr, h1⟩ := hz h
      rw [hr]
      simp only [bind, Except.bind]
      have h1' : buf.toList = body ++ [0] ++ List.replicate (cap - body.length - 1) 0 := by
        rw [h1, Vector.toList_replicate, List.drop_replicate, List.append_assoc _ [0]]
        congr 1
        rw [List.singleton_append, ← List.replicate_succ]
        congr 1
        omega
      rw [cString_printed h1' hpr.no_zero]
      simp only
      exact readsS kind hl hdash _ hpr [] (by simp) _ (by rw [if_neg (by omega)]; simp)
    · exact C113_signed_cstring_partial cfg kind alnum hl hdash base upper a hc h _ showBase m hp
  · obtain ⟨body, hpr, hlen, hnz, hz⟩ := printedS cfg kind base upper a hc (Vector.replicate cap 0) showBase hp
    unfold readArrayS
    by_cases h : toInt a = 0
    · obtain ⟨buf, hr, h1⟩ := hz h
      rw [hr]
      simp only [bind, Except.bind]
      exact readsS kind hl hdash _ hpr _ (hzero _) _ (by rw [h1, if_neg (by omega)]; rfl)
    · obtain ⟨buf, hr, h1⟩ := hnz h
      rw [hr]
      simp only [bind, Except.bind]
      rw [List.append_assoc _ [0]] at h1
      refine readsS kind hl hdash _ hpr _ ?_ _ h1
      intro c hc
      rcases List.mem_append.1 hc with hc | hc
      · simp at hc; subst hc; decide
      · exact hzero _ c hc

/-- C113, signed numbers, a used array, exactly: constructed from the whole array, the digits behind the terminator are
read as further digits, and every dash there turns the sign round. -/
theorem C113_signed_array_exact (cfg : Cfg) (kind : CharKind) (alnum : Int → Bool) (hl : LocaleOk alnum)
    (hdash : alnum 45 = false) (base : BitVec 8) (upper : Bool) (a : Aesi n) (ha : toInt a ≠ 0)
    (buffer : Vector Int cap) (showBase : Bool) (m : Nat) (hp : Prints n cap base upper showBase (toInt a).natAbs)
    (rest : List Int)
    (hrest : rest = buffer.toList.drop (((if toInt a < 0 then [45] else []) ++
      ((if showBase = true then basePrefix base.toNat else []) ++ numeral upper base.toNat (toInt a).natAbs)).length + 1)) :
    Sat (readArrayS cfg kind alnum base upper a buffer showBase m) fun b => toInt b =
      (toInt a).sign * (if rest.count 45 % 2 = 0 then 1 else -1) *
        ((((toInt a).natAbs * base.toNat ^ digitsIn base.toNat rest + textValue base.toNat rest) % 2 ^ (32 * m) : Nat) : Int) ∧
      Canon b := by
  obtain ⟨hbase, hcap, hpr, hlen⟩ := hp.facts 3 (by omega)
  obtain ⟨_, _, _, hlen4⟩ := hp.facts 4 (by omega)
  have hif : (if showBase = true ∧ 3 < cap then basePrefix base.toNat else []) =
      if showBase = true then basePrefix base.toNat else [] := by
    simp only [show 3 < cap by omega, and_true]
  have hif4 : (if showBase = true ∧ 4 < cap then basePrefix base.toNat else []) =
      if showBase = true then basePrefix base.toNat else [] := by
    simp only [hcap, and_true]
  rw [hif] at hpr
  generalize hbody : (if showBase = true then basePrefix base.toNat else []) ++ numeral upper base.toNat (toInt a).natAbs =
    body at *
  obtain ⟨buf, cnt, hr, h1⟩ : ∃ buf cnt, Aesi.getString cfg kind base upper a buffer showBase = .ok (buf, cnt) ∧
      buf.toList = (if toInt a < 0 then [45] else []) ++ (body ++ ([0] ++ rest)) := by
    rcases lt_or_gt_of_ne ha with hneg | hpos
    · obtain ⟨⟨buf, cnt⟩, hr, h1, h2⟩ := C51_negative cfg kind base upper a hneg buffer showBase hp.2.2 hbase _ rfl hlen4
      refine ⟨buf, cnt, hr, ?_⟩
      simp only [hif4, hbody] at h1
      rw [h1, hrest, if_pos hneg]
      simp
    · obtain ⟨⟨buf, cnt⟩, hr, h1, -⟩ := C51_positive_partial cfg kind base upper a hpos buffer showBase hp.2.2 hbase _ rfl
        (by omega)
      refine ⟨buf, cnt, hr, ?_⟩
      simp only [hif, hbody] at h1
      rw [h1, hrest, if_neg (by omega)]
      simp
  unfold readArrayS
  rw [hr]
  simp only [bind, Except.bind]
  have e1 : digitsIn base.toNat ([0] ++ rest) = digitsIn base.toNat rest := by
    simp [digitsIn, digitVal_zero]
  have e2 : textValue base.toNat ([0] ++ rest) = textValue base.toNat rest := by
    simp [textValue, digitVal_zero]
  have hh := hpr.head hl ([0] ++ rest)
  have key : ∀ text : List Int, text = (if toInt a < 0 then [45] else []) ++ (body ++ ([0] ++ rest)) →
      Sat (Aesi.ofChars kind alnum m ⟨text.toArray, rfl⟩) fun b => toInt b =
        (if text.count 45 % 2 = 0 then 1 else -1) * ((parsed alnum text % 2 ^ (32 * m) : Nat) : Int) ∧ Canon b := by
    intro text ht
    cases kind with
    | wchar => exact C46_wide alnum text
    | char =>
      rcases hb : body ++ ([0] ++ rest) with _ | ⟨c, t⟩
      · exact absurd hb (by simp)
      · rw [hb] at ht hh
        have h1 := hh c (by simp)
        by_cases hneg : toInt a < 0
        · rw [if_pos hneg] at ht
          subst ht
          refine C46_narrow_partial alnum _ fun p hp hj => ?_
          rcases p with _ | _ | p
          · simp
          · simpa using ⟨h1.1, h1.2.1⟩
          · exfalso
            have h2 := hj 1 (by omega)
            simp only [List.singleton_append, List.getElem_cons_succ, List.getElem_cons_zero] at h2
            rw [h1.2.2] at h2
            cases h2
        · rw [if_neg hneg] at ht
          subst ht
          refine C46_narrow_partial alnum _ fun p hp hj => ?_
          rcases p with _ | p
          · simpa using ⟨h1.1, h1.2.1⟩
          · exfalso
            have h2 := hj 0 (by omega)
            simp only [List.nil_append, List.getElem_cons_zero] at h2
            rw [h1.2.2] at h2
            cases h2
  refine Sat.mono (key _ h1) fun b hb => ⟨?_, hb.2⟩
  have hparsed : parsed alnum buf.toList = parsed alnum (body ++ ([0] ++ rest)) := by
    rw [h1]
    split_ifs
    · unfold parsed
      rw [List.singleton_append, List.dropWhile_cons_of_pos (by simp [hdash])]
    · rfl
  rw [hb.1, hparsed, hpr.parsed hl _ (Or.inl (by omega)), e1, e2, h1, List.count_append, List.count_append, hpr.no_dash]
  congr 1
  rcases lt_or_gt_of_ne ha with hneg | hpos
  · rw [if_pos hneg, Int.sign_eq_neg_one_of_neg hneg]
    simp only [List.count_singleton_self, Nat.zero_add, List.count_append]
    rw [show List.count (45 : Int) [0] = 0 by decide, Nat.zero_add]
    split_ifs <;> omega
  · rw [if_neg (not_lt.2 hpos.le), Int.sign_eq_one_of_pos hpos]
    simp

/-- C113: printing 5 over the text "12-4" and constructing from the array gives -54; -5 over
"123-4" gives 54. -/
theorem C113_signed_array_counterexample :
    readArrayS ⟨false, false, false⟩ .char asciiAlnum 10#8 false (ofInt 2 5) #v[49, 50, 45, 52, 0] false 2 =
      .ok (ofInt 2 (-54)) ∧
    readArrayS ⟨false, false, false⟩ .char asciiAlnum 10#8 false (ofInt 2 (-5)) #v[49, 50, 51, 45, 52, 0] false 2 =
      .ok (ofInt 2 54) := by constructor <;> decide +kernel

/-- The hypotheses are met by a negative number, in base 16 with prefix and in base 10. -/
example : Canon (ofInt 2 (-0xABCDEF0123456789)) ∧
    Prints 2 32 16#8 true true (toInt (ofInt 2 (-0xABCDEF0123456789))).natAbs ∧
    Prints 2 32 10#8 false false (toInt (ofInt 2 (-0xABCDEF0123456789))).natAbs ∧
    readCountS ⟨false, false, false⟩ .char asciiAlnum 16#8 true (ofInt 2 (-0xABCDEF0123456789)) (Vector.replicate 32 57) true 2 =
      .ok (ofInt 2 (-0xABCDEF0123456789)) := by
  refine ⟨?_, ⟨?_, ?_, ?_⟩, ⟨?_, ?_, ?_⟩, ?_⟩ <;> decide +kernel

end AesiMP
