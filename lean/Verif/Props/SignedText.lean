import Verif.Props.Signed
import Verif.Props.Text
import Verif.Props.NumTheory

/-!
# Properties C44, C46, C51, C62, C63: signed text, digits of zero, square root and powers
-/

namespace AesiMP
open Aesi
open Aeu (toNat Returns)
variable {n m cap : Nat}

/-! ### C46 -/

/-- C46, `wchar_t` text: the unsigned rule (`parsed`, C23), negated iff the number of dashes anywhere in
the text is odd. -/
theorem C46_wide (alnum : Int → Bool) (text : List Int) :
    Sat (Aesi.ofChars .wchar alnum n ⟨text.toArray, rfl⟩) fun r =>
      toInt r = (if text.count 45 % 2 = 0 then 1 else -1) * ((parsed alnum text % 2 ^ (32 * n) : Nat) : Int) ∧
        Canon r := by
  refine Sat.mono (Aesi.ofChars_spec .wchar alnum _ _ (C23_wide alnum text)) fun r h => ⟨?_, h.2.1⟩
  rw [h.1]; simp

/-- C46, `char` text.  Missing: negative `char`s before the first alphanumeric character, as in C23. -/
theorem C46_narrow_partial (alnum : Int → Bool) (text : List Int)
    (hdom : ∀ p (hp : p < text.length), (∀ j (hj : j < p), alnum text[j] = false) →
      0 ≤ text[p] ∧ text[p] ≤ 255) :
    Sat (Aesi.ofChars .char alnum n ⟨text.toArray, rfl⟩) fun r =>
      toInt r = (if text.count 45 % 2 = 0 then 1 else -1) * ((parsed alnum text % 2 ^ (32 * n) : Nat) : Int) ∧
        Canon r := by
  refine Sat.mono (Aesi.ofChars_spec .char alnum _ _ (C23_narrow_partial alnum text hdom))
    fun r h => ⟨?_, h.2.1⟩
  rw [h.1]; simp

/-- C46: a decimal literal with a leading dash is the negative number. -/
theorem C46_decimal (alnum : Int → Bool) (hl : LocaleOk alnum) (hdash : alnum 45 = false) (v : Nat)
    (hfit : v < 2 ^ (32 * n)) :
    Sat (Aesi.ofChars .wchar alnum n ⟨(45 :: numeral false 10 v).toArray, rfl⟩) fun r =>
      toInt r = -(v : Int) := by
  refine Sat.mono (C46_wide alnum (45 :: numeral false 10 v)) fun r h => ?_
  have hp : parsed alnum (45 :: numeral false 10 v) = v := by
    have := parsed_numeral hl false v
    unfold parsed at this ⊢
    rwa [List.dropWhile_cons_of_pos (by simp [hdash])]
  have hc : (numeral false 10 v).count 45 = 0 := by
    rw [List.count_eq_zero]
    unfold numeral
    split
    · simp
    · intro hm
      simp only [List.mem_map, List.mem_reverse] at hm
      obtain ⟨d, hd, he⟩ := hm
      have := Nat.digits_lt_base (by norm_num) hd
      rw [digitChar, if_pos (by omega)] at he
      omega
  rw [h.1, hp, Nat.mod_eq_of_lt hfit, List.count_cons_self, hc]
  simp

example : Aesi.ofChars .char asciiAlnum 2 #v[45, 45, 45, 48, 120, 70, 45, 45, 49] = .ok (ofInt 2 (-0xF1)) ∧
    Aesi.ofChars .char asciiAlnum 2 #v[45, 48] = .ok (ofInt 2 0) ∧
    Aesi.ofChars .wchar asciiAlnum 2 #v[45, 52, 45, 50] = .ok (ofInt 2 42) := by decide +kernel
example : asciiAlnum 45 = false ∧ ∀ c, asciiAlnum c = true → asciiAlnum c = true := ⟨by decide, fun _ h => h⟩

/-! ### C51 -/

/-- C51, positive numbers: prefix, numeral, terminator; the count is the number of characters
written. -/
theorem C51_positive_partial (cfg : Cfg) (kind : CharKind) (base : BitVec 8) (upper : Bool) (a : Aesi n)
    (ha : 0 < toInt a) (buffer : Vector Int cap) (showBase : Bool) (hcap : cap < 2 ^ 63)
    (hbase : (2 ≤ base.toNat ∧ base.toNat ≤ 10 ∧ 2 ≤ n) ∨ (base.toNat = 16 ∧ 0 < n)) (text : List Int)
    (htext : text = (if showBase ∧ 3 < cap then basePrefix base.toNat else []) ++
      numeral upper base.toNat (toInt a).natAbs)
    (hfit : text.length < cap) :
    Sat (Aesi.getString cfg kind base upper a buffer showBase) fun r =>
      r.1.toList = text ++ [0] ++ buffer.toList.drop (text.length + 1) ∧ r.2 = text.length + 1 := by
  have hs : a.sign = .positive := by
    unfold toInt at ha; cases h : a.sign <;> simp [h] at ha ⊢
    omega
  have hv : (toInt a).natAbs = toNat a.base := by rw [toInt_pos hs]; simp
  rw [hv] at htext
  rw [toInt_pos hs] at ha
  unfold Aesi.getString
  rw [if_pos (by simp [hs]), if_neg (by simp [hs])]
  exact C24_get_string_partial cfg kind base upper a.base (by omega) buffer showBase hcap hbase text htext
    hfit

/-- C51, negative numbers: a dash, prefix, numeral, terminator.  The count does *not* include the
dash. -/
theorem C51_negative (cfg : Cfg) (kind : CharKind) (base : BitVec 8) (upper : Bool) (a : Aesi n)
    (ha : toInt a < 0) (buffer : Vector Int cap) (showBase : Bool) (hcap : cap < 2 ^ 63)
    (hbase : (2 ≤ base.toNat ∧ base.toNat ≤ 10 ∧ 2 ≤ n) ∨ (base.toNat = 16 ∧ 0 < n)) (text : List Int)
    (htext : text = (if showBase ∧ 4 < cap then basePrefix base.toNat else []) ++
      numeral upper base.toNat (toInt a).natAbs)
    (hfit : text.length + 1 < cap) :
    Sat (Aesi.getString cfg kind base upper a buffer showBase) fun r =>
      r.1.toList = [45] ++ text ++ [0] ++ buffer.toList.drop (text.length + 2) ∧
        r.2 = text.length + 1 := by
  have hs : a.sign = .negative := by
    unfold toInt at ha; cases h : a.sign <;> simp [h] at ha ⊢
    omega
  have hv : (toInt a).natAbs = toNat a.base := by rw [toInt_neg hs]; simp
  rw [hv] at htext
  rw [toInt_neg hs] at ha
  unfold Aesi.getString
  rw [if_pos (by simp [hs]), if_pos ⟨hs, by omega⟩]
  rw [wr_ok (show 0 < cap by omega)]
  simp only [ok_bind]
  refine Sat.mono (onTail_spec _ 1 (by omega) _ (fun l c =>
    l = text ++ [0] ++ (buffer.toList.drop 1).drop (text.length + 1) ∧ c = text.length + 1) ?_) ?_
  · intro t ht
    have h := C24_get_string_partial cfg kind base upper a.base (by omega) t showBase (by omega) hbase text
      (by rw [htext]; congr 1; simp only [show (3 < cap - 1 ↔ 4 < cap) by omega]) (by omega)
    refine Sat.mono h fun r hr => ⟨?_, hr.2⟩
    rw [hr.1, ht]
    congr 1
    rw [Vector.toList_set, List.drop_set_of_lt (by omega)]
  · rintro r ⟨tail, h1, h2, h3⟩
    refine ⟨?_, h3⟩
    rw [h1, h2, List.drop_drop, Vector.toList_set]
    have hb : 0 < buffer.toList.length := by simp; omega
    cases hl : buffer.toList with
    | nil => rw [hl] at hb; simp at hb
    | cons x xs => simp [Nat.add_comm 1]

/-- C51, zero: the prefix, if asked for, and `0`; no terminator. -/
theorem C51_zero (cfg : Cfg) (kind : CharKind) (base : BitVec 8) (upper : Bool) (a : Aesi n) (hc : Canon a)
    (ha : toInt a = 0) (buffer : Vector Int cap) (showBase : Bool) (text : List Int)
    (htext : text = (if showBase then basePrefix base.toNat else []) ++ [48]) (hfit : text.length ≤ cap) :
    Sat (Aesi.getString cfg kind base upper a buffer showBase) fun r =>
      r.1.toList = text ++ buffer.toList.drop text.length ∧ r.2 = text.length := by
  have hs : a.sign = .zero := (canon_iff.mp hc).mpr ha
  have hlist : ∀ k, k ≤ cap → k ≤ buffer.toList.length := by intro k hk; simpa using hk
  have pfx : ∀ letter, 3 ≤ cap → Sat (zeroPrefixed buffer letter) fun r =>
      r.1.toList = [48, letter, 48] ++ buffer.toList.drop 3 ∧ r.2 = 3 := by
    intro letter h3
    have h := hlist 3 h3
    unfold zeroPrefixed
    rw [if_neg (by omega)]
    simp only [wr_ok (show 0 < cap by omega), wr_ok (show 1 < cap by omega),
      wr_ok (show 2 < cap by omega), rd_ok (show 0 < cap by omega), ok_bind, sat_ok, and_true]
    simp only [Vector.toList_set]
    match hl : buffer.toList with
    | [] => rw [hl] at h; simp at h
    | [x] => rw [hl] at h; simp at h
    | [x, y] => rw [hl] at h; simp at h
    | x :: y :: z :: xs => simp
  have one : 1 ≤ cap → (Sat (do let b ← wr buffer 0 48; (.ok (b, 1) : Exec (Vector Int cap × Nat)))
      fun r => r.1.toList = [48] ++ buffer.toList.drop 1 ∧ r.2 = 1) := by
    intro h1
    have h := hlist 1 h1
    simp only [wr_ok (show 0 < cap by omega), ok_bind, sat_ok, and_true, Vector.toList_set]
    match hl : buffer.toList with
    | [] => rw [hl] at h; simp at h
    | x :: xs => simp
  unfold Aesi.getString
  rw [if_neg (by simp [hs])]
  cases showBase with
  | false =>
    simp only [Bool.false_eq_true, if_false, List.nil_append] at htext ⊢
    subst htext
    exact one hfit
  | true =>
    simp only [if_true] at htext ⊢
    have e2 := Aeu.bv8_eq base 2 (by norm_num)
    have e8 := Aeu.bv8_eq base 8 (by norm_num)
    have e16 := Aeu.bv8_eq base 16 (by norm_num)
    simp only [basePrefix] at htext
    by_cases h2 : base.toNat = 2
    · rw [if_pos (e2.mpr h2)]
      simp only [h2, if_true] at htext
      subst htext; exact pfx 98 hfit
    rw [if_neg (fun h => h2 (e2.mp h))]
    by_cases h8 : base.toNat = 8
    · rw [if_pos (e8.mpr h8)]
      simp only [h8, if_true] at htext
      subst htext; exact pfx 111 hfit
    rw [if_neg (fun h => h8 (e8.mp h))]
    by_cases h16 : base.toNat = 16
    · rw [if_pos (e16.mpr h16)]
      simp only [h16, if_true] at htext
      subst htext; exact pfx 120 hfit
    rw [if_neg (fun h => h16 (e16.mp h))]
    simp only [h2, h8, h16, if_false, List.nil_append] at htext
    subst htext
    rw [if_neg (by simp at hfit; omega)]
    exact one hfit

/-- C51, zero and a buffer too short for its text: with the prefix asked for nothing is written and 0 is
returned; without it the first character is written past the (empty) buffer. -/
theorem C51_zero_short (cfg : Cfg) (kind : CharKind) (base : BitVec 8) (upper : Bool) (a : Aesi n) (hc : Canon a)
    (ha : toInt a = 0) (buffer : Vector Int cap) (showBase : Bool)
    (hshort : cap < ((if showBase then basePrefix base.toNat else []) ++ [48]).length) :
    Aesi.getString cfg kind base upper a buffer showBase =
      if showBase then .ok (buffer, 0) else .error .outOfBounds := by
  have hs : a.sign = .zero := (canon_iff.mp hc).mpr ha
  unfold Aesi.getString
  rw [if_neg (by simp [hs])]
  cases showBase with
  | false =>
    simp only [Bool.false_eq_true, if_false, List.nil_append, List.length_singleton] at hshort ⊢
    rw [show wr buffer 0 48 = .error .outOfBounds from dif_neg (by omega)]
    rfl
  | true =>
    simp only [if_true] at hshort ⊢
    have e2 := Aeu.bv8_eq base 2 (by norm_num)
    have e8 := Aeu.bv8_eq base 8 (by norm_num)
    have e16 := Aeu.bv8_eq base 16 (by norm_num)
    simp only [basePrefix] at hshort
    have z : cap < 3 → ∀ l, zeroPrefixed buffer l = .ok (buffer, 0) := by
      intro h l; unfold zeroPrefixed; rw [if_pos h]
    by_cases h2 : base.toNat = 2
    · rw [if_pos (e2.mpr h2)]
      simp only [h2, if_true] at hshort
      exact z hshort _
    rw [if_neg (fun h => h2 (e2.mp h))]
    by_cases h8 : base.toNat = 8
    · rw [if_pos (e8.mpr h8)]
      simp only [h8, if_true] at hshort
      exact z hshort _
    rw [if_neg (fun h => h8 (e8.mp h))]
    by_cases h16 : base.toNat = 16
    · rw [if_pos (e16.mpr h16)]
      simp only [h16, if_true] at hshort
      exact z hshort _
    rw [if_neg (fun h => h16 (e16.mp h))]
    simp only [h2, h8, h16, if_false, List.nil_append, List.length_singleton] at hshort
    rw [if_pos hshort]

example : Aesi.getString lp64 .char 16#8 false (ofInt 2 0) (Vector.replicate 2 1) true =
    .ok (#v[1, 1], 0) :=
  C51_zero_short lp64 .char 16#8 false _ (by decide) (by decide) _ true (by decide)

example : Aesi.getString lp64 .char 10#8 false (ofInt 2 (-1234)) (Vector.replicate 8 1) false =
    .ok (#v[45, 49, 50, 51, 52, 0, 1, 1], 5) := by decide +kernel
example : Aesi.getString lp64 .char 16#8 false (ofInt 2 0) (Vector.replicate 4 1) true =
    .ok (#v[48, 120, 48, 1], 3) := by decide +kernel

/-- C51 is false: for `-5` three characters are written (`-`, `5`, terminator) and 2 is returned; with a
two-character buffer the dash is written and 0 is returned; for zero and an empty buffer `buffer[0]` is
written all the same. -/
theorem C51_counterexample :
    Aesi.getString lp64 .char 10#8 false (ofInt 2 (-5)) (Vector.replicate 4 1) false =
      .ok (#v[45, 53, 0, 1], 2) ∧
    Aesi.getString lp64 .char 10#8 false (ofInt 2 (-5)) (Vector.replicate 2 1) false = .ok (#v[45, 1], 0) ∧
    Aesi.getString lp64 .char 10#8 false (ofInt 2 0) (Vector.replicate 0 1) false =
      .error .outOfBounds := by decide +kernel

/-! ### C62 -/

/-- C62: `os << a`: dash iff negative, then as for the magnitude; no pending width.  Missing: as in C35;
and `0` is printed without its prefix. -/
theorem C62_stream_partial (cfg : Cfg) (bufSize : Nat) (hb : Aeu.IsStreamBuf n bufSize) (os : OStream)
    (hw : os.width = 0) (a : Aesi n) (hc : Canon a)
    (hn : (os.basefield = .hex ∧ 1 ≤ n) ∨ (os.basefield = .other ∧ 2 ≤ n) ∨
      (os.basefield = .oct ∧ 3 ≤ n)) :
    Sat (Aesi.streamOut cfg bufSize os a) fun r => r.out = os.out ++
      ((if toInt a < 0 then [45] else []) ++
        (if os.showbase ∧ toInt a ≠ 0 then basePrefix (streamRadix os.basefield) else []) ++
        numeral os.uppercase (streamRadix os.basefield) (toInt a).natAbs) := by
  have hs := canon_sign hc
  unfold Aesi.streamOut
  by_cases h0 : a.sign = .zero
  · have hz := hs.1.mp h0
    rw [if_neg (by simp [h0])]
    refine Sat.ok ?_
    rw [hz, show (os.putText [48]).out = _ from (Aeu.put_width_zero os hw [48]).1]
    simp [numeral]
  · have hz : toInt a ≠ 0 := fun h => h0 (hs.1.mpr h)
    rw [if_pos h0]
    dsimp only
    by_cases hneg : a.sign = .negative
    · rw [if_pos hneg]
      refine Sat.mono (C35_stream_partial cfg bufSize hb (os.putText [45]) rfl a.base hn) fun r h => ?_
      rw [h, show (os.putText [45]).out = _ from (Aeu.put_width_zero os hw [45]).1]
      have h1 := hs.2.2.mp hneg
      have h2 : (toInt a).natAbs = toNat a.base := by rw [toInt_neg hneg]; simp
      simp only [h1, h2, hz, ne_eq, not_false_eq_true, and_true, if_true, List.append_assoc]
      rfl
    · have hpos : a.sign = .positive := by revert h0 hneg; cases a.sign <;> simp
      rw [if_neg hneg]
      refine Sat.mono (C35_stream_partial cfg bufSize hb os hw a.base hn) fun r h => ?_
      have h1 : ¬ toInt a < 0 := by have := hs.2.1.mp hpos; omega
      have h2 : (toInt a).natAbs = toNat a.base := by rw [toInt_pos hpos]; simp
      rw [h]
      simp only [h1, h2, hz, ne_eq, not_false_eq_true, and_true, if_false, List.nil_append]

example : (Aesi.streamOut lp64 21 { freshStream .hex 0 with showbase := true } (ofInt 2 (-255))).map (·.out) =
    .ok [45, 48, 120, 102, 102] := by decide +kernel

/-- C62 with a pending width: the padding lands before the dash only, the number follows unpadded. -/
theorem C62_width_counterexample :
    (Aesi.streamOut lp64 21 { freshStream .other 4 with adjust := .left } (ofInt 2 (-15))).map (·.out) =
      .ok [45, 32, 32, 32, 49, 53] := by decide +kernel

/-! ### C63 -/

/-- C63: `squareRoot()`: the floor square root of a non-negative number, 0 for a negative one. -/
theorem C63_squareRoot (cfg : Cfg) (hn : 0 < n) (a : Aesi n) : Sat (Aesi.squareRoot cfg a) fun r =>
    if toInt a < 0 then toInt r = 0 else
      0 ≤ toInt r ∧ toInt r ^ 2 ≤ toInt a ∧ toInt a < (toInt r + 1) ^ 2 := by
  have hz : Sat (ofIntegral n ITy.i32 0) fun r => toInt r = 0 := by
    rw [ofIntegral, if_neg (by omega), if_neg (by omega)]; exact Sat.ok (by simp [toInt, Aesi.zero])
  unfold Aesi.squareRoot
  by_cases hs : a.sign = .positive
  · rw [if_pos hs]
    refine Sat.bind (C32_squareRoot cfg hn a.base) fun r hr => Sat.ok ?_
    rw [toInt_pos hs, if_neg (by omega)]
    simp only [toInt]
    exact ⟨by omega, by exact_mod_cast hr.1, by exact_mod_cast hr.2⟩
  · rw [if_neg hs]
    refine Sat.mono hz fun r hr => ?_
    split
    · exact hr
    · have : toInt a = 0 := by
        have := Aeu.toNat_lt a.base
        rename_i h
        unfold toInt at h ⊢
        cases h' : a.sign <;> simp_all
      rw [hr, this]; simp

/-- C63: `power2(k)`. -/
theorem C63_power2 (cfg : Cfg) (k : Nat) (hk : k < 32 * n) :
    Sat (Aesi.power2 cfg n k) fun r => toInt r = 2 ^ k ∧ Canon r := by
  unfold Aesi.power2
  refine Sat.bind (C31_power2 cfg k hk) fun b hb => ?_
  refine Sat.mono (normalise_spec _) fun r hr => ⟨?_, hr.2.1⟩
  rw [hr.1]; simp [toInt, hb]

/-- C63: `power2(k)` beyond the precision is zero (checked build). -/
theorem C63_power2_out_of_range (cfg : Cfg) (hs : cfg.unsafeMode = false) (k : Nat) (hk : 32 * n ≤ k) :
    Sat (Aesi.power2 cfg n k) fun r => toInt r = 0 ∧ Canon r := by
  unfold Aesi.power2
  refine Sat.bind (C31_power2_out_of_range cfg hs k hk) fun b hb => ?_
  refine Sat.mono (normalise_spec _) fun r hr => ⟨?_, hr.2.1⟩
  rw [hr.1]; simp [toInt, hb]

example : Aesi.squareRoot lp64 (ofInt 2 (2 ^ 60 + 1)) = .ok (ofInt 2 (2 ^ 30)) ∧
    Aesi.squareRoot lp64 (ofInt 2 (-4)) = .ok (ofInt 2 0) ∧
    Aesi.power2 lp64 2 40 = .ok (ofInt 2 (2 ^ 40)) := by decide +kernel

/-! ### Concrete cases that meet the hypotheses -/

/-- The hypotheses of `C51_positive_partial` are met. -/
example := C51_positive_partial (cap := 30) ⟨false, false, false⟩ .wchar 16#8 true (Aesi.ofInt 2 (2 ^ 40 + 5))
  (by decide +kernel) (Vector.replicate 30 7) true (by omega) (by decide) _ rfl (by decide +kernel)

/-- C51, zeros that claim a sign (`Aesi(Aeu(0))`, C44): `getString` writes "0" for one that reports `isPositive()`, and
"-0" for one that reports `isNegative()`, without the terminator; the count leaves out the dash. -/
theorem C51_hidden_zero (cfg : Cfg) (kind : CharKind) (base : BitVec 8) (upper : Bool) (a : Aesi n)
    (ha : toInt a = 0) (buffer : Vector Int cap) (showBase : Bool) :
    (isPositive a = true → 2 ≤ cap →
      ∀ text : List Int, text = (if showBase ∧ 3 < cap then basePrefix base.toNat else []) ++ [48] →
      Sat (Aesi.getString cfg kind base upper a buffer showBase) fun r =>
        r.1.toList = text ++ buffer.toList.drop text.length ∧ r.2 = text.length) ∧
    (isNegative a = true → 3 ≤ cap →
      ∀ text : List Int, text = (if showBase ∧ 4 < cap then basePrefix base.toNat else []) ++ [48] →
      Sat (Aesi.getString cfg kind base upper a buffer showBase) fun r =>
        r.1.toList = [45] ++ text ++ buffer.toList.drop (text.length + 1) ∧ r.2 = text.length) := by
  refine ⟨fun h hc text htext => ?_, fun h hc text htext => ?_⟩
  · have hs : a.sign = .positive := by cases hs : a.sign <;> simp [isPositive, hs] at h ⊢
    have h0 : toNat a.base = 0 := by rw [toInt_pos hs] at ha; omega
    unfold Aesi.getString
    rw [if_pos (by simp [hs]), if_neg (by simp [hs])]
    exact C24_get_string_zero cfg kind base upper a.base h0 buffer showBase hc text htext
  · have hs : a.sign = .negative := by cases hs : a.sign <;> simp [isNegative, hs] at h ⊢
    have h0 : toNat a.base = 0 := by rw [toInt_neg hs] at ha; omega
    unfold Aesi.getString
    rw [if_pos (by simp [hs]), if_pos ⟨hs, by omega⟩]
    rw [wr_ok (show 0 < cap by omega)]
    simp only [ok_bind]
    refine Sat.mono (onTail_spec _ 1 (by omega) _ (fun l c =>
      l = text ++ (buffer.toList.drop 1).drop text.length ∧ c = text.length) ?_) ?_
    · intro t ht
      refine Sat.mono (C24_get_string_zero cfg kind base upper a.base h0 t showBase (by omega) text
        (by rw [htext]; congr 1; simp only [show (3 < cap - 1 ↔ 4 < cap) by omega])) fun r hr => ⟨?_, hr.2⟩
      rw [hr.1, ht]
      congr 1
      rw [Vector.toList_set, List.drop_set_of_lt (by omega)]
    · rintro r ⟨tail, h1, h2, h3⟩
      refine ⟨?_, h3⟩
      rw [h1, h2, List.drop_drop, Vector.toList_set]
      have hb : 0 < buffer.toList.length := by simp; omega
      cases hl : buffer.toList with
      | nil => rw [hl] at hb; simp at hb
      | cons x xs => simp [Nat.add_comm]

/-- `-Aesi(Aeu(0))` printed into an array of sevens: "-0x0". -/
example : toInt (inverse (ofAeu (Aeu.ofNat 2 0))) = 0 ∧ isNegative (inverse (ofAeu (Aeu.ofNat 2 0))) = true ∧
    Aesi.getString ⟨false, false, false⟩ .char 16#8 false (inverse (ofAeu (Aeu.ofNat 2 0))) (Vector.replicate 6 7) true =
      .ok (#v[45, 48, 120, 48, 7, 7], 3) := by
  refine ⟨?_, ?_, ?_⟩ <;> decide +kernel

/-- The hypotheses of `C51_negative` are met. -/
example := C51_negative (cap := 30) ⟨false, false, false⟩ .wchar 16#8 true (Aesi.ofInt 2 (-2 ^ 40 - 5))
  (by decide +kernel) (Vector.replicate 30 7) true (by omega) (by decide) _ rfl (by decide +kernel)

end AesiMP
