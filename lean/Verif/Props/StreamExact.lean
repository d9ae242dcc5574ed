import Verif.Lemmas.StreamWidth
import Verif.Props.SignedText

/-!
# Stream output: C35, C62 for every pending width; C73, C74 (reading back what was printed)
-/

namespace AesiMP
variable {n m : Nat}

/-! ### C35, exactly -/

/-- The part of the output of `os << v` that is inserted first, and so takes the field width: the base
prefix if it is shown; otherwise `0`, the digits of the top 32-bit block (hexadecimal), or one digit. -/
def firstItem (os : OStream) (v : Nat) : List Int :=
  if os.showbase ∧ os.basefield ≠ .other then basePrefix (streamRadix os.basefield)
  else if v = 0 then [48]
  else if os.basefield = .hex then numeral os.uppercase 16 (v / 2 ^ (32 * Nat.log (2 ^ 32) v))
  else (numeral os.uppercase (streamRadix os.basefield) v).take 1

/-- The whole text of `os << v`: prefix if shown, numeral. -/
def streamText (os : OStream) (v : Nat) : List Int :=
  (if os.showbase then basePrefix (streamRadix os.basefield) else []) ++
    numeral os.uppercase (streamRadix os.basefield) v

section Unsigned
open Aeu

private theorem head_shown (os : OStream) (h : os.showbase = true ∧ os.basefield ≠ .other) :
    (streamHead os).width = 0 ∧ (streamHead os).uppercase = os.uppercase ∧
    (streamHead os).out = os.out ++ OStreamField os (basePrefix (streamRadix os.basefield)) := by
  have hp := fun t => put_any os t
  unfold streamHead streamBase
  cases hbf : os.basefield <;> simp [h.1, hbf, OStream.putText, hp, streamRadix, basePrefix] at h ⊢

private theorem head_hidden (os : OStream) (h : ¬ (os.showbase = true ∧ os.basefield ≠ .other)) :
    streamHead os = os ∧ (if os.showbase then basePrefix (streamRadix os.basefield) else []) = [] := by
  unfold streamHead streamBase
  cases hbf : os.basefield <;> cases hsb : os.showbase <;>
    simp [hbf, hsb, streamRadix, basePrefix] at h ⊢

/-- What follows the prefix. -/
private theorem body_exact (cfg : Cfg) (bufSize : Nat) (hb : IsStreamBuf n bufSize) (bf : BaseField)
    (os : OStream) (a : Aeu n)
    (hn : (bf = .hex ∧ 1 ≤ n) ∨ (bf = .other ∧ 2 ≤ n) ∨ (bf = .oct ∧ 3 ≤ n)) (item : List Int)
    (hitem : item = if toNat a = 0 then [48] else if bf = .hex then topHex os.uppercase (toNat a)
      else (numeral os.uppercase (streamRadix bf) (toNat a)).take 1) :
    Sat (do
      let z ← isZero a
      if z then .ok (os.putText [48]) else
        if streamBase bf = 16#32 then streamHex os a
        else streamDigits cfg bufSize (streamBase bf) os a) fun r => r.width = 0 ∧
      r.out = os.out ++ OStreamField os item ++
        (numeral os.uppercase (streamRadix bf) (toNat a)).drop item.length := by
  by_cases h0 : toNat a = 0
  · simp only [isZero_spec, h0, decide_true, ok_bind, if_true, sat_ok]
    rw [if_pos h0] at hitem
    subst hitem
    have := put_any os [48]
    exact ⟨this.2.1, by rw [OStream.putText, this.1]; simp [numeral]⟩
  · simp only [isZero_spec, h0, decide_false, ok_bind, Bool.false_eq_true, if_false]
    rw [if_neg h0] at hitem
    by_cases hbf : bf = .hex
    · subst hbf
      rw [if_pos rfl] at hitem
      subst hitem
      rw [if_pos (show streamBase .hex = 16#32 from rfl)]
      exact streamHex_any (by rcases hn with h | h | h <;> omega) os a h0
    · rw [if_neg hbf] at hitem
      have h2 : 2 ≤ n := by
        rcases hn with ⟨h, _⟩ | h | h
        · exact absurd h hbf
        · exact h.2
        · omega
      have hr : (streamBase bf).toNat = streamRadix bf ∧ streamBase bf ≠ 16#32 ∧
          1 < streamRadix bf ∧ streamRadix bf ≤ 10 := by
        cases h : bf with
        | hex => exact absurd h hbf
        | oct => decide
        | other => decide
      have hlen : (Nat.digits (streamRadix bf) (toNat a)).length ≤ bufSize := by
        rcases hn with ⟨h, _⟩ | ⟨h, _⟩ | ⟨h, h3⟩
        · exact absurd h hbf
        · rw [h]; exact (digits_fit hb a).2 h2
        · rw [h]; exact (digits_fit hb a).1 h3
      have hpos : 0 < (Nat.digits (streamRadix bf) (toNat a)).length := by
        rw [List.length_pos_iff]
        exact Nat.digits_ne_nil_iff_ne_zero.mpr h0
      rw [if_neg hr.2.1]
      have h := streamDigits_any cfg bufSize (by omega) (streamBase bf) (by omega) (by omega) os h2 a h0
        (numeral os.uppercase (streamRadix bf) (toNat a)) (by
          rw [hr.1, numeral_eq_lowDigits _ hr.2.2.1 hr.2.2.2 _ h0, Nat.min_eq_left hlen])
      have hl1 : item.length = 1 := by
        rw [hitem, List.length_take, numeral_eq_lowDigits _ hr.2.2.1 hr.2.2.2 _ h0]
        simp [lowDigits_length]
        omega
      rw [hl1]
      subst hitem
      exact h

/-- C35, exactly, for every state of the stream: the text of the number, in which only the first item
(`firstItem`) is padded to the pending width; the width is reset.  (Octal output of less than 96 bits
and decimal output of less than 64 bits: `C35_octal64`, `C35_one_block`.) -/
theorem C35_width_exact (cfg : Cfg) (bufSize : Nat) (hb : IsStreamBuf n bufSize) (os : OStream) (a : Aeu n)
    (hn : (os.basefield = .hex ∧ 1 ≤ n) ∨ (os.basefield = .other ∧ 2 ≤ n) ∨
      (os.basefield = .oct ∧ 3 ≤ n)) :
    Sat (streamOut cfg bufSize os a) fun r => r.width = 0 ∧ r.out = os.out ++
      padded (os.adjust = .left) os.fill os.width (firstItem os (toNat a)) ++
      (streamText os (toNat a)).drop (firstItem os (toNat a)).length := by
  unfold streamOut firstItem streamText
  by_cases hp : os.showbase = true ∧ os.basefield ≠ .other
  · obtain ⟨h1, h2, h3⟩ := head_shown os hp
    rw [if_pos hp, if_pos hp.1]
    refine Sat.mono (body_exact cfg bufSize hb os.basefield (streamHead os) a hn _ rfl) ?_
    rintro r ⟨hw, ho⟩
    refine ⟨hw, ?_⟩
    rw [ho, field_zero _ h1, h2, h3]
    simp only [List.drop_left, List.append_assoc, OStreamField, List.append_cancel_left_eq]
    split_ifs with hz hx
    · simp [hz, numeral]
    · have hpre := List.prefix_iff_eq_append.mp (topHex_prefix os.uppercase (toNat a) hz)
      rw [hx]
      exact hpre
    · exact List.prefix_iff_eq_append.mp (List.take_prefix _ _)
  · obtain ⟨h1, h2⟩ := head_hidden os hp
    rw [if_neg hp, h2, List.nil_append]
    simp only [h1]
    exact body_exact cfg bufSize hb os.basefield os a hn _ rfl

/-- The first item is a beginning of the text. -/
theorem firstItem_prefix (os : OStream) (v : Nat) : firstItem os v <+: streamText os v := by
  unfold firstItem streamText
  by_cases hp : os.showbase = true ∧ os.basefield ≠ .other
  · rw [if_pos hp, if_pos hp.1]
    exact List.prefix_append _ _
  · rw [if_neg hp, (head_hidden os hp).2, List.nil_append]
    split_ifs with h0 hx
    · subst h0; simp [numeral]
    · rw [hx]
      exact topHex_prefix _ _ h0
    · exact List.take_prefix _ _

/-- C35: right adjusted (or with no adjustment flag, or `internal`), the text is complete and preceded
by fill characters, as many as the *first item* lacks to the width. -/
theorem C35_right_adjusted (cfg : Cfg) (bufSize : Nat) (hb : IsStreamBuf n bufSize) (os : OStream)
    (hadj : os.adjust ≠ .left) (a : Aeu n)
    (hn : (os.basefield = .hex ∧ 1 ≤ n) ∨ (os.basefield = .other ∧ 2 ≤ n) ∨
      (os.basefield = .oct ∧ 3 ≤ n)) :
    Sat (streamOut cfg bufSize os a) fun r => r.out = os.out ++
      List.replicate (os.width - (firstItem os (toNat a)).length) os.fill ++ streamText os (toNat a) := by
  refine Sat.mono (C35_width_exact cfg bufSize hb os a hn) ?_
  rintro r ⟨_, h⟩
  have hp := List.prefix_iff_eq_append.mp (firstItem_prefix os (toNat a))
  rw [h, padded, if_neg (by simpa using hadj)]
  simp only [List.append_assoc, hp]

/-- C35: the output is the text padded to the field width exactly when the width does not exceed the
first item, or the first item is the whole text. -/
theorem C35_width_iff (cfg : Cfg) (bufSize : Nat) (hb : IsStreamBuf n bufSize) (os : OStream) (a : Aeu n)
    (hn : (os.basefield = .hex ∧ 1 ≤ n) ∨ (os.basefield = .other ∧ 2 ≤ n) ∨
      (os.basefield = .oct ∧ 3 ≤ n)) :
    Sat (streamOut cfg bufSize os a) fun r =>
      (r.out = os.out ++ padded (os.adjust = .left) os.fill os.width (streamText os (toNat a)) ↔
        os.width ≤ (firstItem os (toNat a)).length ∨ firstItem os (toNat a) = streamText os (toNat a)) := by
  refine Sat.mono (C35_width_exact cfg bufSize hb os a hn) ?_
  rintro r ⟨_, h⟩
  have hpre := firstItem_prefix os (toNat a)
  have hp := List.prefix_iff_eq_append.mp hpre
  have hle := hpre.length_le
  rw [h, List.append_assoc, List.append_cancel_left_eq]
  constructor
  · intro he
    have hl := congrArg List.length he
    have lp : ∀ (l : Bool) (f : Int) (w : Nat) (t : List Int), (padded l f w t).length = max w t.length := by
      intro l f w t
      unfold padded
      split <;> simp <;> omega
    rw [List.length_append, lp, lp, List.length_drop] at hl
    by_cases hc : os.width ≤ (firstItem os (toNat a)).length
    · exact Or.inl hc
    · exact Or.inr (hpre.eq_of_length (by omega))
  · rintro (h1 | h1)
    · have e1 : os.width - (firstItem os (toNat a)).length = 0 := by omega
      have e2 : os.width - (streamText os (toNat a)).length = 0 := by omega
      simp only [padded, e1, e2, List.replicate_zero, List.append_nil, List.nil_append, ite_self, hp]
    · rw [h1, List.drop_length, List.append_nil]

-- `std::setw(5) << std::right << std::setfill('*')`, 15: four stars, 15
example : (streamOut ⟨false, false, false⟩ 21 { freshStream .other 5 with fill := 42 } (ofNat 2 15)).map
    (·.out) = .ok [42, 42, 42, 42, 49, 53] := by decide +kernel
example : firstItem { freshStream .hex 5 with showbase := true } 15 = [48, 120] ∧
    firstItem (freshStream .hex 0) (0xab * 2 ^ 32 + 7) = [97, 98] := by
  constructor
  · decide +kernel
  · have : Nat.log (2 ^ 32) (0xab * 2 ^ 32 + 7) = 1 := by
      rw [Nat.log_eq_iff (Or.inl (by norm_num))]; norm_num
    simp only [firstItem, this]
    decide +kernel

/-- C35 is false for every non-zero 32-bit number in decimal and octal: a read past the object. -/
theorem C35_one_block (cfg : Cfg) (bufSize : Nat) (hb : IsStreamBuf 1 bufSize) (os : OStream)
    (hbf : os.basefield ≠ .hex) (a : Aeu 1) (ha : toNat a ≠ 0) :
    streamOut cfg bufSize os a = .error .outOfBounds := by
  have hbs : bufSize = 10 := by unfold IsStreamBuf at hb; omega
  subst hbs
  unfold streamOut
  have hne : streamBase os.basefield ≠ 16#32 := by
    cases h : os.basefield with
    | hex => exact absurd h hbf
    | oct => decide
    | other => decide
  simp only [isZero_spec, ha, decide_false, ok_bind, Bool.false_eq_true, if_false, hne]
  unfold streamDigits whileC
  obtain ⟨b, hb', _⟩ := ofUnsigned_spec (n := 1) (w := 32) (by norm_num) (streamBase os.basefield)
  obtain ⟨qr, hqr, _⟩ := divide_total cfg (n := 1) (by norm_num) a b
  have hcast : integralCast .u8 qr.2 = .error .outOfBounds := by
    simp [integralCast, low64_one_block]
  simp [isZero_spec, ha, hb', hqr, hcast]

/-! ### C73: reading back -/

/-- The digits below ten do not depend on the letter case. -/
theorem numeral_case (u : Bool) {b : Nat} (hb1 : 1 < b) (hb : b ≤ 10) (v : Nat) :
    numeral u b v = numeral false b v := by
  unfold numeral
  split
  · rfl
  · apply List.map_congr_left
    intro d hd
    have := Nat.digits_lt_base hb1 (List.mem_reverse.mp hd)
    rw [digitChar, digitChar, if_pos (by omega), if_pos (by omega)]

/-- C73: what `os << a` writes (decimal; or octal, hexadecimal with `showbase`; no pending width) is a
text from which the constructor of any precision makes the number again, reduced to that precision.
Missing: octal output below 96 bits, decimal output below 64 bits (C35). -/
theorem C73_stream_round_trip_partial (cfg : Cfg) (bufSize : Nat) (hb : IsStreamBuf n bufSize)
    (os : OStream) (hw : os.width = 0) (a : Aeu n)
    (hn : (os.basefield = .hex ∧ os.showbase = true ∧ 1 ≤ n) ∨ (os.basefield = .other ∧ 2 ≤ n) ∨
      (os.basefield = .oct ∧ os.showbase = true ∧ 3 ≤ n)) :
    Sat (streamOut cfg bufSize os a) fun r => ∃ text, r.out = os.out ++ text ∧
      ∀ (kind : CharKind) (alnum : Int → Bool), LocaleOk alnum → ∀ m,
        Returns (ofChars kind alnum m ⟨text.toArray, rfl⟩) (toNat a % 2 ^ (32 * m)) := by
  refine Sat.mono (C35_stream_partial cfg bufSize hb os hw a (by
    rcases hn with h | h | h
    · exact Or.inl ⟨h.1, h.2.2⟩
    · exact Or.inr (Or.inl h)
    · exact Or.inr (Or.inr ⟨h.1, h.2.2⟩))) fun r h => ⟨_, h, ?_⟩
  intro kind alnum hl m
  rcases hn with ⟨h1, h2, _⟩ | ⟨h1, _⟩ | ⟨h1, h2, _⟩
  · have e : (if os.showbase then basePrefix (streamRadix os.basefield) else []) = [48, 120] := by
      rw [h1, h2]; rfl
    rw [e, h1]
    exact C23_prefixed kind alnum hl os.uppercase 16 120 (by simp) (toNat a)
  · have e : (if os.showbase then basePrefix (streamRadix os.basefield) else []) = [] := by
      rw [h1]; simp [basePrefix, streamRadix]
    rw [e, List.nil_append, h1, show streamRadix .other = 10 from rfl,
      numeral_case _ (by norm_num) (by norm_num)]
    exact C23_decimal kind alnum hl (toNat a)
  · have e : (if os.showbase then basePrefix (streamRadix os.basefield) else []) = [48, 111] := by
      rw [h1, h2]; rfl
    rw [e, h1]
    exact C23_prefixed kind alnum hl os.uppercase 8 111 (by simp) (toNat a)

/-- C73: with `m = n` the result is the printed number itself. -/
theorem C73_same_precision_partial (cfg : Cfg) (bufSize : Nat) (hb : IsStreamBuf n bufSize)
    (os : OStream) (hw : os.width = 0) (ho : os.out = []) (a : Aeu n)
    (hn : (os.basefield = .hex ∧ os.showbase = true ∧ 1 ≤ n) ∨ (os.basefield = .other ∧ 2 ≤ n) ∨
      (os.basefield = .oct ∧ os.showbase = true ∧ 3 ≤ n))
    (kind : CharKind) (alnum : Int → Bool) (hl : LocaleOk alnum) :
    Sat (streamOut cfg bufSize os a) fun r => ofChars kind alnum n ⟨r.out.toArray, rfl⟩ = .ok a := by
  refine Sat.mono (C73_stream_round_trip_partial cfg bufSize hb os hw a hn) ?_
  rintro r ⟨text, h1, h2⟩
  rw [ho, List.nil_append] at h1
  subst h1
  obtain ⟨b, hb1, hb2⟩ := h2 kind alnum hl n
  rw [Nat.mod_eq_of_lt (toNat_lt a)] at hb2
  rw [hb1, toNat_inj hb2]

/-- C73 is false without `showbase`: 16 printed in hexadecimal reads back as 10. -/
theorem C73_counterexample :
    (streamOut ⟨false, false, false⟩ 21 (freshStream .hex 0) (ofNat 2 16)).map (·.out) = .ok [49, 48] ∧
    ofChars .char asciiAlnum 2 #v[49, 48] = .ok (ofNat 2 10) := by decide +kernel

end Unsigned

section Signed
open Aesi

/-! ### C62, exactly -/

/-- C62, exactly, for every object and every state of the stream: `0` in the field; or the dash in the
field, followed by the text of the magnitude; or, for a positive sign, as the unsigned number. -/
theorem C62_width_exact (cfg : Cfg) (bufSize : Nat) (hb : Aeu.IsStreamBuf n bufSize) (os : OStream)
    (a : Aesi n)
    (hn : (os.basefield = .hex ∧ 1 ≤ n) ∨ (os.basefield = .other ∧ 2 ≤ n) ∨
      (os.basefield = .oct ∧ 3 ≤ n)) :
    Sat (Aesi.streamOut cfg bufSize os a) fun r => r.width = 0 ∧ r.out = os.out ++
      (if sgn a = 0 then padded (os.adjust = .left) os.fill os.width [48]
       else if sgn a < 0 then
         padded (os.adjust = .left) os.fill os.width [45] ++ streamText os (toInt a).natAbs
       else padded (os.adjust = .left) os.fill os.width (firstItem os (toInt a).natAbs) ++
         (streamText os (toInt a).natAbs).drop (firstItem os (toInt a).natAbs).length) := by
  unfold Aesi.streamOut sgn
  cases hs : a.sign with
  | zero =>
    have := Aeu.put_any os [48]
    simp only [ne_eq, not_true_eq_false, if_false, if_true]
    exact Sat.ok ⟨this.2.1, this.1⟩
  | positive =>
    have hv : (toInt a).natAbs = Aeu.toNat a.base := by rw [toInt_pos hs]; simp
    simp only [ne_eq, reduceCtorEq, not_false_eq_true, if_true, if_false, hv]
    rw [if_neg (by norm_num), if_neg (by norm_num)]
    simpa only [List.append_assoc] using C35_width_exact cfg bufSize hb os a.base hn
  | negative =>
    have hv : (toInt a).natAbs = Aeu.toNat a.base := by rw [toInt_neg hs]; simp
    simp only [ne_eq, reduceCtorEq, not_false_eq_true, if_true, hv]
    rw [if_neg (by norm_num), if_pos (by norm_num)]
    have hp := Aeu.put_any os [45]
    refine Sat.mono (C35_width_exact cfg bufSize hb (os.putText [45]) a.base hn) ?_
    rintro r ⟨h1, h2⟩
    refine ⟨h1, ?_⟩
    have hz : ∀ t, padded ((os.putText [45]).adjust = .left) (os.putText [45]).fill
        (os.putText [45]).width t = t := by
      intro t; simp [padded, OStream.putText, hp.2.1]
    have hpre := List.prefix_iff_eq_append.mp (firstItem_prefix (os.putText [45]) (Aeu.toNat a.base))
    rw [h2, hz, OStream.putText, hp.1]
    simp only [List.append_assoc]
    congr 2

/-! ### C74: reading back -/

/-- No dash in a numeral. -/
theorem numeral_no_dash (u : Bool) {b : Nat} (hb : 1 < b) (v : Nat) : (numeral u b v).count 45 = 0 := by
  rw [List.count_eq_zero]
  unfold numeral
  split
  · simp
  · intro hm
    simp only [List.mem_map, List.mem_reverse] at hm
    obtain ⟨d, _, he⟩ := hm
    unfold digitChar at he
    split at he
    · omega
    · cases u <;> simp at he <;> omega

/-- C74: what `os << a` writes for a signed number (decimal; or octal, hexadecimal with `showbase`; no
pending width) constructs the same number again (`wchar_t` text or `char` text), in a locale where the
dash is not alphanumeric.  Missing: octal output below 96 bits, decimal output below 64 bits (C35),
objects that misreport zero. -/
theorem C74_signed_round_trip_partial (cfg : Cfg) (bufSize : Nat) (hb : Aeu.IsStreamBuf n bufSize)
    (os : OStream) (hw : os.width = 0) (a : Aesi n) (hc : Canon a)
    (hn : (os.basefield = .hex ∧ os.showbase = true ∧ 1 ≤ n) ∨ (os.basefield = .other ∧ 2 ≤ n) ∨
      (os.basefield = .oct ∧ os.showbase = true ∧ 3 ≤ n))
    (kind : CharKind) (alnum : Int → Bool) (hl : LocaleOk alnum) (hdash : alnum 45 = false) :
    Sat (Aesi.streamOut cfg bufSize os a) fun r => ∃ text, r.out = os.out ++ text ∧
      Sat (Aesi.ofChars kind alnum n ⟨text.toArray, rfl⟩) fun b => toInt b = toInt a ∧ Canon b := by
  have hn' : (os.basefield = .hex ∧ 1 ≤ n) ∨ (os.basefield = .other ∧ 2 ≤ n) ∨
      (os.basefield = .oct ∧ 3 ≤ n) := by
    rcases hn with h | h | h
    · exact Or.inl ⟨h.1, h.2.2⟩
    · exact Or.inr (Or.inl h)
    · exact Or.inr (Or.inr ⟨h.1, h.2.2⟩)
  refine Sat.mono (C62_stream_partial cfg bufSize hb os hw a hc hn') fun r h => ⟨_, h, ?_⟩
  -- the text after the dash
  generalize hbody : (if os.showbase ∧ toInt a ≠ 0 then basePrefix (streamRadix os.basefield) else []) ++
    numeral os.uppercase (streamRadix os.basefield) (toInt a).natAbs = body
  have hval : parsed alnum body = (toInt a).natAbs ∧ body.count 45 = 0 ∧
      ∀ c ∈ body.head?, 0 ≤ c ∧ c ≤ 255 ∧ alnum c = true := by
    have hhead : ∀ u {b : Nat}, 1 < b → b ≤ 16 → ∀ v, ∀ c ∈ (numeral u b v).head?,
        0 ≤ c ∧ c ≤ 255 ∧ alnum c = true := by
      intro u b hb1 hb2 v c hc
      have hm := List.mem_of_mem_head? hc
      have : asciiAlnum c = true ∧ 0 ≤ c ∧ c ≤ 255 := by
        unfold numeral at hm
        split at hm
        · simp at hm; subst hm; decide
        · simp only [List.mem_map, List.mem_reverse] at hm
          obtain ⟨d, hd, rfl⟩ := hm
          have := Nat.digits_lt_base hb1 hd
          unfold digitChar asciiAlnum
          split
          · simp; omega
          · cases u <;> simp <;> omega
      exact ⟨this.2.1, this.2.2, hl _ this.1⟩
    have h48 : alnum 48 = true := hl _ (by decide)
    rcases hn with ⟨h1, h2, _⟩ | ⟨h1, _⟩ | ⟨h1, h2, _⟩
    · by_cases hz : toInt a = 0
      · rw [if_neg (by simp [hz]), hz, List.nil_append] at hbody
        subst hbody
        simp only [Int.natAbs_zero, numeral, if_true, hz]
        refine ⟨by simpa [numeral] using parsed_numeral hl false 0, by simp, ?_⟩
        intro c hc; simp at hc; subst hc; exact ⟨by norm_num, by norm_num, h48⟩
      · rw [if_pos ⟨h2, hz⟩, h1] at hbody
        subst hbody
        refine ⟨parsed_prefixed (b := 16) (letter := 120) hl _ _ (by simp), ?_, ?_⟩
        · rw [List.count_append, numeral_no_dash _ (by norm_num [streamRadix])]; decide
        · intro c hc; simp [basePrefix, streamRadix] at hc; subst hc; exact ⟨by norm_num, by norm_num, h48⟩
    · have e : (if os.showbase ∧ toInt a ≠ 0 then basePrefix (streamRadix os.basefield) else []) = [] := by
        rw [h1]; simp [basePrefix, streamRadix]
      rw [e, List.nil_append, h1] at hbody
      subst hbody
      exact ⟨parsed_numeral hl _ _, numeral_no_dash _ (by norm_num [streamRadix]) _,
        hhead _ (by norm_num [streamRadix]) (by norm_num [streamRadix]) _⟩
    · by_cases hz : toInt a = 0
      · rw [if_neg (by simp [hz]), hz, List.nil_append] at hbody
        subst hbody
        simp only [Int.natAbs_zero, numeral, if_true, hz]
        refine ⟨by simpa [numeral] using parsed_numeral hl false 0, by simp, ?_⟩
        intro c hc; simp at hc; subst hc; exact ⟨by norm_num, by norm_num, h48⟩
      · rw [if_pos ⟨h2, hz⟩, h1] at hbody
        subst hbody
        refine ⟨parsed_prefixed (b := 8) (letter := 111) hl _ _ (by simp), ?_, ?_⟩
        · rw [List.count_append, numeral_no_dash _ (by norm_num [streamRadix])]; decide
        · intro c hc; simp [basePrefix, streamRadix] at hc; subst hc; exact ⟨by norm_num, by norm_num, h48⟩
  obtain ⟨hv, hcount, hh⟩ := hval
  have hfit : (toInt a).natAbs < 2 ^ (32 * n) := by
    have := Aeu.toNat_lt a.base
    unfold toInt
    cases a.sign <;> simp <;> omega
  rw [List.append_assoc, hbody]
  have key : ∀ text : List Int, parsed alnum text = (toInt a).natAbs →
      (∀ p (hp : p < text.length), (∀ j (hj : j < p), alnum text[j] = false) → 0 ≤ text[p] ∧ text[p] ≤ 255) →
      (if text.count 45 % 2 = 0 then (1 : Int) else -1) * ((toInt a).natAbs : Int) = toInt a →
      Sat (Aesi.ofChars kind alnum n ⟨text.toArray, rfl⟩) fun b => toInt b = toInt a ∧ Canon b := by
    intro text h1 h2 h3
    cases kind with
    | char =>
      refine Sat.mono (C46_narrow_partial alnum text h2) fun b hb => ⟨?_, hb.2⟩
      rw [hb.1, h1, Nat.mod_eq_of_lt hfit, h3]
    | wchar =>
      refine Sat.mono (C46_wide alnum text) fun b hb => ⟨?_, hb.2⟩
      rw [hb.1, h1, Nat.mod_eq_of_lt hfit, h3]
  by_cases hneg : toInt a < 0
  · rw [if_pos hneg]
    apply key
    · unfold parsed at hv ⊢
      rwa [List.singleton_append, List.dropWhile_cons_of_pos (by simp [hdash])]
    · intro p hp hj
      cases p with
      | zero => simp
      | succ p =>
        cases p with
        | zero =>
          rcases body with _ | ⟨c, t⟩
          · simp at hp
          · have := hh c (by simp)
            simpa using ⟨this.1, this.2.1⟩
        | succ p =>
          exfalso
          rcases body with _ | ⟨c, t⟩
          · simp at hp
          · have h1 := hh c (by simp)
            have h2 := hj 1 (by omega)
            simp only [List.singleton_append, List.getElem_cons_succ, List.getElem_cons_zero] at h2
            rw [h1.2.2] at h2
            cases h2
    · rw [List.count_append, hcount]
      have : ((toInt a).natAbs : Int) = -toInt a := by omega
      rw [this]
      simp
  · rw [if_neg hneg, List.nil_append]
    apply key _ hv
    · intro p hp hj
      rcases body with _ | ⟨c, t⟩
      · simp at hp
      · have h1 := hh c (by simp)
        cases p with
        | zero => simpa using ⟨h1.1, h1.2.1⟩
        | succ p =>
          exfalso
          have h2 := hj 0 (by omega)
          simp only [List.getElem_cons_zero] at h2
          rw [h1.2.2] at h2
          cases h2
    · have : ((toInt a).natAbs : Int) = toInt a := by omega
      rw [hcount, this]
      simp

example : (Aesi.streamOut lp64 21 { freshStream .hex 0 with showbase := true } (ofInt 2 (-255))).map (·.out) =
    .ok [45, 48, 120, 102, 102] ∧
    Aesi.ofChars .char asciiAlnum 2 #v[45, 48, 120, 102, 102] = .ok (ofInt 2 (-255)) := by decide +kernel

end Signed
/-! ### Concrete cases that meet the hypotheses -/

/-- The hypotheses of `C35_width_exact` are met. -/
example := C35_width_exact (n := 3) ⟨false, false, false⟩ 32 (by decide) ⟨.oct, true, false, .right, 32, 20, []⟩
  (Aeu.ofNat 3 (2 ^ 70)) (by decide)

/-- The hypotheses of `C35_one_block` are met. -/
example := C35_one_block ⟨false, false, false⟩ 10 (by decide) ⟨.oct, true, false, .right, 32, 20, []⟩ (by decide)
  (Aeu.ofNat 1 77) (by decide +kernel)

/-- The hypotheses of `C73_stream_round_trip_partial` are met. -/
example := C73_stream_round_trip_partial (n := 3) ⟨false, false, false⟩ 32 (by decide)
  ⟨.oct, true, false, .right, 32, 0, []⟩ rfl (Aeu.ofNat 3 (2 ^ 70)) (by decide)

/-- The hypotheses of `C73_same_precision_partial` are met. -/
example := C73_same_precision_partial (n := 3) ⟨false, false, false⟩ 32 (by decide)
  ⟨.oct, true, false, .right, 32, 0, []⟩ rfl rfl (Aeu.ofNat 3 (2 ^ 70)) (by decide) .char asciiAlnum (fun _ h => h)

/-- The hypotheses of `C62_width_exact` are met. -/
example := C62_width_exact (n := 3) ⟨false, false, false⟩ 32 (by decide) ⟨.oct, true, false, .right, 32, 20, []⟩
  (Aesi.ofInt 3 (-2 ^ 70)) (by decide)

/-- The hypotheses of `C74_signed_round_trip_partial` are met. -/
example := C74_signed_round_trip_partial (n := 3) ⟨false, false, false⟩ 32 (by decide)
  ⟨.oct, true, false, .right, 32, 0, []⟩ rfl (Aesi.ofInt 3 (-2 ^ 70)) (by decide +kernel) (by decide) .char asciiAlnum
  (fun _ h => h) (by decide)

end AesiMP
