import Verif.Lemmas.ByteText
import Verif.Props.TestsMisc
import Verif.Props.TestsBits
import Verif.Props.Complete
import Verif.Props.SignedText
import Verif.Props.Access
import Verif.Props.NumTheory
import Verif.Props.BinIO

/-!
# C96: the randomised tests that construct numbers from text or bytes, for every draw
-/

namespace AesiMP
open Tests
variable {n : Nat}

/-! ### Texts -/

theorem digitChar_range (u : Bool) {d : Nat} (h : d < 16) : 48 ≤ digitChar u d ∧ digitChar u d ≤ 102 := by
  unfold digitChar
  split
  · omega
  · cases u <;> simp <;> omega

theorem numeral_chars (u : Bool) {b : Nat} (hb1 : 1 < b) (hb : b ≤ 16) (v : Nat) :
    ∀ c ∈ numeral u b v, 48 ≤ c ∧ c ≤ 102 := by
  intro c hc
  unfold numeral at hc
  split at hc
  · simp at hc; omega
  · simp only [List.mem_map, List.mem_reverse] at hc
    obtain ⟨d, hd, rfl⟩ := hc
    exact digitChar_range u (lt_of_lt_of_le (Nat.digits_lt_base hb1 hd) hb)

theorem dash_not_mem_numeral (u : Bool) {b : Nat} (hb1 : 1 < b) (hb : b ≤ 16) (v : Nat) :
    (45 : Int) ∉ numeral u b v := fun h => by have := numeral_chars u hb1 hb v 45 h; omega

/-- A text that `isalnum` accepts at its first character. -/
def GoodHead (alnum : Int → Bool) (text : List Int) : Prop :=
  ∃ c rest, text = c :: rest ∧ alnum c = true ∧ -1 ≤ c ∧ c ≤ 255

theorem GoodHead.not_bad {alnum : Int → Bool} {text : List Int} (h : GoodHead alnum text) : ¬ BadChar alnum text := by
  obtain ⟨c, rest, rfl, h1, h2⟩ := h
  rintro ⟨p, hp, hall, hbad⟩
  cases p with
  | zero => exact hbad h2
  | succ p =>
    have := hall 0 (by omega)
    simp [h1] at this

theorem GoodHead.not_bad_dash {alnum : Int → Bool} {text : List Int} (h : GoodHead alnum text) :
    ¬ BadChar alnum (45 :: text) := by
  obtain ⟨c, rest, rfl, h1, h2⟩ := h
  rintro ⟨p, hp, hall, hbad⟩
  match p with
  | 0 => exact hbad (by simp)
  | 1 => exact hbad (by simpa using h2)
  | p + 2 =>
    have := hall 1 (by omega)
    simp [h1] at this

theorem goodHead_prefixed {alnum : Int → Bool} (hl : LocaleOk alnum) (letter : Int) (ds : List Int) :
    GoodHead alnum ([48, letter] ++ ds) := ⟨48, letter :: ds, rfl, hl 48 (by decide), by norm_num⟩

theorem goodHead_numeral {alnum : Int → Bool} (hl : LocaleOk alnum) (u : Bool) {b : Nat} (hb1 : 1 < b)
    (hb : b ≤ 10) (v : Nat) : GoodHead alnum (numeral u b v) := by
  obtain ⟨d, rest, h, hd, -⟩ := Aeu.numeral_head u hb1 v
  have hc := digitChar_range u (show d < 16 by omega)
  refine ⟨digitChar u d, rest, h, hl _ ?_, by omega, by omega⟩
  unfold digitChar asciiAlnum
  rw [if_pos (by omega)]
  simp; omega

/-- A prefixed text denotes the value of the characters behind the prefix. -/
theorem parsed_prefix {alnum : Int → Bool} (hl : LocaleOk alnum) {b : Nat} {letter : Int}
    (hb : (b = 2 ∧ letter = 98) ∨ (b = 8 ∧ letter = 111) ∨ (b = 16 ∧ letter = 120)) (ds : List Int) :
    parsed alnum ([48, letter] ++ ds) = textValue b ds := by
  have h48 : alnum 48 = true := hl 48 (by decide)
  unfold parsed
  simp only [List.cons_append, List.nil_append, List.dropWhile_cons, h48, Bool.not_true, Bool.false_eq_true,
    if_false]
  rcases hb with ⟨rfl, rfl⟩ | ⟨rfl, rfl⟩ | ⟨rfl, rfl⟩ <;> simp [splitBase]

theorem parsed_dash {alnum : Int → Bool} (hd : alnum 45 = false) (text : List Int) :
    parsed alnum (45 :: text) = parsed alnum text := by
  unfold parsed
  simp [List.dropWhile_cons, hd]

theorem ofChars_good {alnum : Int → Bool} {text : List Int} (h : GoodHead alnum text) :
    Aeu.Returns (ofStringU alnum n text) (parsed alnum text % 2 ^ (32 * n)) :=
  (C23_narrow_exact alnum text).2 h.not_bad

/-- Construction of an `Aesi` from a text with at most one dash, in front. -/
theorem ofChars_signed {alnum : Int → Bool} (hd : alnum 45 = false) {text : List Int} (h : GoodHead alnum text)
    (h45 : (45 : Int) ∉ text) (neg : Bool) {v : Nat} (hv : parsed alnum text = v) (hfit : v < 2 ^ (32 * n)) :
    Sat (ofStringS alnum n ((if neg then [45] else []) ++ text)) fun r =>
      Aesi.toInt r = (if neg then -(v : Int) else v) ∧ Aesi.Canon r := by
  have hc : text.count 45 = 0 := List.count_eq_zero.mpr h45
  cases neg with
  | false =>
    refine Sat.mono ((C46_narrow_exact alnum text).2 h.not_bad) fun r hr => ⟨?_, hr.2⟩
    rw [hr.1, hc, hv, Nat.mod_eq_of_lt hfit]; simp
  | true =>
    refine Sat.mono ((C46_narrow_exact alnum (45 :: text)).2 h.not_bad_dash) fun r hr => ⟨?_, hr.2⟩
    rw [hr.1, List.count_cons, hc, parsed_dash hd, hv, Nat.mod_eq_of_lt hfit]; simp

theorem initTextU_ok (cfg : Cfg) {alnum : Int → Bool} {ss : List Int} {value : Int} (h0 : 0 ≤ value)
    (hv : DrawnS (32 * n) value) (hg : GoodHead alnum ss) (hp : (parsed alnum ss : Int) = value) :
    initTextU cfg alnum n ss value = .ok true := by
  obtain ⟨a, ha, ha'⟩ := ofMpz_drawn (n := n) cfg h0 hv
  obtain ⟨b, hb, hb'⟩ := ofChars_good (n := n) hg
  have h1 : parsed alnum ss = value.natAbs := by omega
  unfold initTextU
  rw [ha, ok_bind, eqMpz_neg cfg a hv, ok_bind, hb, ok_bind, eqMpz_neg cfg b hv, ok_bind, hb', h1,
    Nat.mod_eq_of_lt hv]
  simp; omega

theorem initTextS_ok (cfg : Cfg) {alnum : Int → Bool} {ss : List Int} {value : Int} (hv : Aesi.Fits n value)
    (hp : Sat (ofStringS alnum n ss) fun r => Aesi.toInt r = value ∧ Aesi.Canon r) :
    initTextS cfg alnum n ss value = .ok true := by
  obtain ⟨a, ha, ha', hac⟩ := C60_signed (n := n) cfg value hv
  obtain ⟨b, hb, hb', hbc⟩ := hp
  unfold initTextS
  rw [ha, ok_bind, C65_signed_partial cfg a hac _ hv, ok_bind, hb, ok_bind, C65_signed_partial cfg b hbc _ hv,
    ok_bind, ha', hb']
  simp

theorem mpzText_nonneg (u : Bool) (b : Nat) {v : Int} (h : 0 ≤ v) : mpzText u b v = numeral u b v.natAbs := by
  unfold mpzText
  rw [if_neg (by omega), List.nil_append]

theorem mpzText_eq (u : Bool) (b : Nat) (v : Int) :
    mpzText u b v = (if decide (v < 0) then [45] else []) ++ numeral u b v.natAbs := by
  unfold mpzText; simp

/-! ### C96 -/

/-- C96, construction of `Aeu` from text: the decimal, octal, hexadecimal and binary tests pass for every draw,
in every locale that counts the ASCII letters and digits as alphanumeric. -/
theorem C96_init_unsigned (cfg : Cfg) {alnum : Int → Bool} (hl : LocaleOk alnum) {value : Int}
    (h : Drawn (32 * n - 20) value) :
    initDecimalU cfg alnum n value = .ok true ∧ initOctalU cfg alnum n value = .ok true ∧
    (∀ even, initHexU cfg alnum n even value = .ok true) ∧ initBinaryU cfg alnum n value = .ok true := by
  have h0 := h.1
  have hv : DrawnS (32 * n) value := h.signed.le (by omega)
  refine ⟨?_, ?_, fun even => ?_, ?_⟩
  · unfold initDecimalU
    rw [mpzText_nonneg _ _ h0]
    refine initTextU_ok cfg h0 hv (goodHead_numeral hl _ (by norm_num) (by norm_num) _) ?_
    rw [parsed_numeral hl]; omega
  · unfold initOctalU
    rw [mpzText_nonneg _ _ h0]
    refine initTextU_ok cfg h0 hv (goodHead_prefixed hl _ _) ?_
    rw [parsed_prefix hl (b := 8) (by simp), Aeu.textValue_numeral _ (by norm_num) (by norm_num)]; omega
  · unfold initHexU
    rw [mpzText_nonneg _ _ h0]
    refine initTextU_ok cfg h0 hv (goodHead_prefixed hl _ _) ?_
    rw [parsed_prefix hl (b := 16) (by simp), Aeu.textValue_numeral _ (by norm_num) (by norm_num)]; omega
  · unfold initBinaryU
    obtain ⟨t, ht, hv'⟩ := byteText_value id value
    rw [ht, ok_bind]
    refine initTextU_ok cfg h0 hv (goodHead_prefixed hl _ _) ?_
    rw [parsed_prefix hl (b := 2) (by simp), hv']
    simp only [id]
    rw [show (fun j => gmpByte value j) = gmpByte value from rfl, ofBytes_gmp, Nat.mod_eq_of_lt (gmpBytes_lt value)]
    omega

/-- C96, construction of `Aesi` from text: the same tests pass for every draw; `even` is the parity of the
iteration, which chooses the sign of the draw. -/
theorem C96_init_signed (cfg : Cfg) {alnum : Int → Bool} (hl : LocaleOk alnum) (hd : alnum 45 = false)
    {value : Int} (h : DrawnS (32 * n - 20) value) :
    initDecimalS cfg alnum n value = .ok true ∧
    ∀ {even : Bool}, (if even then 0 ≤ value else value ≤ 0) →
      initOctalS cfg alnum n even value = .ok true ∧ initHexS cfg alnum n even value = .ok true ∧
      initBinaryS cfg alnum n even value = .ok true := by
  have hv : Aesi.Fits n value := h.fits (by omega)
  have hfit : value.natAbs < 2 ^ (32 * n) := hv
  refine ⟨?_, fun {even} hs => ?_⟩
  · unfold initDecimalS
    refine initTextS_ok cfg hv ?_
    rw [show mpzText false 10 value = _ from mpzText_eq _ _ _]
    refine Sat.mono (ofChars_signed hd (goodHead_numeral hl false (b := 10) (by norm_num) (by norm_num) _)
      (dash_not_mem_numeral _ (by norm_num) (by norm_num) _) (decide (value < 0)) (parsed_numeral hl _ _) hfit)
      fun r hr => ⟨?_, hr.2⟩
    rw [hr.1]
    simp only [decide_eq_true_eq]; split <;> omega
  have habs : (if even then value else value * -1) = (value.natAbs : Int) := by
    cases even <;>
      simp only [Bool.false_eq_true, if_false, if_true, Bool.not_false, Bool.not_true] at hs ⊢ <;> omega
  have hsgn : (if !even then -(value.natAbs : Int) else value.natAbs) = value := by
    cases even <;>
      simp only [Bool.false_eq_true, if_false, if_true, Bool.not_false, Bool.not_true] at hs ⊢ <;> omega
  have key : ∀ (b : Nat) (letter : Int) (ds : List Int),
      ((b = 2 ∧ letter = 98) ∨ (b = 8 ∧ letter = 111) ∨ (b = 16 ∧ letter = 120)) → (45 : Int) ∉ ds →
      textValue b ds = value.natAbs →
      initTextS cfg alnum n ((if !even then [45] else []) ++ ([48, letter] ++ ds)) value = .ok true := by
    intro b letter ds hb hm ht
    refine initTextS_ok cfg hv ?_
    refine Sat.mono (ofChars_signed hd (goodHead_prefixed hl letter ds) ?_ (!even) ?_ hfit) fun r hr => ⟨?_, hr.2⟩
    · simp only [List.cons_append, List.nil_append, List.mem_cons, not_or]
      refine ⟨by norm_num, ?_, hm⟩
      rcases hb with ⟨-, rfl⟩ | ⟨-, rfl⟩ | ⟨-, rfl⟩ <;> norm_num
    · rw [parsed_prefix hl hb, ht]
    · rw [hr.1, hsgn]
  have hnum : ∀ u b, 1 < b → b ≤ 16 → textValue b (numeral u b value.natAbs) = value.natAbs ∧
      (45 : Int) ∉ numeral u b value.natAbs := fun u b h1 h2 =>
    ⟨Aeu.textValue_numeral u h1 h2 _, dash_not_mem_numeral u h1 h2 _⟩
  refine ⟨?_, ?_, ?_⟩
  · have k := key 8 111 (numeral false 8 value.natAbs) (by simp) (hnum false 8 (by norm_num) (by norm_num)).2
      (hnum false 8 (by norm_num) (by norm_num)).1
    unfold initOctalS
    rw [habs, mpzText_nonneg _ _ (by omega), Int.natAbs_natCast]
    cases even <;> simpa using k
  · have k := fun u => key 16 120 (numeral u 16 value.natAbs) (by simp) (hnum u 16 (by norm_num) (by norm_num)).2
      (hnum u 16 (by norm_num) (by norm_num)).1
    unfold initHexS
    cases even with
    | true =>
      simp only [if_true] at habs ⊢
      rw [habs, mpzText_nonneg _ _ (by omega), Int.natAbs_natCast, ← habs]
      simpa [← habs] using k true
    | false =>
      simp only [Bool.false_eq_true, if_false] at habs ⊢
      rw [habs, mpzText_nonneg _ _ (by omega), Int.natAbs_natCast]
      simpa using k false
  · have hm : (45 : Int) ∉ (if (value.natAbs : Int) = 0 then [] else numeral false 2 value.natAbs) := by
      split
      · simp
      · exact (hnum false 2 (by norm_num) (by norm_num)).2
    have k := key 2 98 _ (by simp) hm (by
      split
      · next h0 => simp [textValue] ; omega
      · exact (hnum false 2 (by norm_num) (by norm_num)).1)
    unfold initBinaryS
    rw [byteText_eq, ok_bind, Int.natAbs_natCast]
    cases even <;> simpa using k

/-- C96, `operator~`: the test passes exactly for the nonzero draws; for 0 the expected text has eight digits
instead of `N`. -/
theorem C96_not_exact (cfg : Cfg) {alnum : Int → Bool} (hl : LocaleOk alnum) (hn : 1 ≤ n) {value : Int}
    (h : Drawn (32 * n) value) : notTest cfg alnum n value = .ok (decide (value ≠ 0)) := by
  -- the shifted value
  obtain ⟨v, hv⟩ : ∃ v, v = if mpzSizeInBase2 value < 32 * n then value * 2 ^ (32 * n - mpzSizeInBase2 value)
    else value := ⟨_, rfl⟩
  have hp : (0 : Int) < 2 ^ (32 * n - mpzSizeInBase2 value) := by positivity
  have hv0 : 0 ≤ v := by
    rw [hv]; split
    · exact mul_nonneg h.1 hp.le
    · exact h.1
  have key : (value = 0 → v = 0) ∧ (value ≠ 0 → 2 ^ (32 * n - 1) ≤ v.natAbs ∧ v.natAbs < 2 ^ (32 * n)) := by
    refine ⟨fun h0 => by rw [hv, h0]; simp, fun h0 => ?_⟩
    have h1 : value.natAbs ≠ 0 := by omega
    have hs : mpzSizeInBase2 value = Nat.log2 value.natAbs + 1 := by rw [mpzSizeInBase2, if_neg h0]
    have hlog := Nat.log2_self_le h1
    have hlog' := Nat.lt_log2_self (n := value.natAbs)
    have hle : mpzSizeInBase2 value ≤ 32 * n := by
      rw [hs, Nat.succ_le_iff, Nat.log2_lt h1]
      exact h.signed
    have e : v.natAbs = value.natAbs * 2 ^ (32 * n - mpzSizeInBase2 value) := by
      rw [hv]
      split
      · rw [Int.natAbs_mul, Int.natAbs_pow]; rfl
      · rw [show 32 * n - mpzSizeInBase2 value = 0 by omega, pow_zero, mul_one]
    rw [e]
    constructor
    · calc 2 ^ (32 * n - 1) = 2 ^ Nat.log2 value.natAbs * 2 ^ (32 * n - mpzSizeInBase2 value) := by
            rw [← pow_add]; congr 1; omega
        _ ≤ _ := Nat.mul_le_mul_right _ hlog
    · calc value.natAbs * 2 ^ (32 * n - mpzSizeInBase2 value)
          < 2 ^ (Nat.log2 value.natAbs + 1) * 2 ^ (32 * n - mpzSizeInBase2 value) :=
            Nat.mul_lt_mul_of_pos_right hlog' (by positivity)
        _ = 2 ^ (32 * n) := by rw [← pow_add]; congr 1; omega
  have hlt : DrawnS (32 * n) v := by
    by_cases h0 : value = 0
    · rw [key.1 h0]; show (0 : Int).natAbs < _; simp
    · exact (key.2 h0).2
  obtain ⟨a, ha, ha'⟩ := ofMpz_drawn (n := n) cfg hv0 hlt
  obtain ⟨t, ht, ht'⟩ := byteText_value (fun b => ~~~ b) v
  obtain ⟨b, hb, hb'⟩ := ofChars_good (n := n) (goodHead_prefixed hl 98 t)
  obtain ⟨c, hc, hc'⟩ := C09_not_value a
  rw [parsed_prefix hl (b := 2) (by simp), ht'] at hb'
  have hnot := ofBytes_not v (gmpBytes v)
  rw [Nat.mod_eq_of_lt (gmpBytes_lt v)] at hnot
  unfold notTest
  simp only []
  rw [← hv, ht, ok_bind, ha, ok_bind, hb, ok_bind, hc, ok_bind, C18_eq_across, hb', hc']
  refine congrArg Except.ok (decide_eq_decide.mpr ?_)
  have hbig : 2 ^ 32 ≤ 2 ^ (32 * n) := Nat.pow_le_pow_right (by norm_num) (by omega)
  by_cases h0 : value = 0
  · have hv00 := key.1 h0
    rw [hv00] at hnot ha' ⊢
    rw [gmpBytes_zero] at hnot ⊢
    simp only [Int.natAbs_zero, pow_one, h0, ne_eq, not_true_eq_false, iff_false] at hnot ⊢
    have : Aeu.toNat a = 0 := by omega
    rw [this, Nat.mod_eq_of_lt (by omega)]
    omega
  · obtain ⟨k1, k2⟩ := key.2 h0
    have hg : gmpBytes v = 4 * n := by
      have hvne : v ≠ 0 := by
        intro hz; rw [hz] at k1
        have : 0 < 2 ^ (32 * n - 1) := by positivity
        simp at k1
      have : Nat.log2 v.natAbs = 32 * n - 1 := by
        rw [Nat.log2_eq_iff (by omega)]
        refine ⟨k1, ?_⟩
        rw [Nat.sub_add_cancel (by omega)]; exact k2
      rw [gmpBytes, mpzSizeInBase2, if_neg hvne, this]
      omega
    rw [hg, show (256 : Nat) ^ (4 * n) = 2 ^ (32 * n) by
      rw [show (256 : Nat) = 2 ^ 8 by norm_num, ← pow_mul]; congr 1; omega] at hnot
    rw [hg, Nat.mod_eq_of_lt (by omega)]
    refine ⟨fun _ => h0, fun _ => ?_⟩
    omega

/-- C96, `power2`: the loops pass for every exponent below the precision. -/
theorem C96_power2 (cfg : Cfg) {alnum : Int → Bool} (hl : LocaleOk alnum) (hd : alnum 45 = false) {i : Nat}
    (hi : i < 32 * n) : power2U cfg alnum n i = .ok true ∧ power2S cfg alnum n i = .ok true := by
  have hpow : (2 : Nat) ^ i < 2 ^ (32 * n) := Nat.pow_lt_pow_right (by norm_num) hi
  have hnat : ((2 : Int) ^ i).natAbs = 2 ^ i := by rw [Int.natAbs_pow]; rfl
  have htext : mpzText false 16 (2 ^ i) = numeral false 16 (2 ^ i) := by
    rw [mpzText_nonneg _ _ (by positivity), hnat]
  have hval : parsed alnum ([48, 120] ++ numeral false 16 (2 ^ i)) = 2 ^ i := by
    rw [parsed_prefix hl (b := 16) (by simp), Aeu.textValue_numeral _ (by norm_num) (by norm_num)]
  constructor
  · obtain ⟨p, hp, hp'⟩ := C31_power2 (n := n) cfg i hi
    obtain ⟨s, hs, hs'⟩ := ofChars_good (n := n) (goodHead_prefixed hl 120 (numeral false 16 (2 ^ i)))
    unfold power2U
    rw [hp, ok_bind, htext, hs, ok_bind, C18_eq_across, hp', hs', hval, Nat.mod_eq_of_lt hpow]
    simp
  · obtain ⟨p, hp, hp', hpc⟩ := C63_power2 (n := n) cfg i hi
    obtain ⟨s, hs, hs', hsc⟩ := ofChars_signed (n := n) hd (goodHead_prefixed hl 120 (numeral false 16 (2 ^ i)))
      (by simpa using dash_not_mem_numeral false (b := 16) (by norm_num) (by norm_num) (2 ^ i)) false hval hpow
    simp only [Bool.false_eq_true, if_false, List.nil_append] at hs hs'
    unfold power2S
    rw [hp, ok_bind, htext, hs, ok_bind, (C41_compare_partial cfg p s hpc hsc).2.1, hp', hs']
    simp

/-- C96, casts: the textual loop of the integral cast test and every comparison of the precision cast test pass
for every draw. -/
theorem C96_casts (cfg : Cfg) {alnum : Int → Bool} (hl : LocaleOk alnum) :
    (∀ {high : Int} (baseValue : BitVec 64), 2 ≤ n → Drawn (32 * n - 96) high →
      castTextU alnum n high baseValue = .ok true) ∧
    (∀ {value : Int} {m : Nat}, 8 ≤ n → n ≤ m → Drawn 250 value → precisionCastU cfg n m value = .ok true) ∧
    (∀ {value : Int} {m : Nat}, 8 ≤ n → n ≤ m → DrawnS 250 value → precisionCastS cfg n m value = .ok true) := by
  refine ⟨fun {high} baseValue hn h => ?_, fun {value m} hn hm h => ?_, fun {value m} hn hm h => ?_⟩
  · have hb := baseValue.isLt
    have hlen : (Nat.digits 16 baseValue.toNat).length ≤ 16 := by
      rw [Nat.digits_length_le_iff (by norm_num)]
      norm_num; omega
    -- the padded numeral
    have hpad : ∃ ds : List Nat, List.replicate (16 - (numeral false 16 baseValue.toNat).length) 48 ++
        numeral false 16 baseValue.toNat = ds.reverse.map (digitChar false) ∧ ds.length = 16 ∧
        Nat.ofDigits 16 ds = baseValue.toNat ∧ ∀ d ∈ ds, d < 16 := by
      by_cases h0 : baseValue.toNat = 0
      · refine ⟨List.replicate 16 0, ?_, by simp, ?_, by simp⟩
        · rw [h0]; decide
        · rw [h0]; decide
      · refine ⟨Nat.digits 16 baseValue.toNat ++
          List.replicate (16 - (Nat.digits 16 baseValue.toNat).length) 0, ?_, ?_, ?_, ?_⟩
        · rw [List.reverse_append, List.map_append, List.reverse_replicate, List.map_replicate]
          unfold numeral
          rw [if_neg h0]
          simp [digitChar]
        · simp; omega
        · rw [Nat.ofDigits_append_replicate_zero, Nat.ofDigits_digits]
        · intro d hd
          rcases List.mem_append.mp hd with hd | hd
          · exact Nat.digits_lt_base (by norm_num) hd
          · rw [List.eq_of_mem_replicate hd]; norm_num
    obtain ⟨ds, e1, e2, e3, e4⟩ := hpad
    obtain ⟨a, ha, ha'⟩ := ofChars_good (n := n) (goodHead_prefixed hl 120
      (numeral false 16 high.natAbs ++ ds.reverse.map (digitChar false)))
    rw [parsed_prefix hl (b := 16) (by simp), Aeu.textValue_append_digits false 16 (by norm_num) _ _ e4,
      Aeu.textValue_numeral _ (by norm_num) (by norm_num), e2, e3] at ha'
    unfold castTextU
    simp only []
    rw [mpzText_nonneg _ _ h.1, e1, List.append_assoc, ha, ok_bind]
    have hcast := C21_unsigned_partial hn 64 (by norm_num) a
    rw [show ITy.u64 = ⟨64, false, false⟩ from rfl, hcast, ok_bind, ha']
    have hdvd : (2 : Nat) ^ 64 ∣ 2 ^ (32 * n) := pow_dvd_pow _ (by omega)
    rw [Nat.mod_mod_of_dvd _ hdvd, show (16 : Nat) ^ 16 = 2 ^ 64 by norm_num, Nat.add_comm,
      Nat.add_mul_mod_self_right, Nat.mod_eq_of_lt hb]
    simp
  · have hv : DrawnS (32 * n) value := h.signed.le (by omega)
    have hvm : DrawnS (32 * m) value := h.signed.le (by omega)
    obtain ⟨a, ha, ha'⟩ := ofMpz_drawn (n := n) cfg h.1 hv
    obtain ⟨x, hx, hx'⟩ := C20_precisionCast (m := m) cfg a
    unfold precisionCastU
    have h1 : Aeu.toNat a = value.natAbs := by omega
    rw [ha, ok_bind, hx, ok_bind, eqMpz_neg cfg x hvm, hx', h1, Nat.mod_eq_of_lt hvm]
    simp
  · have hv : Aesi.Fits n value := h.fits (by omega)
    have hvm : Aesi.Fits m value := h.fits (by omega)
    obtain ⟨a, ha, ha', hac⟩ := C60_signed (n := n) cfg value hv
    obtain ⟨x, hx, hx', hxc⟩ := Aesi.precisionCast_spec (n := n) (m := m) cfg (by omega) (by omega) a (by rw [ha']; exact hvm)
    unfold precisionCastS
    rw [ha, ok_bind, hx, ok_bind, C65_signed_partial cfg x (hxc hac) _ hvm, hx', ha']
    simp

/-! ### Bytes -/

theorem textValue_hexText8 (cs : List Int) (b : Block) :
    textValue 16 (cs ++ Aeu.hexText8 false b) = textValue 16 cs * 4294967296 + b.toNat := by
  have hle : (Nat.digits 16 b.toNat).length ≤ 8 := by
    rw [Nat.digits_length_le_iff (by norm_num)]
    have := b.isLt; omega
  rw [Aeu.hexText8_eq, Aeu.textValue_append_digits false 16 (by norm_num), Nat.ofDigits_append_replicate_zero,
    Nat.ofDigits_digits, List.length_append, List.length_replicate, Nat.add_sub_cancel' hle]
  · norm_num
  · intro d hd
    rcases List.mem_append.mp hd with hd | hd
    · exact Nat.digits_lt_base (by norm_num) hd
    · rw [List.eq_of_mem_replicate hd]; norm_num

/-- The blocks as drawn, most significant first, and the number with these blocks. -/
theorem textValue_blocks (blocks : Vector Block n) :
    textValue 16 (blocks.toList.flatMap (Aeu.hexText8 false)) = Aeu.toNat (n := n) blocks.reverse := by
  have key : ∀ k, k ≤ n → ∀ cs : List Int,
      textValue 16 (cs ++ (blocks.toList.drop (n - k)).flatMap (Aeu.hexText8 false)) =
        textValue 16 cs * 2 ^ (32 * k) + psum (Aeu.dig (n := n) blocks.reverse) k := by
    intro k
    induction k with
    | zero => intro _ cs; rw [List.drop_of_length_le (by simp)]; simp [psum]
    | succ k ih =>
      intro hk cs
      have hlt : n - (k + 1) < blocks.toList.length := by simp; omega
      rw [List.drop_eq_getElem_cons hlt, List.flatMap_cons, ← List.append_assoc,
        show n - (k + 1) + 1 = n - k by omega, ih (by omega), textValue_hexText8, psum,
        Aeu.dig_of_lt (show k < n by omega)]
      have e : (blocks.toList[n - (k + 1)]).toNat = ((blocks.reverse)[k]'(by omega)).toNat := by
        rw [Vector.getElem_reverse, Vector.getElem_toList]
        congr 2; omega
      rw [e, show 32 * (k + 1) = 32 * k + 32 by omega, pow_add]
      ring
  have := key n le_rfl []
  simpa [textValue, Aeu.toNat] using this

theorem ofString_blocks {alnum : Int → Bool} (hl : LocaleOk alnum) (blocks : Vector Block n) :
    ofStringU alnum n ([48, 120] ++ blocks.toList.flatMap (Aeu.hexText8 false)) = .ok blocks.reverse := by
  obtain ⟨a, ha, ha'⟩ := ofChars_good (n := n) (goodHead_prefixed hl 120 (blocks.toList.flatMap (Aeu.hexText8 false)))
  rw [parsed_prefix hl (b := 16) (by simp), textValue_blocks, Nat.mod_eq_of_lt (Aeu.toNat_lt _)] at ha'
  rw [ha, Aeu.toNat_inj ha']

/-- The bytes of a list of blocks that are visited in the order of `writeBinary`. -/
theorem written_eq (host : Host) (be : Bool) (x : Aeu n) (l : List Block)
    (h : ∀ i, i < n → l[i]? = some (x[Aeu.visit n be i]?.getD 0)) (hlen : l.length = n) :
    Aeu.written host be x n = l.flatMap (blockBytes host) := by
  have key : ∀ k, k ≤ n → Aeu.written host be x k = (l.take k).flatMap (blockBytes host) := by
    intro k
    induction k with
    | zero => intro _; simp [Aeu.written]
    | succ k ih =>
      intro hk
      rw [Aeu.written_succ host be x k _ rfl, ih (by omega), List.take_add_one, h k (by omega)]
      simp [List.flatMap_append, blockBytes]
  rw [key n le_rfl, ← hlen, List.take_length]

/-- The bytes written for the drawn blocks. -/
theorem written_draws (host : Host) (be : Bool) (blocks : Vector Block n) :
    Aeu.written host be (blocks.reverse : Aeu n) n =
      (if be then blocks.toList else blocks.toList.reverse).flatMap (blockBytes host) := by
  refine written_eq host be _ _ (fun i hi => ?_) (by cases be <;> simp)
  have hv : Aeu.visit n be i < n := Aeu.visit_lt be hi
  rw [Vector.getElem?_eq_getElem hv, Option.getD_some, Vector.getElem_reverse]
  cases be with
  | true =>
    simp only [if_true]
    rw [List.getElem?_eq_getElem (by simpa using hi), Vector.getElem_toList]
    congr 2
    simp only [Aeu.visit, if_true]; omega
  | false =>
    simp only [Bool.false_eq_true, if_false]
    rw [List.getElem?_eq_getElem (by simpa using hi), List.getElem_reverse, Vector.getElem_toList]
    congr 2
    simp only [Aeu.visit, Bool.false_eq_true, if_false, Vector.length_toList]

/-- Reading a whole block: the previous content does not matter. -/
theorem read_block (host : Host) (b temp : Block) (rest : List (BitVec 8)) :
    IStream.read host ⟨blockBytes host b ++ rest, false⟩ temp = (⟨rest, false⟩, b) := by
  unfold IStream.read
  rw [if_neg (by simp)]
  have hk : min (blockBytes host b ++ rest).length 4 = 4 := by simp [blockBytes]
  simp only [hk]
  refine Prod.ext ?_ ?_
  · have : ¬ (blockBytes host b ++ rest).length < 4 := by simp [blockBytes]
    simp only [this, decide_false]
    simp [blockBytes]
  · simp only [show List.range 4 = [0, 1, 2, 3] from rfl, List.foldl_cons, List.foldl_nil]
    refine block_ext_bytes host _ _ fun k hk => ?_
    simp only [blockBytes, List.cons_append, List.nil_append, List.getD_cons_zero, List.getD_cons_succ]
    rw [blockByte_store _ _ _ _ hk _ (by norm_num), blockByte_store _ _ _ _ hk _ (by norm_num),
      blockByte_store _ _ _ _ hk _ (by norm_num), blockByte_store _ _ _ _ hk _ (by norm_num)]
    split_ifs with h3 h2 h1 h0 <;> first | (subst_vars; rfl) | omega

/-- C96, binary input and output: both tests pass for every sequence of drawn blocks, on hosts of either byte
order, whatever the uninitialised variable of the second one holds. -/
theorem C96_binary (cfg : Cfg) {alnum : Int → Bool} (hl : LocaleOk alnum) (host : Host) (even : Bool)
    (blocks : Vector Block n) :
    binaryRead cfg alnum host even blocks = .ok true ∧
    ∀ temp, binaryWrite cfg alnum host even temp blocks = .ok true := by
  have hw : ∀ be, Sat (Aeu.writeBinary host (blocks.reverse : Aeu n) ⟨[], 4 * n, false⟩ be) fun w =>
      w.out = (if be then blocks.toList else blocks.toList.reverse).flatMap (blockBytes host) := by
    intro be
    refine Sat.mono (Aeu.writeBinary_spec host _ ⟨[], 4 * n, false⟩ rfl be) fun w h => ?_
    rw [h.1, List.nil_append, List.take_of_length_le (by rw [Aeu.written_length]), written_draws]
  constructor
  · obtain ⟨w, hw1, hw2⟩ := hw even
    obtain ⟨w', hw1', -, hr⟩ := C33_round_trip host even (blocks.reverse : Aeu n) (Aeu.zero n) (4 * n) []
    rw [hw1] at hw1'
    obtain rfl : w = w' := by simpa using hw1'
    obtain ⟨r, hr1, hr2, -⟩ := hr le_rfl
    rw [List.append_nil, hw2] at hr1
    unfold binaryRead
    simp only []
    rw [show (if even = true then blocks.toList.flatMap (blockBytes host)
        else blocks.toList.reverse.flatMap (blockBytes host)) =
        (if even then blocks.toList else blocks.toList.reverse).flatMap (blockBytes host) by
      cases even <;> simp, hr1, ok_bind, ofString_blocks hl, ok_bind, C18_eq_across, hr2]
    simp
  · intro temp
    obtain ⟨w, hw1, hw2⟩ := hw (!even)
    unfold binaryWrite
    simp only [ofString_blocks hl, ok_bind, hw1]
    have hset : ∀ (r : Aeu n) (j : Nat) (b : Block), (hj : j < n) → Aeu.setBlock cfg r j b = .ok (r.set j b) := by
      intro r j b hj
      unfold Aeu.setBlock
      rw [if_neg (by omega), wr_ok hj]
    cases even with
    | true =>
      simp only [if_true, Bool.not_true, Bool.false_eq_true, if_false] at hw2 ⊢
      rw [hw2]
      obtain ⟨s, hs, hs1, -⟩ := forUp_inv (fun i (s : Aeu n × IStream × Block) =>
          (∀ j (hj : j < n), j < i → s.1[j] = (blocks.reverse)[j]) ∧
          s.2.1 = ⟨(blocks.toList.reverse.drop i).flatMap (blockBytes host), false⟩) (Nat.zero_le n)
        (s := (Aeu.zero n, (⟨blocks.toList.reverse.flatMap (blockBytes host), false⟩ : IStream), temp))
        (body := fun j (s : Aeu n × IStream × Block) => do
          let r ← Aeu.setBlock cfg s.1 j (s.2.1.read host s.2.2).2
          (.ok (r, (s.2.1.read host s.2.2).1, (s.2.1.read host s.2.2).2) : Exec _))
        ⟨fun j _ hj => absurd hj (by omega), by simp⟩ (by
          rintro i ⟨r, is, t⟩ - hi ⟨h1, h2⟩
          simp only at h1 h2 ⊢
          have hlt : i < blocks.toList.reverse.length := by simpa using hi
          have hb : blocks.toList.reverse[i] = (blocks.reverse)[i] := by
            rw [List.getElem_reverse, Vector.getElem_reverse, Vector.getElem_toList]
            simp only [Vector.length_toList]
          rw [h2, List.drop_eq_getElem_cons hlt, List.flatMap_cons, read_block, hset _ _ _ hi, ok_bind]
          refine ⟨_, rfl, fun j hj hji => ?_, rfl⟩
          rw [Vector.getElem_set, hb]
          split
          · next h => subst h; rfl
          · exact h1 j hj (by omega))
      have he : s.1 = blocks.reverse := Vector.ext fun j hj => hs1 j hj hj
      rw [hs, ok_bind, C18_eq_across, he]
      simp
    | false =>
      simp only [if_true, Bool.not_false, Bool.false_eq_true, if_false] at hw2 ⊢
      rw [hw2]
      obtain ⟨s, hs, hs1, -⟩ := forDown_inv (fun i (s : Aeu n × IStream × Block) =>
          (∀ j (hj : j < n), i ≤ j → s.1[j] = (blocks.reverse)[j]) ∧
          s.2.1 = ⟨(blocks.toList.drop (n - i)).flatMap (blockBytes host), false⟩) (Nat.zero_le n)
        (s := (Aeu.zero n, (⟨blocks.toList.flatMap (blockBytes host), false⟩ : IStream), temp))
        (body := fun j (s : Aeu n × IStream × Block) => do
          let r ← Aeu.setBlock cfg s.1 j (s.2.1.read host s.2.2).2
          (.ok (r, (s.2.1.read host s.2.2).1, (s.2.1.read host s.2.2).2) : Exec _))
        ⟨fun j hj h => absurd h (by omega), by simp⟩ (by
          rintro i ⟨r, is, t⟩ - hi ⟨h1, h2⟩
          simp only at h1 h2 ⊢
          have hlt : n - (i + 1) < blocks.toList.length := by simp; omega
          have hb : blocks.toList[n - (i + 1)] = (blocks.reverse)[i] := by
            rw [Vector.getElem_reverse, Vector.getElem_toList]
            congr 1; omega
          rw [h2, List.drop_eq_getElem_cons hlt, List.flatMap_cons, read_block, hset _ _ _ hi, ok_bind,
            show n - (i + 1) + 1 = n - i by omega]
          refine ⟨_, rfl, fun j hj hji => ?_, rfl⟩
          rw [Vector.getElem_set, hb]
          split
          · next h => subst h; rfl
          · exact h1 j hj (by omega))
      have he : s.1 = blocks.reverse := Vector.ext fun j hj => hs1 j hj (by omega)
      rw [hs, ok_bind, C18_eq_across, he]
      simp

/-- C96, construction from a `uint64_t` and comparison with it: passes for every value and every precision from
64 bits on. -/
theorem C96_different_precisions (hn : 2 ≤ n) (junk : Aeu n) (value : BitVec 64) :
    differentPrecisionsU n junk value = .ok true := by
  obtain ⟨a, ha, ha', -⟩ := C22_construct_exact hn (by norm_num) junk value
  unfold differentPrecisionsU
  rw [ha, ok_bind, (C17_compare_u64_partial hn a value).1, ha']
  simp

/-- The draw for which the test of `operator~` fails. -/
theorem C96_flaky : Drawn (32 * 3) 0 ∧ notTest lp64 asciiAlnum 3 0 = .ok false := by
  refine ⟨by unfold Drawn; decide, by decide +kernel⟩

example : LocaleOk asciiAlnum ∧ asciiAlnum 45 = false := ⟨fun _ h => h, by decide⟩
example : Drawn (32 * 3 - 20) 0x123456789ABCDEF012 ∧ DrawnS (32 * 3 - 20) (-0x123456789ABCDEF012) := by
  unfold Drawn DrawnS; decide +kernel
example : initHexS lp64 asciiAlnum 3 false (-0x123456789ABCDEF012) = .ok true ∧
    initBinaryU lp64 asciiAlnum 3 0x123456789ABCDEF012 = .ok true ∧
    notTest lp64 asciiAlnum 3 0x123456789ABCDEF012 = .ok true := by decide +kernel
example : binaryWrite lp64 asciiAlnum .big false 7#32 #v[1#32, 0xFFFF0000#32] = .ok true := by decide +kernel

/-! ### Concrete cases that meet the hypotheses -/

/-- The hypotheses of `C96_init_unsigned` are met. -/
example := C96_init_unsigned (n := 3) ⟨false, false, false⟩ (alnum := asciiAlnum) (fun _ h => h) (value := 2 ^ 70)
  (by decide +kernel)
example := (C96_init_signed (n := 3) ⟨false, false, false⟩ (alnum := asciiAlnum) (fun _ h => h) (by decide)
  (value := -2 ^ 70) (by decide)).2 (even := false) (by decide)

/-- The hypotheses of `C96_not_exact` are met. -/
example := C96_not_exact (n := 3) ⟨false, false, false⟩ (alnum := asciiAlnum) (fun _ h => h) (by omega) (value := 2 ^ 70)
  (by decide +kernel)

/-- The hypotheses of `C96_power2` are met. -/
example := C96_power2 (n := 3) ⟨false, false, false⟩ (alnum := asciiAlnum) (fun _ h => h) (by decide) (i := 95) (by omega)
example := (C96_casts (n := 8) ⟨false, false, false⟩ (alnum := asciiAlnum) (fun _ h => h)).2.2 (value := -2 ^ 70) (m := 9)
  (by omega) (by omega) (by decide)

/-- The hypotheses of `C96_binary` are met. -/
example := C96_binary (n := 3) ⟨false, false, false⟩ (alnum := asciiAlnum) (fun _ h => h) .big true #v[1, 2, 3]

end AesiMP
