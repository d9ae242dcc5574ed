import Verif.Props.Powm
import Verif.Props.Text
import Verif.Props.SignedText
import Verif.Props.StreamExact

/-!
# C23, C30, C46, C69: the outcome for every input

Where a property fails for some inputs, these theorems say what happens there, so that nothing is left open.
-/

namespace AesiMP
open Aeu
variable {n m : Nat}

private theorem forUpCN_error {σ ρ : Type} (body : Nat → σ → Exec (Ctl σ ρ)) (s : σ) (p : Nat) (e : UB) :
    ∀ k i, i ≤ p → p < i + k → (∀ j, i ≤ j → j < p → body j s = .ok (.next s)) → body p s = .error e →
      forUpCN body k i s = .error e := by
  intro k
  induction k with
  | zero => intro i h1 h2; omega
  | succ k ih =>
    intro i h1 h2 hn he
    rcases Nat.eq_or_lt_of_le h1 with h | h
    · subst h; simp [forUpCN, he]
    · have := ih (i + 1) (by omega) (by omega) (fun j hj hjp => hn j (by omega) hjp) he
      simp [forUpCN, hn i (Nat.le_refl _) h, this]

/-- The first character before the number that `isalnum` cannot take: neither a `char` in 0..255 nor `EOF`. -/
def BadChar (alnum : Int → Bool) (text : List Int) : Prop :=
  ∃ p, ∃ hp : p < text.length, (∀ j (hj : j < p), alnum text[j] = false) ∧ ¬ (-1 ≤ text[p] ∧ text[p] ≤ 255)

private theorem ofChars_bad (alnum : Int → Bool) (text : List Int) (h : BadChar alnum text) :
    ofChars .char alnum n ⟨text.toArray, rfl⟩ = .error .ctypeDomain := by
  classical
  obtain ⟨hp, hpre, hbad⟩ := Nat.find_spec h
  generalize hpe : Nat.find h = p at hp hpre hbad
  have hmin : ∀ q, q < p → ∀ hq : q < text.length, -1 ≤ text[q] ∧ text[q] ≤ 255 := by
    intro q hq hql
    by_contra hc
    exact Nat.find_min h (m := q) (by omega) ⟨hql, fun j hj => hpre j (by omega), hc⟩
  unfold ofChars
  rw [if_neg (by simp; rintro rfl; simp at hp)]
  have : forUpC (ρ := Nat) 0 text.toArray.size () (fun position _ => do
      let c ← rd (⟨text.toArray, rfl⟩ : Vector Int text.toArray.size) position
      let a ← isAlnum .char alnum c
      if !a then .ok (.next ()) else .ok (.leave position)) = .error .ctypeDomain := by
    unfold forUpC
    refine forUpCN_error _ () p _ _ 0 (Nat.zero_le _) (by simpa using hp) ?_ ?_
    · intro j _ hj
      have hjl : j < text.toArray.size := by simp; omega
      have := hmin j hj (by omega)
      simp only [rd_ok hjl, ok_bind]
      have e : (⟨text.toArray, rfl⟩ : Vector Int text.toArray.size)[j] = text[j] := by simp
      rw [e, isAlnum_ok (Or.inr (by omega)), ok_bind, hpre j hj]
      rfl
    · have hjl : p < text.toArray.size := by simpa using hp
      simp only [rd_ok hjl, ok_bind]
      have e : (⟨text.toArray, rfl⟩ : Vector Int text.toArray.size)[p] = text[p] := by simp
      rw [e]
      have : isAlnum .char alnum text[p] = .error .ctypeDomain := by
        unfold isAlnum
        simp only
        rw [if_neg (by omega)]
      rw [this]; rfl
  rw [this]; rfl

/-- C23, every `char` text: undefined exactly when a character that `isalnum` cannot take comes before the
first alphanumeric one, and the digits' value otherwise. -/
theorem C23_narrow_exact (alnum : Int → Bool) (text : List Int) :
    (BadChar alnum text → ofChars .char alnum n ⟨text.toArray, rfl⟩ = .error .ctypeDomain) ∧
    (¬ BadChar alnum text →
      Returns (ofChars .char alnum n ⟨text.toArray, rfl⟩) (parsed alnum text % 2 ^ (32 * n))) := by
  refine ⟨ofChars_bad alnum text, fun h => ?_⟩
  have := ofChars_spec (n := n) .char alnum ⟨text.toArray, rfl⟩ fun p hp hpre => by
    have hp' : p < text.length := by simpa using hp
    have hc : -1 ≤ text[p] ∧ text[p] ≤ 255 := by
      by_contra hc
      exact h ⟨p, hp', fun j hj => by simpa using hpre j hj, hc⟩
    have e : (⟨text.toArray, rfl⟩ : Vector Int text.toArray.size)[p] = text[p] := by simp
    rw [e]
    exact Or.inr (by omega)
  simpa using this

example : ¬ BadChar asciiAlnum [45, 49, -128] := by
  rintro ⟨p, hp, hpre, hbad⟩
  match p, hp with
  | 0, _ => simp at hbad
  | 1, _ => simp at hbad
  | 2, _ => exact absurd (hpre 1 (by omega)) (by decide +revert)

example : BadChar asciiAlnum [45, -128, 49] :=
  ⟨1, by decide, fun j hj => by interval_cases j; decide +revert, by decide⟩

/-- C46, every `char` text. -/
theorem C46_narrow_exact (alnum : Int → Bool) (text : List Int) :
    (BadChar alnum text → Aesi.ofChars .char alnum n ⟨text.toArray, rfl⟩ = .error .ctypeDomain) ∧
    (¬ BadChar alnum text → Sat (Aesi.ofChars .char alnum n ⟨text.toArray, rfl⟩) fun r =>
      Aesi.toInt r = (if text.count 45 % 2 = 0 then 1 else -1) *
        ((parsed alnum text % 2 ^ (32 * n) : Nat) : Int) ∧ Aesi.Canon r) := by
  refine ⟨fun h => ?_, fun h => ?_⟩
  · unfold Aesi.ofChars
    rw [(C23_narrow_exact (n := n) alnum text).1 h]; rfl
  · refine Sat.mono (Aesi.ofChars_spec .char alnum _ _ ((C23_narrow_exact alnum text).2 h))
      fun r h => ⟨?_, h.2.1⟩
    rw [h.1]; simp

/-- C30, every base, exponent and every modulus whose products fit: the result is the modular power except
that base 0, and base or exponent that make the power 1, give 1 whatever the modulus. -/
theorem C30_powm_exact (cfg : Cfg) (hn : 0 < n) (b : Aeu n) (e : Aeu m) (md : Aeu n)
    (hmd : 0 < toNat md) (hm : 32 * m < 2 ^ 32) (hfit : (toNat md - 1) ^ 2 < 2 ^ (32 * n)) :
    Returns (powmT cfg b e md)
      (if toNat b = 0 ∨ toNat b = 1 ∨ toNat e = 0 then 1 else toNat b ^ toNat e % toNat md) := by
  have := powmT_spec cfg hn b e md hmd hm (by rw [← sq]; exact hfit)
  have e : (toNat b = 1 ∨ toNat b = 0 ∨ toNat e = 0) ↔ (toNat b = 0 ∨ toNat b = 1 ∨ toNat e = 0) := by tauto
  rwa [if_congr e rfl rfl] at this

example : Returns (powmT ⟨false, false, false⟩ (ofNat 2 0) (ofNat 1 5) (ofNat 2 7)) 1 :=
  ⟨ofNat 2 1, by decide +kernel, by decide +kernel⟩

/-- C69, the overload with an exponent of another precision: square-and-multiply with truncated products. -/
theorem C69_powmT_exact (cfg : Cfg) (hn : 0 < n) (hm : 32 * m < 2 ^ 32) (b : Aeu n) (e : Aeu m) (md : Aeu n) :
    ∃ bits, toNat e < 2 ^ bits ∧ Returns (powmT cfg b e md)
      (if toNat b = 0 ∨ toNat b = 1 then 1
       else sqMul (2 ^ (32 * n)) (toNat md) (toNat e) bits 0 1 (toNat b % toNat md)) := by
  obtain ⟨K, _, hK, h⟩ := powmT_total cfg hn b e md hm
  refine ⟨_, hK, ?_⟩
  have e : (toNat b = 1 ∨ toNat b = 0) ↔ (toNat b = 0 ∨ toNat b = 1) := by tauto
  rwa [if_congr e rfl rfl] at h

/-- C69: modulus 0 in that overload: the power modulo `2^bitness`, except for base 0. -/
theorem C69_powmT_modulus_zero (cfg : Cfg) (hn : 0 < n) (hm : 32 * m < 2 ^ 32) (b : Aeu n) (e : Aeu m)
    (md : Aeu n) (hmd : toNat md = 0) : Returns (powmT cfg b e md)
      (if toNat b = 0 then 1 else toNat b ^ toNat e % 2 ^ (32 * n)) := by
  obtain ⟨K, _, hK, r, hr, h⟩ := powmT_total cfg hn b e md hm
  refine ⟨r, hr, ?_⟩
  have hW : 1 < 2 ^ (32 * n) := Nat.one_lt_two_pow (by omega)
  by_cases h0 : toNat b = 0
  · rw [if_pos h0]; rw [if_pos (Or.inr h0)] at h; exact h
  · rw [if_neg h0]
    by_cases h1 : toNat b = 1
    · rw [if_pos (Or.inl h1)] at h
      rw [h, h1, Nat.one_pow, Nat.mod_eq_of_lt hW]
    · rw [if_neg (by tauto)] at h
      have key := sqMul_modEq (W := 2 ^ (32 * n)) (M := 0) (N := 2 ^ (32 * n))
        (fun y => by rw [Nat.mod_zero]; exact Nat.mod_modEq _ _) (toNat e) (32 * K) 0 1 (toNat b)
      rw [hmd, Nat.mod_zero] at h
      rw [← h, Nat.one_mul, Nat.pow_zero, Nat.div_one, Nat.mod_eq_of_lt hK] at key
      rw [← Nat.mod_eq_of_lt (toNat_lt r)]
      exact key

/-- C69: modulus a power of two in that overload. -/
theorem C69_powmT_power_of_two (cfg : Cfg) (hn : 0 < n) (hm : 32 * m < 2 ^ 32) (b : Aeu n) (e : Aeu m)
    (md : Aeu n) (j : Nat) (hj : 0 < j) (hmd : toNat md = 2 ^ j) : Returns (powmT cfg b e md)
      (if toNat b = 0 then 1 else toNat b ^ toNat e % toNat md) := by
  obtain ⟨K, _, hK, r, hr, h⟩ := powmT_total cfg hn b e md hm
  refine ⟨r, hr, ?_⟩
  have hjn : j < 32 * n := by
    have := toNat_lt md
    rw [hmd] at this
    exact (Nat.pow_lt_pow_iff_right (by norm_num)).mp this
  have h1 : 1 < toNat md := by rw [hmd]; exact Nat.one_lt_two_pow (by omega)
  by_cases h0 : toNat b = 0
  · rw [if_pos h0]; rw [if_pos (Or.inr h0)] at h; exact h
  · rw [if_neg h0]
    by_cases hb1 : toNat b = 1
    · rw [if_pos (Or.inl hb1)] at h
      rw [h, hb1, Nat.one_pow, Nat.mod_eq_of_lt h1]
    · rw [if_neg (by tauto)] at h
      have key := sqMul_modEq (W := 2 ^ (32 * n)) (M := toNat md) (N := toNat md)
        (fun y => by
          rw [hmd, Nat.mod_mod_of_dvd _ (Nat.pow_dvd_pow 2 (by omega))]
          exact Nat.mod_modEq _ _) (toNat e) (32 * K) 0 1 (toNat b % toNat md)
      rw [← h, Nat.one_mul, Nat.pow_zero, Nat.div_one, Nat.mod_eq_of_lt hK] at key
      have hlt : toNat r < toNat md := by rw [h]; exact sqMul_lt h1 _ _ _ _ _ h1
      rw [← Nat.mod_eq_of_lt hlt]
      exact key.trans ((Nat.mod_modEq _ _).pow _)

example : powmT ⟨false, false, false⟩ (ofNat 1 3) (ofNat 2 1000) (ofNat 1 (2 ^ 31)) =
    .ok (ofNat 1 (3 ^ 1000 % 2 ^ 31)) := by decide +kernel

end AesiMP

namespace AesiMP
open Aesi
variable {n : Nat}

/-- C44, the digits of a zero result in every case: `+`, `-`, `*` and `/` by zero leave in a zero result the
digits of the left operand, whatever they were. -/
theorem C44_zero_result_exact (cfg : Cfg) (a b : Aesi n) (ha : Canon a) (hb : Canon b) :
    (toInt a + toInt b = 0 → Sat (add cfg a b) fun r => toInt r = 0 ∧ unsignedCast r = unsignedCast a) ∧
    (toInt a - toInt b = 0 → Sat (sub cfg a b) fun r => toInt r = 0 ∧ unsignedCast r = unsignedCast a) ∧
    (toInt b = 0 → Sat (mul a b) fun r => toInt r = 0 ∧ unsignedCast r = unsignedCast a) ∧
    (toInt b = 0 → Sat (div cfg a b) fun r => toInt r = 0 ∧ unsignedCast r = unsignedCast a) := by
  rcases a with ⟨sa, ba⟩
  rcases b with ⟨sb, bb⟩
  have ha' : sa ≠ .zero → Aeu.toNat ba ≠ 0 := ha
  have hb' : sb ≠ .zero → Aeu.toNat bb ≠ 0 := hb
  have hcmp : Aeu.toNat ba = Aeu.toNat bb → Aeu.compareTo cfg ba bb = .ok .equal := by
    intro h; rw [Aeu.compareTo_spec, h]; simp [Aeu.cmpNat]
  have zr : ∀ s, Sat (.ok ⟨s, ba⟩ : Exec (Aesi n)) (fun r => toInt r = 0 ∧ unsignedCast r = ba) ↔
      toInt (⟨s, ba⟩ : Aesi n) = 0 := by
    intro s
    simp [unsignedCast]
  refine ⟨?_, ?_, ?_, ?_⟩
  · intro h
    cases sa <;> cases sb <;> simp [toInt] at h ha' hb' <;> try omega
    all_goals first
      | (simp only [add, unsignedCast]; exact Sat.ok ⟨by simp [toInt, *], rfl⟩)
      | (have e : Aeu.toNat ba = Aeu.toNat bb := by omega
         simp only [add, subMagnitude, hcmp e, unsignedCast]; exact Sat.ok ⟨by simp [toInt], rfl⟩)
  · intro h
    cases sa <;> cases sb <;> simp [toInt] at h ha' hb' <;> try omega
    all_goals first
      | (simp only [sub, unsignedCast]; exact Sat.ok ⟨by simp [toInt, *], rfl⟩)
      | (have e : Aeu.toNat ba = Aeu.toNat bb := by omega
         simp only [sub, subMagnitude, hcmp e, unsignedCast]; exact Sat.ok ⟨by simp [toInt], rfl⟩)
  · intro h
    have : sb = .zero := by cases sb <;> simp [toInt] at h hb' ⊢ <;> omega
    subst this
    exact Sat.ok ⟨by simp [toInt], rfl⟩
  · intro h
    have : sb = .zero := by cases sb <;> simp [toInt] at h hb' ⊢ <;> omega
    subst this
    exact Sat.ok ⟨by simp [toInt], rfl⟩

/-- C44: so the property fails for `a - a` exactly when `a` is not a clean zero. -/
theorem C44_iff (cfg : Cfg) (a b : Aesi n) (ha : Canon a) (hb : Canon b) (h : toInt a - toInt b = 0) :
    Sat (sub cfg a b) fun r => (Aeu.toNat (unsignedCast r) = (toInt r).natAbs ↔ Aeu.toNat (unsignedCast a) = 0) := by
  refine Sat.mono ((C44_zero_result_exact cfg a b ha hb).2.1 h) ?_
  rintro r ⟨h1, h2⟩
  rw [h1, h2]; rfl

example : Sat (sub ⟨false, false, false⟩ (ofInt 2 5) (ofInt 2 5)) fun r => Aeu.toNat (unsignedCast r) = 5 :=
  ⟨⟨.zero, Aeu.ofNat 2 5⟩, by decide +kernel, by decide +kernel⟩

end AesiMP

namespace AesiMP
open Aeu
variable {n : Nat}

/-! ### C73 without `showbase` -/

private theorem numeral_step (u : Bool) {b v : Nat} (hb : 1 < b) (h : b ≤ v) :
    numeral u b v = numeral u b (v / b) ++ [digitChar u (v % b)] := by
  have h0 : v ≠ 0 := by omega
  have h1 : v / b ≠ 0 := (Nat.div_pos h (by omega)).ne'
  unfold numeral
  rw [if_neg h0, if_neg h1, Nat.digits_def' hb (by omega)]
  simp

private theorem asDecimal_step (u : Bool) {b v : Nat} (hb : 1 < b) (hb16 : b ≤ 16) (h : b ≤ v) :
    textValue 10 (numeral u b v) = if v % b < 10 then textValue 10 (numeral u b (v / b)) * 10 + v % b
      else textValue 10 (numeral u b (v / b)) := by
  rw [numeral_step u hb h, textValue_snoc, digitVal_digitChar u (by have := Nat.mod_lt v (by omega : b > 0); omega)]

private theorem asDecimal_digit (u : Bool) {b v : Nat} (hb : 1 < b) (hb16 : b ≤ 16) (h : v < b) :
    textValue 10 (numeral u b v) = if v < 10 then v else 0 := by
  have e : numeral u b v = [] ++ [digitChar u v] := by
    unfold numeral
    split
    · subst v; simp [digitChar]
    · rw [Nat.digits_of_lt b v (by assumption) h]; simp
  rw [e, textValue_snoc, digitVal_digitChar u (by omega)]
  simp [textValue]

/-- Hexadecimal digits read in decimal (letters skipped). -/
theorem hex_as_decimal (u : Bool) (v : Nat) : textValue 10 (numeral u 16 v) ≤ v ∧
    (textValue 10 (numeral u 16 v) = v ↔ v < 10) := by
  induction v using Nat.strong_induction_on with
  | _ v ih =>
    by_cases h : v < 16
    · rw [asDecimal_digit u (by norm_num) (by norm_num) h]
      split <;> omega
    · rw [asDecimal_step u (by norm_num) (by norm_num) (by omega)]
      have := (ih (v / 16) (by omega)).1
      split <;> omega

/-- Octal digits read in decimal. -/
theorem oct_as_decimal (u : Bool) (v : Nat) : v ≤ textValue 10 (numeral u 8 v) ∧
    (textValue 10 (numeral u 8 v) = v ↔ v < 8) := by
  induction v using Nat.strong_induction_on with
  | _ v ih =>
    by_cases h : v < 8
    · rw [asDecimal_digit u (by norm_num) (by norm_num) h]
      split <;> omega
    · rw [asDecimal_step u (by norm_num) (by norm_num) (by omega)]
      have := (ih (v / 8) (by omega)).1
      have := Nat.mod_lt v (by norm_num : 8 > 0)
      rw [if_pos (by omega)]
      omega

private theorem digitChar_alnum (u : Bool) {d : Nat} (hd : d < 16) : asciiAlnum (digitChar u d) = true := by
  have : ∀ u : Bool, ∀ d : Fin 16, asciiAlnum (digitChar u d.val) = true := by decide
  exact this u ⟨d, hd⟩

/-- A numeral without prefix is read in decimal, whatever base it was written in. -/
theorem parsed_unprefixed {alnum : Int → Bool} (hl : LocaleOk alnum) (u : Bool) {b : Nat} (hb : 1 < b)
    (hb16 : b ≤ 16) (v : Nat) : parsed alnum (numeral u b v) = textValue 10 (numeral u b v) := by
  obtain ⟨d, rest, h, hd, hz⟩ := numeral_head u hb v
  have ha : alnum (digitChar u d) = true := hl _ (digitChar_alnum u (by omega))
  unfold parsed
  by_cases h0 : v = 0
  · subst h0
    have e : numeral u b 0 = [48] := by simp [numeral]
    rw [e] at h ⊢
    have : digitChar u d = 48 := (List.cons.inj h).1.symm
    rw [List.dropWhile_cons_of_neg (by rw [← this]; simp [ha])]
    rfl
  · rw [h, List.dropWhile_cons_of_neg (by simp [ha])]
    have hs : splitBase (digitChar u d :: rest) = (10, digitChar u d :: rest) := by
      have hne : digitChar u d ≠ 48 := by
        have := hz h0
        unfold digitChar
        split
        · omega
        · split <;> omega
      unfold splitBase
      split
      · rename_i hh
        exact absurd (List.cons.inj hh).1 hne
      · rfl
    simp only [hs]

/-- Reading a numeral that has no prefix. -/
theorem C73_read (kind : CharKind) (alnum : Int → Bool) (hl : LocaleOk alnum) (u : Bool) {b : Nat}
    (hb : 1 < b) (hb16 : b ≤ 16) (v : Nat) :
    Returns (ofChars kind alnum n ⟨(numeral u b v).toArray, rfl⟩)
      (textValue 10 (numeral u b v) % 2 ^ (32 * n)) := by
  rw [← parsed_unprefixed hl u hb hb16 v]
  have := ofChars_spec (n := n) kind alnum ⟨(numeral u b v).toArray, rfl⟩ fun p hp hpre => by
    have hp' : p < (numeral u b v).length := by simpa using hp
    have e : (⟨(numeral u b v).toArray, rfl⟩ : Vector Int _)[p] = (numeral u b v)[p] := by simp
    rw [e]
    have hm := List.getElem_mem hp'
    have : ∀ c ∈ numeral u b v, 0 ≤ c ∧ c ≤ 255 := by
      intro c hc
      unfold numeral at hc
      split at hc
      · simp at hc; omega
      · simp only [List.mem_map, List.mem_reverse] at hc
        obtain ⟨d, hd, rfl⟩ := hc
        have := Nat.digits_lt_base hb hd
        unfold digitChar
        split
        · omega
        · split <;> omega
    exact Or.inr (Or.inr (this _ hm))
  simpa using this

/-- C73 without `showbase`, exactly: hexadecimal output reads back as the number only below 10. -/
theorem C73_hex_iff (cfg : Cfg) (bufSize : Nat) (hb : IsStreamBuf n bufSize) (os : OStream)
    (hw : os.width = 0) (ho : os.out = []) (hbf : os.basefield = .hex) (hs : os.showbase = false)
    (hn : 1 ≤ n) (a : Aeu n) (kind : CharKind) (alnum : Int → Bool) (hl : LocaleOk alnum) :
    Sat (streamOut cfg bufSize os a) fun r =>
      (ofChars kind alnum n ⟨r.out.toArray, rfl⟩ = .ok a ↔ toNat a < 10) := by
  refine Sat.mono (C35_stream_partial cfg bufSize hb os hw a (Or.inl ⟨hbf, hn⟩)) fun r h => ?_
  have e : (if os.showbase then basePrefix (streamRadix os.basefield) else []) = [] := by rw [hs]; rfl
  rw [e, ho, hbf, show streamRadix .hex = 16 from rfl, List.nil_append, List.nil_append] at h
  rw [h]
  obtain ⟨x, hx, hv⟩ := C73_read kind alnum hl (n := n) os.uppercase (b := 16) (by norm_num) (by norm_num) (toNat a)
  have hh := hex_as_decimal os.uppercase (toNat a)
  rw [Nat.mod_eq_of_lt (Nat.lt_of_le_of_lt hh.1 (toNat_lt a))] at hv
  rw [hx, ← hh.2, ← hv]
  constructor
  · intro h; cases h; rfl
  · intro h; rw [toNat_inj h]

/-- C73 without `showbase`, exactly: the number that octal output denotes when read is greater from 8 on. -/
theorem C73_oct_iff (cfg : Cfg) (bufSize : Nat) (hb : IsStreamBuf n bufSize) (os : OStream)
    (hw : os.width = 0) (ho : os.out = []) (hbf : os.basefield = .oct) (hs : os.showbase = false)
    (hn : 3 ≤ n) (a : Aeu n) (kind : CharKind) (alnum : Int → Bool) (hl : LocaleOk alnum) :
    Sat (streamOut cfg bufSize os a) fun r => ∃ v, (∀ m,
      Returns (ofChars kind alnum m ⟨r.out.toArray, rfl⟩) (v % 2 ^ (32 * m))) ∧ toNat a ≤ v ∧
      (v = toNat a ↔ toNat a < 8) := by
  refine Sat.mono (C35_stream_partial cfg bufSize hb os hw a (Or.inr (Or.inr ⟨hbf, hn⟩))) fun r h => ?_
  have e : (if os.showbase then basePrefix (streamRadix os.basefield) else []) = [] := by rw [hs]; rfl
  rw [e, ho, hbf, show streamRadix .oct = 8 from rfl, List.nil_append, List.nil_append] at h
  rw [h]
  exact ⟨_, fun m => C73_read kind alnum hl os.uppercase (by norm_num) (by norm_num) (toNat a),
    oct_as_decimal os.uppercase (toNat a)⟩

end AesiMP

namespace AesiMP
open Aesi
variable {n : Nat}

/-- C48, one-block objects: only zero can be cast; for every other sign the magnitude's cast reads past it. -/
theorem C48_one_block (t : ITy) (a : Aesi 1) :
    integralCast t a = if a.sign = .zero then .ok 0 else .error .outOfBounds := by
  unfold integralCast
  rw [C21_one_block_counterexample t a.base]
  by_cases h : a.sign = .zero
  · rw [if_pos h, if_pos h]
  · rw [if_neg h, if_neg h]
    split <;> rfl

example : integralCast ITy.i32 (ofInt 1 0) = .ok 0 ∧ integralCast ITy.i32 (ofInt 1 (-3)) = .error .outOfBounds := by
  decide +kernel

/-! ### Concrete cases that meet the hypotheses -/

/-- The hypotheses of `C73_read` are met. -/
example := C73_read (n := 2) .char asciiAlnum (fun _ h => h) false (b := 16) (by omega) (by omega) 0xa5

end AesiMP
