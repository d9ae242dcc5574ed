import Verif.Model.LocaleStream
import Verif.Props.StreamExact
import Verif.Props.Signed

/-!
# C102: text output in a locale that groups digits

Decimal and octal output do not depend on the locale. Hexadecimal output is garbled by a locale with
grouping: every 32-bit block is grouped on its own and the separators take the place of padding zeros.
-/

namespace AesiMP
open Aeu
variable {n : Nat}

/-- `item` padded with zeros on the left to 8 characters. -/
def zeros8 (item : List Int) : List Int := List.replicate (8 - item.length) 48 ++ item

/-- The hexadecimal text of `v` when every 32-bit digit is written through `G`. -/
def blocksText (G : List Int → List Int) (u : Bool) (v : Nat) : List Int :=
  G (numeral u 16 (v / 2 ^ (32 * Nat.log (2 ^ 32) v))) ++
    (List.range (Nat.log (2 ^ 32) v)).reverse.flatMap fun i =>
      zeros8 (G (numeral u 16 (v / 2 ^ (32 * i) % 2 ^ 32)))

/-- C102: in decimal and octal notation the locale does not matter, for `Aeu` and `Aesi`, in every state of
the stream. Missing: hexadecimal notation, where it is false (`C102_counterexample`, `C102_hex_iff`). -/
theorem C102_decimal_octal_partial (cfg : Cfg) (L : NumPunct) (buf : Nat) (os : OStream) (h : os.basefield ≠ .hex)
    (a : Aeu n) (b : Aesi n) :
    Aeu.streamOutL cfg L buf os a = Aeu.streamOut cfg buf os a ∧
    Aesi.streamOutL cfg L buf os b = Aesi.streamOut cfg buf os b := by
  have key : ∀ (os : OStream) (x : Aeu n), os.basefield ≠ .hex →
      Aeu.streamOutL cfg L buf os x = Aeu.streamOut cfg buf os x := by
    intro os x h
    unfold Aeu.streamOutL Aeu.streamOut
    have hb : streamBase os.basefield ≠ 16#32 := by
      revert h; cases os.basefield <;> simp [streamBase]
    simp only [if_neg hb]
  refine ⟨key os a h, ?_⟩
  unfold Aesi.streamOutL Aesi.streamOut
  split
  · split <;> exact key _ _ h
  · rfl

private theorem group_short {s : Int} {gs : List Nat} {d : List Int} (fuel : Nat)
    (h : gs = [] ∨ ∃ g rest, gs = g :: rest ∧ ¬ (0 < g ∧ g < 127 ∧ g < d.length)) :
    groupDigits s fuel gs d = d := by
  cases fuel with
  | zero => rfl
  | succ k =>
    rcases h with rfl | ⟨g, rest, rfl, h⟩
    · rfl
    · rw [groupDigits, if_neg h]

/-- C102: without grouping (the classic locale) this is the operator of C35 and C62. -/
theorem C102_classic (cfg : Cfg) (L : NumPunct) (hL : L.sizes = []) (buf : Nat) (os : OStream) (a : Aeu n)
    (b : Aesi n) :
    Aeu.streamOutL cfg L buf os a = Aeu.streamOut cfg buf os a ∧
    Aesi.streamOutL cfg L buf os b = Aesi.streamOut cfg buf os b := by
  have hg : ∀ d, L.group d = d := fun d => group_short _ (Or.inl hL)
  have hp : ∀ (o : OStream) v, o.putHexL L v = o.putHex v := by
    intro o v; rw [OStream.putHexL, hg]; rfl
  have key : ∀ (os : OStream) (x : Aeu n),
      Aeu.streamOutL cfg L buf os x = Aeu.streamOut cfg buf os x := by
    intro os x
    unfold Aeu.streamOutL Aeu.streamOut streamHexL streamHex
    simp only [hp]
  refine ⟨key os a, ?_⟩
  unfold Aesi.streamOutL Aesi.streamOut
  split
  · split <;> exact key _ _
  · rfl

private theorem hexL (L : NumPunct) (hn : 0 < n) (os : OStream) (hw : os.width = 0) (x : Aeu n)
    (hx : toNat x ≠ 0) :
    Sat (streamHexL L os x) fun r => r.out = os.out ++ blocksText L.group os.uppercase (toNat x) := by
  unfold streamHexL
  refine Sat.bind (scan_top hn x hx) ?_
  rintro l ⟨hl, hd0, hdiv⟩
  have hlog : Nat.log (2 ^ 32) (toNat x) = l :=
    log_top hd0 (by rw [dig_of_lt hl]; exact x[l].isLt) hdiv
  unfold blocksText
  rw [hlog]
  simp only [rd_ok hl, ok_bind]
  refine Sat.forDown (fun i (r : OStream) => r.width = 0 ∧ r.uppercase = os.uppercase ∧
      r.out = os.out ++ (L.group (numeral os.uppercase 16 (toNat x / 2 ^ (32 * l))) ++
        (List.range' i (l - i)).reverse.flatMap fun i =>
          zeros8 (L.group (numeral os.uppercase 16 (toNat x / 2 ^ (32 * i) % 2 ^ 32)))))
    (Nat.zero_le _) ?_ ?_ ?_
  · have := put_width_zero os hw (L.group (hexText os.uppercase x[l]))
    refine ⟨this.2.1, by rw [OStream.putHexL, this.2.2], ?_⟩
    rw [OStream.putHexL, this.1, hexText, hdiv, dig_of_lt hl]
    simp
  · rintro i r _ hi ⟨hr1, hr2, hr3⟩
    have hin : i < n := by omega
    simp only [rd_ok hin, ok_bind, sat_ok]
    refine ⟨rfl, hr2, ?_⟩
    have e : l - i = (l - (i + 1)) + 1 := by omega
    have hd : toNat x / 2 ^ (32 * i) % 2 ^ 32 = (x[i]).toNat := by
      rw [div_block_step x i, dig_of_lt hin, Nat.add_comm, show (4294967296 : Nat) = 2 ^ 32 by norm_num, Nat.add_mul_mod_self_right]
      exact Nat.mod_eq_of_lt x[i].isLt
    rw [e, List.range'_succ, List.reverse_cons, List.flatMap_append]
    simp only [OStream.putHexL, OStream.put, hr3, hr2, reduceCtorEq, if_false, List.flatMap_cons,
      List.flatMap_nil, List.append_nil, hd, zeros8, hexText, List.append_assoc]
  · rintro r ⟨hr1, hr2, hr3⟩
    rw [hr3, Nat.sub_zero, List.range_eq_range']

/-- C102, exactly: in hexadecimal notation every block of 32 bits is grouped on its own, and filled with zeros
to 8 characters, separators counted. -/
theorem C102_hex_exact (cfg : Cfg) (L : NumPunct) (hn : 0 < n) (buf : Nat) (os : OStream) (hw : os.width = 0)
    (hb : os.basefield = .hex) (a : Aeu n) (ha : toNat a ≠ 0) :
    Sat (Aeu.streamOutL cfg L buf os a) fun r => r.out = os.out ++
      ((if os.showbase then basePrefix 16 else []) ++ blocksText L.group os.uppercase (toNat a)) := by
  unfold Aeu.streamOutL
  obtain ⟨h2, h3, h4⟩ := stream_prefix os hw
  simp only [hb, streamBase, isZero_spec, ha, decide_false, ok_bind, Bool.false_eq_true, if_false, if_true]
  refine Sat.mono (hexL L hn (streamHead os) h3 a ha) fun r hr => ?_
  rw [hr, h2, h4, List.append_assoc]
  congr 2
  unfold streamPrefix
  rw [hb]
  rfl

private theorem group_count {s : Int} {g : Nat} {rest : List Nat} (h0 : 0 < g) (h1 : g < 127) (fuel : Nat)
    (d : List Int) (hd : g < d.length) : 0 < (groupDigits s (fuel + 1) (g :: rest) d).count s := by
  rw [groupDigits, if_pos ⟨h0, h1, hd⟩, List.count_append, List.count_cons_self]
  omega

private theorem numeral_len_le (u : Bool) {g : Nat} (hg : 0 < g) (v : Nat) :
    (numeral u 16 v).length ≤ g ↔ v < 16 ^ g := by
  unfold numeral
  split
  · rename_i h; subst h
    simp only [List.length_singleton]
    exact ⟨fun _ => by positivity, fun _ => hg⟩
  · simp only [List.length_map, List.length_reverse]
    exact Nat.digits_length_le_iff (by norm_num) v

private theorem classic_blocks (hn : 0 < n) (u : Bool) (x : Aeu n) (hx : toNat x ≠ 0) :
    blocksText id u (toNat x) = numeral u 16 (toNat x) := by
  have h1 := hexL ⟨44, []⟩ hn ⟨.hex, false, u, .right, 32, 0, []⟩ rfl x hx
  have h2 := streamHex_any hn ⟨.hex, false, u, .right, 32, 0, []⟩ x hx
  have he : streamHexL (n := n) ⟨44, []⟩ ⟨.hex, false, u, .right, 32, 0, []⟩ x =
      streamHex ⟨.hex, false, u, .right, 32, 0, []⟩ x := by
    unfold streamHexL streamHex
    have hp : ∀ (o : OStream) v, o.putHexL ⟨44, []⟩ v = o.putHex v := by
      intro o v; rw [OStream.putHexL, NumPunct.group, group_short _ (Or.inl rfl)]; rfl
    simp only [hp]
  rw [he] at h1
  obtain ⟨r, e1, q1⟩ := h1
  obtain ⟨r', e2, -, q2⟩ := h2
  rw [e1] at e2
  cases e2
  rw [q1] at q2
  have hg : (⟨44, []⟩ : NumPunct).group = id := by
    funext d; exact group_short _ (Or.inl rfl)
  rw [hg, field_zero _ rfl] at q2
  simpa [List.prefix_iff_eq_append.mp (topHex_prefix u (toNat x) hx)] using q2

private theorem no_sep (u : Bool) {s : Int} (hs : ∀ d < 16, digitChar u d ≠ s) (v : Nat) :
    (numeral u 16 v).count s = 0 := by
  rw [List.count_eq_zero]
  unfold numeral
  split
  · have := hs 0 (by norm_num)
    simpa [digitChar, eq_comm] using this
  · intro h
    rw [List.mem_map] at h
    obtain ⟨d, hd, e⟩ := h
    exact hs d (Nat.digits_lt_base (by norm_num) (List.mem_reverse.mp hd)) e

private theorem group_id_iff {s : Int} {u : Bool} (hs : ∀ d < 16, digitChar u d ≠ s) {g : Nat}
    {rest : List Nat} (h0 : 0 < g) (h1 : g < 127) (v : Nat) :
    ((⟨s, g :: rest⟩ : NumPunct).group (numeral u 16 v)).count s = 0 ↔ v < 16 ^ g := by
  rw [← numeral_len_le u h0]
  constructor
  · intro h
    by_contra hc
    have hc : g < (numeral u 16 v).length := by omega
    unfold NumPunct.group at h
    obtain ⟨f, hf⟩ : ∃ f, (numeral u 16 v).length = f + 1 := ⟨(numeral u 16 v).length - 1, by omega⟩
    simp only [hf] at h
    have := group_count (s := s) (rest := rest) h0 h1 f (numeral u 16 v) hc
    omega
  · intro h
    unfold NumPunct.group
    rw [group_short _ (Or.inr ⟨g, rest, rfl, by omega⟩)]
    exact no_sep u hs v

/-- C102: exactly which numbers are printed right in hexadecimal by a locale with groups of `g` digits: those
all of whose 32-bit blocks have at most `g` digits. (The separator is not itself a hexadecimal digit.) -/
theorem C102_hex_iff (cfg : Cfg) (s : Int) (g : Nat) (rest : List Nat) (h0 : 0 < g) (h1 : g < 127)
    (hn : 0 < n) (buf : Nat) (os : OStream) (hw : os.width = 0) (hb : os.basefield = .hex)
    (hs : ∀ d < 16, digitChar os.uppercase d ≠ s) (a : Aeu n) (ha : toNat a ≠ 0) :
    Sat (Aeu.streamOutL cfg ⟨s, g :: rest⟩ buf os a) fun r =>
      r.out = os.out ++ streamText os (toNat a) ↔ ∀ i, toNat a / 2 ^ (32 * i) % 2 ^ 32 < 16 ^ g := by
  refine Sat.mono (C102_hex_exact cfg ⟨s, g :: rest⟩ hn buf os hw hb a ha) fun r hr => ?_
  have et : streamText os (toNat a) =
      (if os.showbase then basePrefix 16 else []) ++ numeral os.uppercase 16 (toNat a) := by
    unfold streamText; rw [hb]; rfl
  rw [hr, et, List.append_cancel_left_eq, List.append_cancel_left_eq]
  obtain ⟨l, -, hl, hd0, hdiv⟩ := scan_top hn a ha
  have hlog : Nat.log (2 ^ 32) (toNat a) = l :=
    log_top hd0 (by rw [dig_of_lt hl]; exact a[l].isLt) hdiv
  have htop : toNat a / 2 ^ (32 * l) % 2 ^ 32 = toNat a / 2 ^ (32 * l) := by
    rw [hdiv, dig_of_lt hl]; exact Nat.mod_eq_of_lt a[l].isLt
  constructor
  · intro h i
    have hc : (blocksText (⟨s, g :: rest⟩ : NumPunct).group os.uppercase (toNat a)).count s = 0 := by
      rw [h]; exact no_sep _ hs _
    unfold blocksText at hc
    rw [List.count_append, Nat.add_eq_zero_iff, hlog] at hc
    rcases Nat.lt_trichotomy i l with hi | hi | hi
    · have h2 := List.count_eq_zero.mp hc.2
      refine (group_id_iff hs (rest := rest) h0 h1 _).mp (List.count_eq_zero.mpr fun hm => h2 ?_)
      rw [List.mem_flatMap]
      exact ⟨i, by simp [hi], by unfold zeros8; exact List.mem_append_right _ hm⟩
    · subst hi
      rw [htop]
      exact (group_id_iff hs (rest := rest) h0 h1 _).mp hc.1
    · have : toNat a / 2 ^ (32 * i) = 0 := by
        apply Nat.div_eq_of_lt
        have hlt := Nat.lt_pow_succ_log_self (b := 2 ^ 32) (by norm_num) (toNat a)
        rw [hlog, ← Nat.pow_mul] at hlt
        exact Nat.lt_of_lt_of_le hlt (Nat.pow_le_pow_right (by norm_num) (by omega))
      rw [this, Nat.zero_mod]; positivity
  · intro h
    rw [← classic_blocks hn os.uppercase a ha]
    have hg : ∀ v, v < 16 ^ g → (⟨s, g :: rest⟩ : NumPunct).group (numeral os.uppercase 16 v) =
        numeral os.uppercase 16 v := by
      intro v hv
      have := (numeral_len_le os.uppercase h0 v).mpr hv
      exact group_short _ (Or.inr ⟨g, rest, rfl, by omega⟩)
    unfold blocksText
    rw [hlog, hg _ (by rw [← htop]; exact h l)]
    congr 1
    refine List.flatMap_congr fun i _ => ?_
    rw [hg _ (h i)]
    rfl

/-- C102 is false of the code: with the usual groups of three, 2^32 + 4096 is printed as `10001,000`, which is
not its numeral even without the separator, and which the constructor reads back as another number. -/
theorem C102_counterexample :
    (Aeu.streamOutL ⟨false, false, true⟩ ⟨44, [3]⟩ 21 (freshStream .hex 0) (ofNat 2 (2 ^ 32 + 4096))).map (·.out) =
      .ok [49, 48, 48, 48, 49, 44, 48, 48, 48] ∧
    ofChars .char asciiAlnum 2 #v[48, 120, 49, 48, 48, 48, 49, 44, 48, 48, 48] = .ok (ofNat 2 0x10001000) := by
  decide +kernel

/-- The hypotheses of `C102_hex_iff` are met. -/
example : (∀ d < 16, digitChar false d ≠ (44 : Int)) ∧
    (Aeu.streamOutL ⟨false, false, true⟩ ⟨44, [3]⟩ 21 (freshStream .hex 0) (ofNat 2 (2 ^ 32 + 4095))).map (·.out) =
      .ok [49, 48, 48, 48, 48, 48, 102, 102, 102] := by decide +kernel

/-! ### Concrete cases that meet the hypotheses -/

/-- The hypotheses of `C102_decimal_octal_partial` are met. -/
example := C102_decimal_octal_partial ⟨false, false, false⟩ ⟨44, [3]⟩ 21 ⟨.other, true, false, .right, 32, 0, []⟩
  (by decide) (Aeu.ofNat 2 (2 ^ 40 + 5)) (Aesi.ofInt 2 (-2 ^ 40))

/-- The hypotheses of `C102_classic` are met. -/
example := C102_classic ⟨false, false, false⟩ ⟨44, []⟩ rfl 21 ⟨.hex, true, false, .right, 32, 0, []⟩
  (Aeu.ofNat 2 (2 ^ 40 + 5)) (Aesi.ofInt 2 (-2 ^ 40))

/-- The hypotheses of `C102_hex_exact` are met. -/
example := C102_hex_exact ⟨false, false, false⟩ ⟨44, [3]⟩ (by omega) 21 ⟨.hex, true, false, .right, 32, 0, []⟩ rfl rfl
  (Aeu.ofNat 2 (2 ^ 40 + 5)) (by decide +kernel)

private theorem group_positions (s : Int) (g : Nat) (h0 : 0 < g) (h1 : g < 127) (fuel : Nat) :
    ∀ (d : List Int), d.length ≤ fuel → ∀ q : Nat,
      (∀ r < g, (groupDigits s fuel [g] d).reverse[q * (g + 1) + r]? = d.reverse[q * g + r]?) ∧
      (groupDigits s fuel [g] d).reverse[q * (g + 1) + g]? = if (q + 1) * g < d.length then some s else none := by
  have short : ∀ (d : List Int), d.length ≤ g → ∀ q : Nat,
      (∀ r < g, d.reverse[q * (g + 1) + r]? = d.reverse[q * g + r]?) ∧
      d.reverse[q * (g + 1) + g]? = if (q + 1) * g < d.length then some s else none := by
    intro d hd q
    have hq : g ≤ (q + 1) * g := Nat.le_mul_of_pos_left g (by omega)
    refine ⟨fun r hr => ?_, ?_⟩
    · cases q with
      | zero => simp
      | succ q =>
        have h2 : g ≤ (q + 1) * g := Nat.le_mul_of_pos_left g (by omega)
        have h3 : g ≤ (q + 1) * (g + 1) := by nlinarith
        rw [List.getElem?_eq_none (by simp; omega), List.getElem?_eq_none (by simp; omega)]
    · rw [if_neg (by omega), List.getElem?_eq_none (by simp; omega)]
  induction fuel with
  | zero => intro d hd; exact short d (by omega)
  | succ fuel ih =>
    intro d hd q
    by_cases hg : g < d.length
    · rw [groupDigits, if_pos ⟨h0, h1, hg⟩, if_pos rfl]
      have hrev : (groupDigits s fuel [g] (d.take (d.length - g)) ++ s :: d.drop (d.length - g)).reverse =
          d.reverse.take g ++ s :: (groupDigits s fuel [g] (d.take (d.length - g))).reverse := by
        rw [List.reverse_append, List.reverse_cons, List.append_assoc, List.take_reverse]; simp
      have hlen : (d.reverse.take g).length = g := by simp; omega
      have ih' := fun q => ih (d.take (d.length - g)) (by simp; omega) q
      have hdrop : (d.take (d.length - g)).reverse = d.reverse.drop g := by rw [List.drop_reverse]
      rw [hrev]
      cases q with
      | zero =>
        refine ⟨fun r hr => ?_, ?_⟩
        · rw [List.getElem?_append_left (by rw [hlen]; omega), List.getElem?_take, if_pos (by omega)]; simp
        · rw [List.getElem?_append_right (by rw [hlen]; omega), hlen, if_pos (by omega)]; simp
      | succ q =>
        have e : ∀ r, (q + 1) * (g + 1) + r - g = (q * (g + 1) + r) + 1 := fun r => by
          have : (q + 1) * (g + 1) = q * (g + 1) + g + 1 := by ring
          omega
        have hge : g ≤ (q + 1) * (g + 1) := by nlinarith
        refine ⟨fun r hr => ?_, ?_⟩
        · rw [List.getElem?_append_right (by rw [hlen]; omega), hlen, e, List.getElem?_cons_succ, (ih' q).1 r hr, hdrop,
            List.getElem?_drop]
          congr 1; ring
        · rw [List.getElem?_append_right (by rw [hlen]; omega), hlen, e, List.getElem?_cons_succ, (ih' q).2]
          have : (q + 1 + 1) * g = (q + 1) * g + g := by ring
          congr 1
          simp only [List.length_take, eq_iff_iff]
          omega
    · rw [groupDigits, if_neg (fun h => hg h.2.2)]
      exact short d (by omega) q

/-- **C102**: what the grouping in `C102_hex_exact` is, for a locale with groups of `g`: counted from the right, every
block of `g` digits is followed by a separator as long as digits are left, and nothing else changes. -/
theorem C102_grouping (s : Int) (g : Nat) (h0 : 0 < g) (h1 : g < 127) (d : List Int) (q : Nat) :
    (∀ r < g, ((⟨s, [g]⟩ : NumPunct).group d).reverse[q * (g + 1) + r]? = d.reverse[q * g + r]?) ∧
    ((⟨s, [g]⟩ : NumPunct).group d).reverse[q * (g + 1) + g]? = if (q + 1) * g < d.length then some s else none :=
  group_positions s g h0 h1 d.length d (Nat.le_refl _) q

private theorem group_filter (s : Int) (fuel : Nat) : ∀ (sizes : List Nat) (d : List Int), (∀ x ∈ d, x ≠ s) →
    (groupDigits s fuel sizes d).filter (· ≠ s) = d := by
  induction fuel with
  | zero => intro sizes d h; simpa [groupDigits] using h
  | succ fuel ih =>
    intro sizes d h
    cases sizes with
    | nil => simpa [groupDigits] using h
    | cons g rest =>
      rw [groupDigits]
      split
      · rw [List.filter_append, ih _ _ (fun x hx => h x (List.mem_of_mem_take hx)), List.filter_cons_of_neg (by simp),
          List.filter_eq_self.2 (fun x hx => by simpa using h x (List.mem_of_mem_drop hx)), List.take_append_drop]
      · exact List.filter_eq_self.2 (by simpa using h)

/-- **C102**: in every locale the digits are there, in order: without the separators the text is what it was. -/
theorem C102_grouping_digits (L : NumPunct) (d : List Int) (h : ∀ x ∈ d, x ≠ L.separator) :
    (L.group d).filter (· ≠ L.separator) = d := group_filter L.separator d.length L.sizes d h

example : (⟨44, [3]⟩ : NumPunct).group [49, 50, 51, 52, 53, 54, 55] = [49, 44, 50, 51, 52, 44, 53, 54, 55] ∧
    (⟨44, [3, 2]⟩ : NumPunct).group [49, 50, 51, 52, 53, 54, 55] = [49, 50, 44, 51, 52, 44, 53, 54, 55] := by
  decide +kernel

end AesiMP
