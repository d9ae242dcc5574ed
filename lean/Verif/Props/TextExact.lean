import Verif.Props.StreamExact

/-!
# `getString` beyond C24 and C25: one-block numbers, the other bases, short wide buffers
-/

namespace AesiMP
open Aeu
variable {n cap : Nat}

/-! ### C24 -/

/-- C24 is false for every non-zero 32-bit number in every base other than 16: whatever the buffer,
the first digit is read from a block past the object. -/
theorem C24_one_block (cfg : Cfg) (kind : CharKind) (base : BitVec 8) (upper : Bool) (a : Aeu 1)
    (ha : toNat a ≠ 0) (hbase : base.toNat ≠ 16) (buffer : Vector Int cap) (showBase : Bool)
    (hc : 2 ≤ cap) : getString cfg kind base upper a buffer showBase = .error .outOfBounds := by
  unfold getString
  rw [if_neg (by omega)]
  obtain ⟨⟨b, p⟩, hok, hp, -⟩ := writePrefix_spec base showBase buffer hc
  simp only at hp
  have hpl := prefixFor_length base showBase cap
  simp only [hok, ok_bind, isZero_spec, ha, decide_false, Bool.false_eq_true, if_false]
  rw [getStringBody, if_neg (fun h => hbase ((bv8_eq base 16 (by norm_num)).mp h))]
  unfold getStringDigits whileC
  obtain ⟨d, hd, -⟩ := ofUnsigned_spec (n := 1) (w := 8) (by norm_num) base
  obtain ⟨qr, hqr, -⟩ := divide_total cfg (n := 1) (by norm_num) a d
  have hcast : integralCast .u8 qr.2 = .error .outOfBounds := by
    simp [integralCast, low64_one_block]
  have hlt : p < cap := by omega
  simp [isZero_spec, ha, hd, hqr, hcast, hlt]

/-- The digits of `v` in base `b`, most significant first, each written as the character `'0' + d`
(so `:` for ten, `;` for eleven, ...). -/
def offsetNumeral (b v : Nat) : List Int := (Nat.digits b v).reverse.map fun (d : Nat) => (48 : Int) + d

private theorem lowDigits_offset {b : Nat} (hb1 : 1 < b) (v : Nat) :
    (lowDigits b v (Nat.digits b v).length).reverse = offsetNumeral b v := by
  rw [offsetNumeral, List.map_reverse]
  congr 1
  apply List.ext_getElem
  · simp [lowDigits]
  · intro i h1 h2
    simp only [List.length_map] at h2
    have hd := Nat.getD_digits v i (b := b) (by omega)
    simp only [List.getD, List.getElem?_eq_getElem h2, Option.getD_some] at hd
    simp only [lowDigits, List.getElem_map, List.getElem_range, hd]
    ring

/-- The digit loop with enough room, whatever the base (the characters before narrowing to `char`). -/
theorem getString_offset (cfg : Cfg) (kind : CharKind) (base : BitVec 8) (upper : Bool) (hn : 2 ≤ n)
    (a : Aeu n) (ha : toNat a ≠ 0) (hb1 : 2 ≤ base.toNat) (h16 : base.toNat ≠ 16)
    (buffer : Vector Int cap) (showBase : Bool) (hcap : cap < 2 ^ 63) (text : List Int)
    (htext : text = (if showBase ∧ 3 < cap then basePrefix base.toNat else []) ++
      offsetNumeral base.toNat (toNat a))
    (hfit : text.length < cap) :
    Sat (getString cfg kind base upper a buffer showBase) fun r =>
      r.1.toList = text ++ [0] ++ buffer.toList.drop (text.length + 1) ∧ r.2 = text.length + 1 := by
  change text = prefixFor base showBase cap ++ _ at htext
  have hol : (offsetNumeral base.toNat (toNat a)).length = (Nat.digits base.toNat (toNat a)).length := by
    simp [offsetNumeral]
  have hlen : text.length = (prefixFor base showBase cap).length +
      (Nat.digits base.toNat (toNat a)).length := by rw [htext, List.length_append, hol]
  have hpos : 0 < (Nat.digits base.toNat (toNat a)).length :=
    List.length_pos_iff.mpr (Nat.digits_ne_nil_iff_ne_zero.mpr ha)
  unfold getString
  rw [if_neg (by omega)]
  refine Sat.bind (writePrefix_spec base showBase buffer (by omega)) ?_
  rintro ⟨b, p⟩ ⟨hp, hb⟩
  simp only at hp hb ⊢
  simp only [isZero_spec, ha, decide_false, ok_bind, Bool.false_eq_true, if_false]
  rw [getStringBody, if_neg (fun h => h16 ((bv8_eq base 16 (by norm_num)).mp h))]
  refine Sat.bind (getStringDigits_spec cfg hn base (by omega) a b p (by omega)) ?_
  rintro ⟨b', p'⟩ ⟨k, hk, h1, h2⟩
  simp only at h1 h2 ⊢
  have hkl : k = (Nat.digits base.toNat (toNat a)).length := by omega
  rw [hkl, lowDigits_offset (by omega)] at h2
  have hp' : p' = text.length := by omega
  subst hp'
  simp only [wr_ok hfit, ok_bind, sat_ok]
  refine ⟨?_, Nat.mod_eq_of_lt (by omega)⟩
  have h3 := h2.terminate (by rw [hp, hol]; omega)
  have h4 := hb.thenZ (by rw [Nat.zero_add, ← hp]; exact h3)
  rw [← htext] at h4
  have h5 : p + (offsetNumeral base.toNat (toNat a)).length = text.length := by omega
  have h6 := h4.toList hfit
  simpa only [h5] using h6

/-- C24, the remaining bases up to 80 (beyond that `'0' + digit` leaves the range of `char`): the digits
are written in the right order, but those from ten on as the characters following `9`. -/
theorem C24_other_bases (cfg : Cfg) (kind : CharKind) (base : BitVec 8) (upper : Bool) (hn : 2 ≤ n)
    (a : Aeu n) (ha : toNat a ≠ 0) (hb1 : 2 ≤ base.toNat) (_hb : base.toNat ≤ 80) (h16 : base.toNat ≠ 16)
    (buffer : Vector Int cap) (showBase : Bool) (hcap : cap < 2 ^ 63) (text : List Int)
    (htext : text = (if showBase ∧ 3 < cap then basePrefix base.toNat else []) ++
      offsetNumeral base.toNat (toNat a))
    (hfit : text.length < cap) :
    Sat (getString cfg kind base upper a buffer showBase) fun r =>
      r.1.toList = text ++ [0] ++ buffer.toList.drop (text.length + 1) ∧ r.2 = text.length + 1 :=
  getString_offset cfg kind base upper hn a ha hb1 h16 buffer showBase hcap text htext hfit

/-- 2748 in base 12 is written `1710`, 2747 as `170;`. -/
example :
    (getString ⟨false, false, false⟩ .char 12#8 false (ofNat 2 2747) (Vector.replicate 8 9) false).map
      (fun r => (r.1.toList, r.2)) = .ok ([49, 55, 48, 59, 0, 9, 9, 9], 5) := by decide +kernel

/-! ### C25 -/

/-- C25, every base other than 16, `char` and `wchar_t`: when the text and its terminator do not fit,
the terminator is written past the buffer. -/
theorem C25_overrun_digits (cfg : Cfg) (kind : CharKind) (base : BitVec 8) (upper : Bool) (hn : 2 ≤ n)
    (a : Aeu n) (ha : toNat a ≠ 0) (hb1 : 2 ≤ base.toNat) (h16 : base.toNat ≠ 16)
    (buffer : Vector Int cap) (showBase : Bool) (hc : 2 ≤ cap)
    (h : cap ≤ ((if showBase ∧ 3 < cap then basePrefix base.toNat else []) ++
        offsetNumeral base.toNat (toNat a)).length) :
    getString cfg kind base upper a buffer showBase = .error .outOfBounds := by
  change cap ≤ (prefixFor base showBase cap ++ _).length at h
  have hol : (offsetNumeral base.toNat (toNat a)).length = (Nat.digits base.toNat (toNat a)).length := by
    simp [offsetNumeral]
  rw [List.length_append, hol] at h
  unfold getString
  rw [if_neg (by omega)]
  obtain ⟨⟨b, p⟩, hok, hp, -⟩ := writePrefix_spec base showBase buffer hc
  simp only at hp
  have hpl := prefixFor_length base showBase cap
  simp only [hok, ok_bind, isZero_spec, ha, decide_false, Bool.false_eq_true, if_false]
  rw [getStringBody, if_neg (fun h => h16 ((bv8_eq base 16 (by norm_num)).mp h))]
  obtain ⟨⟨b', p'⟩, hok', k, hk, h1, -⟩ := getStringDigits_spec cfg hn base (by omega) a b p (by omega)
  simp only at h1
  simp only [hok', ok_bind]
  rw [wr_oob (by omega)]
  rfl

private theorem swprintf_short (buf : Vector Int cap) (pos : Nat) (text : List Int) (h1 : pos < cap)
    (h2 : cap ≤ pos + text.length) :
    Sat (snprintfAt .wchar buf pos text) fun r => r.2 = 2 ^ 64 - 1 := by
  unfold snprintfAt
  have h3 : ¬ text.length < cap - pos := by omega
  have h4 : ¬ cap - pos = 0 := by omega
  simp only [Nat.le_of_lt h1, if_true, h3, or_false, if_false, reduceCtorEq, h4]
  refine Sat.bind (writeLoop_spec buf pos (cap - pos - 1) text (by omega) (by omega)) fun b _ => ?_
  rw [wr_ok (by omega)]
  exact Sat.ok rfl

private theorem swprintf_step (buf : Vector Int cap) (pos : Nat) (text : List Int) (hcap : cap < 2 ^ 63)
    (h1 : pos < cap) (h8 : text.length ≤ 8) (hroom : 0 < pos ∨ text.length < cap) (h9 : 0 < text.length) :
    Sat (snprintfAt .wchar buf pos text) fun r => (pos + r.2) % 2 ^ 64 < cap := by
  rcases Nat.lt_or_ge (pos + text.length) cap with h | h
  · refine Sat.mono (snprintfAt_fits .wchar buf pos text h) ?_
    rintro r ⟨-, hr⟩
    rw [hr, Nat.mod_eq_of_lt (by omega)]
    exact h
  · refine Sat.mono (swprintf_short buf pos text h1 h) ?_
    intro r hr
    rw [hr]
    omega

/-- C25, wide hexadecimal text: into a buffer of nine or more `wchar_t` nothing is ever written past the
end, whether the text fits or not (`swprintf` then fails and `position` steps back by one), and the
returned count does not exceed the size of the buffer. -/
theorem C25_wide_hex_in_bounds (cfg : Cfg) (upper : Bool) (hn : 0 < n) (a : Aeu n)
    (buffer : Vector Int cap) (showBase : Bool) (hc : 9 ≤ cap) (hcap : cap < 2 ^ 63) :
    Sat (getString cfg .wchar 16#8 upper a buffer showBase) fun r => r.2 ≤ cap := by
  unfold getString
  rw [if_neg (by omega)]
  refine Sat.bind (writePrefix_spec 16#8 showBase buffer (by omega)) ?_
  rintro ⟨b, p⟩ ⟨hp, -⟩
  have hpl := prefixFor_length 16#8 showBase cap
  simp only at hp ⊢
  rw [isZero_spec]
  simp only [ok_bind]
  split
  · rw [wr_ok (by omega)]
    refine Sat.ok ?_
    simp only
    omega
  · rename_i hz
    have hx : toNat a ≠ 0 := by simpa using hz
    rw [getStringBody, if_pos rfl]
    refine Sat.bind (P := fun (r : Vector Int cap × Nat) => r.2 < cap) ?_ ?_
    · unfold getStringHex
      refine Sat.bind (scan_top hn a hx) ?_
      rintro l ⟨hl, hd0, hdiv⟩
      simp only [rd_ok hl, ok_bind]
      have hle := hexText_length_le upper a[l]
      have hpos : 0 < (hexText upper a[l]).length := by
        obtain ⟨d, rest, h, _⟩ := numeral_head upper (b := 16) (by norm_num) a[l].toNat
        rw [hexText, h]; simp
      refine Sat.bind (swprintf_step b p (hexText upper a[l]) hcap (by omega) hle (by omega) hpos) ?_
      rintro ⟨b', r⟩ hr
      refine Sat.forDown (fun i (st : Vector Int cap × Nat) => st.2 < cap) (Nat.zero_le _) hr ?_
        (fun _ h => h)
      rintro i ⟨b1, pos⟩ _ hi h1
      simp only at h1 ⊢
      simp only [rd_ok (show i < n by omega), ok_bind]
      refine Sat.bind (swprintf_step b1 pos (hexText8 upper a[i]) hcap h1
        (by rw [hexText8_length]) (by rw [hexText8_length]; omega) (by rw [hexText8_length]; omega)) ?_
      intro r hr
      exact Sat.ok hr
    · rintro ⟨b', p'⟩ h
      simp only at h ⊢
      rw [wr_ok h]
      refine Sat.ok ?_
      simp only
      rw [Nat.mod_eq_of_lt (by omega)]
      omega

/-- The text is garbage when it does not fit: the nine digits of `0x123456789`, in nine `wchar_t`, end
up as the empty text, with the count 1. -/
example :
    (getString ⟨false, false, false⟩ .wchar 16#8 false (ofNat 2 0x123456789) (Vector.replicate 9 9)
      false).map (fun r => (r.1.toList, r.2)) = .ok ([0, 50, 51, 52, 53, 54, 55, 56, 0], 1) := by
  decide +kernel

/-- Below nine `wchar_t` writes out of bounds do occur. -/
theorem C25_wide_hex_short_counterexample :
    getString ⟨false, false, false⟩ .wchar 16#8 false (ofNat 1 0xABCDEF12) (Vector.replicate 8 0) false =
      .error .outOfBounds := by decide +kernel

private theorem swprintf_beyond (buf : Vector Int cap) (text : List Int) (hc : cap < 2 ^ 63) (h0 : 0 < text.length)
    (h1 : 0 < cap) : snprintfAt .wchar buf (2 ^ 64 - 1) text = .error .outOfBounds := by
  unfold snprintfAt
  rw [if_neg (by omega : ¬ 2 ^ 64 - 1 ≤ cap)]
  have ha : 2 ^ 64 - (2 ^ 64 - 1 - cap) = cap + 1 := by omega
  simp only [ha]
  rw [if_neg (by omega)]
  obtain ⟨k, hk⟩ : ∃ k, (if text.length < cap + 1 then text.length else cap + 1 - 1) = k + 1 := by
    refine ⟨(if text.length < cap + 1 then text.length else cap + 1 - 1) - 1, ?_⟩
    split_ifs <;> omega
  rw [hk]
  simp only [forUp, Nat.sub_zero, forUpN]
  rw [wr_oob (by omega)]
  rfl

/-- The blocks below the first one, in a buffer no longer than eight: each of them steps back by one. -/
private theorem wide_loop (upper : Bool) (a : Aeu n) (hc1 : 0 < cap) (hc : cap ≤ 8) :
    ∀ (i : Nat) (b : Vector Int cap) (pos : Nat), i ≤ n → pos < cap →
      if i ≤ pos then Sat (forDown i 0 (b, pos) fun iter (st : Vector Int cap × Nat) => do
            let b ← rd a iter
            let r ← snprintfAt .wchar st.1 st.2 (hexText8 upper b)
            .ok (r.1, (st.2 + r.2) % 2 ^ 64)) fun r => r.2 = pos - i
      else (forDown i 0 (b, pos) fun iter (st : Vector Int cap × Nat) => do
            let b ← rd a iter
            let r ← snprintfAt .wchar st.1 st.2 (hexText8 upper b)
            .ok (r.1, (st.2 + r.2) % 2 ^ 64)) = .error .outOfBounds ∨
          ∃ b', (forDown i 0 (b, pos) fun iter (st : Vector Int cap × Nat) => do
            let b ← rd a iter
            let r ← snprintfAt .wchar st.1 st.2 (hexText8 upper b)
            .ok (r.1, (st.2 + r.2) % 2 ^ 64)) = .ok (b', 2 ^ 64 - 1) := by
  intro i
  induction i with
  | zero =>
    intro b pos _ _
    rw [if_pos (Nat.zero_le _)]
    exact Sat.ok rfl
  | succ i ih =>
    intro b pos hi hpos
    obtain ⟨r, hr, hr2⟩ := swprintf_short b pos (hexText8 upper a[i]) hpos (by rw [hexText8_length]; omega)
    rw [forDown_top]
    simp only [rd_ok (show i < n by omega), ok_bind, hr, hr2]
    rcases Nat.eq_zero_or_pos pos with h0 | h0
    · subst h0
      rw [if_neg (by omega)]
      cases i with
      | zero => exact .inr ⟨r.1, rfl⟩
      | succ j =>
        left
        rw [forDown_top]
        simp only [rd_ok (show j < n by omega), ok_bind]
        rw [show (0 + (2 ^ 64 - 1)) % 2 ^ 64 = 2 ^ 64 - 1 by norm_num,
          swprintf_beyond _ _ (by omega) (by rw [hexText8_length]; omega) hc1]
        rfl
    · have hm : (pos + (2 ^ 64 - 1)) % 2 ^ 64 = pos - 1 := by omega
      rw [hm]
      have h := ih r.1 (pos - 1) (by omega) (by omega)
      by_cases hle : i + 1 ≤ pos
      · rw [if_pos (by omega)] at h ⊢
        refine Sat.mono h fun x hx => ?_
        omega
      · rw [if_neg (by omega)] at h ⊢
        exact h

/-- C25, wide hexadecimal text in the buffers of two to eight `wchar_t`, decided.  Let the text consist of
`first` digits and `groups` further groups of eight, after a prefix of `p` characters.  If the first digits
fit, each group steps back by one from their end; if not, they step back as well; the call stays inside the
buffer if and only if the steps do not lead below its start. -/
theorem C25_wide_hex_short (cfg : Cfg) (upper : Bool) (hn : 0 < n) (a : Aeu n) (ha : toNat a ≠ 0)
    (buffer : Vector Int cap) (showBase : Bool) (hc : 2 ≤ cap) (hc8 : cap ≤ 8) (p first groups : Nat)
    (hp : p = if showBase ∧ 3 < cap then 2 else 0)
    (hf : 1 ≤ first ∧ first ≤ 8) (hg : (numeral upper 16 (toNat a)).length = first + 8 * groups) :
    if (p + first < cap ∧ groups ≤ p + first) ∨ (cap ≤ p + first ∧ groups < p) then
      Sat (getString cfg .wchar 16#8 upper a buffer showBase) fun r => r.2 ≤ cap
    else getString cfg .wchar 16#8 upper a buffer showBase = .error .outOfBounds := by
  have hgs : getString cfg .wchar 16#8 upper a buffer showBase = (do
      let r ← writePrefix 16#8 showBase buffer
      let r ← getStringHex .wchar upper a r.1 r.2
      let buffer ← wr r.1 r.2 0
      .ok (buffer, (r.2 + 1) % 2 ^ 64)) := by
    unfold getString
    rw [if_neg (by omega)]
    simp only [isZero_spec, ha, decide_false, ok_bind, Bool.false_eq_true, if_false]
    rfl
  rw [hgs]
  obtain ⟨⟨b, p'⟩, hok, hp', -⟩ := writePrefix_spec 16#8 showBase buffer hc
  have hpp : p' = p := by
    simp only at hp'
    rw [hp', hp, prefixFor]
    by_cases h : showBase = true ∧ 3 < cap
    · rw [if_pos h, if_pos h]; rfl
    · rw [if_neg h, if_neg h]; rfl
  subst hpp
  clear hgs hp'
  have hplt : p' < cap := by rw [hp]; split_ifs <;> omega
  obtain ⟨l, hl0, hl, hd0, hdiv⟩ := scan_top hn a ha
  have hlen8 : (numeral upper 16 (toNat a)).length = (hexText upper a[l]).length + 8 * l := by
    have key := hex_prefix upper a ha hl hd0 hdiv
    have := (key l (le_refl _)).2
    rw [hdiv, dig_of_lt hl] at this
    rw [← this]; rfl
  have hle := hexText_length_le upper a[l]
  have hpos := hexText_length_pos upper a[l]
  obtain rfl : groups = l := by omega
  obtain rfl : first = (hexText upper a[groups]).length := by omega
  simp only [hok, ok_bind]
  unfold getStringHex
  simp only [hl0, ok_bind, rd_ok hl]
  have hfin : ∀ (b' : Vector Int cap) (q : Nat), q < cap →
      Sat (do let buffer ← wr b' q 0; .ok (buffer, (q + 1) % 2 ^ 64)) fun r => r.2 ≤ cap := by
    intro b' q hq
    rw [wr_ok hq]
    refine Sat.ok ?_
    simp only
    omega
  have hall : ∀ (b' : Vector Int cap) (q : Nat), q < cap →
      if groups ≤ q then Sat (do
        let r ← forDown groups 0 (b', q) fun iter (st : Vector Int cap × Nat) => do
            let b ← rd a iter
            let r ← snprintfAt .wchar st.1 st.2 (hexText8 upper b)
            .ok (r.1, (st.2 + r.2) % 2 ^ 64)
        let buffer ← wr r.1 r.2 0
        .ok (buffer, (r.2 + 1) % 2 ^ 64)) fun r => r.2 ≤ cap
      else (do
        let r ← forDown groups 0 (b', q) fun iter (st : Vector Int cap × Nat) => do
            let b ← rd a iter
            let r ← snprintfAt .wchar st.1 st.2 (hexText8 upper b)
            .ok (r.1, (st.2 + r.2) % 2 ^ 64)
        let buffer ← wr r.1 r.2 0
        .ok (buffer, (r.2 + 1) % 2 ^ 64)) = .error .outOfBounds := by
    intro b' q hq
    have h := wide_loop upper a (by omega) hc8 groups b' q (by omega) hq
    by_cases hgq : groups ≤ q
    · rw [if_pos hgq] at h ⊢
      refine Sat.bind h fun r hr => ?_
      exact hfin r.1 r.2 (by omega)
    · rw [if_neg hgq] at h ⊢
      rcases h with h | ⟨b'', h⟩
      · rw [h]; rfl
      · rw [h]
        simp only [ok_bind]
        rw [wr_oob (by omega)]
        rfl
  by_cases hfit : p' + (hexText upper a[groups]).length < cap
  · obtain ⟨r, hr, -, hr2⟩ := snprintfAt_fits .wchar b p' (hexText upper a[groups]) hfit
    simp only [hr, ok_bind, hr2]
    rw [Nat.mod_eq_of_lt (by omega)]
    have h := hall r.1 _ hfit
    by_cases hgq : groups ≤ p' + (hexText upper a[groups]).length
    · rw [if_pos hgq] at h
      rw [if_pos (.inl ⟨hfit, hgq⟩)]
      exact h
    · rw [if_neg hgq] at h
      rw [if_neg (by omega)]
      exact h
  · obtain ⟨r, hr, hr2⟩ := swprintf_short b p' (hexText upper a[groups]) hplt (by omega)
    simp only [hr, ok_bind, hr2]
    rcases Nat.eq_zero_or_pos p' with h0 | h0
    · rw [if_neg (by omega), h0, show (0 + (2 ^ 64 - 1)) % 2 ^ 64 = 2 ^ 64 - 1 by norm_num]
      cases hgr : groups with
      | zero =>
        simp only [forDown, Nat.sub_self, forDownN, ok_bind]
        rw [wr_oob (by omega)]
        rfl
      | succ j =>
        rw [forDown_top]
        simp only [rd_ok (show j < n by omega), ok_bind]
        rw [swprintf_beyond _ _ (by omega) (by rw [hexText8_length]; omega) (by omega)]
        rfl
    · rw [show (p' + (2 ^ 64 - 1)) % 2 ^ 64 = p' - 1 by omega]
      have h := hall r.1 (p' - 1) (by omega)
      by_cases hgq : groups < p'
      · rw [if_pos (by omega)] at h
        rw [if_pos (.inr ⟨by omega, hgq⟩)]
        exact h
      · rw [if_neg (by omega)] at h
        rw [if_neg (by omega)]
        exact h

/-- Three blocks whose first one has two digits: inside a buffer of three `wchar_t`; with one digit the
third block would be written before its start. -/
example :
    (∃ r, getString ⟨false, false, false⟩ .wchar 16#8 false (ofNat 3 0xAB0000000000000000)
      (Vector.replicate 3 0) false = .ok r) ∧
    getString ⟨false, false, false⟩ .wchar 16#8 false (ofNat 3 0xA0000000000000000)
      (Vector.replicate 3 0) false = .error .outOfBounds := by
  refine ⟨⟨_, rfl⟩, ?_⟩
  decide +kernel

/-! ### Concrete cases that meet the hypotheses -/

/-- The hypotheses of `C24_one_block` are met. -/
example := C24_one_block (cap := 10) ⟨false, false, false⟩ .char 10#8 true (Aeu.ofNat 1 77) (by decide +kernel) (by decide)
  (Vector.replicate 10 7) true (by omega)

/-- The hypotheses of `C25_overrun_digits` are met. -/
example := C25_overrun_digits (cap := 10) ⟨false, false, false⟩ .char 10#8 true (by omega) (Aeu.ofNat 2 (2 ^ 60))
  (by decide +kernel) (by decide) (by decide) (Vector.replicate 10 7) true (by omega) (by decide +kernel)

/-- The hypotheses of `C25_wide_hex_short` are met. -/
example := C25_wide_hex_short (cap := 8) ⟨false, false, false⟩ true (by omega) (Aeu.ofNat 2 (2 ^ 60))
  (by decide +kernel) (Vector.replicate 8 7) true (by omega) (by omega) 2 8 1 (by decide) (by decide) (by decide +kernel)

end AesiMP
