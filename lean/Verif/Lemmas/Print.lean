import Verif.Lemmas.Parse

/-!
# `getString` writes the canonical numeral
-/

namespace AesiMP
open Aeu
variable {n cap : Nat}

/-! ### buffers -/

/-- `buf` is `buf0` with `text` written at `s`. -/
def Filled (buf0 buf : Vector Int cap) (s : Nat) (text : List Int) : Prop :=
  ∀ j (h : j < cap), buf[j] = if s ≤ j ∧ j < s + text.length then text.getD (j - s) 0 else buf0[j]

/-- `buf` is `buf0` with `text` and a terminator written at `s`. -/
def FilledZ (buf0 buf : Vector Int cap) (s : Nat) (text : List Int) : Prop :=
  ∀ j (h : j < cap), buf[j] = if s ≤ j ∧ j ≤ s + text.length then text.getD (j - s) 0 else buf0[j]

theorem Filled.nil (buf : Vector Int cap) (s : Nat) : Filled buf buf s [] := by
  intro j h; rw [if_neg]; simp

theorem getD_append_lt {l l' : List Int} {i : Nat} (h : i < l.length) :
    (l ++ l').getD i 0 = l.getD i 0 := by
  simp [List.getD, List.getElem?_append_left h]

theorem getD_append_ge {l l' : List Int} {i : Nat} (h : l.length ≤ i) :
    (l ++ l').getD i 0 = l'.getD (i - l.length) 0 := by
  simp [List.getD, List.getElem?_append_right h]

theorem Filled.snoc {buf0 buf : Vector Int cap} {s : Nat} {text : List Int} {c : Int}
    (h : Filled buf0 buf s text) (hlt : s + text.length < cap) :
    Filled buf0 (buf.set (s + text.length) c) s (text ++ [c]) := by
  intro j hj
  by_cases hjc : j = s + text.length
  · subst hjc
    simp
  · rw [Vector.getElem_set_ne hlt hj (by omega), h j hj]
    by_cases hin : s ≤ j ∧ j < s + text.length
    · rw [if_pos hin, if_pos (by simp; omega), getD_append_lt (by omega)]
    · rw [if_neg hin, if_neg (by simp; omega)]

theorem Filled.terminate {buf0 buf : Vector Int cap} {s : Nat} {text : List Int}
    (h : Filled buf0 buf s text) (hlt : s + text.length < cap) :
    FilledZ buf0 (buf.set (s + text.length) 0) s text := by
  intro j hj
  by_cases hjc : j = s + text.length
  · subst hjc
    simp
  · rw [Vector.getElem_set_ne hlt hj (by omega), h j hj]
    by_cases hin : s ≤ j ∧ j < s + text.length
    · rw [if_pos hin, if_pos (by omega)]
    · rw [if_neg hin, if_neg (by omega)]

/-- Consecutive writes. -/
theorem Filled.thenZ {buf0 buf1 buf2 : Vector Int cap} {s : Nat} {t1 t2 : List Int}
    (h1 : Filled buf0 buf1 s t1) (h2 : FilledZ buf1 buf2 (s + t1.length) t2) :
    FilledZ buf0 buf2 s (t1 ++ t2) := by
  intro j hj
  rw [h2 j hj]
  by_cases hA : s + t1.length ≤ j ∧ j ≤ s + t1.length + t2.length
  · rw [if_pos hA, if_pos (by simp; omega), getD_append_ge (by omega)]
    congr 1; omega
  · rw [if_neg hA, h1 j hj]
    by_cases hB : s ≤ j ∧ j < s + t1.length
    · rw [if_pos hB, if_pos (by simp; omega), getD_append_lt (by omega)]
    · rw [if_neg hB, if_neg (by simp; omega)]

theorem FilledZ.thenZ {buf0 buf1 buf2 : Vector Int cap} {s : Nat} {t1 t2 : List Int}
    (h1 : FilledZ buf0 buf1 s t1) (h2 : FilledZ buf1 buf2 (s + t1.length) t2) :
    FilledZ buf0 buf2 s (t1 ++ t2) := by
  intro j hj
  rw [h2 j hj]
  by_cases hA : s + t1.length ≤ j ∧ j ≤ s + t1.length + t2.length
  · rw [if_pos hA, if_pos (by simp; omega), getD_append_ge (by omega)]
    congr 1; omega
  · rw [if_neg hA, h1 j hj]
    by_cases hB : s ≤ j ∧ j < s + t1.length
    · rw [if_pos (by omega), if_pos (by simp; omega), getD_append_lt (by omega)]
    · rw [if_neg (by omega), if_neg (by simp; omega)]

/-- Writing the terminator again changes nothing. -/
theorem FilledZ.terminate {buf0 buf : Vector Int cap} {s : Nat} {text : List Int}
    (h : FilledZ buf0 buf s text) (hlt : s + text.length < cap) :
    FilledZ buf0 (buf.set (s + text.length) 0) s text := by
  intro j hj
  by_cases hjc : j = s + text.length
  · subst hjc; simp
  · rw [Vector.getElem_set_ne hlt hj (by omega), h j hj]

/-- The whole content of the buffer. -/
theorem FilledZ.toList {buf0 buf : Vector Int cap} {text : List Int} (h : FilledZ buf0 buf 0 text)
    (hlt : text.length < cap) :
    buf.toList = text ++ [0] ++ buf0.toList.drop (text.length + 1) := by
  apply List.ext_getElem
  · simp; omega
  · intro j h1 h2
    simp at h1
    have := h j h1
    simp only [Vector.getElem_toList]
    rw [this]
    rcases Nat.lt_trichotomy j text.length with hj | hj | hj
    · rw [if_pos (by omega)]
      simp [List.getD, hj]
    · subst hj; simp
    · rw [if_neg (by omega), List.getElem_append_right (by simp; omega)]
      simp only [List.length_append, List.length_cons, List.length_nil, List.getElem_drop,
        Vector.getElem_toList]
      congr 1; omega

theorem Filled.toList {buf0 buf : Vector Int cap} {text : List Int} (h : Filled buf0 buf 0 text)
    (hlt : text.length ≤ cap) :
    buf.toList = text ++ buf0.toList.drop text.length := by
  apply List.ext_getElem
  · simp; omega
  · intro j h1 h2
    simp at h1
    have := h j h1
    simp only [Vector.getElem_toList]
    rw [this]
    rcases Nat.lt_or_ge j text.length with hj | hj
    · rw [if_pos (by omega), List.getElem_append_left hj]
      simp [List.getD, hj]
    · rw [if_neg (by omega), List.getElem_append_right (by omega)]
      simp only [List.getElem_drop, Vector.getElem_toList]
      congr 1; omega

namespace Aeu

/-! ### `snprintf` -/

theorem writeLoop_spec (buf : Vector Int cap) (pos k : Nat) (text : List Int) (hk : k ≤ text.length)
    (hfit : pos + k ≤ cap) :
    Sat (forUp 0 k buf fun i buffer => wr buffer (pos + i) (text.getD i 0)) fun r =>
      Filled buf r pos (text.take k) := by
  refine Sat.forUp (fun i r => Filled buf r pos (text.take i)) (Nat.zero_le _)
    (by simpa using Filled.nil buf pos) ?_ (fun s h => h)
  intro i r _ hi h
  have hlen : (text.take i).length = i := by simp; omega
  have hlt : pos + i < cap := by omega
  simp only [wr_ok hlt, sat_ok]
  have := h.snoc (c := text.getD i 0) (by rw [hlen]; exact hlt)
  rw [List.take_add_one, List.getElem?_eq_getElem (by omega)]
  simpa [List.getD, hlen, List.getElem?_eq_getElem (show i < text.length by omega)] using this

/-- The text fits. -/
theorem snprintfAt_fits (kind : CharKind) (buf : Vector Int cap) (pos : Nat) (text : List Int)
    (h : pos + text.length < cap) :
    Sat (snprintfAt kind buf pos text) fun r => FilledZ buf r.1 pos text ∧ r.2 = text.length := by
  unfold snprintfAt
  have h1 : pos ≤ cap := by omega
  have h2 : text.length < cap - pos := by omega
  have h3 : ¬ cap - pos = 0 := by omega
  simp only [h1, if_true, h2, or_true, h3, if_false]
  refine Sat.bind (writeLoop_spec buf pos text.length text (le_refl _) (by omega)) fun b hb => ?_
  rw [List.take_length] at hb
  simp only [wr_ok h, ok_bind, sat_ok, and_true]
  exact hb.terminate h

/-- `snprintf` into a buffer that is too small truncates, without undefined behaviour. -/
theorem snprintfAt_trunc (buf : Vector Int cap) (pos : Nat) (text : List Int) (h1 : pos ≤ cap)
    (h2 : cap ≤ pos + text.length) :
    Sat (snprintfAt .char buf pos text) fun r => r.2 = text.length := by
  unfold snprintfAt
  have h3 : ¬ text.length < cap - pos := by omega
  simp only [h1, if_true, h3, or_false, if_false]
  split
  · exact Sat.ok rfl
  · refine Sat.bind (writeLoop_spec buf pos (cap - pos - 1) text (by omega) (by omega)) fun b _ => ?_
    rw [wr_ok (by omega)]
    exact Sat.ok rfl

/-- `snprintf` called with a position beyond the buffer writes outside it. -/
theorem snprintfAt_beyond (buf : Vector Int cap) (pos : Nat) (text : List Int) (h1 : cap < pos)
    (h2 : pos + text.length < 2 ^ 64) : snprintfAt .char buf pos text = .error .outOfBounds := by
  unfold snprintfAt
  have h3 : ¬ pos ≤ cap := by omega
  have h4 : text.length < 2 ^ 64 - (pos - cap) := by omega
  have h5 : ¬ 2 ^ 64 - (pos - cap) = 0 := by omega
  simp only [h3, if_false, h4, if_true, h5]
  cases ht : text.length with
  | zero =>
    simp only [forUp, forUpN, Nat.sub_self, ok_bind]
    rw [wr_oob (by omega)]; rfl
  | succ k =>
    have : forUp 0 (k + 1) buf (fun i buffer => wr buffer (pos + i) (text.getD i 0)) =
        .error .outOfBounds := by
      simp only [forUp, Nat.sub_zero, forUpN]
      rw [wr_oob (by omega)]; rfl
    rw [this]; rfl

/-! ### hexadecimal numerals block by block -/

theorem digitChar_zero (u : Bool) : digitChar u 0 = 48 := rfl

theorem numeral_length (u : Bool) {b : Nat} (_ : 1 < b) (v : Nat) (hv : v ≠ 0) :
    (numeral u b v).length = (Nat.digits b v).length := by simp [numeral, hv]

theorem hexText_length_le (u : Bool) (v : Block) : (hexText u v).length ≤ 8 := by
  unfold hexText
  by_cases h : v.toNat = 0
  · simp [numeral, h]
  · rw [numeral_length u (by norm_num) _ h, Nat.digits_length_le_iff (by norm_num)]
    have := v.isLt; omega

theorem hexText_length_pos (u : Bool) (v : Block) : 0 < (hexText u v).length := by
  unfold hexText
  obtain ⟨d, rest, h, _⟩ := numeral_head u (b := 16) (by norm_num) v.toNat
  rw [h]; simp

theorem hexText8_length (u : Bool) (v : Block) : (hexText8 u v).length = 8 := by
  have := hexText_length_le u v
  simp [hexText8]; omega

/-- The padded conversion of a block is the list of its 8 hexadecimal digits. -/
theorem hexText8_eq (u : Bool) (v : Block) : hexText8 u v =
    (Nat.digits 16 v.toNat ++ List.replicate (8 - (Nat.digits 16 v.toNat).length) 0).reverse.map
      (digitChar u) := by
  have hle : (Nat.digits 16 v.toNat).length ≤ 8 := by
    rw [Nat.digits_length_le_iff (by norm_num)]
    have := v.isLt; omega
  unfold hexText8 hexText numeral
  by_cases h : v.toNat = 0
  · simp [h, digitChar_zero, List.replicate]
  · simp [h, digitChar_zero, List.reverse_append, List.map_append]

theorem numeral_block (u : Bool) (hi : Nat) (hhi : hi ≠ 0) (lo : Block) :
    numeral u 16 (hi * 4294967296 + lo.toNat) = numeral u 16 hi ++ hexText8 u lo := by
  have hle : (Nat.digits 16 lo.toNat).length ≤ 8 := by
    rw [Nat.digits_length_le_iff (by norm_num)]
    have := lo.isLt; omega
  have hd := Nat.digits_append_zeroes_append_digits (b := 16)
    (k := 8 - (Nat.digits 16 lo.toNat).length) (m := hi) (n := lo.toNat) (by norm_num) (by omega)
  rw [show (Nat.digits 16 lo.toNat).length + (8 - (Nat.digits 16 lo.toNat).length) = 8 by omega] at hd
  rw [hexText8_eq]
  unfold numeral
  rw [if_neg (by omega), if_neg hhi, show hi * 4294967296 + lo.toNat = lo.toNat + 16 ^ 8 * hi by
    norm_num; omega, ← hd, List.reverse_append, List.map_append]

/-- The used blocks of a nonzero number. -/
theorem scan_top (hn : 0 < n) (x : Aeu n) (hx : toNat x ≠ 0) :
    Sat (scanDown x (n - 1)) fun l => l < n ∧ dig x l ≠ 0 ∧ toNat x / 2 ^ (32 * l) = dig x l := by
  refine Sat.mono (scanDown_spec x (n - 1) (by omega)) ?_
  rintro l ⟨h1, h2, h3⟩
  have hl : l < n := by omega
  have hdiv : toNat x / 2 ^ (32 * l) = dig x l := by
    have hs := toNat_split x (show l + 1 ≤ n by omega)
    have hz : psum (fun i => dig x (i + (l + 1))) (n - (l + 1)) = 0 :=
      psum_zero fun i hi => h2 _ (by omega) (by omega)
    rw [hz, Nat.zero_mul, Nat.add_zero, psum] at hs
    rw [hs, Nat.add_mul_div_right _ _ (pow32_pos l), Nat.div_eq_of_lt (psum_lt (dig_lt x) l),
      Nat.zero_add]
  refine ⟨hl, ?_, hdiv⟩
  intro h0
  rcases Nat.eq_zero_or_pos l with h | h
  · subst h
    rw [h0] at hdiv; simp at hdiv; exact hx hdiv
  · exact h3 h h0

theorem div_block_step (x : Aeu n) (i : Nat) :
    toNat x / 2 ^ (32 * i) = toNat x / 2 ^ (32 * (i + 1)) * 4294967296 + dig x i := by
  have h1 := toNat_digit x i
  have h2 := Nat.div_add_mod (toNat x / 2 ^ (32 * i)) 4294967296
  rw [h1, Nat.div_div_eq_div_mul] at h2
  have : 2 ^ (32 * i) * 4294967296 = 2 ^ (32 * (i + 1)) := by
    rw [Nat.mul_add, Nat.pow_add]
  rw [this] at h2
  omega

theorem hex_prefix (u : Bool) (x : Aeu n) (hx : toNat x ≠ 0) {l : Nat} (hl : l < n)
    (hd0 : dig x l ≠ 0) (hdiv : toNat x / 2 ^ (32 * l) = dig x l) : ∀ i, i ≤ l →
    toNat x / 2 ^ (32 * i) ≠ 0 ∧
    (numeral u 16 (toNat x / 2 ^ (32 * i))).length + 8 * i = (numeral u 16 (toNat x)).length := by
  intro i
  induction i with
  | zero => intro _; simpa using hx
  | succ i ih =>
    intro hi
    obtain ⟨h1, h2⟩ := ih (by omega)
    have hne : toNat x / 2 ^ (32 * (i + 1)) ≠ 0 := by
      intro h0
      have hle : 2 ^ (32 * (i + 1)) ≤ 2 ^ (32 * l) :=
        Nat.pow_le_pow_right (Nat.zero_lt_succ 1) (Nat.mul_le_mul_left 32 hi)
      have := Nat.div_le_div_left (a := toNat x) hle (pow32_pos (i + 1))
      rw [hdiv, h0] at this
      exact hd0 (Nat.le_zero.mp this)
    refine ⟨hne, ?_⟩
    have h3 : numeral u 16 (toNat x / 2 ^ (32 * i)) =
        numeral u 16 (toNat x / 2 ^ (32 * (i + 1))) ++ hexText8 u (x[i]'(by omega)) := by
      rw [div_block_step, dig_of_lt (show i < n by omega), numeral_block u _ hne]
    rw [h3, List.length_append, hexText8_length] at h2
    rw [← h2]; ring

/-- The hexadecimal part with enough room. -/
theorem getStringHex_fits (kind : CharKind) (u : Bool) (hn : 0 < n) (x : Aeu n) (hx : toNat x ≠ 0)
    (buf : Vector Int cap) (s : Nat) (hcap : cap < 2 ^ 64)
    (hfit : s + (numeral u 16 (toNat x)).length < cap) :
    Sat (getStringHex kind u x buf s) fun r =>
      FilledZ buf r.1 s (numeral u 16 (toNat x)) ∧ r.2 = s + (numeral u 16 (toNat x)).length := by
  unfold getStringHex
  refine Sat.bind (scan_top hn x hx) ?_
  rintro l ⟨hl, hd0, hdiv⟩
  have hlen := hex_prefix u x hx hl hd0 hdiv
  simp only [rd_ok hl, ok_bind]
  have htop : hexText u x[l] = numeral u 16 (toNat x / 2 ^ (32 * l)) := by
    rw [hexText, hdiv, dig_of_lt hl]
  have hl' := (hlen l (le_refl _)).2
  refine Sat.bind (snprintfAt_fits kind buf s (hexText u x[l]) (by rw [htop]; omega)) ?_
  rintro ⟨b, r⟩ ⟨hb, hr⟩
  simp only at hb hr ⊢
  refine Sat.forDown (fun i (st : Vector Int cap × Nat) =>
      FilledZ buf st.1 s (numeral u 16 (toNat x / 2 ^ (32 * i))) ∧
      st.2 = s + (numeral u 16 (toNat x / 2 ^ (32 * i))).length) (Nat.zero_le _) ?_ ?_ ?_
  · rw [htop] at hb hr
    refine ⟨hb, ?_⟩
    rw [hr, Nat.mod_eq_of_lt (by omega)]
  · rintro i ⟨b, pos⟩ _ hi ⟨h1, h2⟩
    simp only at h1 h2 ⊢
    have hin : i < n := by omega
    have hx1 := hlen i (by omega)
    have hx2 := hlen (i + 1) (by omega)
    simp only [rd_ok hin, ok_bind]
    have hstep : numeral u 16 (toNat x / 2 ^ (32 * i)) =
        numeral u 16 (toNat x / 2 ^ (32 * (i + 1))) ++ hexText8 u x[i] := by
      rw [div_block_step, dig_of_lt hin, numeral_block u _ hx2.1]
    refine Sat.bind (snprintfAt_fits kind b pos (hexText8 u x[i]) (by
      rw [hexText8_length, h2]; omega)) ?_
    rintro ⟨b', r'⟩ ⟨hb', hr'⟩
    refine Sat.ok ?_
    simp only at hb' hr' ⊢
    rw [h2] at hb'
    rw [hstep]
    refine ⟨h1.thenZ hb', ?_⟩
    rw [hr', hexText8_length, List.length_append, hexText8_length, h2, Nat.mod_eq_of_lt (by omega)]
    omega
  · rintro ⟨b, pos⟩ ⟨h1, h2⟩
    simp only [Nat.mul_zero, Nat.pow_zero, Nat.div_one] at h1 h2
    exact ⟨h1, h2⟩

/-- The hexadecimal part followed by the terminator: with too little room it always writes outside
the buffer. -/
theorem getStringHex_overruns (u : Bool) (hn : 0 < n) (x : Aeu n) (hx : toNat x ≠ 0)
    (buf : Vector Int cap) (s : Nat) (hs : s ≤ cap) (hcap : cap < 2 ^ 63)
    (hover : cap ≤ s + (numeral u 16 (toNat x)).length) {β : Type}
    (k : Vector Int cap → Nat → Exec β) :
    (do let r ← getStringHex .char u x buf s
        let b ← wr r.1 r.2 0
        k b r.2) = .error .outOfBounds := by
  unfold getStringHex
  obtain ⟨l, hl0, hl, hd0, hdiv⟩ := scan_top hn x hx
  simp only [hl0, ok_bind, rd_ok hl]
  -- the loop with `i` blocks to go, at a position from which the text does not fit
  have hloop : ∀ (i : Nat) (b : Vector Int cap) (pos : Nat), i ≤ l → pos < 2 ^ 63 + 8 →
      cap ≤ pos + 8 * i →
      (do let r ← forDown i 0 (b, pos) (fun iter (st : Vector Int cap × Nat) => do
            let b ← rd x iter
            let r ← snprintfAt .char st.1 st.2 (hexText8 u b)
            .ok (r.1, (st.2 + r.2) % 2 ^ 64))
          let b ← wr r.1 r.2 0
          k b r.2) = .error .outOfBounds := by
    intro i
    induction i with
    | zero =>
      intro b pos _ _ h
      simp only [forDown, Nat.sub_self, forDownN, ok_bind]
      rw [wr_oob (by omega)]; rfl
    | succ i ih =>
      intro b pos hi hpos h
      simp only [forDown, Nat.sub_zero, forDownN, Nat.zero_add]
      rw [rd_ok (show i < n by omega)]
      simp only [ok_bind]
      rcases Nat.lt_or_ge cap pos with hc | hc
      · rw [snprintfAt_beyond b pos _ hc (by rw [hexText8_length]; omega)]; rfl
      · have hsat : Sat (snprintfAt .char b pos (hexText8 u x[i])) fun r => r.2 = 8 := by
          rcases Nat.lt_or_ge (pos + 8) cap with h8 | h8
          · refine Sat.mono (snprintfAt_fits .char b pos _ (by rw [hexText8_length]; omega)) ?_
            rintro r ⟨_, hr⟩; rw [hr, hexText8_length]
          · refine Sat.mono (snprintfAt_trunc b pos _ hc (by rw [hexText8_length]; omega)) ?_
            intro r hr; rw [hr, hexText8_length]
        obtain ⟨r, hr, hr2⟩ := hsat
        simp only [hr, ok_bind, hr2]
        rw [Nat.mod_eq_of_lt (by omega)]
        have := ih r.1 (pos + 8) (by omega) (by omega) (by omega)
        simpa only [forDown, Nat.sub_zero] using this
  -- the top block
  have hlen8 : (numeral u 16 (toNat x)).length = (hexText u x[l]).length + 8 * l := by
    have key := hex_prefix u x hx hl hd0 hdiv
    have := (key l (le_refl _)).2
    rw [hdiv, dig_of_lt hl] at this
    rw [← this]; rfl
  have hle := hexText_length_le u x[l]
  have hsat : Sat (snprintfAt .char buf s (hexText u x[l])) fun r => r.2 = (hexText u x[l]).length := by
    rcases Nat.lt_or_ge (s + (hexText u x[l]).length) cap with h8 | h8
    · exact Sat.mono (snprintfAt_fits .char buf s _ h8) fun r h => h.2
    · exact snprintfAt_trunc buf s _ hs h8
  obtain ⟨r, hr, hr2⟩ := hsat
  simp only [hr, ok_bind, hr2]
  rw [Nat.mod_eq_of_lt (by omega)]
  exact hloop l r.1 _ (le_refl _) (by omega) (by omega)

/-! ### the other bases -/

/-- One digit by `divide` and `integralCast<byte>`. -/
theorem digitStep_spec (cfg : Cfg) (hn : 2 ≤ n) {w : Nat} (hw : w ≤ 64) (base : BitVec w)
    (hb0 : 0 < base.toNat) (hb : base.toNat ≤ 256) (copy : Aeu n) {β : Type}
    (k : Aeu n → Int → Exec β) {Q : β → Prop}
    (h : ∀ q, toNat q = toNat copy / base.toNat → Sat (k q ((toNat copy % base.toNat : Nat) : Int)) Q) :
    Sat (do let b ← ofUnsigned n base
            let qr ← divide cfg copy b
            let d ← integralCast .u8 qr.2
            k qr.1 d) Q := by
  obtain ⟨b, hbo, hbv⟩ := ofUnsigned_spec (n := n) hw base
  have hpow : 2 ^ 32 ≤ 2 ^ (32 * n) := Nat.pow_le_pow_right (by norm_num) (by omega)
  rw [Nat.mod_eq_of_lt (by omega)] at hbv
  obtain ⟨qr, hqr, h1, h2⟩ := divide_spec cfg (by omega) copy b (by omega)
  rw [hbv] at h1 h2
  obtain ⟨v, hv, ev⟩ := low64_spec (by omega) qr.2
  simp only [hbo, hqr, ok_bind, integralCast, hv]
  have hlt : toNat copy % base.toNat < 256 := Nat.lt_of_lt_of_le (Nat.mod_lt _ hb0) hb
  have : ITy.u8.conv (v.toNat : Int) = ((toNat copy % base.toNat : Nat) : Int) := by
    rw [ev, h2, Nat.mod_eq_of_lt (a := toNat copy % base.toNat) (by omega)]
    simp only [ITy.conv, ITy.u8, Bool.false_eq_true, if_false]
    apply Int.emod_eq_of_lt
    · omega
    · have : (2 : Int) ^ 8 = 256 := by norm_num
      rw [this]; exact_mod_cast hlt
  rw [this]
  exact h qr.1 h1

/-- Reading digits: the low `i` digits, least significant first. -/
def lowDigits (b v i : Nat) : List Int := (List.range i).map fun j => ((v / b ^ j % b : Nat) : Int) + 48

theorem lowDigits_length (b v i : Nat) : (lowDigits b v i).length = i := by simp [lowDigits]

theorem lowDigits_succ (b v i : Nat) :
    lowDigits b v (i + 1) = lowDigits b v i ++ [((v / b ^ i % b : Nat) : Int) + 48] := by
  simp [lowDigits, List.range_succ]

/-- Number of digits. -/
theorem digits_len_iff {b : Nat} (hb : 1 < b) (v i : Nat) :
    v / b ^ i = 0 ↔ (Nat.digits b v).length ≤ i := by
  rw [Nat.digits_length_le_iff hb, Nat.div_eq_zero_iff]
  have : 0 < b ^ i := Nat.pow_pos (by omega)
  constructor
  · rintro (h | h)
    · omega
    · exact h
  · exact Or.inr

theorem numeral_eq_lowDigits (u : Bool) {b : Nat} (hb1 : 1 < b) (hb : b ≤ 10) (v : Nat) (hv : v ≠ 0) :
    numeral u b v = (lowDigits b v (Nat.digits b v).length).reverse := by
  rw [numeral, if_neg hv, List.map_reverse]
  congr 1
  apply List.ext_getElem
  · simp [lowDigits]
  · intro i h1 h2
    simp only [List.length_map] at h1
    have hd := Nat.getD_digits v i (b := b) (by omega)
    simp only [List.getD, List.getElem?_eq_getElem h1, Option.getD_some] at hd
    simp only [lowDigits, List.getElem_map, List.getElem_range, hd, digitChar]
    have : v / b ^ i % b < b := Nat.mod_lt _ (by omega)
    rw [if_pos (by omega)]
    push_cast; ring

/-- The digit loop: it stops when the digits or the buffer are exhausted. -/
theorem digitsLoop_spec (cfg : Cfg) (hn : 2 ≤ n) {w : Nat} (hw : w ≤ 64) (base : BitVec w)
    (hb1 : 1 < base.toNat) (hb : base.toNat ≤ 256) (x : Aeu n) (buf : Vector Int cap) (s : Nat)
    (hs : s ≤ cap) :
    Sat (whileC (cap + 1) (x, buf, s) fun (copy, buffer, position) => do
        let z ← isZero copy
        if !z && position < cap then do
          let b ← ofUnsigned n base
          let qr ← divide cfg copy b
          let d ← integralCast .u8 qr.2
          let buffer ← wr buffer position (48 + d)
          .ok (.next (qr.1, buffer, position + 1))
        else .ok (.leave (buffer, position))) fun r =>
      ∃ k, k = min (Nat.digits base.toNat (toNat x)).length (cap - s) ∧ r.2 = s + k ∧
        Filled buf r.1 s (lowDigits base.toNat (toNat x) k) := by
  refine Sat.whileC (fun (st : Aeu n × Vector Int cap × Nat) => ∃ i, st.2.2 = s + i ∧ s + i ≤ cap ∧
      i ≤ (Nat.digits base.toNat (toNat x)).length ∧ toNat st.1 = toNat x / base.toNat ^ i ∧
      Filled buf st.2.1 s (lowDigits base.toNat (toNat x) i)) (fun st => cap - st.2.2)
    ⟨0, rfl, hs, Nat.zero_le _, by simp, by simpa [lowDigits] using Filled.nil buf s⟩
    (by simp only; omega) ?_
  rintro ⟨copy, b, pos⟩ ⟨i, h1, h2, h3, h4, h5⟩
  simp only at h1 h2 h3 h4 h5 ⊢
  simp only [isZero_spec, ok_bind]
  have hz := digits_len_iff hb1 (toNat x) i
  by_cases hc : toNat copy = 0
  · simp only [hc, decide_true, Bool.not_true, Bool.false_and, Bool.false_eq_true, if_false, sat_ok,
      ctlP_leave]
    rw [h4] at hc
    have := hz.mp hc
    refine ⟨i, by omega, h1, h5⟩
  · by_cases hp : pos < cap
    · simp only [hc, decide_false, Bool.not_false, hp, decide_true, Bool.and_self, if_true]
      refine digitStep_spec cfg hn hw base (by omega) hb copy (fun q d => do
        let buffer ← wr b pos (48 + d)
        .ok (Ctl.next (q, buffer, pos + 1))) ?_
      intro q hq
      rw [wr_ok hp]
      refine Sat.ok ?_
      have hlt : i < (Nat.digits base.toNat (toNat x)).length := by
        by_contra hh
        rw [h4] at hc
        exact hc (hz.mpr (by omega))
      refine ⟨⟨i + 1, show pos + 1 = _ by omega, by omega, by omega, ?_, ?_⟩,
        show cap - (pos + 1) < cap - pos by omega⟩
      · simp only
        rw [hq, h4, Nat.div_div_eq_div_mul, pow_succ]
      · simp only
        subst h1
        have := h5.snoc (c := ((toNat x / base.toNat ^ i % base.toNat : Nat) : Int) + 48)
          (by rw [lowDigits_length]; exact hp)
        rw [lowDigits_succ]
        simpa only [lowDigits_length, h4, add_comm (48 : Int)] using this
    · simp only [hp, decide_false, Bool.and_false, Bool.false_eq_true, if_false, sat_ok, ctlP_leave]
      refine ⟨i, by omega, h1, h5⟩

/-- The in-place reversal. -/
theorem reverseLoop_spec (buf0 buf : Vector Int cap) (s : Nat) (text : List Int)
    (hfit : s + text.length ≤ cap) (h : Filled buf0 buf s text) :
    Sat (forUp 0 ((text.length + 1) / 2) buf fun i buffer => do
      let t ← rd buffer (s + i)
      let u ← rd buffer (s + text.length - 1 - i)
      let buffer ← wr buffer (s + i) u
      wr buffer (s + text.length - 1 - i) t) fun r => Filled buf0 r s text.reverse := by
  set D := text.length with hD
  have hread : ∀ j, j < D → (hj : s + j < cap) → buf[s + j] = text.getD j 0 := by
    intro j hj hc
    rw [h (s + j) hc, if_pos (by omega)]; congr 1; omega
  refine Sat.forUp (fun i (r : Vector Int cap) => ∀ j (hj : j < cap), r[j] =
      if s ≤ j ∧ j < s + D then
        (if j - s < i ∨ D - i ≤ j - s then text.getD (D - 1 - (j - s)) 0 else text.getD (j - s) 0)
      else buf0[j]) (Nat.zero_le _) ?_ ?_ ?_
  · intro j hj
    rw [h j hj]
    by_cases hin : s ≤ j ∧ j < s + D
    · rw [if_pos hin, if_pos hin, if_neg (by omega)]
    · rw [if_neg hin, if_neg hin]
  · intro i r _ hi hr
    have h1 : s + i < cap := by omega
    have h2 : s + D - 1 - i < cap := by omega
    simp only [rd_ok h1, rd_ok h2, ok_bind, wr_ok h1, wr_ok h2, sat_ok]
    intro j hj
    have e1 : r[s + i] = text.getD i 0 := by
      rw [hr (s + i) h1, if_pos (by omega)]
      have : s + i - s = i := by omega
      rw [this]
      by_cases hm : i < i ∨ D - i ≤ i
      · rw [if_pos hm]; omega
      · rw [if_neg hm]
    have e2 : r[s + D - 1 - i] = text.getD (D - 1 - i) 0 := by
      rw [hr (s + D - 1 - i) h2, if_pos (by omega)]
      have : s + D - 1 - i - s = D - 1 - i := by omega
      rw [this]
      by_cases hm : D - 1 - i < i ∨ D - i ≤ D - 1 - i
      · omega
      · rw [if_neg hm]
    by_cases hj2 : j = s + D - 1 - i
    · subst hj2
      rw [Vector.getElem_set_self, e1, if_pos (by omega), if_pos (by omega)]
      congr 1; omega
    · rw [Vector.getElem_set_ne h2 hj (fun h => hj2 h.symm)]
      by_cases hj1 : j = s + i
      · subst hj1
        rw [Vector.getElem_set_self, e2, if_pos (by omega), if_pos (by omega)]
        congr 1; omega
      · rw [Vector.getElem_set_ne h1 hj (fun h => hj1 h.symm), hr j hj]
        by_cases hin : s ≤ j ∧ j < s + D
        · rw [if_pos hin, if_pos hin]
          by_cases hm : j - s < i ∨ D - i ≤ j - s
          · rw [if_pos hm, if_pos (by omega)]
          · rw [if_neg hm, if_neg (by omega)]
        · rw [if_neg hin, if_neg hin]
  · intro r hr j hj
    rw [hr j hj, List.length_reverse, ← hD]
    by_cases hin : s ≤ j ∧ j < s + D
    · rw [if_pos hin, if_pos hin]
      have hrev : text.reverse.getD (j - s) 0 = text.getD (D - 1 - (j - s)) 0 := by
        rw [List.getD, List.getElem?_reverse (by omega), List.getD]
      rw [hrev]
      by_cases hm : j - s < (D + 1) / 2 ∨ D - (D + 1) / 2 ≤ j - s
      · rw [if_pos hm]
      · omega
    · rw [if_neg hin, if_neg hin]

/-- The digit part: the low digits that fit, most significant first. -/
theorem getStringDigits_spec (cfg : Cfg) (hn : 2 ≤ n) (base : BitVec 8) (hb1 : 1 < base.toNat)
    (x : Aeu n) (buf : Vector Int cap) (s : Nat) (hs : s ≤ cap) :
    Sat (getStringDigits cfg base x buf s) fun r =>
      ∃ k, k = min (Nat.digits base.toNat (toNat x)).length (cap - s) ∧ r.2 = s + k ∧
        Filled buf r.1 s (lowDigits base.toNat (toNat x) k).reverse := by
  unfold getStringDigits
  have hb : base.toNat ≤ 256 := Nat.le_of_lt base.isLt
  refine Sat.bind (digitsLoop_spec cfg hn (by norm_num) base hb1 hb x buf s hs) ?_
  rintro ⟨b, pos⟩ ⟨k, hk, h1, h2⟩
  simp only at h1 h2 ⊢
  have hpos : pos - s = k := by omega
  have := reverseLoop_spec buf b s _ (by rw [lowDigits_length]; omega) h2
  rw [lowDigits_length] at this
  rw [hpos]
  refine Sat.bind this fun r hr => ?_
  exact Sat.ok ⟨k, hk, h1, hr⟩

/-! ### `getString` -/

/-- Length of the prefix `getString` writes. -/
def prefixFor (base : BitVec 8) (showBase : Bool) (cap : Nat) : List Int :=
  if showBase ∧ cap > 3 then basePrefix base.toNat else []

theorem prefixFor_length (base : BitVec 8) (showBase : Bool) (cap : Nat) :
    (prefixFor base showBase cap).length ≤ 2 ∧
    (0 < (prefixFor base showBase cap).length → 3 < cap) := by
  unfold prefixFor
  split
  · rename_i h
    refine ⟨?_, fun _ => h.2⟩
    unfold basePrefix
    split_ifs <;> simp
  · simp

theorem bv8_eq (base : BitVec 8) (k : Nat) (hk : k < 256) : base = BitVec.ofNat 8 k ↔ base.toNat = k := by
  rw [BitVec.toNat_eq, BitVec.toNat_ofNat, Nat.mod_eq_of_lt (by omega)]

/-- The first part: the prefix. -/
theorem writePrefix_spec (base : BitVec 8) (showBase : Bool) (buffer : Vector Int cap) (hc : 2 ≤ cap) :
    Sat (writePrefix base showBase buffer) fun (r : Vector Int cap × Nat) =>
      r.2 = (prefixFor base showBase cap).length ∧ Filled buffer r.1 0 (prefixFor base showBase cap) := by
  have two : ∀ c : Int, Filled buffer ((buffer.set 0 48 (by omega)).set 1 c (by omega)) 0 [48, c] := by
    intro c
    have h1 := (Filled.nil buffer 0).snoc (c := 48) (by simp; omega)
    have h2 := h1.snoc (c := c) (by simp; omega)
    simpa using h2
  unfold writePrefix prefixFor basePrefix
  split
  · simp only [bv8_eq base 2 (by norm_num), bv8_eq base 8 (by norm_num), bv8_eq base 16 (by norm_num),
      wr_ok (show 0 < cap by omega), wr_ok (show 1 < cap by omega), ok_bind]
    split
    · exact Sat.ok ⟨rfl, two _⟩
    · split
      · exact Sat.ok ⟨rfl, two _⟩
      · split
        · exact Sat.ok ⟨rfl, two _⟩
        · exact Sat.ok ⟨rfl, Filled.nil _ _⟩
  · exact Sat.ok ⟨rfl, Filled.nil _ _⟩

/-- `getString` with enough room, nonzero number. -/
theorem getString_fits (cfg : Cfg) (kind : CharKind) (base : BitVec 8) (u : Bool) (x : Aeu n)
    (hx : toNat x ≠ 0) (buffer : Vector Int cap) (showBase : Bool) (hcap : cap < 2 ^ 63)
    (hbase : (2 ≤ base.toNat ∧ base.toNat ≤ 10 ∧ 2 ≤ n) ∨ (base.toNat = 16 ∧ 0 < n)) (text : List Int)
    (htext : text = prefixFor base showBase cap ++ numeral u base.toNat (toNat x))
    (hfit : text.length < cap) :
    Sat (getString cfg kind base u x buffer showBase) fun r => r.2 = text.length + 1 ∧
      r.1.toList = text ++ [0] ++ buffer.toList.drop (text.length + 1) := by
  have hnum : 0 < (numeral u base.toNat (toNat x)).length := by
    obtain ⟨d, rest, h, _⟩ := numeral_head u (b := base.toNat) (by omega) (toNat x)
    rw [h]; simp
  have hlen : text.length = (prefixFor base showBase cap).length +
    (numeral u base.toNat (toNat x)).length := by rw [htext, List.length_append]
  unfold getString
  rw [if_neg (by omega)]
  refine Sat.bind (writePrefix_spec base showBase buffer (by omega)) ?_
  rintro ⟨b, p⟩ ⟨hp, hb⟩
  simp only at hp hb ⊢
  simp only [isZero_spec, hx, decide_false, ok_bind, Bool.false_eq_true, if_false]
  have hfinish : ∀ (r : Vector Int cap × Nat), FilledZ buffer (r.1.set text.length 0 hfit) 0 text →
      r.2 = text.length → Sat (do let buffer ← wr r.1 r.2 0; .ok (buffer, (r.2 + 1) % 2 ^ 64))
      fun r => r.2 = text.length + 1 ∧
        r.1.toList = text ++ [0] ++ buffer.toList.drop (text.length + 1) := by
    rintro ⟨b', p'⟩ h1 h2
    simp only at h1 h2
    subst h2
    simp only [wr_ok hfit, ok_bind, sat_ok]
    exact ⟨Nat.mod_eq_of_lt (by omega), h1.toList hfit⟩
  by_cases h16 : base.toNat = 16
  · rw [getStringBody, if_pos ((bv8_eq base 16 (by norm_num)).mpr h16)]
    have hn : 0 < n := by omega
    rw [h16] at htext hlen
    refine Sat.bind (getStringHex_fits kind u hn x hx b p (by omega) (by rw [hp]; omega)) ?_
    rintro ⟨b', p'⟩ ⟨h1, h2⟩
    simp only at h1 h2
    refine hfinish (b', p') ?_ (by simp only; omega)
    simp only
    rw [hp] at h1
    subst htext
    have := hb.thenZ (by simpa using h1)
    have h3 := this.terminate (by rw [Nat.zero_add]; exact hfit)
    simpa using h3
  · have hb1 : 1 < base.toNat := by omega
    have hn : 2 ≤ n := by omega
    rw [getStringBody, if_neg (fun h => h16 ((bv8_eq base 16 (by norm_num)).mp h))]
    refine Sat.bind (getStringDigits_spec cfg hn base hb1 x b p (by omega)) ?_
    rintro ⟨b', p'⟩ ⟨k, hk, h1, h2⟩
    simp only at h1 h2
    rw [numeral_length u hb1 _ hx] at hlen
    have hkl : k = (Nat.digits base.toNat (toNat x)).length := by omega
    rw [hkl, ← numeral_eq_lowDigits u hb1 (by omega) _ hx] at h2
    refine hfinish (b', p') ?_ (by simp only; omega)
    simp only
    have hnl := numeral_length u hb1 _ hx
    have h3 := h2.terminate (by rw [hp, hnl]; omega)
    subst htext
    subst hp
    have := hb.thenZ (by rw [Nat.zero_add]; exact h3)
    simpa using this

/-- `getString` of zero: no terminator is written. -/
theorem getString_zero (cfg : Cfg) (kind : CharKind) (base : BitVec 8) (u : Bool) (x : Aeu n)
    (hx : toNat x = 0) (buffer : Vector Int cap) (showBase : Bool) (hc : 2 ≤ cap) (text : List Int)
    (htext : text = prefixFor base showBase cap ++ [48]) :
    Sat (getString cfg kind base u x buffer showBase) fun r => r.2 = text.length ∧
      r.1.toList = text ++ buffer.toList.drop text.length := by
  unfold getString
  rw [if_neg (by omega)]
  refine Sat.bind (writePrefix_spec base showBase buffer (by omega)) ?_
  rintro ⟨b, p⟩ ⟨hp, hb⟩
  simp only at hp hb ⊢
  simp only [isZero_spec, hx, decide_true, ok_bind, if_true]
  have hpl := prefixFor_length base showBase cap
  have hlt : p < cap := by omega
  rw [wr_ok hlt]
  refine Sat.ok ?_
  have h1 := hb.snoc (c := 48) (by omega)
  rw [← htext] at h1
  have h2 := h1.toList (by rw [htext]; simp; omega)
  refine ⟨by rw [htext]; simp [hp], ?_⟩
  simp only
  rw [← h2]
  simp [hp]

/-- `getString` with too little room writes outside the buffer. -/
theorem getString_overruns (cfg : Cfg) (base : BitVec 8) (u : Bool) (x : Aeu n)
    (hx : toNat x ≠ 0) (buffer : Vector Int cap) (showBase : Bool) (hc : 2 ≤ cap) (hcap : cap < 2 ^ 63)
    (hbase : (2 ≤ base.toNat ∧ base.toNat ≤ 10 ∧ 2 ≤ n) ∨ (base.toNat = 16 ∧ 0 < n))
    (hover : cap ≤ (prefixFor base showBase cap).length + (numeral u base.toNat (toNat x)).length) :
    getString cfg .char base u x buffer showBase = .error .outOfBounds := by
  unfold getString
  rw [if_neg (by omega)]
  obtain ⟨⟨b, p⟩, hok, hp, hb⟩ := writePrefix_spec base showBase buffer hc
  simp only at hp hb
  simp only [hok, ok_bind, isZero_spec, hx, decide_false, Bool.false_eq_true, if_false]
  have hpl := prefixFor_length base showBase cap
  by_cases h16 : base.toNat = 16
  · rw [getStringBody, if_pos ((bv8_eq base 16 (by norm_num)).mpr h16)]
    have hn : 0 < n := by omega
    rw [h16] at hover
    exact getStringHex_overruns u hn x hx b p (by omega) hcap (by omega)
      (fun buffer p => .ok (buffer, (p + 1) % 2 ^ 64))
  · have hb1 : 1 < base.toNat := by omega
    have hn : 2 ≤ n := by omega
    rw [getStringBody, if_neg (fun h => h16 ((bv8_eq base 16 (by norm_num)).mp h))]
    obtain ⟨⟨b', p'⟩, hok', k, hk, h1, h2⟩ := getStringDigits_spec cfg hn base hb1 x b p (by omega)
    simp only at h1
    rw [numeral_length u hb1 _ hx] at hover
    simp only [hok', ok_bind]
    rw [wr_oob (by omega)]
    rfl

end Aeu
end AesiMP
