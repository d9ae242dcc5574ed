import Verif.Model.InitText
import Verif.Props.SignedText
import Verif.Props.ExactMore

/-!
# C88: `getString` reads no character of the caller's array that nobody wrote
-/

namespace AesiMP
open Aesi (toInt ofInt Canon)
open Aeu (toNat ofNat)
variable {n cap : Nat}

private def Sim {α β : Type} (P : α → β → Prop) : Exec α → Exec β → Prop
  | .ok a, .ok b => P a b
  | .error e, .error e' => e = e'
  | _, _ => False

private theorem sim_bind {α β γ δ : Type} {P : α → β → Prop} {Q : γ → δ → Prop} {x : Exec α} {y : Exec β}
    {f : α → Exec γ} {g : β → Exec δ} (h : Sim P x y) (hf : ∀ a b, P a b → Sim Q (f a) (g b)) :
    Sim Q (x >>= f) (y >>= g) := by
  cases x <;> cases y
  · exact h
  · exact h.elim
  · exact h.elim
  · exact hf _ _ h

private theorem sim_refl {α : Type} (x : Exec α) : Sim Eq x x := by cases x <;> simp [Sim]

private theorem sim_forUpN {σ τ : Type} (I : Nat → σ → τ → Prop) {f : Nat → σ → Exec σ} {g : Nat → τ → Exec τ} {hi : Nat} :
    ∀ (k i : Nat) (s : σ) (t : τ), i + k = hi → I i s t →
    (∀ j s t, i ≤ j → j < hi → I j s t → Sim (I (j + 1)) (f j s) (g j t)) →
    Sim (I hi) (forUpN f k i s) (forUpN g k i t)
  | 0, i, s, t, hk, h0, _ => by
    simp only [Nat.add_zero] at hk
    subst hk
    exact h0
  | k + 1, i, s, t, hk, h0, hs => by
    refine sim_bind (hs i s t (Nat.le_refl _) (by omega) h0) fun a b hab => ?_
    exact sim_forUpN I k (i + 1) a b (by omega) hab fun j s t h1 h2 h3 => hs j s t (by omega) h2 h3

private theorem sim_forUp {σ τ : Type} (I : Nat → σ → τ → Prop) {f : Nat → σ → Exec σ} {g : Nat → τ → Exec τ}
    {hi : Nat} {s : σ} {t : τ} (h0 : I 0 s t)
    (hs : ∀ j s t, j < hi → I j s t → Sim (I (j + 1)) (f j s) (g j t)) : Sim (I hi) (forUp 0 hi s f) (forUp 0 hi t g) :=
  sim_forUpN I (hi - 0) 0 s t (by omega) h0 fun j s t _ h2 h3 => hs j s t h2 h3

private theorem sim_forDownN {σ τ : Type} (I : σ → τ → Prop) {f : Nat → σ → Exec σ} {g : Nat → τ → Exec τ} {lo : Nat}
    (hs : ∀ j s t, I s t → Sim I (f j s) (g j t)) :
    ∀ (k : Nat) (s : σ) (t : τ), I s t → Sim I (forDownN lo f k s) (forDownN lo g k t)
  | 0, _, _, h0 => h0
  | k + 1, s, t, h0 => sim_bind (hs _ s t h0) fun a b hab => sim_forDownN I hs k a b hab

private theorem sim_whileC {σ τ ρ π : Type} (I : σ → τ → Prop) (Q : ρ → π → Prop) {f : σ → Exec (Ctl σ ρ)}
    {g : τ → Exec (Ctl τ π)}
    (hs : ∀ s t, I s t → Sim (fun a b => match a, b with
      | .next s', .next t' => I s' t'
      | .leave r, .leave p => Q r p
      | _, _ => False) (f s) (g t)) :
    ∀ (k : Nat) (s : σ) (t : τ), I s t → Sim Q (whileC k s f) (whileC k t g)
  | 0, _, _, _ => rfl
  | k + 1, s, t, h0 => by
    refine sim_bind (hs s t h0) fun a b hab => ?_
    cases a <;> cases b
    · exact sim_whileC I Q hs k _ _ hab
    · exact hab.elim
    · exact hab.elim
    · exact hab

/-- `raw` is what the caller's array holds where the computation on `array` holds `chars`. -/
private def Track (array : Vector Int cap) (raw : RawText cap) (chars : Vector Int cap) : Prop :=
  ∀ i (hi : i < cap), raw[i] = some chars[i] ∨ (raw[i] = none ∧ chars[i] = array[i])

variable {array : Vector Int cap}

private theorem track_wr {raw : RawText cap} {chars : Vector Int cap} (h : Track array raw chars) (i : Nat) (c : Int) :
    Sim (Track array) (raw.wrI i c) (wr chars i c) := by
  unfold RawText.wrI wr
  by_cases hi : i < cap
  · simp only [dif_pos hi, Sim]
    intro j hj
    by_cases hij : i = j
    · subst hij; left; simp
    · rw [Vector.getElem_set_ne _ _ hij, Vector.getElem_set_ne _ _ hij]; exact h j hj
  · simp only [dif_neg hi, Sim]

/-- All characters from `a` to `b` are written. -/
private def Full (raw : RawText cap) (a b : Nat) : Prop := ∀ i, a ≤ i → i < b → ∃ hi : i < cap, raw[i] ≠ none

private theorem full_wr {raw : RawText cap} {a b i : Nat} {c : Int} (h : Full raw a b) {raw' : RawText cap}
    (hw : raw.wrI i c = .ok raw') : Full raw' a b := by
  unfold RawText.wrI wr at hw
  split at hw
  · simp only [Except.ok.injEq] at hw
    subst hw
    intro j h1 h2
    obtain ⟨hj, h3⟩ := h j h1 h2
    refine ⟨hj, ?_⟩
    rw [Vector.getElem_set]
    split
    · simp
    · exact h3
  · simp at hw

private theorem full_wr_new {raw : RawText cap} {a b : Nat} {c : Int} (h : Full raw a b) {raw' : RawText cap}
    (hw : raw.wrI b c = .ok raw') : Full raw' a (b + 1) := by
  intro j h1 h2
  by_cases hj : j < b
  · exact full_wr h hw j h1 hj
  · have : j = b := by omega
    subst this
    unfold RawText.wrI wr at hw
    split at hw
    · next hi =>
      simp only [Except.ok.injEq] at hw
      subst hw
      exact ⟨hi, by simp⟩
    · simp at hw

private theorem sim_and {α β : Type} {P : α → β → Prop} {Q : α → Prop} {x : Exec α} {y : Exec β} (h : Sim P x y)
    (hq : ∀ a, x = .ok a → Q a) : Sim (fun a b => P a b ∧ Q a) x y := by
  cases x <;> cases y
  · exact h
  · exact h
  · exact h
  · exact ⟨h, hq _ rfl⟩

private theorem track_rd {raw : RawText cap} {chars : Vector Int cap} (h : Track array raw chars) {a b i : Nat}
    (hf : Full raw a b) (h1 : a ≤ i) (h2 : i < b) : Sim Eq (raw.rdI i) (rd chars i) := by
  obtain ⟨hi, h3⟩ := hf i h1 h2
  unfold RawText.rdI rd
  simp only [dif_pos hi]
  rcases h i hi with h4 | h4
  · simp [h4, Sim, bind, Except.bind]
  · exact absurd h4.1 h3

private def TrackP (array : Vector Int cap) (r : RawText cap × Nat) (s : Vector Int cap × Nat) : Prop :=
  Track array r.1 s.1 ∧ r.2 = s.2

private theorem track_snprintf {raw : RawText cap} {chars : Vector Int cap} (h : Track array raw chars) (kind : CharKind)
    (position : Nat) (text : List Int) :
    Sim (TrackP array) (raw.snprintfAt kind position text) (Aeu.snprintfAt kind chars position text) := by
  unfold RawText.snprintfAt Aeu.snprintfAt
  dsimp only
  generalize (if position ≤ cap then cap - position else 2 ^ 64 - (position - cap)) = avail
  split
  · exact ⟨h, rfl⟩
  · refine sim_bind (P := Track array) (sim_forUp (fun _ => Track array) h fun j s t _ hst => track_wr hst _ _)
      fun a b hab => ?_
    exact sim_bind (track_wr hab _ _) fun a b hab => ⟨hab, rfl⟩

private theorem track_hex {raw : RawText cap} {chars : Vector Int cap} (h : Track array raw chars) (kind : CharKind)
    (upper : Bool) (a : Aeu n) (position : Nat) :
    Sim (TrackP array) (RawText.getStringHex kind upper a raw position) (Aeu.getStringHex kind upper a chars position) := by
  unfold RawText.getStringHex Aeu.getStringHex
  refine sim_bind (sim_refl _) ?_
  rintro iter _ rfl
  refine sim_bind (sim_refl _) ?_
  rintro b _ rfl
  refine sim_bind (track_snprintf h kind position _) ?_
  rintro ⟨r1, r2⟩ ⟨s1, s2⟩ ⟨h1, h2⟩
  dsimp only at h1 h2
  subst h2
  refine sim_forDownN (TrackP array) ?_ _ _ _ ⟨h1, rfl⟩
  rintro j ⟨r1, r2⟩ ⟨s1, s2⟩ ⟨h1, h2⟩
  dsimp only at h1 h2 ⊢
  subst h2
  refine sim_bind (sim_refl _) ?_
  rintro b _ rfl
  refine sim_bind (track_snprintf h1 kind _ _) ?_
  rintro ⟨r1, r2⟩ ⟨s1, s2⟩ ⟨h1, h2⟩
  dsimp only at h1 h2
  subst h2
  exact ⟨h1, rfl⟩

private theorem track_digits {raw : RawText cap} {chars : Vector Int cap} (h : Track array raw chars) (cfg : Cfg)
    (base : BitVec 8) (a : Aeu n) (position : Nat) :
    Sim (TrackP array) (RawText.getStringDigits cfg base a raw position)
      (Aeu.getStringDigits cfg base a chars position) := by
  unfold RawText.getStringDigits Aeu.getStringDigits
  dsimp only
  refine sim_bind (P := fun r s => TrackP array r s ∧ position ≤ r.2 ∧ Full r.1 position r.2)
    (sim_whileC (fun s t => s.1 = t.1 ∧ TrackP array s.2 t.2 ∧ position ≤ s.2.2 ∧ Full s.2.1 position s.2.2) _ ?_ _ _ _
      ⟨rfl, ⟨h, rfl⟩, Nat.le_refl _, fun i h1 h2 => by dsimp only at h2; omega⟩) ?_
  · rintro ⟨c, r, p⟩ ⟨_, s, _⟩ ⟨rfl, ⟨h1, rfl⟩, h2, h3⟩
    dsimp only at h1 h2 h3 ⊢
    refine sim_bind (sim_refl _) ?_
    rintro z _ rfl
    split
    · refine sim_bind (sim_refl _) ?_
      rintro b _ rfl
      refine sim_bind (sim_refl _) ?_
      rintro qr _ rfl
      refine sim_bind (sim_refl _) ?_
      rintro d _ rfl
      refine sim_bind (sim_and (track_wr h1 p (48 + d)) fun a ha => full_wr_new h3 ha) ?_
      rintro r' s' ⟨h4, h5⟩
      exact ⟨rfl, ⟨h4, rfl⟩, Nat.le_succ_of_le h2, h5⟩
    · exact ⟨⟨h1, rfl⟩, h2, h3⟩
  · rintro ⟨r, p⟩ ⟨s, _⟩ ⟨⟨h1, rfl⟩, h2, h3⟩
    dsimp only at h1 h2 h3 ⊢
    refine sim_bind (P := fun r s => Track array r s ∧ Full r position p)
      (sim_forUp (fun _ r s => Track array r s ∧ Full r position p) ⟨h1, h3⟩ ?_) ?_
    · rintro j r s hj ⟨h4, h5⟩
      refine sim_bind (track_rd h4 h5 (by omega) (by omega)) ?_
      rintro t _ rfl
      refine sim_bind (track_rd h4 h5 (by omega) (by omega)) ?_
      rintro u _ rfl
      refine sim_bind (sim_and (track_wr h4 _ _) fun a ha => full_wr h5 ha) ?_
      rintro r' s' ⟨h6, h7⟩
      exact sim_and (track_wr h6 _ _) fun a ha => full_wr h7 ha
    · rintro r s ⟨h4, _⟩
      exact ⟨h4, rfl⟩

private theorem track_prefix {raw : RawText cap} {chars : Vector Int cap} (h : Track array raw chars) (base : BitVec 8)
    (showBase : Bool) :
    Sim (TrackP array) (RawText.writePrefix base showBase raw) (Aeu.writePrefix base showBase chars) := by
  have key : ∀ c : Int, Sim (TrackP array)
      (do let b ← raw.wrI 0 48; let b ← b.wrI 1 c; .ok (b, 2)) (do let b ← wr chars 0 48; let b ← wr b 1 c; .ok (b, 2)) :=
    fun c => sim_bind (track_wr h 0 48) fun a b hab => sim_bind (track_wr hab 1 c) fun a b hab => ⟨hab, rfl⟩
  unfold RawText.writePrefix Aeu.writePrefix
  split
  · split
    · exact key 98
    · split
      · exact key 111
      · split
        · exact key 120
        · exact ⟨h, rfl⟩
  · exact ⟨h, rfl⟩

private theorem track_getString {raw : RawText cap} {chars : Vector Int cap} (h : Track array raw chars) (cfg : Cfg)
    (kind : CharKind) (base : BitVec 8) (upper : Bool) (a : Aeu n) (showBase : Bool) :
    Sim (TrackP array) (RawText.getString cfg kind base upper a raw showBase)
      (Aeu.getString cfg kind base upper a chars showBase) := by
  unfold RawText.getString Aeu.getString
  split
  · exact ⟨h, rfl⟩
  · refine sim_bind (track_prefix h base showBase) ?_
    rintro ⟨r, p⟩ ⟨s, _⟩ ⟨h1, rfl⟩
    dsimp only at h1 ⊢
    refine sim_bind (sim_refl _) ?_
    rintro z _ rfl
    split
    · exact sim_bind (track_wr h1 p 48) fun a b hab => ⟨hab, rfl⟩
    · refine sim_bind (P := TrackP array) ?_ ?_
      · unfold RawText.getStringBody Aeu.getStringBody
        split
        · exact track_hex h1 kind upper a p
        · exact track_digits h1 cfg base a p
      · rintro ⟨r, p⟩ ⟨s, _⟩ ⟨h1, rfl⟩
        exact sim_bind (track_wr h1 p 0) fun a b hab => ⟨hab, rfl⟩

private theorem track_tail {raw : RawText cap} {chars : Vector Int cap} (h : Track array raw chars) (m : Nat)
    {f : RawText (cap - m) → Exec (RawText (cap - m) × Nat)}
    {g : Vector Int (cap - m) → Exec (Vector Int (cap - m) × Nat)}
    (hfg : ∀ r s, Track (Vector.ofFn fun i => array[m + i.val]'(by omega)) r s →
      Sim (TrackP (Vector.ofFn fun i => array[m + i.val]'(by omega))) (f r) (g s)) :
    Sim (TrackP array) (raw.onTail m f) (Aesi.onTail chars m g) := by
  unfold RawText.onTail Aesi.onTail
  refine sim_bind (hfg _ _ ?_) ?_
  · intro i hi
    simpa using h (m + i) (by omega)
  · rintro ⟨r, p⟩ ⟨s, _⟩ ⟨h1, rfl⟩
    dsimp only at h1 ⊢
    refine ⟨fun i hi => ?_, rfl⟩
    dsimp only
    simp only [Vector.getElem_ofFn]
    by_cases hm : m ≤ i
    · simp only [dif_pos hm]
      have := h1 (i - m) (by omega)
      simpa [Nat.add_sub_cancel' hm] using this
    · simp only [dif_neg hm]
      exact h i hi

private theorem track_zero {raw : RawText cap} {chars : Vector Int cap} (h : Track array raw chars) (c : Int) :
    Sim (TrackP array) (raw.zeroPrefixed c) (Aesi.zeroPrefixed chars c) := by
  unfold RawText.zeroPrefixed Aesi.zeroPrefixed
  split
  · exact ⟨h, rfl⟩
  · refine sim_bind (sim_and (track_wr h 0 48) fun a ha =>
      full_wr_new (a := 0) (b := 0) (fun i _ h2 => by omega) ha) ?_
    rintro r s ⟨h1, h2⟩
    refine sim_bind (sim_and (track_wr h1 1 c) fun a ha => full_wr h2 ha) ?_
    rintro r s ⟨h1, h2⟩
    refine sim_bind (track_rd h1 h2 (Nat.zero_le _) (Nat.lt_succ_self _)) ?_
    rintro c _ rfl
    exact sim_bind (track_wr h1 2 c) fun a b hab => ⟨hab, rfl⟩

private theorem track_getStringS {raw : RawText cap} {chars : Vector Int cap} (h : Track array raw chars) (cfg : Cfg)
    (kind : CharKind) (base : BitVec 8) (upper : Bool) (a : Aesi n) (showBase : Bool) :
    Sim (TrackP array) (RawText.getStringS cfg kind base upper a raw showBase)
      (Aesi.getString cfg kind base upper a chars showBase) := by
  have hz : Sim (TrackP array) (do let b ← raw.wrI 0 48; .ok (b, 1)) (do let b ← wr chars 0 48; .ok (b, 1)) :=
    sim_bind (track_wr h 0 48) fun a b hab => ⟨hab, rfl⟩
  unfold RawText.getStringS Aesi.getString
  split
  · split
    · exact sim_bind (track_wr h 0 45) fun r s hrs =>
        track_tail hrs 1 fun r s hrs => track_getString hrs cfg kind base upper a.base showBase
    · exact track_getString h cfg kind base upper a.base showBase
  · split
    · split
      · exact track_zero h _
      · split
        · exact track_zero h _
        · split
          · exact track_zero h _
          · split
            · exact ⟨h, rfl⟩
            · exact hz
    · exact hz

/-- The two computations end alike: the same error, or the same count and the same characters; a character still
unwritten was unwritten before and has not been touched. -/
private theorem sim_final {raw : RawText cap} (h : ∀ i (hi : i < cap), raw[i] = some array[i] ∨ raw[i] = none)
    {x : Exec (RawText cap × Nat)} {y : Exec (Vector Int cap × Nat)}
    (hs : Track array raw array → Sim (TrackP array) x y) :
    (∀ e, y = .error e → x = .error e) ∧
    ∀ chars count, y = .ok (chars, count) → ∃ raw' : RawText cap, x = .ok (raw', count) ∧
      ∀ i (hi : i < cap), raw'[i] = some chars[i] ∨ (raw'[i] = none ∧ chars[i] = array[i]) := by
  have hs := hs fun i hi => (h i hi).imp_right fun h => ⟨h, rfl⟩
  constructor
  · rintro e rfl
    cases x with
    | error e' => rw [show e' = e from hs]
    | ok a => exact hs.elim
  · rintro chars count rfl
    cases x with
    | error e' => exact hs.elim
    | ok a =>
      obtain ⟨r, p⟩ := a
      obtain ⟨h1, h2⟩ := hs
      dsimp only at h1 h2
      subst h2
      exact ⟨r, rfl, h1⟩

/-- C88: the array passed to `getString` need not be written: whatever part of it is, the call does exactly what it
does with a written array (`array` stands for any characters that might be there), the returned count and the errors
included; `uninitialised` is not among them. -/
theorem C88_text (cfg : Cfg) (kind : CharKind) (base : BitVec 8) (upper : Bool) (a : Aeu n) (showBase : Bool)
    (raw : RawText cap) (array : Vector Int cap) (h : ∀ i (hi : i < cap), raw[i] = some array[i] ∨ raw[i] = none) :
    (∀ e, Aeu.getString cfg kind base upper a array showBase = .error e →
      RawText.getString cfg kind base upper a raw showBase = .error e) ∧
    ∀ chars count, Aeu.getString cfg kind base upper a array showBase = .ok (chars, count) →
      ∃ raw' : RawText cap, RawText.getString cfg kind base upper a raw showBase = .ok (raw', count) ∧
        ∀ i (hi : i < cap), raw'[i] = some chars[i] ∨ (raw'[i] = none ∧ chars[i] = array[i]) :=
  sim_final h fun h => track_getString h cfg kind base upper a showBase

/-- C88: the same for `Aesi`. -/
theorem C88_text_signed (cfg : Cfg) (kind : CharKind) (base : BitVec 8) (upper : Bool) (a : Aesi n) (showBase : Bool)
    (raw : RawText cap) (array : Vector Int cap) (h : ∀ i (hi : i < cap), raw[i] = some array[i] ∨ raw[i] = none) :
    (∀ e, Aesi.getString cfg kind base upper a array showBase = .error e →
      RawText.getStringS cfg kind base upper a raw showBase = .error e) ∧
    ∀ chars count, Aesi.getString cfg kind base upper a array showBase = .ok (chars, count) →
      ∃ raw' : RawText cap, RawText.getStringS cfg kind base upper a raw showBase = .ok (raw', count) ∧
        ∀ i (hi : i < cap), raw'[i] = some chars[i] ∨ (raw'[i] = none ∧ chars[i] = array[i]) :=
  sim_final h fun h => track_getStringS h cfg kind base upper a showBase

/-- What is the same whatever the array held has been written; what differs has not. -/
private theorem fresh_final {f : RawText cap → Exec (RawText cap × Nat)} {g : Vector Int cap → Exec (Vector Int cap × Nat)}
    (hfg : ∀ (raw : RawText cap) (array : Vector Int cap), (∀ i (hi : i < cap), raw[i] = some array[i] ∨ raw[i] = none) →
      ∀ chars count, g array = .ok (chars, count) → ∃ raw' : RawText cap, f raw = .ok (raw', count) ∧
        ∀ i (hi : i < cap), raw'[i] = some chars[i] ∨ (raw'[i] = none ∧ chars[i] = array[i]))
    {t : List Int} {k : Nat} (ht : t.length ≤ cap)
    (hg : ∀ array : Vector Int cap, Sat (g array) fun r => r.1.toList = t ++ array.toList.drop t.length ∧ r.2 = k) :
    Sat (f (RawText.fresh cap)) fun r =>
      r.1.toList = t.map some ++ List.replicate (cap - t.length) none ∧ r.2 = k := by
  have one : ∀ x : Int, ∃ raw' : RawText cap, f (RawText.fresh cap) = .ok (raw', k) ∧
      ∀ i (hi : i < cap), (raw'[i] = some ((t ++ List.replicate (cap - t.length) x)[i]'(by simp; omega))) ∨
        (raw'[i] = none ∧ (t ++ List.replicate (cap - t.length) x)[i]'(by simp; omega) = x) := by
    intro x
    obtain ⟨⟨chars, count⟩, h1, h2, h3⟩ := hg (Vector.replicate cap x)
    dsimp only at h2 h3
    subst h3
    obtain ⟨raw', h4, h5⟩ := hfg (RawText.fresh cap) (Vector.replicate cap x) (by simp [RawText.fresh]) chars count h1
    refine ⟨raw', h4, fun i hi => ?_⟩
    have e : chars[i] = (t ++ List.replicate (cap - t.length) x)[i]'(by simp; omega) := by
      have : chars[i] = chars.toList[i]'(by simpa using hi) := by simp
      rw [this]
      simp only [h2, Vector.toList_replicate, List.drop_replicate]
    have h6 := h5 i hi
    rw [e] at h6
    simpa using h6
  -- three fillings, so that each character differs from one of two of them
  have get : ∀ raw', f (RawText.fresh cap) = .ok (raw', k) → ∀ i (hi : i < cap),
      raw'[i] = (t.map some ++ List.replicate (cap - t.length) none)[i]'(by simp; omega) := by
    intro raw' hr i hi
    have at' : ∀ x : Int, raw'[i] = some ((t ++ List.replicate (cap - t.length) x)[i]'(by simp; omega)) ∨
        (raw'[i] = none ∧ (t ++ List.replicate (cap - t.length) x)[i]'(by simp; omega) = x) := by
      intro x
      obtain ⟨r, h1, h2⟩ := one x
      rw [hr] at h1
      simp only [Except.ok.injEq, Prod.mk.injEq, and_true] at h1
      subst h1
      exact h2 i hi
    by_cases hit : i < t.length
    · rw [List.getElem_append_left (by simpa using hit), List.getElem_map]
      have h1 := at' (t[i] + 1)
      rw [List.getElem_append_left hit] at h1
      rcases h1 with h1 | h1
      · exact h1
      · omega
    · rw [List.getElem_append_right (by simpa using hit), List.getElem_replicate]
      have h1 := at' 1
      have h2 := at' 2
      rw [List.getElem_append_right (by omega), List.getElem_replicate] at h1 h2
      rcases h1 with h1 | h1
      · rcases h2 with h2 | h2
        · rw [h1] at h2; simp at h2
        · exact h2.1
      · exact h1.1
  obtain ⟨raw', h1, -⟩ := one 0
  refine ⟨_, h1, ?_, rfl⟩
  apply List.ext_getElem
  · simp; omega
  · intro i h2 h3
    have := get raw' h1 i (by simpa using h2)
    rw [← this]
    simp

/-- C88: with a fresh array (`char text[cap];`) the call writes the numeral and the terminator, and nothing else. -/
theorem C88_text_fresh (cfg : Cfg) (kind : CharKind) (base : BitVec 8) (upper : Bool) (a : Aeu n) (ha : toNat a ≠ 0)
    (showBase : Bool) (hcap : cap < 2 ^ 63)
    (hbase : (2 ≤ base.toNat ∧ base.toNat ≤ 10 ∧ 2 ≤ n) ∨ (base.toNat = 16 ∧ 0 < n)) (text : List Int)
    (htext : text = (if showBase ∧ 3 < cap then basePrefix base.toNat else []) ++ numeral upper base.toNat (toNat a))
    (hfit : text.length < cap) :
    Sat (RawText.getString cfg kind base upper a (RawText.fresh cap) showBase) fun r =>
      r.1.toList = (text ++ [0]).map some ++ List.replicate (cap - (text.length + 1)) none ∧ r.2 = text.length + 1 := by
  have := fresh_final (t := text ++ [0]) (k := text.length + 1)
    (fun raw array h => (C88_text cfg kind base upper a showBase raw array h).2) (by simp; omega)
    (fun array => by
      simpa using C24_get_string_partial cfg kind base upper a ha array showBase hcap hbase text htext hfit)
  simpa using this

/-- C88: the same for a negative number. -/
theorem C88_text_fresh_negative (cfg : Cfg) (kind : CharKind) (base : BitVec 8) (upper : Bool) (a : Aesi n)
    (ha : toInt a < 0) (showBase : Bool) (hcap : cap < 2 ^ 63)
    (hbase : (2 ≤ base.toNat ∧ base.toNat ≤ 10 ∧ 2 ≤ n) ∨ (base.toNat = 16 ∧ 0 < n)) (text : List Int)
    (htext : text = (if showBase ∧ 4 < cap then basePrefix base.toNat else []) ++
      numeral upper base.toNat (toInt a).natAbs) (hfit : text.length + 1 < cap) :
    Sat (RawText.getStringS cfg kind base upper a (RawText.fresh cap) showBase) fun r =>
      r.1.toList = ([45] ++ text ++ [0]).map some ++ List.replicate (cap - (text.length + 2)) none ∧
        r.2 = text.length + 1 := by
  have := fresh_final (t := [45] ++ text ++ [0]) (k := text.length + 1)
    (fun raw array h => (C88_text_signed cfg kind base upper a showBase raw array h).2) (by simp; omega)
    (fun array => by
      simpa using C51_negative cfg kind base upper a ha array showBase hcap hbase text htext hfit)
  simpa using this

/-- C88: and for zero, whose text has no terminator. -/
theorem C88_text_fresh_zero (cfg : Cfg) (kind : CharKind) (base : BitVec 8) (upper : Bool) (a : Aesi n) (hc : Canon a)
    (ha : toInt a = 0) (showBase : Bool) (text : List Int)
    (htext : text = (if showBase then basePrefix base.toNat else []) ++ [48]) (hfit : text.length ≤ cap) :
    Sat (RawText.getStringS cfg kind base upper a (RawText.fresh cap) showBase) fun r =>
      r.1.toList = text.map some ++ List.replicate (cap - text.length) none ∧ r.2 = text.length :=
  fresh_final (fun raw array h => (C88_text_signed cfg kind base upper a showBase raw array h).2) hfit
    (fun array => C51_zero cfg kind base upper a hc ha array showBase text htext hfit)

/-- A character of the array can be read exactly when it has been written, and is then what was written; none of
a fresh array can. -/
theorem C88_text_read (raw : RawText cap) (i : Nat) (hi : i < cap) :
    (∀ c, RawText.rdI raw i = .ok c ↔ raw[i] = some c) ∧
    RawText.rdI (RawText.fresh cap) i = .error .uninitialised := by
  constructor
  · intro c
    unfold RawText.rdI
    rw [rd_ok hi, ok_bind]
    cases raw[i] <;> simp
  · simp [RawText.rdI, rd_ok hi, RawText.fresh]

/-! ### Cases -/

example : RawText.rdI (RawText.fresh 6) 2 = .error .uninitialised := (C88_text_read (RawText.fresh 6) 2 (by decide)).2

/-- `char text[6]; Aeu<64>(345).getString<10>(text, 6);` -/
example : RawText.getString lp64 .char 10#8 false (ofNat 2 345) (RawText.fresh 6) false =
    .ok (#v[some 51, some 52, some 53, some 0, none, none], 4) := by decide +kernel

example : RawText.getStringS lp64 .char 16#8 true (ofInt 2 (-171)) (RawText.fresh 7) true =
    .ok (#v[some 45, some 48, some 120, some 65, some 66, some 0, none], 5) := by decide +kernel

example := C88_text lp64 .char 10#8 false (ofNat 2 345) false (#v[none, some 7, none, none, none, none])
  (Vector.replicate 6 7) (by decide)

example := C88_text_fresh (cap := 6) lp64 .char 10#8 false (ofNat 2 345) (by decide +kernel) false (by decide)
  (.inl (by decide)) [51, 52, 53] (by decide +kernel) (by decide)

example := C88_text_fresh_negative (cap := 7) lp64 .char 16#8 true (ofInt 2 (-171)) (by decide +kernel) true (by decide)
  (.inr (by decide)) [48, 120, 65, 66] (by decide +kernel) (by decide)

example := C88_text_fresh_zero (cap := 5) lp64 .wchar 2#8 true (ofInt 2 0) (by decide +kernel) (by decide +kernel) true
  [48, 98, 48] (by decide +kernel) (by decide)

end AesiMP
