import Verif.Model.FailingStream
import Verif.Props.StreamExact
import Verif.Props.Signed

/-!
# C101: text output to a stream that breaks

Whatever a program prints, a stream that breaks after `room` characters holds exactly the first `room`
characters of what a healthy stream would hold, and is marked bad exactly if something was lost.
-/

namespace AesiMP
variable {n : Nat}

/-- The healthy stream `h` and the breaking stream `s` have received the same insertions; `lim` characters
is all the breaking one can hold. -/
private def Sim (lim : Nat) (h : OStream) (s : FStream) : Prop :=
  (s.os.basefield = h.basefield ∧ s.os.showbase = h.showbase ∧ s.os.uppercase = h.uppercase ∧
    s.os.adjust = h.adjust ∧ s.os.fill = h.fill) ∧
  (s.bad = false → s.os.width = h.width ∧ s.os.out = h.out ∧ h.out.length + s.room = lim) ∧
  (s.bad = true → s.os.out = h.out.take lim ∧ lim < h.out.length)

private theorem Sim.base {lim : Nat} {h : OStream} {s : FStream} (r : Sim lim h s) :
    s.os.basefield = h.basefield ∧ s.os.showbase = h.showbase ∧ s.os.uppercase = h.uppercase ∧
      s.os.adjust = h.adjust ∧ s.os.fill = h.fill := r.1

private theorem Sim.mk' {lim : Nat} {h : OStream} {s : FStream}
    (hb : s.os.basefield = h.basefield ∧ s.os.showbase = h.showbase ∧ s.os.uppercase = h.uppercase ∧
      s.os.adjust = h.adjust ∧ s.os.fill = h.fill)
    (h1 : s.bad = false → s.os.width = h.width ∧ s.os.out = h.out ∧ h.out.length + s.room = lim)
    (h2 : s.bad = true → s.os.out = h.out.take lim ∧ lim < h.out.length) : Sim lim h s := ⟨hb, h1, h2⟩

private theorem Sim.put {lim : Nat} {h : OStream} {s : FStream} (r : Sim lim h s) (item : List Int) :
    Sim lim (h.put item) (s.put item) := by
  have hb := r.base
  cases hbad : s.bad with
  | true =>
    obtain ⟨e1, e2⟩ := r.2.2 hbad
    have es : s.put item = s := by simp [FStream.put, hbad]
    rw [es]
    refine Sim.mk' hb (fun h' => by simp [hbad] at h') fun _ => ?_
    simp only [OStream.put, List.length_append]
    refine ⟨?_, by omega⟩
    rw [e1, List.take_append_of_le_length (by omega)]
  | false =>
    obtain ⟨e1, e2, e3⟩ := r.2.1 hbad
    obtain ⟨b1, b2, b3, b4, b5⟩ := hb
    unfold OStream.put FStream.put
    simp only [hbad, Bool.false_eq_true, if_false, b4, b5, e1, e2]
    generalize (if h.adjust = .left then item ++ List.replicate (h.width - item.length) h.fill
      else List.replicate (h.width - item.length) h.fill ++ item) = t
    refine Sim.mk' ⟨b1, b2, b3, rfl, rfl⟩ ?_ ?_
    · intro h'
      have h' : t.length ≤ s.room := by simpa using h'
      refine ⟨rfl, ?_, ?_⟩
      · simp only [List.take_of_length_le h']
      · simp only [List.length_append]; omega
    · intro h'
      have h' : s.room < t.length := by simpa using h'
      refine ⟨?_, ?_⟩
      · simp only [← e3, List.take_length_add_append]
      · simp only [List.length_append]; omega

private theorem Sim.putHex {lim : Nat} {h : OStream} {s : FStream} (r : Sim lim h s) (v : Block) :
    Sim lim (h.putHex v) (s.putHex v) := by
  unfold OStream.putHex FStream.putHex
  rw [r.base.2.2.1]
  exact r.put _

/-- Two executions end together: both succeed in related states, or both meet the same error. -/
private def Both (lim : Nat) (e : Exec OStream) (f : Exec FStream) : Prop :=
  (∃ x, e = .error x ∧ f = .error x) ∨ ∃ h s, e = .ok h ∧ f = .ok s ∧ Sim lim h s

private theorem Both.ok {lim : Nat} {h : OStream} {s : FStream} (r : Sim lim h s) :
    Both lim (.ok h) (.ok s) := Or.inr ⟨h, s, rfl, rfl, r⟩

private theorem Both.bind_same {α : Type} {lim : Nat} (e : Exec α) {f : α → Exec OStream}
    {g : α → Exec FStream} (h : ∀ x, Both lim (f x) (g x)) : Both lim (e >>= f) (e >>= g) := by
  cases e with
  | error x => exact Or.inl ⟨x, rfl, rfl⟩
  | ok x => exact h x

private theorem Both.forDownN {lim lo : Nat} {f : Nat → OStream → Exec OStream}
    {g : Nat → FStream → Exec FStream} (hfg : ∀ i h s, Sim lim h s → Both lim (f i h) (g i s)) :
    ∀ (k : Nat) (h : OStream) (s : FStream), Sim lim h s →
      Both lim (AesiMP.forDownN lo f k h) (AesiMP.forDownN lo g k s)
  | 0, _, _, r => Both.ok r
  | k + 1, h, s, r => by
    simp only [AesiMP.forDownN]
    rcases hfg (lo + k) h s r with ⟨x, e1, e2⟩ | ⟨h', s', e1, e2, r'⟩
    · rw [e1, e2]; exact Or.inl ⟨x, rfl, rfl⟩
    · rw [e1, e2]; exact Both.forDownN hfg k h' s' r'

private theorem head_sim {lim : Nat} {h : OStream} {s : FStream} (r : Sim lim h s) :
    Sim lim (Aeu.streamHead h) (Aeu.streamHeadF s) := by
  unfold Aeu.streamHead Aeu.streamHeadF
  obtain ⟨b1, b2, b3, b4, b5⟩ := r.base
  rw [b1, b2]
  split
  · have p := r.put (if Aeu.streamBase h.basefield = 8#32 then [48, 111] else [48, 120])
    obtain ⟨c1, c2, c3, c4, c5⟩ := p.base
    exact Sim.mk' ⟨c1, rfl, c3, c4, c5⟩ p.2.1 p.2.2
  · exact r

private theorem out_sim (cfg : Cfg) (buf : Nat) (a : Aeu n) {lim : Nat} {h : OStream} {s : FStream}
    (r : Sim lim h s) : Both lim (Aeu.streamOut cfg buf h a) (Aeu.streamOutF cfg buf s a) := by
  unfold Aeu.streamOut Aeu.streamOutF
  have r' := head_sim r
  rw [r.base.1]
  refine Both.bind_same _ fun z => ?_
  split
  · exact Both.ok (r'.put _)
  split
  · unfold Aeu.streamHex Aeu.streamHexF
    refine Both.bind_same _ fun it => Both.bind_same _ fun b => ?_
    unfold forDown
    refine Both.forDownN (fun i h s q => ?_) _ _ _ (r'.putHex b)
    refine Both.bind_same _ fun c => Both.ok ?_
    obtain ⟨c1, c2, c3, c4, c5⟩ := q.base
    refine Sim.putHex ?_ c
    exact Sim.mk' ⟨c1, c2, c3, rfl, rfl⟩ (fun hh => ⟨rfl, (q.2.1 hh).2⟩) q.2.2
  · unfold Aeu.streamDigits Aeu.streamDigitsF
    refine Both.bind_same _ fun x => ?_
    unfold forDown
    refine Both.forDownN (fun i h s q => ?_) _ _ _ r'
    exact Both.bind_same _ fun c => Both.ok (q.put _)

private theorem ins_sim (cfg : Cfg) (i : Ins) {lim : Nat} {h : OStream} {s : FStream}
    (r : Sim lim h s) : Both lim (i.run cfg h) (i.runF cfg s) := by
  obtain ⟨c1, c2, c3, c4, c5⟩ := r.base
  cases i with
  | num b buf v => exact out_sim cfg buf v r
  | snum b buf v =>
    simp only [Ins.run, Ins.runF, Aesi.streamOut, Aesi.streamOutF]
    split
    · split
      · exact out_sim cfg buf _ (r.put _)
      · exact out_sim cfg buf _ r
    · exact Both.ok (r.put _)
  | text t => exact Both.ok (r.put t)
  | base b => exact Both.ok (Sim.mk' ⟨rfl, c2, c3, c4, c5⟩ r.2.1 r.2.2)
  | showbase b => exact Both.ok (Sim.mk' ⟨c1, rfl, c3, c4, c5⟩ r.2.1 r.2.2)
  | uppercase b => exact Both.ok (Sim.mk' ⟨c1, c2, rfl, c4, c5⟩ r.2.1 r.2.2)
  | adjust b => exact Both.ok (Sim.mk' ⟨c1, c2, c3, rfl, c5⟩ r.2.1 r.2.2)
  | fill b => exact Both.ok (Sim.mk' ⟨c1, c2, c3, c4, rfl⟩ r.2.1 r.2.2)
  | width b => exact Both.ok (Sim.mk' ⟨c1, c2, c3, c4, c5⟩ (fun h => ⟨rfl, (r.2.1 h).2⟩) r.2.2)

private theorem print_sim (cfg : Cfg) : ∀ (p : List Ins) {lim : Nat} {h : OStream} {s : FStream},
    Sim lim h s → Both lim (printAll cfg p h) (printAllF cfg p s)
  | [], _, _, _, r => Both.ok r
  | i :: is, lim, h, s, r => by
    simp only [printAll, printAllF]
    rcases ins_sim cfg i r with ⟨x, e1, e2⟩ | ⟨h', s', e1, e2, r'⟩
    · rw [e1, e2]; exact Or.inl ⟨x, rfl, rfl⟩
    · rw [e1, e2]; exact print_sim cfg is r'

private theorem sim_start (os : OStream) (room : Nat) : Sim (os.out.length + room) os ⟨os, room, false⟩ :=
  ⟨⟨rfl, rfl, rfl, rfl, rfl⟩, fun _ => ⟨rfl, rfl, rfl⟩, fun h => by simp at h⟩

/-- What two related executions look like from outside. -/
private theorem both_out {os : OStream} {room : Nat} {e : Exec OStream} {f : Exec FStream}
    (hb : Both (os.out.length + room) e f) :
    (∀ x, e = .error x → f = .error x) ∧
    (∀ h, e = .ok h → Sat f fun s => s.os.out = h.out.take (os.out.length + room) ∧
        s.bad = decide (os.out.length + room < h.out.length)) := by
  rcases hb with ⟨x, rfl, rfl⟩ | ⟨h, s, rfl, rfl, r⟩
  · exact ⟨fun y hy => by cases hy; rfl, fun h hh => (by cases hh)⟩
  · refine ⟨fun y hy => (by cases hy), fun h' hh => ?_⟩
    cases hh
    refine Sat.ok ?_
    cases hs : s.bad with
    | true => exact ⟨(r.2.2 hs).1, by simpa using (r.2.2 hs).2⟩
    | false =>
      obtain ⟨_, e2, e3⟩ := r.2.1 hs
      refine ⟨?_, ?_⟩
      · rw [e2, List.take_of_length_le (by omega)]
      · rw [eq_comm, decide_eq_false_iff_not]; omega

/-- C101: any sequence of insertions of numbers, text and manipulators, any state of the stream, any point
of failure: the broken stream holds the first characters of what the healthy one would hold, as many as
there was room for, and is bad exactly if something was lost; undefined behaviour is met by both or by none. -/
theorem C101_prefix (cfg : Cfg) (p : List Ins) (os : OStream) (room : Nat) :
    (∀ x, printAll cfg p os = .error x → printAllF cfg p ⟨os, room, false⟩ = .error x) ∧
    (∀ h, printAll cfg p os = .ok h → Sat (printAllF cfg p ⟨os, room, false⟩) fun s =>
      s.os.out = h.out.take (os.out.length + room) ∧ s.bad = decide (os.out.length + room < h.out.length)) :=
  both_out (print_sim cfg p (sim_start os room))

/-- Executions that leave a bad stream with the characters `o`. -/
private def Keeps (o : List Int) (f : Exec FStream) : Prop :=
  ∀ r, f = .ok r → r.os.out = o ∧ r.bad = true

private theorem Keeps.bind {α : Type} {o : List Int} (e : Exec α) {g : α → Exec FStream}
    (h : ∀ x, Keeps o (g x)) : Keeps o (e >>= g) := by
  cases e with
  | error x => intro r hr; exact absurd hr (by simp [Bind.bind, Except.bind])
  | ok x => exact h x

private theorem Keeps.put {s : FStream} (hs : s.bad = true) (t : List Int) : s.put t = s := by
  simp [FStream.put, hs]

private theorem Keeps.forDownN {o : List Int} {lo : Nat} {g : Nat → FStream → Exec FStream}
    (hg : ∀ i s, s.os.out = o → s.bad = true → Keeps o (g i s)) :
    ∀ (k : Nat) (s : FStream), s.os.out = o → s.bad = true → Keeps o (AesiMP.forDownN lo g k s)
  | 0, s, h1, h2 => by intro r hr; cases hr; exact ⟨h1, h2⟩
  | k + 1, s, h1, h2 => by
    simp only [AesiMP.forDownN]
    intro r hr
    cases e : g (lo + k) s with
    | error x => rw [e] at hr; exact absurd hr (by simp [Bind.bind, Except.bind])
    | ok t =>
      rw [e] at hr
      obtain ⟨q1, q2⟩ := hg _ s h1 h2 t e
      exact Keeps.forDownN hg k t q1 q2 r hr

private theorem out_keeps (cfg : Cfg) (buf : Nat) (a : Aeu n) {s : FStream} (hs : s.bad = true) :
    Keeps s.os.out (Aeu.streamOutF cfg buf s a) := by
  unfold Aeu.streamOutF
  have hh : (Aeu.streamHeadF s).os.out = s.os.out ∧ (Aeu.streamHeadF s).bad = true := by
    unfold Aeu.streamHeadF FStream.putText
    split
    · rw [Keeps.put hs]; exact ⟨rfl, hs⟩
    · exact ⟨rfl, hs⟩
  refine Keeps.bind _ fun z => ?_
  split
  · intro r hr; cases hr; rw [FStream.putText, Keeps.put hh.2]; exact hh
  split
  · unfold Aeu.streamHexF
    refine Keeps.bind _ fun it => Keeps.bind _ fun b => ?_
    unfold forDown
    refine Keeps.forDownN (fun i t h1 h2 => Keeps.bind _ fun c => ?_) _ _ ?_ ?_
    · intro r hr; cases hr
      rw [FStream.putHex, Keeps.put (by exact h2)]; exact ⟨h1, h2⟩
    · rw [FStream.putHex, Keeps.put hh.2]; exact hh.1
    · rw [FStream.putHex, Keeps.put hh.2]; exact hh.2
  · unfold Aeu.streamDigitsF
    refine Keeps.bind _ fun x => ?_
    unfold forDown
    refine Keeps.forDownN (fun i t h1 h2 => Keeps.bind _ fun c => ?_) _ _ hh.1 hh.2
    intro r hr; cases hr
    rw [FStream.putText, Keeps.put h2]; exact ⟨h1, h2⟩

private theorem ins_keeps (cfg : Cfg) (i : Ins) {s : FStream} (hs : s.bad = true) :
    Keeps s.os.out (i.runF cfg s) := by
  cases i with
  | num b buf v => exact out_keeps cfg buf v hs
  | snum b buf v =>
    simp only [Ins.runF, Aesi.streamOutF, FStream.putText, Keeps.put hs, ite_self]
    split
    · exact out_keeps cfg buf _ hs
    · intro r hr; cases hr; exact ⟨rfl, hs⟩
  | text t => intro r hr; cases hr; rw [FStream.putText, Keeps.put hs]; exact ⟨rfl, hs⟩
  | _ => intro r hr; cases hr; exact ⟨rfl, hs⟩

/-- C101: once the stream is bad it takes nothing more, whatever is inserted. -/
theorem C101_bad_stays (cfg : Cfg) (p : List Ins) (s r : FStream) (hs : s.bad = true)
    (h : printAllF cfg p s = .ok r) : r.os.out = s.os.out ∧ r.bad = true := by
  induction p generalizing s with
  | nil => cases h; exact ⟨rfl, hs⟩
  | cons i is ih =>
    simp only [printAllF] at h
    cases e : i.runF cfg s with
    | error x => rw [e] at h; exact absurd h (by simp [Bind.bind, Except.bind])
    | ok t =>
      rw [e] at h
      obtain ⟨q1, q2⟩ := ins_keeps cfg i hs t e
      have := ih t q2 h
      rwa [q1] at this

/-- C101 for one unsigned number, with the text spelled out (no field width pending): the stream holds the
first `room` characters of the number's text. -/
theorem C101_number (cfg : Cfg) (buf : Nat) (hb : Aeu.IsStreamBuf n buf) (os : OStream) (hw : os.width = 0)
    (a : Aeu n) (room : Nat)
    (hn : (os.basefield = .hex ∧ 1 ≤ n) ∨ (os.basefield = .other ∧ 2 ≤ n) ∨ (os.basefield = .oct ∧ 3 ≤ n)) :
    Sat (Aeu.streamOutF cfg buf ⟨os, room, false⟩ a) fun s =>
      s.os.out = os.out ++ (streamText os (Aeu.toNat a)).take room ∧
      s.bad = decide (room < (streamText os (Aeu.toNat a)).length) := by
  obtain ⟨h, e, -, ho⟩ := C35_width_exact cfg buf hb os a hn
  have k := (both_out (out_sim cfg buf a (sim_start os room))).2 h e
  have et : h.out = os.out ++ streamText os (Aeu.toNat a) := by
    rw [ho, hw]
    have hpre := List.prefix_iff_eq_append.mp (firstItem_prefix os (Aeu.toNat a))
    simp only [padded, Nat.zero_sub, List.replicate_zero, List.append_nil, List.nil_append, ite_self,
      List.append_assoc]
    rw [hpre]
  refine Sat.mono k fun s hs => ?_
  rw [hs.1, hs.2, et]
  refine ⟨by rw [List.take_length_add_append], ?_⟩
  simp only [List.length_append]
  exact decide_eq_decide.mpr (by omega)

/-- C101 for one signed number. -/
theorem C101_signed_number (cfg : Cfg) (buf : Nat) (hb : Aeu.IsStreamBuf n buf) (os : OStream)
    (hw : os.width = 0) (a : Aesi n) (ha : Aesi.Canon a) (room : Nat)
    (hn : (os.basefield = .hex ∧ 1 ≤ n) ∨ (os.basefield = .other ∧ 2 ≤ n) ∨ (os.basefield = .oct ∧ 3 ≤ n)) :
    Sat (Aesi.streamOutF cfg buf ⟨os, room, false⟩ a) fun s =>
      let text := if Aesi.toInt a = 0 then [48] else if Aesi.toInt a < 0 then
        45 :: streamText os (Aesi.toInt a).natAbs else streamText os (Aesi.toInt a).natAbs
      s.os.out = os.out ++ text.take room ∧ s.bad = decide (room < text.length) := by
  obtain ⟨h, e, -, ho⟩ := C62_width_exact cfg buf hb os a hn
  have k := (both_out (ins_sim cfg (.snum n buf a) (sim_start os room))).2 h e
  refine Sat.mono k fun s hs => ?_
  have et : h.out = os.out ++ (if Aesi.toInt a = 0 then [48] else if Aesi.toInt a < 0 then
        45 :: streamText os (Aesi.toInt a).natAbs else streamText os (Aesi.toInt a).natAbs) := by
    rw [ho, hw]
    have hpre := List.prefix_iff_eq_append.mp (firstItem_prefix os (Aesi.toInt a).natAbs)
    simp only [padded, Nat.zero_sub, List.replicate_zero, List.append_nil, List.nil_append, ite_self]
    rw [hpre]
    have h0 : Aesi.sgn a = 0 ↔ Aesi.toInt a = 0 := by
      obtain ⟨sg, m⟩ := a
      unfold Aesi.Canon at ha
      cases sg <;> simp [Aesi.sgn, Aesi.toInt] at ha ⊢ <;> omega
    have h1 : Aesi.sgn a < 0 ↔ Aesi.toInt a < 0 := by
      obtain ⟨sg, m⟩ := a
      unfold Aesi.Canon at ha
      cases sg <;> simp [Aesi.sgn, Aesi.toInt] at ha ⊢ <;> omega
    simp only [h0, h1]
    rfl
  dsimp only
  rw [hs.1, hs.2, et]
  generalize (if Aesi.toInt a = 0 then [48] else if Aesi.toInt a < 0 then
        45 :: streamText os (Aesi.toInt a).natAbs else streamText os (Aesi.toInt a).natAbs) = t
  refine ⟨by rw [List.take_length_add_append], ?_⟩
  simp only [List.length_append]
  exact decide_eq_decide.mpr (by omega)

private theorem numeral_take (u : Bool) {b : Nat} (hb : 1 < b) (v : Nat) :
    ∀ k, k < (numeral u b v).length →
      numeral u b (v / b ^ k) = (numeral u b v).take ((numeral u b v).length - k) := by
  intro k
  induction k with
  | zero => intro _; simp
  | succ k ih =>
    intro hk
    have ih := ih (by omega)
    have e : v / b ^ (k + 1) = v / b ^ k / b := by rw [Nat.pow_succ, Nat.div_div_eq_div_mul]
    generalize v / b ^ k = w at ih e
    have h1 : w / b ≠ 0 := by
      intro h0
      have hw : w < b := by
        rcases Nat.div_eq_zero_iff.mp h0 with h | h <;> omega
      have hl : (numeral u b w).length = 1 := by
        unfold numeral
        split
        · rfl
        · rename_i hw0; rw [Nat.digits_of_lt b w hw0 hw]; rfl
      have := congrArg List.length ih
      rw [hl, List.length_take] at this
      omega
    have h2 : w ≠ 0 := by rintro rfl; simp at h1
    have e2 : numeral u b w = numeral u b (w / b) ++ [digitChar u (w % b)] := by
      unfold numeral
      rw [if_neg h1, if_neg h2, Nat.digits_def' hb (by omega)]
      simp
    have hl := congrArg List.length ih
    rw [e2, List.length_append, List.length_take, List.length_singleton] at hl
    have h3 : numeral u b (w / b) = (numeral u b w).take (numeral u b (w / b)).length := by
      rw [e2, List.take_left]
    rw [e, h3, ih, List.take_take]
    congr 1
    omega

/-- C101: the danger of a torn decimal number. A stream that breaks inside it still holds a valid number: the
constructor reads, without any complaint, the number with the lost digits cut off. -/
theorem C101_torn_decimal (cfg : Cfg) (buf : Nat) (hb : Aeu.IsStreamBuf n buf) (os : OStream)
    (hw : os.width = 0) (ho : os.out = []) (hd : os.basefield = .other) (a : Aeu n) (hn : 2 ≤ n) (room : Nat)
    (h0 : 0 < room) (h1 : room ≤ (numeral false 10 (Aeu.toNat a)).length)
    (kind : CharKind) (alnum : Int → Bool) (hl : LocaleOk alnum) :
    Sat (Aeu.streamOutF cfg buf ⟨os, room, false⟩ a) fun s =>
      Aeu.Returns (Aeu.ofChars kind alnum n ⟨s.os.out.toArray, rfl⟩)
        (Aeu.toNat a / 10 ^ ((numeral false 10 (Aeu.toNat a)).length - room)) := by
  refine Sat.mono (C101_number cfg buf hb os hw a room (Or.inr (Or.inl ⟨hd, hn⟩))) fun s hs => ?_
  have et : streamText os (Aeu.toNat a) = numeral false 10 (Aeu.toNat a) := by
    unfold streamText
    rw [hd, show streamRadix .other = 10 from rfl, numeral_case _ (by norm_num) (by norm_num)]
    simp [basePrefix]
  have e := hs.1
  rw [ho, List.nil_append, et] at e
  have k := numeral_take false (b := 10) (by norm_num) (Aeu.toNat a)
    ((numeral false 10 (Aeu.toNat a)).length - room) (by omega)
  rw [show (numeral false 10 (Aeu.toNat a)).length - ((numeral false 10 (Aeu.toNat a)).length - room) = room by
    omega] at k
  have c := C23_decimal (n := n) kind alnum hl
    (Aeu.toNat a / 10 ^ ((numeral false 10 (Aeu.toNat a)).length - room))
  rw [Nat.mod_eq_of_lt (Nat.lt_of_le_of_lt (Nat.div_le_self _ _) (Aeu.toNat_lt a))] at c
  have e' : s.os.out = numeral false 10 (Aeu.toNat a / 10 ^ ((numeral false 10 (Aeu.toNat a)).length - room)) :=
    e.trans k.symm
  have key : ∀ t : List Int, t = numeral false 10 (Aeu.toNat a / 10 ^ ((numeral false 10 (Aeu.toNat a)).length -
      room)) → Aeu.Returns (Aeu.ofChars kind alnum n ⟨t.toArray, rfl⟩)
        (Aeu.toNat a / 10 ^ ((numeral false 10 (Aeu.toNat a)).length - room)) := by
    rintro t rfl; exact c
  exact key _ e'

/-- The hypotheses are met: 1234567890123 on a stream with room for 5 characters reads back as 12345. -/
example : (Aeu.streamOutF lp64 21 ⟨⟨.other, false, false, .right, 32, 0, []⟩, 5, false⟩
    (Aeu.ofNat 2 1234567890123)).map (·.os.out) = .ok [49, 50, 51, 52, 53] ∧ Aeu.IsStreamBuf 2 21 := by
  decide +kernel

/-- A concrete program: `os << hex << showbase << a << ',' << b` with room for 8 characters, `a` of 64 bits
and `b` signed; the stream breaks inside the digits of `a` and `b` is never written. -/
example : (printAllF lp64 [.base .hex, .showbase true, .num 2 21 (Aeu.ofNat 2 0x123456789ab), .text [44],
      .snum 2 21 (Aesi.ofInt 2 (-255))] ⟨⟨.other, false, false, .right, 32, 0, []⟩, 8, false⟩).map
      (fun s => (s.os.out, s.bad)) = .ok ([48, 120, 49, 50, 51, 52, 53, 54], true) ∧
    (printAll lp64 [.base .hex, .showbase true, .num 2 21 (Aeu.ofNat 2 0x123456789ab), .text [44],
      .snum 2 21 (Aesi.ofInt 2 (-255))] ⟨.other, false, false, .right, 32, 0, []⟩).map (·.out) =
      .ok [48, 120, 49, 50, 51, 52, 53, 54, 55, 56, 57, 97, 98, 44, 45, 102, 102] := by decide +kernel

/-! ### Concrete cases that meet the hypotheses -/

/-- The hypotheses of `C101_bad_stays` are met. -/
example := C101_bad_stays lp64 [.text [44], .num 2 21 (Aeu.ofNat 2 5)]
  ⟨⟨.other, false, false, .right, 32, 0, [49]⟩, 8, true⟩ ⟨⟨.other, false, false, .right, 32, 0, [49]⟩, 8, true⟩ rfl
  (by decide +kernel)

/-- The hypotheses of `C101_number` are met. -/
example := C101_number lp64 21 (by decide) ⟨.hex, true, false, .right, 32, 0, [49]⟩ rfl (Aeu.ofNat 2 (2 ^ 40)) 5
  (Or.inl ⟨rfl, by omega⟩)

/-- The hypotheses of `C101_signed_number` are met. -/
example := C101_signed_number lp64 21 (by decide) ⟨.other, true, false, .right, 32, 0, [49]⟩ rfl
  (Aesi.ofInt 2 (-2 ^ 40)) (by decide +kernel) 5 (Or.inr (Or.inl ⟨rfl, by omega⟩))

end AesiMP
