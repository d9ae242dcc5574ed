import Verif.Model.ThrowingStream
import Verif.Props.FailingStream
import Verif.Props.BinIO

/-!
# C105: streams with exceptions enabled
-/

namespace AesiMP
open Aeu
variable {n : Nat}

/-- `x` on the throwing stream and `f` on the silent one: the same error, the same good stream, or a throw that
leaves what the silent stream would hold in the end. -/
private def XF (x : Exec (Ends FStream)) (f : Exec FStream) : Prop :=
  (∃ e, x = .error e ∧ f = .error e) ∨ (∃ s, x = .ok (.returned s) ∧ f = .ok s ∧ s.bad = false) ∨
    ∃ s, x = .ok (.threw s) ∧ s.bad = true ∧ ∀ g, f = .ok g → g.bad = true ∧ g.os.out = s.os.out

/-- A computation on a bad stream writes nothing. -/
private def Keeps (f : FStream → Exec FStream) : Prop :=
  ∀ s r, s.bad = true → f s = .ok r → r.bad = true ∧ r.os.out = s.os.out

private theorem XF.good {s : FStream} (h : s.bad = false) : XF (.ok (.returned s)) (.ok s) :=
  .inr (.inl ⟨s, rfl, rfl, h⟩)

private theorem put_bad {s : FStream} (h : s.bad = true) (t : List Int) : s.put t = s := by simp [FStream.put, h]

private theorem XF.put (s : FStream) (t : List Int) : XF (.ok (s.putX t)) (.ok (s.put t)) := by
  unfold FStream.putX
  cases h : (s.put t).bad with
  | true => exact .inr (.inr ⟨_, by simp, h, fun g hg => by cases hg; exact ⟨h, rfl⟩⟩)
  | false => simpa using XF.good h

private theorem XF.bind_same {α : Type} (e : Exec α) {x : α → Exec (Ends FStream)} {f : α → Exec FStream}
    (h : ∀ a, XF (x a) (f a)) : XF (e >>= x) (e >>= f) := by
  cases e with
  | error e => exact .inl ⟨e, rfl, rfl⟩
  | ok a => exact h a

private theorem XF.andThen {x : Exec (Ends FStream)} {f : Exec FStream} {x' : FStream → Exec (Ends FStream)}
    {f' : FStream → Exec FStream} (h : XF x f) (h' : ∀ s, s.bad = false → XF (x' s) (f' s)) (hk : Keeps f') :
    XF (Ends.andThen x x') (f >>= f') := by
  rcases h with ⟨e, rfl, rfl⟩ | ⟨s, rfl, rfl, hs⟩ | ⟨s, rfl, hs, hg⟩
  · exact .inl ⟨e, rfl, rfl⟩
  · exact h' s hs
  · refine .inr (.inr ⟨s, rfl, hs, fun g hr => ?_⟩)
    cases f with
    | error e => exact absurd hr (by simp)
    | ok s' =>
      obtain ⟨h1, h2⟩ := hg s' rfl
      obtain ⟨h3, h4⟩ := hk s' g h1 hr
      exact ⟨h3, h4.trans h2⟩

private theorem keeps_bind_same {α : Type} (e : Exec α) {f : α → FStream → Exec FStream} (h : ∀ a, Keeps (f a)) :
    Keeps (fun s => e >>= fun a => f a s) := by
  intro s r hs hr
  cases e with
  | error e => simp at hr
  | ok a => exact h a s r hs hr

private theorem keeps_forDownN {lo : Nat} {f : Nat → FStream → Exec FStream} (h : ∀ i, Keeps (f i)) :
    ∀ k, Keeps (forDownN lo f k)
  | 0 => fun s r hs hr => by cases hr; exact ⟨hs, rfl⟩
  | k + 1 => fun s r hs hr => by
    simp only [forDownN] at hr
    cases hf : f (lo + k) s with
    | error e => rw [hf] at hr; simp at hr
    | ok s' =>
      rw [hf] at hr
      obtain ⟨h1, h2⟩ := h _ s s' hs hf
      obtain ⟨h3, h4⟩ := keeps_forDownN h k s' r h1 hr
      exact ⟨h3, h4.trans h2⟩

private theorem XF.forDown {lo : Nat} {x : Nat → FStream → Exec (Ends FStream)} {f : Nat → FStream → Exec FStream}
    (h : ∀ i s, s.bad = false → XF (x i s) (f i s)) (hk : ∀ i, Keeps (f i)) :
    ∀ k s, s.bad = false → XF (forDownX lo x k s) (forDownN lo f k s)
  | 0, s, hs => XF.good hs
  | k + 1, s, hs => by
    simp only [forDownX, forDownN]
    exact XF.andThen (h _ s hs) (fun s' hs' => XF.forDown h hk k s' hs') (keeps_forDownN hk k)

private theorem keeps_out (cfg : Cfg) (i : Ins) : Keeps (i.runF cfg) := by
  intro s r hs hr
  have := C101_bad_stays cfg [i] s r hs (by simp only [printAllF, hr, ok_bind])
  exact ⟨this.2, this.1⟩

private theorem head_xf (s : FStream) (hs : s.bad = false) : XF (streamHeadX s) (.ok (streamHeadF s)) := by
  unfold streamHeadX streamHeadF
  split
  · refine XF.andThen (f := .ok (s.putText _)) (f' := fun s => .ok { s with os := { s.os with showbase := false } })
      (XF.put s _) (fun s hs => XF.good hs) ?_
    intro s r hs hr
    cases hr
    exact ⟨hs, rfl⟩
  · exact XF.good hs

private theorem headF_base (s : FStream) : (streamHeadF s).os.basefield = s.os.basefield := by
  unfold streamHeadF
  split
  · unfold FStream.putText FStream.put
    dsimp only
    split <;> rfl
  · rfl

private theorem keeps_put (t : FStream → List Int) : Keeps (fun s => .ok (s.put (t s))) := by
  intro s r hs hr
  cases hr
  rw [put_bad hs]
  exact ⟨hs, rfl⟩

private theorem keeps_hexBody (number : Aeu n) (i : Nat) : Keeps (fun s => do
    let b ← rd number i
    .ok (({ s with os := { s.os with fill := 48, width := 8, adjust := .right } } : FStream).putHex b)) := by
  refine keeps_bind_same _ fun b => ?_
  intro s r hs hr
  cases hr
  unfold FStream.putHex
  rw [put_bad (by exact hs)]
  exact ⟨hs, rfl⟩

private theorem keeps_digitBody {cap : Nat} (buf : Vector Int cap) (i : Nat) : Keeps (fun s => do
    let c ← rd buf i
    .ok (s.putText [c])) := keeps_bind_same _ fun c => keeps_put _

private theorem out_xf (cfg : Cfg) (buf : Nat) (a : Aeu n) (s : FStream) (hs : s.bad = false) :
    XF (Aeu.streamOutX cfg buf s a) (Aeu.streamOutF cfg buf s a) := by
  have hF : Aeu.streamOutF cfg buf s a = (.ok (streamHeadF s) >>= fun s' => do
      let z ← isZero a
      if z then .ok (s'.putText [48]) else
        if streamBase s.os.basefield = 16#32 then streamHexF s' a
        else streamDigitsF cfg buf (streamBase s.os.basefield) s' a) := rfl
  rw [hF]
  unfold Aeu.streamOutX
  refine XF.andThen (head_xf s hs) (fun s' hs' => ?_) ?_
  · refine XF.bind_same _ fun z => ?_
    split
    · exact XF.put _ _
    split
    · unfold streamHexX streamHexF
      refine XF.bind_same _ fun it => XF.bind_same _ fun b => ?_
      unfold forDown
      rw [Nat.sub_zero]
      refine XF.andThen (f := .ok (s'.putHex b)) (XF.put _ _) (fun s'' hs'' => ?_) ?_
      · exact XF.forDown (fun i s hs => XF.bind_same _ fun c => XF.put _ _) (fun i => keeps_hexBody a i) _ _ hs''
      · exact keeps_forDownN (fun i => keeps_hexBody a i) _
    · unfold streamDigitsX streamDigitsF
      refine XF.bind_same _ fun r => ?_
      unfold forDown
      rw [Nat.sub_zero]
      exact XF.forDown (fun i s hs => XF.bind_same _ fun c => XF.put _ _) (fun i => keeps_digitBody _ i) _ _ hs'
  · refine keeps_bind_same _ fun z => ?_
    split
    · exact keeps_put _
    split
    · unfold streamHexF
      refine keeps_bind_same _ fun it => keeps_bind_same _ fun b => ?_
      intro s r hs hr
      have e : s.putHex b = s := put_bad hs _
      dsimp only at hr
      rw [e] at hr
      exact keeps_forDownN (fun i => keeps_hexBody a i) _ s r hs hr
    · unfold streamDigitsF
      refine keeps_bind_same _ fun r => ?_
      exact keeps_forDownN (fun i => keeps_digitBody _ i) _

private theorem ins_xf (cfg : Cfg) (i : Ins) (s : FStream) (hs : s.bad = false) :
    XF (i.runX cfg s) (i.runF cfg s) := by
  cases i with
  | num b buf v => exact out_xf cfg buf v s hs
  | snum b buf v =>
    simp only [Ins.runX, Ins.runF, Aesi.streamOutX, Aesi.streamOutF]
    split
    · have h1 : XF (.ok (if v.sign = .negative then s.putX [45] else .returned s))
          (.ok (if v.sign = .negative then s.putText [45] else s)) := by
        split
        · exact XF.put _ _
        · exact XF.good hs
      exact XF.andThen h1 (fun s' hs' => out_xf cfg buf v.base s' hs') (keeps_out cfg (.num b buf v.base))
    · exact XF.put _ _
  | text t => exact XF.put s t
  | base b => exact XF.good hs
  | showbase b => exact XF.good hs
  | uppercase b => exact XF.good hs
  | adjust b => exact XF.good hs
  | fill b => exact XF.good hs
  | width b => exact XF.good hs

private theorem keeps_all (cfg : Cfg) (p : List Ins) : Keeps (printAllF cfg p) := fun s r hs hr =>
  have := C101_bad_stays cfg p s r hs hr
  ⟨this.2, this.1⟩

private theorem all_xf (cfg : Cfg) : ∀ (p : List Ins) (s : FStream), s.bad = false →
    XF (printAllX cfg p s) (printAllF cfg p s)
  | [], s, hs => XF.good hs
  | i :: is, s, hs => by
    simp only [printAllX, printAllF]
    exact XF.andThen (ins_xf cfg i s hs) (fun s' hs' => all_xf cfg is s' hs') (keeps_all cfg is)

/-- C105: with exceptions enabled an output statement returns exactly if a healthy stream's text fits; otherwise
`std::ios_base::failure` leaves it, and the stream has got exactly the characters that fit. -/
theorem C105_text (cfg : Cfg) (p : List Ins) (os : OStream) (room : Nat) (h : OStream)
    (hh : printAll cfg p os = .ok h) :
    (h.out.length ≤ os.out.length + room →
      ∃ s, printAllX cfg p ⟨os, room, false⟩ = .ok (.returned s) ∧ s.os.out = h.out ∧ s.bad = false) ∧
    (os.out.length + room < h.out.length →
      ∃ s, printAllX cfg p ⟨os, room, false⟩ = .ok (.threw s) ∧ s.bad = true ∧
        s.os.out = h.out.take (os.out.length + room)) := by
  obtain ⟨f, h1, h2, h3⟩ := (C101_prefix cfg p os room).2 h hh
  rcases all_xf cfg p ⟨os, room, false⟩ rfl with ⟨e, _, h4⟩ | ⟨s, h4, h5, h6⟩ | ⟨s, h4, h5, h6⟩
  · rw [h1] at h4; simp at h4
  · rw [h1] at h5
    cases h5
    rw [h6] at h3
    have : ¬ os.out.length + room < h.out.length := by simpa using h3.symm
    exact ⟨fun hle => ⟨f, h4, by rw [h2, List.take_of_length_le hle], h6⟩, fun hlt => absurd hlt this⟩
  · obtain ⟨h7, h8⟩ := h6 f h1
    rw [h7] at h3
    have : os.out.length + room < h.out.length := by simpa using h3.symm
    exact ⟨fun hle => by omega, fun _ => ⟨s, h4, h5, by rw [← h8, h2]⟩⟩

/-- C105: `readBinary` returns exactly if there are bytes for all blocks; otherwise the exception passes, and the
object holds the bytes there were, followed by zeros, as on a stream without exceptions. -/
theorem C105_read (host : Host) (old : Aeu n) (bigEndian : Bool) (bytes : List (BitVec 8)) :
    Sat (readBinaryX host old ⟨bytes, false⟩ bigEndian) fun r =>
      (∀ p, p < 4 * n → byteOf (toNat r.state.1) (byteIndex host bigEndian n p) = (bytes.getD p 0).toNat) ∧
      r.state.2.data = bytes.drop (4 * n) ∧
      (4 * n ≤ bytes.length → r = .returned r.state) ∧ (bytes.length < 4 * n → r = .threw r.state) := by
  have key : ∀ r, readBinary host old ⟨bytes, false⟩ bigEndian = .ok r →
      readBinaryX host old ⟨bytes, false⟩ bigEndian = .ok (if r.2.fail then .threw r else .returned r) := by
    intro r hr
    unfold readBinary at hr
    unfold readBinaryX
    dsimp only at hr ⊢
    generalize hb : (fun i (x : Aeu n × IStream) => (do
      let b ← rd x.1 (visit n bigEndian i)
      let r := x.2.read host b
      let this ← wr x.1 (visit n bigEndian i) r.2
      if r.1.fail then .ok (.leave (this, r.1)) else .ok (.next (this, r.1)) : Exec (Ctl (Aeu n × IStream) (Aeu n × IStream)))) = body at hr ⊢
    have hfail : ∀ k i s c, s.2.fail = false → forUpCN body k i s = .ok c →
        CtlP (fun s => s.2.fail = false) (fun s => s.2.fail = true) c := by
      intro k
      induction k with
      | zero => intro i s c hs hc; cases hc; exact hs
      | succ k ih =>
        intro i s c hs hc
        simp only [forUpCN] at hc
        cases hbd : body i s with
        | error e => rw [hbd] at hc; simp at hc
        | ok c' =>
          rw [hbd] at hc
          have hc' : CtlP (fun s => s.2.fail = false) (fun s => s.2.fail = true) c' := by
            clear hc
            subst hb
            dsimp only at hbd
            revert hbd
            cases rd s.1 (visit n bigEndian i) with
            | error e => simp
            | ok b =>
              simp only [ok_bind]
              cases wr s.1 (visit n bigEndian i) (s.2.read host b).2 with
              | error e => simp
              | ok t =>
                simp only [ok_bind]
                split
                · rename_i h; intro h'; cases h'; exact h
                · rename_i h; intro h'; cases h'; simpa using h
          cases c' with
          | next s' => exact ih _ _ _ hc' hc
          | leave s' => cases hc; exact hc'
    cases hl : forUpC 0 n (old.map fun _ => (0 : Block), (⟨bytes, false⟩ : IStream)) body with
    | error e => rw [hl] at hr; simp at hr
    | ok c =>
      rw [hl] at hr
      have := hfail _ _ _ _ rfl hl
      cases c with
      | next s => cases hr; simp only [ctlP_next, ctlP_leave] at this; simp [this]
      | leave s => cases hr; simp only [ctlP_next, ctlP_leave] at this; simp [this]
  obtain ⟨r, h1, h2, h3, h4⟩ := C33_read host old bigEndian bytes
  refine ⟨_, key r h1, ?_⟩
  cases hf : r.2.fail with
  | true =>
    have := h4.1 hf
    exact ⟨h2, h3, fun h => by omega, fun _ => rfl⟩
  | false =>
    have : ¬ bytes.length < 4 * n := fun h => by rw [h4.2 h] at hf; simp at hf
    exact ⟨h2, h3, fun _ => rfl, fun h => absurd h this⟩

/-! ### `writeBinary` -/

/-- C105, the part that is false of the code: an exception of the stream never ends the program. -/
def C105_full : Prop :=
  ∀ (n : Nat) (host : Host) (bigEndian : Bool) (a : Aeu n) (before : List (BitVec 8)) (room : Nat) (os : BSink),
    writeBinaryX host a ⟨before, room, false⟩ bigEndian ≠ .ok (.terminated os)

/-- The exact behaviour of `writeBinary`: if the stream takes all bytes the call returns; otherwise the program ends
with the bytes that fit in the stream. -/
theorem C105_write_exact (host : Host) (bigEndian : Bool) (a : Aeu n) (before : List (BitVec 8)) :
    ∃ image : List (BitVec 8), image.length = 4 * n ∧
      (∀ p, p < 4 * n → (image.getD p 0).toNat = byteOf (toNat a) (byteIndex host bigEndian n p)) ∧
      ∀ room, Sat (writeBinaryX host a ⟨before, room, false⟩ bigEndian) fun r =>
        r.state.out = before ++ image.take room ∧ (4 * n ≤ room → r = .returned r.state) ∧
        (room < 4 * n → r = .terminated r.state) := by
  obtain ⟨image, g1, g2, g3⟩ := C33_write_prefix host bigEndian a before
  refine ⟨image, g1, g2, fun room => ?_⟩
  have key : ∀ r, writeBinary host a ⟨before, room, false⟩ bigEndian = .ok r →
      writeBinaryX host a ⟨before, room, false⟩ bigEndian = .ok (if r.fail then .terminated r else .returned r) := by
    intro r hr
    unfold writeBinary at hr
    unfold writeBinaryX
    dsimp only at hr ⊢
    generalize hb : (fun i (os : BSink) => (do
      let b ← rd a (visit n bigEndian i)
      if (os.write [blockByte host b 0, blockByte host b 1, blockByte host b 2, blockByte host b 3]).fail = true then
        .ok (.leave (os.write [blockByte host b 0, blockByte host b 1, blockByte host b 2, blockByte host b 3]))
      else .ok (.next (os.write [blockByte host b 0, blockByte host b 1, blockByte host b 2, blockByte host b 3]))
        : Exec (Ctl BSink BSink))) = body at hr ⊢
    have hfail : ∀ k i s c, s.fail = false → forUpCN body k i s = .ok c →
        CtlP (fun s => s.fail = false) (fun s => s.fail = true) c := by
      intro k
      induction k with
      | zero => intro i s c hs hc; cases hc; exact hs
      | succ k ih =>
        intro i s c hs hc
        simp only [forUpCN] at hc
        cases hbd : body i s with
        | error e => rw [hbd] at hc; simp at hc
        | ok c' =>
          rw [hbd] at hc
          have hc' : CtlP (fun s => s.fail = false) (fun s => s.fail = true) c' := by
            clear hc
            subst hb
            dsimp only at hbd
            revert hbd
            cases rd a (visit n bigEndian i) with
            | error e => simp
            | ok b =>
              simp only [ok_bind]
              split
              · rename_i h; intro h'; cases h'; exact h
              · rename_i h; intro h'; cases h'; simpa using h
          cases c' with
          | next s' => exact ih _ _ _ hc' hc
          | leave s' => cases hc; exact hc'
    cases hl : forUpC 0 n (⟨before, room, false⟩ : BSink) body with
    | error e => rw [hl] at hr; simp at hr
    | ok c =>
      rw [hl] at hr
      have := hfail _ _ _ _ rfl hl
      cases c with
      | next s => cases hr; simp only [ctlP_next, ctlP_leave] at this; simp [this]
      | leave s => cases hr; simp only [ctlP_next, ctlP_leave] at this; simp [this]
  obtain ⟨r, h1, h2, h3⟩ := g3 room
  refine ⟨_, key r h1, ?_⟩
  cases hf : r.fail with
  | true =>
    have := h3.1 hf
    exact ⟨h2, fun h => by omega, fun _ => rfl⟩
  | false =>
    have : ¬ room < 4 * n := fun h => by rw [h3.2 h] at hf; simp at hf
    exact ⟨h2, fun _ => rfl, fun h => absurd h this⟩

/-- What holds of the full statement: with room for the whole number the program goes on. -/
theorem C105_write_partial (host : Host) (bigEndian : Bool) (a : Aeu n) (before : List (BitVec 8)) (room : Nat)
    (h : 4 * n ≤ room) : ∃ os, writeBinaryX host a ⟨before, room, false⟩ bigEndian = .ok (.returned os) := by
  obtain ⟨image, _, _, g⟩ := C105_write_exact host bigEndian a before
  obtain ⟨r, h1, _, h2, _⟩ := g room
  exact ⟨r.state, by rw [h1, ← h2 h]⟩

/-- A full disk ends the program: the 16 bytes of an `Aeu128` on a stream with room for 5. -/
theorem C105_counterexample :
    writeBinaryX .little (#v[0x03020100#32, 0x07060504#32, 0x0b0a0908#32, 0x0f0e0d0c#32] : Aeu 4) ⟨[], 5, false⟩ false =
      .ok (.terminated ⟨[0#8, 1#8, 2#8, 3#8, 4#8], 0, true⟩) := by decide +kernel

/-- Hence the full statement is false of the code. -/
theorem C105_full_fails : ¬ C105_full := fun h => h 4 .little false _ [] 5 _ C105_counterexample

example := C105_write_partial (n := 4) .little true #v[1#32, 2#32, 3#32, 4#32] [7#8] 16 (by decide)

/-- An `Aeu64` with five bytes left: the exception passes, the object has the five bytes. -/
example : readBinaryX .little (#v[9#32, 9#32] : Aeu 2) ⟨[1#8, 2#8, 3#8, 4#8, 5#8], false⟩ false =
    .ok (.threw (#v[0x04030201#32, 5#32], ⟨[], true⟩)) := by decide +kernel

private def dec0 : OStream := ⟨.other, true, false, .unset, 32, 0, []⟩

/-- `os << 4294967301 << " " << -7` prints 13 characters; with room for 5 the exception comes in the first number. -/
private def stmt : List Ins :=
  [.num 2 21 #v[5#32, 1#32], .text [32], .snum 2 21 ⟨.negative, #v[7#32, 0#32]⟩]

private theorem stmt_ok : printAll ⟨false, true, true⟩ stmt dec0 =
    .ok { dec0 with out := [52, 50, 57, 52, 57, 54, 55, 51, 48, 49, 32, 45, 55] } := by decide +kernel

example := (C105_text ⟨false, true, true⟩ stmt dec0 5 _ stmt_ok).2 (by decide)

end AesiMP
