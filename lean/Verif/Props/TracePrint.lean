import Verif.Props.Signed
import Verif.Props.TraceGcd

/-!
# C117: what the blocks touched by printing tell
-/

namespace AesiMP
open Aeu Counted

namespace Work
variable {n : Nat}

theorem isZero_test (hn : 0 < n) (a : Aeu n) : ∃ p, p < n ∧ (isZero a).run = .ok (decide (toNat a = 0)) ∧
    (isZero a).trace = scan n p := by
  obtain ⟨k, hk, hkn, h1, h2⟩ := filled_run a
  refine ⟨k - 1, by omega, ?_, ?_⟩
  · unfold isZero
    rw [run_bind, hk, ok_bind]
    by_cases h0 : k = 0
    · subst h0
      have : toNat a = 0 := by simpa using h1
      simp [this]
    · simp [h0, h2 h0]
  · unfold isZero
    rw [trace_bind _ _ hk, filled_scan hn a hk]
    exact List.append_nil _

theorem scan_reads (n p : Nat) : ∀ x ∈ scan n p, x.writes = false := by
  unfold scan
  have : ∀ len, ∀ x ∈ down p len, x.writes = false := by
    intro len
    induction len with
    | zero => intro x hx; simp [down] at hx
    | succ len ih =>
      intro x hx
      rw [down] at hx
      rcases List.mem_cons.mp hx with rfl | hx
      · rfl
      · exact ih x hx
  exact this _

/-- One digit (Aeu.h:1344-1349, 1413-1417). -/
def digitRound (cfg : Cfg) {w : Nat} (base : BitVec w) (cap : Nat) : Aeu n × Vector Int cap × Nat →
    Counted (Ctl (Aeu n × Vector Int cap × Nat) (Vector Int cap × Nat)) := fun (copy, buffer, position) => do
  let z ← isZero copy
  if !z && position < cap then do
    let b ← ofUnsigned n base
    let qr ← divide cfg copy b
    let d ← integralCast .u8 qr.2
    let buffer ← Counted.lift (AesiMP.wr buffer position (48 + d))
    pure (.next (qr.1, buffer, position + 1))
  else pure (.leave (buffer, position))

theorem base_head (hn : 0 < n) {w : Nat} (base : BitVec w) (hb : base ≠ 0#w) :
    ∃ t, (ofUnsigned n base).trace = ⟨true, 0⟩ :: t := by
  unfold ofUnsigned
  rw [if_pos hb]
  obtain ⟨t, ht⟩ := trace_bind_prefix (Counted.forUp 0 n (zero n, base.setWidth 64) fun i (blocks, tValue) => do
      let blocks ← Counted.wr blocks i (toBlock (tValue % blockBase))
      pure (blocks, tValue / blockBase)) fun r => (pure r.1 : Counted (Aeu n))
  rw [ht]
  obtain ⟨k, rfl⟩ : ∃ k, n = k + 1 := ⟨n - 1, by omega⟩
  unfold Counted.forUp
  rw [show k + 1 - 0 = k + 1 from rfl, Counted.forUpN]
  simp only
  obtain ⟨t1, h1⟩ := trace_bind_prefix (Counted.wr (zero (k + 1)) 0 (toBlock (base.setWidth 64 % blockBase)) >>=
    fun blocks => (pure (blocks, base.setWidth 64 / blockBase) : Counted (Aeu (k + 1) × U64)))
    fun s' => Counted.forUpN (fun i (x : Aeu (k + 1) × U64) => do
      let blocks ← Counted.wr x.1 i (toBlock (x.2 % blockBase))
      pure (blocks, x.2 / blockBase)) k (0 + 1) s'
  obtain ⟨t2, h2⟩ := trace_bind_prefix (Counted.wr (zero (k + 1)) 0 (toBlock (base.setWidth 64 % blockBase)))
    fun blocks => (pure (blocks, base.setWidth 64 / blockBase) : Counted (Aeu (k + 1) × U64))
  refine ⟨t2 ++ t1 ++ t, ?_⟩
  refine (congrArg (· ++ t) (h1.trans (congrArg (· ++ t1) h2))).trans ?_
  show [_] ++ t2 ++ t1 ++ t = _
  simp

theorem cast_trace (hn : 2 ≤ n) (t : ITy) (a : Aeu n) :
    (integralCast t a).trace = [⟨false, 1⟩, ⟨false, 0⟩] ∧ ∃ v, (integralCast t a).run = .ok v := by
  have h1 : (Counted.rd a 1).run = .ok a[1] := by
    rw [run_rd]; simp only [AesiMP.rd]; rw [dif_pos (by omega)]
  have h0 : (Counted.rd a 0).run = .ok a[0] := by
    rw [run_rd]; simp only [AesiMP.rd]; rw [dif_pos (by omega)]
  have hs : (Counted.lift (shl64 (toU64 a[1]) 32)).run = .ok (toU64 a[1] <<< 32) := by
    rw [run_lift]; simp [shl64]
  have hl : (low64 a).run = .ok (toU64 a[1] <<< 32 ||| toU64 a[0]) := by
    unfold low64
    simp only [run_bind, h1, ok_bind, hs, h0]; rfl
  constructor
  · unfold integralCast
    rw [trace_bind _ _ hl]
    unfold low64
    rw [trace_bind _ _ h1, trace_bind _ _ hs, trace_bind _ _ h0]
    rfl
  · exact ⟨_, by unfold integralCast; rw [run_bind, hl, ok_bind]; rfl⟩

/-- The accesses of the digits of zero. -/
theorem digits_zero (cfg : Cfg) (hn : 0 < n) {w : Nat} (base : BitVec w) {cap : Nat} (f : Nat) (a : Aeu n)
    (h0 : toNat a = 0) (buffer : Vector Int cap) (position : Nat) :
    (Counted.whileC (f + 1) (a, buffer, position) (digitRound cfg base cap)).trace = (isZero a).trace := by
  obtain ⟨p, -, hz, -⟩ := isZero_test hn a
  rw [decide_eq_true h0] at hz
  have hr : (digitRound cfg base cap (a, buffer, position)).run = .ok (.leave (buffer, position)) := by
    unfold digitRound
    simp only [run_bind, hz, ok_bind]; rfl
  have ht : (digitRound cfg base cap (a, buffer, position)).trace = (isZero a).trace := by
    unfold digitRound
    simp only
    rw [trace_bind _ _ hz]
    exact List.append_nil _
  rw [whileC_succ, trace_bind _ _ hr, ht]
  exact List.append_nil _

/-- The accesses of the first digit, and what follows. -/
theorem digits_next (cfg : Cfg) (hn : 2 ≤ n) {w : Nat} (base : BitVec w) (B : Aeu n)
    (hB : (ofUnsigned n base).run = .ok B) {cap : Nat} (f : Nat) (a : Aeu n)
    (h0 : toNat a ≠ 0) (buffer : Vector Int cap) {position : Nat} (hp : position < cap) :
    ∃ s : Aeu n × Vector Int cap × Nat, (Counted.whileC (f + 1) (a, buffer, position) (digitRound cfg base cap)).trace = (isZero a).trace ++
      ((ofUnsigned n base).trace ++ ((divide cfg a B).trace ++ ([⟨false, 1⟩, ⟨false, 0⟩] ++
        (Counted.whileC f s (digitRound cfg base cap)).trace))) := by
  obtain ⟨p, -, hz, -⟩ := isZero_test (show 0 < n by omega) a
  rw [decide_eq_false h0] at hz
  obtain ⟨q, hq⟩ := divide_run cfg (show 0 < n by omega) a B
  obtain ⟨ht, d, hd⟩ := cast_trace hn .u8 q.2
  have hw : (Counted.lift (AesiMP.wr buffer position (48 + d))).run = .ok (buffer.set position (48 + d) hp) := by
    rw [run_lift]; simp only [AesiMP.wr]; rw [dif_pos hp]
  have hr : (digitRound cfg base cap (a, buffer, position)).run =
      .ok (.next (q.1, buffer.set position (48 + d) hp, position + 1)) := by
    unfold digitRound
    simp only [run_bind, hz, ok_bind, Bool.not_false, Bool.true_and, decide_eq_true hp, if_true, hB, hq, hd, hw]
    rfl
  have htr : (digitRound cfg base cap (a, buffer, position)).trace = (isZero a).trace ++
      ((ofUnsigned n base).trace ++ ((divide cfg a B).trace ++ [⟨false, 1⟩, ⟨false, 0⟩])) := by
    unfold digitRound
    simp only
    rw [trace_bind _ _ hz]
    simp only [Bool.not_false, Bool.true_and, decide_eq_true hp, if_true]
    rw [trace_bind _ _ hB, trace_bind _ _ hq, trace_bind _ _ hd, trace_bind _ _ hw, ht]
    rfl
  refine ⟨(q.1, buffer.set position (48 + d) hp, position + 1), ?_⟩
  rw [whileC_succ, trace_bind _ _ hr, htr]
  simp only [List.append_assoc]

theorem digits_low (cfg : Cfg) (hn : 2 ≤ n) {w : Nat} (hw : w ≤ 64) (base : BitVec w) (hb : base ≠ 0#w) {cap : Nat} (f : Nat)
    (s : Aeu n × Vector Int cap × Nat) : LowFirst (Counted.whileC f s (digitRound cfg base cap)).trace := by
  obtain ⟨a, buffer, position⟩ := s
  cases f with
  | zero => exact LowFirst.nil
  | succ f =>
    obtain ⟨p, -, hz, ht⟩ := isZero_test (show 0 < n by omega) a
    rw [whileC_succ]
    obtain ⟨t, hpre⟩ := trace_bind_prefix (digitRound cfg base cap (a, buffer, position)) fun c =>
      match c with
      | .next s' => Counted.whileC f s' (digitRound cfg base cap)
      | .leave r => pure r
    by_cases h0 : toNat a = 0
    · have := digits_zero cfg (by omega) base f a h0 buffer position
      rw [whileC_succ] at this
      rw [this, ht]
      exact (List.append_nil (scan n p)) ▸ LowFirst.reads (scan_reads n p) LowFirst.nil
    · by_cases hp : position < cap
      · obtain ⟨B, hB⟩ : ∃ B, (ofUnsigned n base).run = .ok B := by
          obtain ⟨B, h, -⟩ := ofUnsigned_spec (n := n) hw base
          exact ⟨B, by rw [run_ofUnsigned]; exact h⟩
        obtain ⟨s, hs⟩ := digits_next cfg hn base B hB f a h0 buffer hp
        rw [whileC_succ] at hs
        rw [hs, ht]
        obtain ⟨t, ht⟩ := base_head (show 0 < n by omega) base hb
        rw [ht]
        exact LowFirst.reads (scan_reads n p) LowFirst.write
      · rw [decide_eq_false h0] at hz
        have hr : (digitRound cfg base cap (a, buffer, position)).run = .ok (.leave (buffer, position)) := by
          unfold digitRound
          simp only [run_bind, hz, ok_bind, decide_eq_false hp, Bool.and_false]; rfl
        have htr : (digitRound cfg base cap (a, buffer, position)).trace = scan n p := by
          unfold digitRound
          simp only
          rw [trace_bind _ _ hz, ht]
          simp only [decide_eq_false hp, Bool.and_false]
          exact List.append_nil _
        rw [trace_bind _ _ hr, htr]
        exact LowFirst.reads (scan_reads n p) LowFirst.nil

/-- Two runs of the loop for the digits, each after a test for zero, tell all digits but the last. -/
theorem digits_tell (cfg : Cfg) (hn : 2 ≤ n) {w : Nat} (hw : w ≤ 64) (base : BitVec w) (hb : base ≠ 0#w) (B : Aeu n)
    (hB : (ofUnsigned n base).run = .ok B) {cap : Nat} (f : Nat) (a a' : Aeu n) (h0 : toNat a ≠ 0) (h0' : toNat a' ≠ 0)
    (buffer buffer' : Vector Int cap) {position : Nat} (hp : position < cap)
    (h : (isZero a).trace ++ (Counted.whileC (f + 1) (a, buffer, position) (digitRound cfg base cap)).trace =
      (isZero a').trace ++ (Counted.whileC (f + 1) (a', buffer', position) (digitRound cfg base cap)).trace) :
    ∃ x y y', (divide cfg a B).run = .ok (x, y) ∧ (divide cfg a' B).run = .ok (x, y') := by
  obtain ⟨s, hs⟩ := digits_next cfg hn base B hB f a h0 buffer hp
  obtain ⟨s', hs'⟩ := digits_next cfg hn base B hB f a' h0' buffer' hp
  obtain ⟨p, hpn, -, ht⟩ := isZero_test (show 0 < n by omega) a
  obtain ⟨p', hpn', -, ht'⟩ := isZero_test (show 0 < n by omega) a'
  rw [hs, hs', ht, ht'] at h
  obtain ⟨rfl, h⟩ := scan_split hpn hpn' (scan_top hpn _) (scan_top hpn' _) h
  have h := List.append_cancel_left (List.append_cancel_left h)
  have next : ∀ Z : List Touch, Next n ([⟨false, 1⟩, ⟨false, 0⟩] ++ Z) := fun Z => Or.inr (Or.inr ⟨Z, rfl⟩)
  have low : ∀ s : Aeu n × Vector Int cap × Nat,
      ReadFirst ([⟨false, 1⟩, ⟨false, 0⟩] ++ (Counted.whileC f s (digitRound cfg base cap)).trace) ∧
      LowFirst ([⟨false, 1⟩, ⟨false, 0⟩] ++ (Counted.whileC f s (digitRound cfg base cap)).trace) := fun s =>
    ⟨fun i t => by simp, LowFirst.read (LowFirst.read (digits_low cfg hn hw base hb f s))⟩
  exact (trace_divide_split_gen cfg hn a B a' B (next _) (next _) (Or.inl (low s)) (Or.inl (low s')) h).2

/-- All digits but the last. -/
theorem digits_quotient (cfg : Cfg) (hn : 2 ≤ n) {w : Nat} (hw : w ≤ 64) (base : BitVec w) (hb : base ≠ 0#w)
    {cap : Nat} (f : Nat) (a a' : Aeu n) (h0 : toNat a ≠ 0) (h0' : toNat a' ≠ 0)
    (buffer buffer' : Vector Int cap) {position : Nat} (hp : position < cap)
    (h : (isZero a).trace ++ (Counted.whileC (f + 1) (a, buffer, position) (digitRound cfg base cap)).trace =
      (isZero a').trace ++ (Counted.whileC (f + 1) (a', buffer', position) (digitRound cfg base cap)).trace) :
    toNat a / base.toNat = toNat a' / base.toNat := by
  obtain ⟨B, hB, hv⟩ := ofUnsigned_spec (n := n) hw base
  have hlt : base.toNat < 2 ^ (32 * n) := lt_of_lt_of_le base.isLt (Nat.pow_le_pow_right (by norm_num) (by omega))
  rw [Nat.mod_eq_of_lt hlt] at hv
  have hB0 : toNat B ≠ 0 := by
    rw [hv]; intro h; exact hb (BitVec.eq_of_toNat_eq (by simpa using h))
  obtain ⟨x, y, y', h1, h2⟩ := digits_tell cfg hn hw base hb B (by rw [run_ofUnsigned]; exact hB) f a a' h0 h0' buffer
    buffer' hp h
  rw [run_divide] at h1 h2
  have s1 := divide_spec cfg (by omega) a B hB0
  have s2 := divide_spec cfg (by omega) a' B hB0
  rw [h1, sat_ok] at s1
  rw [h2, sat_ok] at s2
  rw [← hv, ← s1.1, ← s2.1]

/-- A number other than zero is not printed with the accesses of zero. -/
theorem digits_not_zero (cfg : Cfg) (hn : 2 ≤ n) {w : Nat} (hw : w ≤ 64) (base : BitVec w) (hb : base ≠ 0#w)
    {cap : Nat} (f : Nat) (a : Aeu n) (h0 : toNat a ≠ 0) (buffer : Vector Int cap) {position : Nat}
    (hp : position < cap) {r : List Touch} (hr : ∀ x ∈ r, x.writes = false) :
    (isZero a).trace ++ (Counted.whileC (f + 1) (a, buffer, position) (digitRound cfg base cap)).trace ≠ r := by
  intro h
  obtain ⟨B, hB, -⟩ := ofUnsigned_spec (n := n) hw base
  obtain ⟨s, hs⟩ := digits_next cfg hn base B (by rw [run_ofUnsigned]; exact hB) f a h0 buffer hp
  obtain ⟨t, ht⟩ := base_head (show 0 < n by omega) base hb
  have := hr ⟨true, 0⟩ (by rw [← h, hs, ht]; simp)
  simp at this

theorem prefix_ok (base : BitVec 8) (showBase : Bool) {cap : Nat} (hc : 2 ≤ cap) : ∃ p, p < cap ∧
    ∀ buffer : Vector Int cap, ∃ b, writePrefix base showBase buffer = .ok (b, p) := by
  by_cases h : showBase ∧ cap > 3
  · have hw : ∀ (b : Vector Int cap) (i : Nat) (v : Int), i < 2 → ∃ b', AesiMP.wr b i v = .ok b' := by
      intro b i v hi
      exact ⟨_, by simp only [AesiMP.wr]; rw [dif_pos (show i < cap by omega)]⟩
    by_cases h2 : base = 2#8 ∨ base = 8#8 ∨ base = 16#8
    · refine ⟨2, by omega, fun buffer => ?_⟩
      obtain ⟨b1, e1⟩ := hw buffer 0 48 (by omega)
      unfold writePrefix
      rw [if_pos h]
      rcases h2 with rfl | rfl | rfl
      · obtain ⟨b2, e2⟩ := hw b1 1 98 (by omega)
        exact ⟨b2, by simp [e1, e2]⟩
      · obtain ⟨b2, e2⟩ := hw b1 1 111 (by omega)
        exact ⟨b2, by simp [e1, e2]⟩
      · obtain ⟨b2, e2⟩ := hw b1 1 120 (by omega)
        exact ⟨b2, by simp [e1, e2]⟩
    · refine ⟨0, by omega, fun buffer => ⟨buffer, ?_⟩⟩
      unfold writePrefix
      rw [if_pos h, if_neg (by tauto), if_neg (by tauto), if_neg (by tauto)]
  · exact ⟨0, by omega, fun buffer => ⟨buffer, by unfold writePrefix; rw [if_neg h]⟩⟩

/-- The accesses of `getString` in a base other than 16. -/
theorem getString_trace (cfg : Cfg) (kind : CharKind) (hn : 0 < n) (base : BitVec 8) (h16 : base ≠ 16#8)
    (upper showBase : Bool) {cap : Nat} (hc : 2 ≤ cap) : ∃ p, p < cap ∧ ∀ (a : Aeu n) (buffer : Vector Int cap),
    ∃ b : Vector Int cap, (getString cfg kind base upper a buffer showBase).trace = (isZero a).trace ++
      if toNat a = 0 then [] else (Counted.whileC (cap + 1) (a, b, p) (digitRound cfg base cap)).trace := by
  obtain ⟨p, hp, hw⟩ := prefix_ok base showBase hc
  refine ⟨p, hp, fun a buffer => ?_⟩
  obtain ⟨b, hb⟩ := hw buffer
  refine ⟨b, ?_⟩
  obtain ⟨-, -, hz, -⟩ := isZero_test hn a
  have hl : (Counted.lift (writePrefix base showBase buffer)).run = .ok (b, p) := by rw [run_lift]; exact hb
  unfold getString
  rw [if_neg (by omega), trace_bind _ _ hl, trace_bind _ _ hz]
  by_cases h0 : toNat a = 0
  · simp only [h0, decide_true, if_true]
    refine (congrArg (fun x => _ ++ (_ ++ x)) (trace_bind_nil _ _ fun _ => rfl)).trans ?_
    rfl
  · simp only [h0, decide_false, Bool.false_eq_true, if_false]
    rw [trace_bind_nil _ _ fun r => trace_bind_nil _ _ fun _ => rfl]
    unfold getStringBody
    rw [if_neg h16]
    unfold getStringDigits
    rw [trace_bind_nil _ _ fun r => trace_bind_nil _ _ fun _ => rfl]
    rfl

/-- The accesses of stream output in a base other than 16. -/
theorem streamOut_trace (cfg : Cfg) (hn : 0 < n) {bufferSize : Nat} (os : OStream)
    (h16 : streamBase os.basefield ≠ 16#32) (a : Aeu n) :
    (streamOut cfg bufferSize os a).trace = (isZero a).trace ++
      if toNat a = 0 then [] else (Counted.whileC (bufferSize + 1) (a, Vector.replicate bufferSize (0 : Int), 0)
        (digitRound cfg (streamBase os.basefield) bufferSize)).trace := by
  obtain ⟨-, -, hz, -⟩ := isZero_test hn a
  unfold streamOut
  simp only
  rw [trace_bind _ _ hz]
  by_cases h0 : toNat a = 0
  · simp only [h0, decide_true, if_true]
    rfl
  · simp only [h0, decide_false, Bool.false_eq_true, if_false]
    rw [if_neg h16]
    unfold streamDigits
    rw [trace_bind_nil _ _ fun r => rfl]
    rfl

end Work

variable {n : Nat}

private theorem printed (cfg : Cfg) (hn : 2 ≤ n) {w : Nat} (hw : w ≤ 64) (base : BitVec w) (hb : base ≠ 0#w)
    {cap p : Nat} (f : Nat) (hp : p < cap) (a a' : Aeu n) (b b' : Vector Int cap)
    (h : ((Work.isZero a).trace ++ if toNat a = 0 then [] else
        (Counted.whileC (f + 1) (a, b, p) (Work.digitRound cfg base cap)).trace) =
      (Work.isZero a').trace ++ if toNat a' = 0 then [] else
        (Counted.whileC (f + 1) (a', b', p) (Work.digitRound cfg base cap)).trace) :
    toNat a / base.toNat = toNat a' / base.toNat := by
  have reads : ∀ x : Aeu n, ∀ y ∈ (Work.isZero x).trace, y.writes = false := by
    intro x
    obtain ⟨p, -, -, ht⟩ := Work.isZero_test (show 0 < n by omega) x
    rw [ht]; exact Work.scan_reads n p
  by_cases h0 : toNat a = 0 <;> by_cases h0' : toNat a' = 0
  · rw [h0, h0']
  · rw [if_pos h0, if_neg h0', List.append_nil] at h
    exact absurd h.symm (Work.digits_not_zero cfg hn hw base hb f a' h0' b' hp (reads a))
  · rw [if_neg h0, if_pos h0', List.append_nil] at h
    exact absurd h (Work.digits_not_zero cfg hn hw base hb f a h0 b hp (reads a'))
  · rw [if_neg h0, if_neg h0'] at h
    exact Work.digits_quotient cfg hn hw base hb f a a' h0 h0' b b' hp h

/-- C117: two numbers written by `getString` in a base other than 16 with the same block accesses agree in all digits but
the last. -/
theorem C117_text (cfg : Cfg) (kind : CharKind) (hn : 2 ≤ n) (base : BitVec 8) (hb : base ≠ 0#8) (h16 : base ≠ 16#8)
    (upper showBase : Bool) {cap : Nat} (hc : 2 ≤ cap) (a a' : Aeu n) (buffer buffer' : Vector Int cap)
    (h : (Work.getString cfg kind base upper a buffer showBase).trace =
      (Work.getString cfg kind base upper a' buffer' showBase).trace) :
    toNat a / base.toNat = toNat a' / base.toNat := by
  obtain ⟨p, hp, ht⟩ := Work.getString_trace (n := n) cfg kind (by omega) base h16 upper showBase hc
  obtain ⟨b, e⟩ := ht a buffer
  obtain ⟨b', e'⟩ := ht a' buffer'
  rw [e, e'] at h
  exact printed cfg hn (by norm_num) base hb cap hp a a' b b' h

/-- C117: the same for output to a stream in decimal or octal. -/
theorem C117_stream (cfg : Cfg) (hn : 2 ≤ n) {bufferSize : Nat} (hs : 0 < bufferSize) (os : OStream)
    (h16 : os.basefield ≠ .hex) (a a' : Aeu n)
    (h : (Work.streamOut cfg bufferSize os a).trace = (Work.streamOut cfg bufferSize os a').trace) :
    toNat a / (if os.basefield = .oct then 8 else 10) = toNat a' / (if os.basefield = .oct then 8 else 10) := by
  have hb : streamBase os.basefield ≠ 16#32 ∧ streamBase os.basefield ≠ 0#32 ∧
      (streamBase os.basefield).toNat = if os.basefield = .oct then 8 else 10 := by
    cases he : os.basefield with
    | hex => exact absurd he h16
    | oct => simp [streamBase]
    | other => simp [streamBase]
  rw [Work.streamOut_trace cfg (by omega) os hb.1 a, Work.streamOut_trace cfg (by omega) os hb.1 a'] at h
  rw [← hb.2.2]
  exact printed cfg hn (by norm_num) _ hb.2.1 bufferSize hs a a' _ _ h

/-! ### Hexadecimal -/

namespace Work

theorem scanDown_run (hn : 0 < n) (a : Aeu n) : ∃ l, (scanDown a (n - 1)).run = .ok l ∧ l < n ∧
    toNat a < 2 ^ (32 * (l + 1)) ∧ (0 < l → 2 ^ (32 * l) ≤ toNat a) := by
  obtain ⟨l, hl, h1, h2, h3⟩ := scanDown_spec a (n - 1) (by omega)
  refine ⟨l, by rw [run_scanDown, hl], by omega, ?_, fun h => toNat_ge_of_dig_ne (h3 h)⟩
  refine toNat_lt_of_high_zero (by omega) fun i hi => ?_
  by_cases hin : i < n
  · exact h2 i (by omega) (by omega)
  · exact dig_of_ge (by omega)

theorem scanDown_trace (a : Aeu n) : ∀ k l, k < n → (scanDown a k).run = .ok l →
    (scanDown a k).trace = down (max l 1) (k + 1 - max l 1)
  | 0, l, _, h => by
    have : l = 0 := by
      have h : (Except.ok 0 : Exec Nat) = .ok l := h
      exact (Except.ok.inj h).symm
    subst this; rfl
  | k + 1, l, hk, h => by
    have hr : (Counted.rd a (k + 1)).run = .ok a[k + 1] := by
      rw [run_rd]; simp only [AesiMP.rd]; rw [dif_pos hk]
    rw [scanDown, run_bind, hr, ok_bind] at h
    rw [scanDown, trace_bind _ _ hr]
    by_cases hz : a[k + 1] = 0#32
    · rw [if_pos hz] at h ⊢
      have hle := scanDown_le a k h
      rw [scanDown_trace a k l (by omega) h, show k + 1 + 1 - max l 1 = (k + 1 - max l 1) + 1 by omega, down,
        show max l 1 + (k + 1 - max l 1) = k + 1 by omega]
      rfl
    · rw [if_neg hz] at h ⊢
      have : l = k + 1 := (Except.ok.inj (show (Except.ok (k + 1) : Exec Nat) = .ok l from h)).symm
      subst this
      rw [show max (k + 1) 1 = k + 1 by omega, show k + 1 + 1 - (k + 1) = 1 by omega, down]
      rfl

theorem down_of_ok {σ : Type} (body : Nat → σ → Counted σ) (hb : ∀ i s, (body i s).trace = [⟨false, i⟩]) :
    ∀ k s v, (Counted.forDownN 0 body k s).run = .ok v → (Counted.forDownN 0 body k s).trace = down 0 k
  | 0, _, _, _ => rfl
  | k + 1, s, v, h => by
    rw [Counted.forDownN, run_bind] at h
    cases hr : (body (0 + k) s).run with
    | error e => rw [hr] at h; simp at h
    | ok s' =>
      rw [hr, ok_bind] at h
      rw [Counted.forDownN, trace_bind _ _ hr, hb, down_of_ok body hb k s' v h, down]
      rfl

/-- The accesses of the blocks of a number with `l + 1` blocks, when they are written in hexadecimal. -/
def hexReads (n l : Nat) : List Touch :=
  down (max l 1) (n - max l 1) ++ (⟨false, l⟩ :: down 0 l)

theorem getStringHex_trace (kind : CharKind) (upper : Bool) (hn : 0 < n) (a : Aeu n) {cap : Nat} (b : Vector Int cap)
    (p : Nat) {v : Vector Int cap × Nat} (h : (getStringHex kind upper a b p).run = .ok v) {l : Nat}
    (hl : (scanDown a (n - 1)).run = .ok l) (hln : l < n) :
    (getStringHex kind upper a b p).trace = hexReads n l := by
  have hr : (Counted.rd a l).run = .ok a[l] := by
    rw [run_rd]; simp only [AesiMP.rd]; rw [dif_pos hln]
  unfold getStringHex at h ⊢
  rw [run_bind, hl, ok_bind, run_bind, hr, ok_bind, run_bind] at h
  rw [trace_bind _ _ hl, trace_bind _ _ hr, scanDown_trace a (n - 1) l (by omega) hl, Nat.sub_add_cancel hn]
  cases hs : (Counted.lift (snprintfAt kind b p (hexText upper a[l]))).run with
  | error e => rw [hs] at h; simp at h
  | ok r =>
    rw [hs, ok_bind] at h
    rw [trace_bind _ _ hs]
    unfold Counted.forDown at h ⊢
    rw [down_of_ok _ (fun i s => by
      obtain ⟨t, ht⟩ := trace_bind_prefix (Counted.rd a i) fun b =>
        Counted.lift (snprintfAt kind s.1 s.2 (hexText8 upper b)) >>= fun r =>
          (pure (r.1, (s.2 + r.2) % 2 ^ 64) : Counted (Vector Int cap × Nat))
      exact trace_bind_nil _ _ fun _ => trace_bind_nil _ _ fun _ => rfl) _ _ _ h]
    rfl

theorem streamHex_trace (hn : 0 < n) (os : OStream) (a : Aeu n) {l : Nat}
    (hl : (scanDown a (n - 1)).run = .ok l) (hln : l < n) : (streamHex os a).trace = hexReads n l := by
  have hr : (Counted.rd a l).run = .ok a[l] := by
    rw [run_rd]; simp only [AesiMP.rd]; rw [dif_pos hln]
  unfold streamHex
  rw [trace_bind _ _ hl, trace_bind _ _ hr, scanDown_trace a (n - 1) l (by omega) hl, Nat.sub_add_cancel hn]
  have key : ∀ k, k ≤ n → ∀ s : OStream, ∃ v, (Counted.forDownN 0 (fun iter (os : OStream) => do
      let b ← Counted.rd a iter
      pure (({ os with fill := 48, width := 8, adjust := .right } : OStream).putHex b)) k s).run = .ok v := by
    intro k
    induction k with
    | zero => intro _ s; exact ⟨s, rfl⟩
    | succ k ih =>
      intro hk s
      have hr : (Counted.rd a (0 + k)).run = .ok (a[0 + k]'(by omega)) := by
        rw [run_rd]; simp only [AesiMP.rd]; rw [dif_pos (by omega)]
      rw [Counted.forDownN, run_bind, run_bind, hr, ok_bind]
      exact ih (by omega) _
  obtain ⟨v, hv⟩ := key l (by omega) (os.putHex a[l])
  unfold Counted.forDown
  refine congrArg (fun x => _ ++ ([_] ++ x)) (down_of_ok _ (fun i s => ?_) _ _ _ hv)
  exact trace_bind_nil _ _ fun _ => rfl

theorem getString_hex_trace (cfg : Cfg) (kind : CharKind) (hn : 0 < n) (upper showBase : Bool) {cap : Nat} (hc : 2 ≤ cap)
    (a : Aeu n) (buffer : Vector Int cap) {v : Vector Int cap × Nat}
    (h : (getString cfg kind 16#8 upper a buffer showBase).run = .ok v) {l : Nat}
    (hl : (scanDown a (n - 1)).run = .ok l) (hln : l < n) :
    (getString cfg kind 16#8 upper a buffer showBase).trace =
      (isZero a).trace ++ if toNat a = 0 then [] else hexReads n l := by
  obtain ⟨p, hp, hw⟩ := prefix_ok 16#8 showBase hc
  obtain ⟨b, hb⟩ := hw buffer
  obtain ⟨-, -, hz, -⟩ := isZero_test hn a
  have hli : (Counted.lift (writePrefix 16#8 showBase buffer)).run = .ok (b, p) := by rw [run_lift]; exact hb
  unfold getString at h ⊢
  rw [if_neg (by omega), run_bind, hli, ok_bind, run_bind, hz, ok_bind] at h
  rw [if_neg (by omega), trace_bind _ _ hli, trace_bind _ _ hz]
  by_cases h0 : toNat a = 0
  · simp only [h0, decide_true, if_true]
    refine (congrArg (fun x => _ ++ (_ ++ x)) (trace_bind_nil _ _ fun _ => rfl)).trans ?_
    rfl
  · simp only [h0, decide_false, Bool.false_eq_true, if_false] at h ⊢
    rw [trace_bind_nil _ _ fun r => trace_bind_nil _ _ fun _ => rfl]
    unfold getStringBody at h ⊢
    rw [if_pos rfl] at h ⊢
    rw [run_bind] at h
    cases hg : (getStringHex kind upper a b p).run with
    | error e => rw [hg] at h; simp at h
    | ok r => rw [getStringHex_trace kind upper hn a b p hg hl hln]; rfl

theorem streamOut_hex_trace (cfg : Cfg) (hn : 0 < n) {bufferSize : Nat} (os : OStream) (hx : os.basefield = .hex)
    (a : Aeu n) {l : Nat} (hl : (scanDown a (n - 1)).run = .ok l) (hln : l < n) :
    (streamOut cfg bufferSize os a).trace = (isZero a).trace ++ if toNat a = 0 then [] else hexReads n l := by
  obtain ⟨-, -, hz, -⟩ := isZero_test hn a
  unfold streamOut
  simp only
  rw [trace_bind _ _ hz]
  by_cases h0 : toNat a = 0
  · simp only [h0, decide_true, if_true]
    rfl
  · simp only [h0, decide_false, Bool.false_eq_true, if_false]
    rw [if_pos (by rw [hx]; rfl), streamHex_trace hn _ a hl hln]

/-- The accesses tell exactly the length. -/
theorem hex_iff (hn : 2 ≤ n) (a a' : Aeu n) {l l' : Nat} (hl : (scanDown a (n - 1)).run = .ok l)
    (hl' : (scanDown a' (n - 1)).run = .ok l') :
    ((isZero a).trace ++ (if toNat a = 0 then [] else hexReads n l) =
      (isZero a').trace ++ if toNat a' = 0 then [] else hexReads n l') ↔
    ∀ i, toNat a < 2 ^ (32 * i) ↔ toNat a' < 2 ^ (32 * i) := by
  obtain ⟨k, hk, hkn, hv, hv0⟩ := filledBlocksNumber_nat a
  obtain ⟨k', hk', hkn', hv', hv0'⟩ := filledBlocksNumber_nat a'
  have len : (∀ i, toNat a < 2 ^ (32 * i) ↔ toNat a' < 2 ^ (32 * i)) ↔ k = k' := by
    constructor
    · intro h
      have h1 := (filled_le_iff hv hv0).mpr ((h k').mpr hv')
      have h2 := (filled_le_iff hv' hv0').mpr ((h k).mp hv)
      omega
    · rintro rfl i
      rw [← filled_le_iff hv hv0, ← filled_le_iff hv' hv0']
  have fl : ∀ (x : Aeu n) (k l : Nat), toNat x < 2 ^ (32 * k) → (0 < k → 2 ^ (32 * (k - 1)) ≤ toNat x) →
      (scanDown x (n - 1)).run = .ok l → l = k - 1 ∧ l < n := by
    intro x k l h1 h2 h3
    obtain ⟨j, hj, hjn, g1, g2⟩ := scanDown_run (show 0 < n by omega) x
    have : j = l := Except.ok.inj (hj.symm.trans h3)
    subst this
    refine ⟨?_, hjn⟩
    have a1 := (filled_le_iff h1 h2).mpr g1
    by_contra hne
    have : 2 ^ (32 * j) ≤ toNat x := g2 (by omega)
    have : toNat x < 2 ^ (32 * j) := lt_of_lt_of_le h1 (Nat.pow_le_pow_right (by norm_num) (by omega))
    omega
  obtain ⟨e1, m1⟩ := fl a k l hv hv0 hl
  obtain ⟨e2, m2⟩ := fl a' k' l' hv' hv0' hl'
  have z : ∀ (x : Aeu n) (k : Nat), toNat x < 2 ^ (32 * k) → (0 < k → 2 ^ (32 * (k - 1)) ≤ toNat x) →
      (toNat x = 0 ↔ k = 0) := by
    intro x k h1 h2
    constructor
    · intro h0
      by_contra hk
      have := h2 (by omega)
      have : 0 < 2 ^ (32 * (k - 1)) := Nat.pow_pos (by norm_num)
      omega
    · rintro rfl; simpa using h1
  have z1 := z a k hv hv0
  have z2 := z a' k' hv' hv0'
  have tr : ∀ (x : Aeu n) (k : Nat), Aeu.filledBlocksNumber x = .ok k → (isZero x).trace = scan n (k - 1) := by
    intro x k h
    have hr : (filledBlocksNumber x).run = .ok k := by rw [run_filledBlocksNumber, h]
    unfold isZero
    rw [trace_bind _ _ hr, filled_scan (by omega) x hr]
    exact List.append_nil _
  have dl : ∀ lo d, (down lo d).length = d := by
    intro lo d
    induction d with
    | zero => rfl
    | succ d ih => rw [down, List.length_cons, ih]
  have hlen : ∀ l, l < n → (hexReads n l).length = n - max l 1 + (1 + l) := by
    intro l _
    unfold hexReads
    rw [List.length_append, dl, List.length_cons, dl]; omega
  have top : ∀ l, l < n → Top n (hexReads n l) := by
    intro l hl
    unfold hexReads
    rw [show n - max l 1 = (n - max l 1 - 1) + 1 by omega, down, show max l 1 + (n - max l 1 - 1) = n - 1 by omega]
    exact ⟨_, rfl⟩
  have slen : ∀ p, (scan n p).length = n - p := fun p => dl _ _
  rw [len, tr a k hk, tr a' k' hk']
  constructor
  · intro h
    by_cases h0 : k = 0 <;> by_cases h0' : k' = 0
    · omega
    · rw [if_pos (z1.mpr h0), if_neg (fun e => h0' (z2.mp e))] at h
      have := congrArg List.length h
      rw [List.length_append, List.length_append, slen, slen, hlen l' m2] at this
      simp only [List.length_nil] at this
      omega
    · rw [if_neg (fun e => h0 (z1.mp e)), if_pos (z2.mpr h0')] at h
      have := congrArg List.length h
      rw [List.length_append, List.length_append, slen, slen, hlen l m1] at this
      simp only [List.length_nil] at this
      omega
    · rw [if_neg (fun e => h0 (z1.mp e)), if_neg (fun e => h0' (z2.mp e))] at h
      have := (scan_split (by omega) (by omega) (top l m1) (top l' m2) h).1
      omega
  · rintro rfl
    have : l = l' := by omega
    subst this
    by_cases h0 : k = 0
    · rw [if_pos (z1.mpr h0), if_pos (z2.mpr h0)]
    · rw [if_neg (fun e => h0 (z1.mp e)), if_neg (fun e => h0 (z2.mp e))]

end Work

/-- C117: the block accesses of hexadecimal output tell exactly how many blocks the number fills, nothing else
(`getString` when both calls return, so that the array was large enough). -/
theorem C117_hex (cfg : Cfg) (kind : CharKind) (hn : 2 ≤ n) (upper showBase : Bool) {cap : Nat} (hc : 2 ≤ cap)
    (a a' : Aeu n) (buffer buffer' : Vector Int cap) (v v' : Vector Int cap × Nat) (bufferSize : Nat) (os : OStream)
    (hx : os.basefield = .hex) :
    (Aeu.getString cfg kind 16#8 upper a buffer showBase = .ok v →
      Aeu.getString cfg kind 16#8 upper a' buffer' showBase = .ok v' →
      ((Work.getString cfg kind 16#8 upper a buffer showBase).trace =
        (Work.getString cfg kind 16#8 upper a' buffer' showBase).trace ↔
        ∀ i, toNat a < 2 ^ (32 * i) ↔ toNat a' < 2 ^ (32 * i))) ∧
    ((Work.streamOut cfg bufferSize os a).trace = (Work.streamOut cfg bufferSize os a').trace ↔
      ∀ i, toNat a < 2 ^ (32 * i) ↔ toNat a' < 2 ^ (32 * i)) := by
  obtain ⟨l, hl, hln, -⟩ := Work.scanDown_run (show 0 < n by omega) a
  obtain ⟨l', hl', hln', -⟩ := Work.scanDown_run (show 0 < n by omega) a'
  constructor
  · intro h h'
    rw [Work.getString_hex_trace cfg kind (by omega) upper showBase hc a buffer (v := v)
        (by rw [Work.run_getString]; exact h) hl hln,
      Work.getString_hex_trace cfg kind (by omega) upper showBase hc a' buffer' (v := v')
        (by rw [Work.run_getString]; exact h') hl' hln']
    exact Work.hex_iff hn a a' hl hl'
  · rw [Work.streamOut_hex_trace cfg (by omega) os hx a hl hln, Work.streamOut_hex_trace cfg (by omega) os hx a' hl' hln']
    exact Work.hex_iff hn a a' hl hl'

/-! ### Cases -/

/-- The accesses tell 123 from 133 in decimal. -/
example (cfg : Cfg) (buffer : Vector Int 8) : (Work.getString cfg .char 10#8 false (ofNat 2 123) buffer false).trace ≠
    (Work.getString cfg .char 10#8 false (ofNat 2 133) buffer false).trace := fun h => by
  have h1 := C117_text cfg .char (by omega) 10#8 (by decide) (by decide) false false (by omega) _ _ _ _ h
  have h2 : toNat (ofNat 2 123) = 123 ∧ toNat (ofNat 2 133) = 133 := by decide +kernel
  rw [h2.1, h2.2] at h1
  exact absurd h1 (by decide)

/-- 125 and 126 are printed with the same accesses: the last digit is not told. -/
example : (Work.getString lp64 .char 10#8 false (ofNat 2 125) (Vector.replicate 8 0) false).trace =
    (Work.getString lp64 .char 10#8 false (ofNat 2 126) (Vector.replicate 8 0) false).trace := by decide +kernel

/-- 5 and 2^32 - 1 fill one block each. -/
example : (Work.getString lp64 .char 16#8 false (ofNat 2 5) (Vector.replicate 12 0) false).trace =
    (Work.getString lp64 .char 16#8 false (ofNat 2 (2 ^ 32 - 1)) (Vector.replicate 12 0) false).trace := by decide +kernel

example : (Work.getString lp64 .char 16#8 false (ofNat 2 5) (Vector.replicate 12 0) false).trace ≠
    (Work.getString lp64 .char 16#8 false (ofNat 2 (2 ^ 32)) (Vector.replicate 12 0) false).trace := by decide +kernel

end AesiMP
