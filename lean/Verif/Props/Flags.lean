import Verif.Props.Safety

/-!
# C76: `AESI_UNSAFE` and `NDEBUG` change no result of an admissible program

The checks and assertions of the library are only ever decided by the caller's own indices: the library's
internal uses never trip them, so removing them changes nothing.
-/

namespace AesiMP
open Aeu Aesi
variable {n m : Nat}

private theorem same_value {e e' : Exec (Aeu n)} {v : Nat} (h : Aeu.Returns e v) (h' : Aeu.Returns e' v) :
    e = e' := by
  obtain ⟨r, hr, hv⟩ := h
  obtain ⟨r', hr', hv'⟩ := h'
  rw [hr, hr', toNat_inj (hv.trans hv'.symm)]

private theorem forDownN_congr {σ : Type} {lo : Nat} {body body' : Nat → σ → Exec σ} (k : Nat)
    (h : ∀ i s, i < lo + k → body i s = body' i s) (s : σ) : forDownN lo body k s = forDownN lo body' k s := by
  induction k generalizing s with
  | zero => rfl
  | succ k ih =>
    rw [forDownN, forDownN, h _ _ (by omega)]
    cases body' (lo + k) s with
    | error e => rfl
    | ok s' => exact ih (fun i s hi => h i s (by omega)) s'

namespace Aeu

theorem getBit_flags (c c' : Cfg) (x : Aeu n) {i : Nat} (hi : i < 32 * n) : getBit c x i = getBit c' x i := by
  rw [getBit_spec c x hi, getBit_spec c' x hi]

theorem setBit_flags (c c' : Cfg) (x : Aeu n) {i : Nat} (v : Bool) (hi : i < 32 * n) :
    setBit c x i v = setBit c' x i v := by
  have h1 : ¬ i ≥ 32 * n := by omega
  have h2 : i / 32 < n ∧ i % 32 < 32 := ⟨by omega, Nat.mod_lt _ (by norm_num)⟩
  simp only [setBit, h1, and_false, if_false, cassert, h2, and_self, decide_true, Bool.or_true, if_true]

theorem compareTo_flags (c c' : Cfg) : @compareTo n m c = @compareTo n m c' := by
  funext x y; rw [compareTo_general, compareTo_general]

theorem divide_flags (c c' : Cfg) : @divide n c = @divide n c' := by
  funext x d
  unfold divide ge spaceship
  rw [compareTo_flags c c']
  cases compareTo c' x d with
  | error e => rfl
  | ok r =>
    cases r <;> try rfl
    obtain ⟨K, hK, hKn, _⟩ := filledBlocksNumber_nat x
    simp only [hK, ok_bind, forDown, Nat.sub_zero]
    refine forDownN_congr _ (fun i s hi => ?_) _
    have hi' : i < 32 * n := by omega
    have h0 : 0 < 32 * n := by omega
    obtain ⟨q, r⟩ := s
    simp only [getBit_flags c c' x hi', setBit_flags c c' _ _ hi', setBit_flags c c' _ _ h0]

theorem div_flags (c c' : Cfg) : @div n c = @div n c' := by
  funext x y; unfold div; rw [divide_flags c c']
theorem mod_flags (c c' : Cfg) : @mod n c = @mod n c' := by
  funext x y; unfold mod; rw [divide_flags c c']
theorem gcd_flags (c c' : Cfg) : @gcd n c = @gcd n c' := by
  funext x y; unfold gcd gcdIn; rw [divide_flags c c', compareTo_flags c c']
theorem gcdExt_flags (c c' : Cfg) : @gcdExt n c = @gcdExt n c' := by
  funext x y; unfold gcdExt gcdExtIn; rw [divide_flags c c', compareTo_flags c c']
theorem lcm_flags (c c' : Cfg) : @lcm n c = @lcm n c' := by
  funext x y; unfold lcm; rw [gcd_flags c c', div_flags c c']

theorem powm_flags (c c' : Cfg) (hn : 0 < n) (b e md : Aeu n) : powm c b e md = powm c' b e md := by
  obtain ⟨K, hK, _, h⟩ := powm_total c hn b e md
  obtain ⟨K', hK', _, h'⟩ := powm_total c' hn b e md
  have : K = K' := by rw [hK] at hK'; injection hK'
  subst this
  exact same_value h h'

theorem powmT_flags (c c' : Cfg) (hn : 0 < n) (hm : 32 * m < 2 ^ 32) (b md : Aeu n) (e : Aeu m) :
    powmT c b e md = powmT c' b e md := by
  obtain ⟨K, hK, _, h⟩ := powmT_total c hn b e md hm
  obtain ⟨K', hK', _, h'⟩ := powmT_total c' hn b e md hm
  have : K = K' := by rw [hK] at hK'; injection hK'
  subst this
  exact same_value h h'

theorem getString_flags (c c' : Cfg) (kind : CharKind) (base : BitVec 8) (u : Bool) (x : Aeu n) {cap : Nat}
    (buf : Vector Int cap) (sb : Bool) : getString c kind base u x buf sb = getString c' kind base u x buf sb := by
  unfold getString getStringBody getStringDigits
  rw [divide_flags c c']

theorem streamOut_flags (c c' : Cfg) (buf : Nat) (os : OStream) (x : Aeu n) :
    streamOut c buf os x = streamOut c' buf os x := by
  unfold streamOut streamDigits
  rw [divide_flags c c']

theorem precisionCast_flags (c c' : Cfg) (x : Aeu n) : precisionCast c m x = precisionCast c' m x :=
  same_value (precisionCast_spec c x) (precisionCast_spec c' x)

theorem eq_flags (c c' : Cfg) : @eq n m c = @eq n m c' := by
  funext x y; unfold eq; rw [compareTo_flags c c']

end Aeu

section Indexed
variable (c c' : Cfg)

private theorem setBit_both (a : Aeu n) (i : Nat) (v : Bool) (h : c.unsafeMode = false ∨ i < 32 * n)
    (h' : c'.unsafeMode = false ∨ i < 32 * n) : Aeu.setBit c a i v = Aeu.setBit c' a i v := by
  by_cases hi : i < 32 * n
  · exact setBit_flags c c' a v hi
  · rw [setBit_ge c (h.resolve_right hi) a v (by omega), setBit_ge c' (h'.resolve_right hi) a v (by omega)]

private theorem getBit_both (a : Aeu n) (i : Nat) (h : c.unsafeMode = false ∨ i < 32 * n)
    (h' : c'.unsafeMode = false ∨ i < 32 * n) : Aeu.getBit c a i = Aeu.getBit c' a i := by
  by_cases hi : i < 32 * n
  · exact getBit_flags c c' a hi
  · rw [getBit_ge c (h.resolve_right hi) a (by omega), getBit_ge c' (h'.resolve_right hi) a (by omega)]

private theorem setByte_both (a : Aeu n) (i : Nat) (v : BitVec 8) (h : c.unsafeMode = false ∨ i < 4 * n)
    (h' : c'.unsafeMode = false ∨ i < 4 * n) (hne : i ≠ 4 * n) : Aeu.setByte c a i v = Aeu.setByte c' a i v := by
  by_cases hi : i < 4 * n
  · have h1 : ¬ i > n * 4 := by omega
    have h2 : i / 4 < n ∧ i % 4 < 4 := ⟨by omega, Nat.mod_lt _ (by norm_num)⟩
    simp only [Aeu.setByte, h1, and_false, if_false, cassert, h2, and_self, decide_true, Bool.or_true, if_true]
  · rw [(C13_out_of_range_partial c (h.resolve_right hi) a i v (by omega)).2,
      (C13_out_of_range_partial c' (h'.resolve_right hi) a i v (by omega)).2]

private theorem getByte_both (a : Aeu n) (i : Nat) (h : c.unsafeMode = false ∨ i < 4 * n)
    (h' : c'.unsafeMode = false ∨ i < 4 * n) (hne : i ≠ 4 * n) : Aeu.getByte c a i = Aeu.getByte c' a i := by
  by_cases hi : i < 4 * n
  · have h1 : ¬ i > n * 4 := by omega
    have h2 : i / 4 < n ∧ i % 4 < 4 := ⟨by omega, Nat.mod_lt _ (by norm_num)⟩
    simp only [Aeu.getByte, h1, and_false, if_false, cassert, h2, and_self, decide_true, Bool.or_true, if_true]
  · rw [(C13_out_of_range_partial c (h.resolve_right hi) a i 0 (by omega)).1,
      (C13_out_of_range_partial c' (h'.resolve_right hi) a i 0 (by omega)).1]

private theorem setBlock_both (a : Aeu n) (i : Nat) (v : Block) (h : c.unsafeMode = false ∨ i < n)
    (h' : c'.unsafeMode = false ∨ i < n) : Aeu.setBlock c a i v = Aeu.setBlock c' a i v := by
  by_cases hi : i < n
  · rw [setBlock_spec c a v hi, setBlock_spec c' a v hi]
  · rw [setBlock_ge c (h.resolve_right hi) a v (by omega), setBlock_ge c' (h'.resolve_right hi) a v (by omega)]

private theorem getBlock_both (a : Aeu n) (i : Nat) (h : c.unsafeMode = false ∨ i < n)
    (h' : c'.unsafeMode = false ∨ i < n) : Aeu.getBlock c a i = Aeu.getBlock c' a i := by
  by_cases hi : i < n
  · rw [getBlock_spec c a hi, getBlock_spec c' a hi]
  · rw [getBlock_ge c (h.resolve_right hi) a (by omega), getBlock_ge c' (h'.resolve_right hi) a (by omega)]

private theorem ofMpz_both (z : Int) (h : c.unsafeMode = false ∨ z.natAbs < 2 ^ (32 * n))
    (h' : c'.unsafeMode = false ∨ z.natAbs < 2 ^ (32 * n)) : Aeu.ofMpz c n z = Aeu.ofMpz c' n z :=
  same_value (C60_unsigned c z h) (C60_unsigned c' z h')

private theorem sofMpz_both (z : Int) (h : c.unsafeMode = false ∨ z.natAbs < 2 ^ (32 * n))
    (h' : c'.unsafeMode = false ∨ z.natAbs < 2 ^ (32 * n)) : Aesi.ofMpz c n z = Aesi.ofMpz c' n z := by
  unfold Aesi.ofMpz; rw [ofMpz_both c c' z h h']

end Indexed

/-! ### Expressions -/

theorem UBin.flags (c c' : Cfg) (a b : Aeu n) (op : UBin) : op.run c a b = op.run c' a b := by
  cases op <;> simp only [UBin.run, div_flags c c', mod_flags c c', gcd_flags c c', lcm_flags c c']

theorem UMix.flags (c c' : Cfg) {w : Nat} (a : Aeu n) (v : BitVec w) (op : UMix) :
    op.run c a v = op.run c' a v := by
  cases op <;> simp only [UMix.run, Aeu.divRight, Aeu.modRight, Aeu.divLeft, Aeu.modLeft, div_flags c c', mod_flags c c']

/-- Two builds for the same platform: they may differ in `AESI_UNSAFE` and `NDEBUG` only. -/
def SamePlatform (env env' : Env) : Prop :=
  env.host = env'.host ∧ env.alnum = env'.alnum ∧ env.cfg.u64IsULL = env'.cfg.u64IsULL

theorem UExpr.flags {env env' : Env} (hp : SamePlatform env env') (st : World) (hn : 0 < n) (e : UExpr n)
    (h : e.Ok env) (h' : e.Ok env') : e.run env st = e.run env' st := by
  cases e with
  | text kind chars => simp only [UExpr.run, hp.2.1]
  | mpz z => exact ofMpz_both _ _ z h h'
  | mpzL op z a => simp only [UExpr.run, ofMpz_both env.cfg env'.cfg z h h', op.flags env.cfg env'.cfg]
  | mpzR op a z => simp only [UExpr.run, ofMpz_both env.cfg env'.cfg z h h', op.flags env.cfg env'.cfg]
  | bin op a b => exact op.flags _ _ _ _
  | mix op a w v => exact op.flags _ _ _ v
  | mulULL a v => simp only [UExpr.run, Aeu.mulULL, hp.2.2]
  | powm b e m => exact powm_flags _ _ hn _ _ _
  | powmT k b e m => exact powmT_flags _ _ hn h _ _ _
  | squareRoot a => exact same_value (squareRoot_spec _ hn _) (squareRoot_spec _ hn _)
  | power2 k => exact setBit_both _ _ _ k true h h'
  | setBit a i v => exact setBit_both _ _ _ i v h h'
  | setByte a i v => exact setByte_both _ _ _ i v h.1 h'.1 h.2
  | setBlock a i v => exact setBlock_both _ _ _ i v h h'
  | cast k a => exact precisionCast_flags _ _ _
  | _ => rfl

theorem SBin.flags (c c' : Cfg) (a b : Aesi n) (op : SBin) : op.run c a b = op.run c' a b := by
  cases op <;> simp only [SBin.run, Aesi.add, Aesi.sub, Aesi.div, Aesi.mod, subMagnitude, div_flags c c',
    mod_flags c c', compareTo_flags c c']

theorem SMix.flags {c c' : Cfg} (hc : c.u64IsULL = c'.u64IsULL) (t : ITy) (a : Aesi n) (i : Int) (op : SMix) :
    op.run c t a i = op.run c' t a i := by
  have hb := fun a b op => SBin.flags (n := n) c c' a b op
  have h1 : ∀ a b : Aesi n, Aesi.add c a b = Aesi.add c' a b := fun a b => hb a b .add
  have h2 : ∀ a b : Aesi n, Aesi.sub c a b = Aesi.sub c' a b := fun a b => hb a b .sub
  have h3 : ∀ a b : Aesi n, Aesi.div c a b = Aesi.div c' a b := fun a b => hb a b .div
  have h4 : ∀ a b : Aesi n, Aesi.mod c a b = Aesi.mod c' a b := fun a b => hb a b .mod
  cases op <;> simp only [SMix.run, Aesi.addRight, Aesi.subRight, Aesi.addLeft, Aesi.subLeft, Aesi.divLeft,
    Aesi.modLeft, mulIntegral, divIntegral, modIntegral, mulULL, hc, h1, h2, h3, h4, div_flags c c', mod_flags c c']

private theorem scast_flags (c c' : Cfg) (hn : 0 < n) (hm : 0 < m) (a : Aesi n) :
    Aesi.precisionCast c m a = Aesi.precisionCast c' m a := by
  obtain ⟨r, hr, h1, h2⟩ := Aesi.precisionCast_exact c hn hm a
  obtain ⟨r', hr', h1', h2'⟩ := Aesi.precisionCast_exact c' hn hm a
  rw [hr, hr']
  obtain ⟨s, b⟩ := r
  obtain ⟨s', b'⟩ := r'
  simp only at h1 h2 h1' h2'
  rw [h1, h1', toNat_inj (h2.trans h2'.symm)]

theorem SExpr.flags {env env' : Env} (hp : SamePlatform env env') (st : World) (hn : 0 < n) (e : SExpr n)
    (h : e.Ok env) (h' : e.Ok env') : e.run env st = e.run env' st := by
  cases e with
  | text kind chars => simp only [SExpr.run, hp.2.1]
  | mpz z => exact sofMpz_both _ _ z h h'
  | mpzL op z a => simp only [SExpr.run, sofMpz_both env.cfg env'.cfg z h h', op.flags env.cfg env'.cfg]
  | mpzR op a z => simp only [SExpr.run, sofMpz_both env.cfg env'.cfg z h h', op.flags env.cfg env'.cfg]
  | bin op a b => exact op.flags _ _ _ _
  | mix op a t i => exact op.flags hp.2.2 t _ i
  | squareRoot a =>
    simp only [SExpr.run, Aesi.squareRoot,
      same_value (squareRoot_spec env.cfg hn (st.s n a).base) (squareRoot_spec env'.cfg hn (st.s n a).base)]
  | power2 k =>
    simp only [SExpr.run, Aesi.power2, Aeu.power2, setBit_both env.cfg env'.cfg (Aeu.zero n) k true h h']
  | setBit a i v => simp only [SExpr.run, Aesi.setBit, setBit_both env.cfg env'.cfg _ i v h h']
  | setByte a i v => simp only [SExpr.run, Aesi.setByte, setByte_both env.cfg env'.cfg _ i v h.1 h'.1 h.2]
  | setBlock a i v => simp only [SExpr.run, Aesi.setBlock, setBlock_both env.cfg env'.cfg _ i v h h']
  | cast k a => exact scast_flags _ _ h hn _
  | _ => rfl

private theorem sText_flags (c c' : Cfg) (kind : CharKind) (base : BitVec 8) (u : Bool) (a : Aesi n) {cap : Nat}
    (buf : Vector Int cap) (sb : Bool) :
    Aesi.getString c kind base u a buf sb = Aesi.getString c' kind base u a buf sb := by
  unfold Aesi.getString
  simp only [getString_flags c c']

private theorem scompare_flags (c c' : Cfg) (a b : Aesi n) : Aesi.compareTo c a b = Aesi.compareTo c' a b := by
  rw [(C41_compare_exact c a b).1, (C41_compare_exact c' a b).1]

private theorem runU_flags (c c' : Cfg) (x : Aeu n) (y : Aeu m) (op : Rel) : op.runU c x y = op.runU c' x y := by
  cases op <;> simp only [Rel.runU, Aeu.lt, Aeu.le, Aeu.gt, Aeu.ge, Aeu.spaceship, compareTo_flags c c']

private theorem runOld_flags (c c' : Cfg) (x y : Aeu n) (op : Rel) : op.runOld c x y = op.runOld c' x y := by
  cases op <;> simp only [Rel.runOld, Aeu.oldLt, Aeu.oldLe, Aeu.oldGt, Aeu.oldGe, compareTo_flags c c']

private theorem runS_flags (c c' : Cfg) (x y : Aesi n) (op : Rel) : op.runS c x y = op.runS c' x y := by
  cases op <;> simp only [Rel.runS, Aesi.lt, Aesi.le, Aesi.gt, Aesi.ge, Aesi.spaceship, scompare_flags c c']

theorem Query.flags {env env' : Env} (st : World) (q : Query)
    (h : q.Ok env st) (h' : q.Ok env' st) : q.run env st = q.run env' st := by
  cases q with
  | uGetBit n a i => simp only [Query.run, getBit_both env.cfg env'.cfg _ i h.2 h'.2]
  | uGetByte n a i => simp only [Query.run, getByte_both env.cfg env'.cfg _ i h.2.1 h'.2.1 h.2.2]
  | uGetBlock n a i => simp only [Query.run, getBlock_both env.cfg env'.cfg _ i h.2 h'.2]
  | uEq n m a b => simp only [Query.run, eq_flags env.cfg env'.cfg]
  | uCompare n m a b => simp only [Query.run, compareTo_flags env.cfg env'.cfg]
  | uOrder n m a b => simp only [Query.run, Aeu.spaceship, compareTo_flags env.cfg env'.cfg]
  | uRel op n m a b => simp only [Query.run, runU_flags env.cfg env'.cfg]
  | uNe n m a b => simp only [Query.run, Aeu.ne, eq_flags env.cfg env'.cfg]
  | uOld op n a b => simp only [Query.run, runOld_flags env.cfg env'.cfg]
  | uOldBuiltin op n a w v => simp only [Query.run, runOld_flags env.cfg env'.cfg]
  | uEqMpz n a z =>
    simp only [Query.run, Aeu.eqMpz, eq_flags env.cfg env'.cfg, ofMpz_both env.cfg env'.cfg z h.2 h'.2]
  | uText n a kind base upper showBase cap => simp only [Query.run, getString_flags env.cfg env'.cfg]
  | sGetBit n a i => simp only [Query.run, Aesi.getBit, getBit_both env.cfg env'.cfg _ i h.2 h'.2]
  | sGetByte n a i => simp only [Query.run, Aesi.getByte, getByte_both env.cfg env'.cfg _ i h.2.1 h'.2.1 h.2.2]
  | sGetBlock n a i => simp only [Query.run, Aesi.getBlock, getBlock_both env.cfg env'.cfg _ i h.2 h'.2]
  | sEq n a b => simp only [Query.run, Aesi.eq, scompare_flags env.cfg env'.cfg]
  | sCompare n a b => simp only [Query.run, scompare_flags env.cfg env'.cfg]
  | sOrder n a b => simp only [Query.run, Aesi.spaceship, scompare_flags env.cfg env'.cfg]
  | sEqAcross n m a b =>
    simp only [Query.run, Aesi.eqAcross, Aesi.eq, scompare_flags env.cfg env'.cfg,
      scast_flags env.cfg env'.cfg h.1 h.2]
  | sCompareAcross n m a b =>
    simp only [Query.run, Aesi.compareToAcross, scompare_flags env.cfg env'.cfg,
      scast_flags env.cfg env'.cfg h.1 h.2]
  | sRel op n a b => simp only [Query.run, runS_flags env.cfg env'.cfg]
  | sNe n a b => simp only [Query.run, Aesi.ne, Aesi.eq, scompare_flags env.cfg env'.cfg]
  | sEqMpz n a z =>
    simp only [Query.run, Aesi.eqMpz, Aesi.eq, scompare_flags env.cfg env'.cfg,
      sofMpz_both env.cfg env'.cfg z h.2 h'.2]
  | sText n a kind base upper showBase cap => simp only [Query.run, sText_flags env.cfg env'.cfg]
  | _ => rfl

theorem Call.flags {env env' : Env} (hp : SamePlatform env env') (st : World) (c : Call)
    (h : c.Ok env st) (h' : c.Ok env' st) : c.run env st = c.run env' st := by
  cases c with
  | setU n d e => simp only [Call.run, e.flags hp st h.1 h.2 h'.2]
  | setS n d e => simp only [Call.run, e.flags hp st h.1 h.2 h'.2]
  | ask q => simp only [Call.run, q.flags st h h']
  | divideU n a b q r => simp only [Call.run, divide_flags env.cfg env'.cfg]
  | dividePair n a b q r => simp only [Call.run, Aeu.dividePair, divide_flags env.cfg env'.cfg]
  | divideS n a b q r => simp only [Call.run, Aesi.divide, divide_flags env.cfg env'.cfg]
  | gcdExt n a b x y g => simp only [Call.run, gcdExt_flags env.cfg env'.cfg]
  | printU n a buf => simp only [Call.run, streamOut_flags env.cfg env'.cfg]
  | printS n a buf => simp only [Call.run, Aesi.streamOut, streamOut_flags env.cfg env'.cfg]
  | read n d be => simp only [Call.run, hp.1]
  | write n a be => simp only [Call.run, hp.1]
  | _ => rfl

/-- C76: a program that is admissible in two builds for the same platform - checked or `AESI_UNSAFE`, with
or without `NDEBUG` - has the same run in both: the same objects, results, texts and stream contents. -/
theorem C76_flags_irrelevant {env env' : Env} (hp : SamePlatform env env') (p : Client) :
    ∀ st : World, p.Admissible env st → p.Admissible env' st → p.run env st = p.run env' st := by
  induction p with
  | done => exact fun st _ _ => rfl
  | call c rest ih =>
    intro st h h'
    have e := c.flags hp st h.1 h'.1
    obtain ⟨st', hr⟩ := c.defined env st h.1
    have hr' : c.run env' st = .ok st' := e ▸ hr
    simp only [Client.run, hr, hr', ok_bind]
    exact ih st' st' (h.2 st' hr) (h'.2 st' hr')

/-- C76: a program admissible in the `AESI_UNSAFE` build is admissible, and does the same, in the checked
build with assertions on. -/
theorem C76_unsafe_to_checked (env : Env) (p : Client) (ndebug : Bool) :
    ∀ st : World, p.Admissible { env with cfg := { env.cfg with unsafeMode := true } } st →
      p.Admissible { env with cfg := { env.cfg with unsafeMode := false, ndebug := ndebug } } st ∧
      p.run { env with cfg := { env.cfg with unsafeMode := true } } st =
        p.run { env with cfg := { env.cfg with unsafeMode := false, ndebug := ndebug } } st := by
  have hp : SamePlatform { env with cfg := { env.cfg with unsafeMode := true } }
      { env with cfg := { env.cfg with unsafeMode := false, ndebug := ndebug } } := ⟨rfl, rfl, rfl⟩
  suffices ∀ st : World, p.Admissible { env with cfg := { env.cfg with unsafeMode := true } } st →
      p.Admissible { env with cfg := { env.cfg with unsafeMode := false, ndebug := ndebug } } st from
    fun st h => ⟨this st h, C76_flags_irrelevant hp p st h (this st h)⟩
  induction p with
  | done => exact fun st _ => trivial
  | call c rest ih =>
    intro st h
    have hok : c.Ok { env with cfg := { env.cfg with unsafeMode := false, ndebug := ndebug } } st := by
      have hk : ∀ {P}, Checked { env with cfg := { env.cfg with unsafeMode := true } } P →
          Checked { env with cfg := { env.cfg with unsafeMode := false, ndebug := ndebug } } P :=
        fun _ => .inl rfl
      have h1 := h.1
      cases c with
      | setU n d e => cases e <;> first | exact h1 | exact ⟨h1.1, hk h1.2⟩ | exact ⟨h1.1, hk h1.2.1, h1.2.2⟩
      | setS n d e => cases e <;> first | exact h1 | exact ⟨h1.1, hk h1.2⟩ | exact ⟨h1.1, hk h1.2.1, h1.2.2⟩
      | ask q => cases q <;> first | exact h1 | exact ⟨h1.1, hk h1.2⟩ | exact ⟨h1.1, hk h1.2.1, h1.2.2⟩
      | _ => exact h1
    refine ⟨hok, fun st' hr => ih st' st' (h.2 st' ?_)⟩
    rw [c.flags hp st h.1 hok]
    exact hr

/-- A program whose only indices are in range is admissible in every build. -/
def setter : Client := .call (.setU 2 0 (.setBit 0 63 true)) fun _ => .call (.ask (.uGetBlock 2 0 1)) fun _ => .done

example (env : Env) (st : World) : setter.Admissible env st :=
  ⟨⟨by norm_num, .inr (by norm_num)⟩, fun _ _ => ⟨⟨by norm_num, .inr (by norm_num)⟩, fun _ _ => trivial⟩⟩

example {env env' : Env} (h : SamePlatform env env') (st : World) :
    (euclid 50).run env st = (euclid 50).run env' st :=
  C76_flags_irrelevant h _ st (euclid_admissible _ 50 st) (euclid_admissible _ 50 st)

example : SamePlatform ⟨⟨true, true, false⟩, .little, fun _ => false⟩ ⟨⟨false, false, false⟩, .little, fun _ => false⟩ :=
  ⟨rfl, rfl, rfl⟩

/-- Without admissibility the flags matter: an index outside the number. -/
theorem C76_sharp (a : Aeu 2) : Aeu.getBit ⟨false, false, false⟩ a 64 = .ok false ∧
    Aeu.getBit ⟨true, false, false⟩ a 64 = .error .assertFailed ∧
    Aeu.getBit ⟨true, true, false⟩ a 64 = .error .outOfBounds :=
  ⟨getBit_ge _ rfl a (by norm_num), (C12_unsafe_out_of_range _ rfl a 64 true (by norm_num)).1,
    (C12_unsafe_out_of_range _ rfl a 64 true (by norm_num)).1⟩

end AesiMP
