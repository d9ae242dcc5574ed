import Verif.Props.Safety

/-!
# C85: equal signed numbers are interchangeable

A zero obtained as `a - a` or `a * 0` keeps the old magnitude behind its zero sign (C44), so two objects
that compare equal need not be identical.  No arithmetic, comparison, conversion or output sees the
difference, in any program; the members that look at the digits do.
-/

namespace AesiMP
open Aeu Aesi
variable {n m : Nat}

/-- Equal for `==`: the same sign, and the same magnitude unless both are zero. -/
def Same (a b : Aesi n) : Prop := a.sign = b.sign ∧ (a.sign ≠ .zero → a.base = b.base)

theorem Same.refl (a : Aesi n) : Same a a := ⟨rfl, fun _ => rfl⟩
theorem Same.symm {a b : Aesi n} (h : Same a b) : Same b a :=
  ⟨h.1.symm, fun hb => (h.2 (by rw [h.1]; exact hb)).symm⟩

theorem Same.cases {a b : Aesi n} (h : Same a b) : a = b ∨ (a.sign = .zero ∧ b.sign = .zero) := by
  by_cases hz : a.sign = .zero
  · exact .inr ⟨hz, h.1 ▸ hz⟩
  · obtain ⟨s, x⟩ := a
    obtain ⟨s', x'⟩ := b
    have h1 := h.1
    have h2 := h.2 hz
    simp only at h1 h2
    subst h1 h2
    exact .inl rfl

theorem same_zero {a b : Aesi n} (ha : a.sign = .zero) (hb : b.sign = .zero) : Same a b :=
  ⟨by rw [ha, hb], fun h => absurd ha h⟩

/-- C85: two unsigned objects that compare equal are identical. -/
theorem C85_unsigned (cfg : Cfg) (a b : Aeu n) : Aeu.eq cfg a b = .ok true ↔ a = b := by
  rw [C18_eq_across, Except.ok.injEq, decide_eq_true_iff]
  exact ⟨toNat_inj, fun h => by rw [h]⟩

/-- `==` on signed objects, whatever their history. -/
theorem eq_iff_same (cfg : Cfg) (a b : Aesi n) : Aesi.eq cfg a b = .ok true ↔ Same a b := by
  rw [(C41_compare_exact cfg a b).2.1, Except.ok.injEq, decide_eq_true_iff]
  obtain ⟨s, x⟩ := a
  obtain ⟨s', x'⟩ := b
  have hp : ∀ u v : Aeu n, (toNat u : Int) = toNat v ↔ u = v := fun u v =>
    ⟨fun h => toNat_inj (by exact_mod_cast h), fun h => by rw [h]⟩
  cases s <;> cases s' <;> simp [Same, sgn, toInt, hp]

/-- Whatever the first call returns, the second returns too, up to `==`. -/
def SameRes (e e' : Exec (Aesi n)) : Prop := ∀ r, e = .ok r → ∃ r', e' = .ok r' ∧ Same r r'

theorem SameRes.refl (e : Exec (Aesi n)) : SameRes e e := fun r h => ⟨r, h, .refl r⟩

theorem SameRes.of_eq {e e' : Exec (Aesi n)} (h : e = e') : SameRes e e' := h ▸ .refl e

/-- It is enough to look at two zeros. -/
theorem unary_same {k : Nat} (f : Aesi n → Exec (Aesi k))
    (h : ∀ a b : Aesi n, a.sign = .zero → b.sign = .zero → SameRes (f a) (f b)) {a b : Aesi n} (hs : Same a b) :
    SameRes (f a) (f b) := by
  rcases hs.cases with rfl | ⟨ha, hb⟩
  · exact .refl _
  · exact h a b ha hb

theorem SameRes.trans {e e' e'' : Exec (Aesi n)} (h : SameRes e e') (h' : SameRes e' e'') : SameRes e e'' := by
  intro r hr
  obtain ⟨r', hr', s⟩ := h r hr
  obtain ⟨r'', hr'', s'⟩ := h' r' hr'
  refine ⟨r'', hr'', by rw [s.1, s'.1], fun hz => ?_⟩
  rw [s.2 hz, s'.2 (by rw [← s.1]; exact hz)]

/-- Both calls return a zero. -/
theorem SameRes.zeros {e e' : Exec (Aesi n)} (h : Sat e fun r => r.sign = .zero)
    (h' : Sat e' fun r => r.sign = .zero) : SameRes e e' := by
  obtain ⟨r, hr, hz⟩ := h
  obtain ⟨r', hr', hz'⟩ := h'
  intro s hs
  rw [hr, Except.ok.injEq] at hs
  subst hs
  exact ⟨r', hr', same_zero hz hz'⟩

theorem normalise_zero (a : Aesi n) (h : a.sign = .zero) : Sat (normalise a) fun r => r.sign = .zero := by
  simp only [normalise, Aeu.isZero_spec, ok_bind, sat_ok]
  split
  · rfl
  · exact h

theorem inverse_zero {a : Aesi n} (h : a.sign = .zero) : (inverse a).sign = .zero := by simp [inverse, h]

theorem absorb_zero (t : ITy) {a b : Aesi n} (ha : a.sign = .zero) (hb : b.sign = .zero) (f : Int) :
    (∃ e, absorbSign t a f = .error e) ∨
    ∃ a' b' g, absorbSign t a f = .ok (a', g) ∧ absorbSign t b f = .ok (b', g) ∧ a'.sign = .zero ∧ b'.sign = .zero := by
  unfold absorbSign
  split
  · cases t.negate f with
    | error e => exact .inl ⟨e, rfl⟩
    | ok g => exact .inr ⟨_, _, _, rfl, rfl, inverse_zero ha, inverse_zero hb⟩
  · exact .inr ⟨_, _, _, rfl, rfl, ha, hb⟩

theorem SameRes.error {e e' : Exec (Aesi n)} (x : UB) (h : e = .error x) : SameRes e e' := by
  intro r hr; rw [h] at hr; exact absurd hr (by simp)

private theorem udef {e : Exec (Aeu n)} (h : Defined e) (f : Aeu n → Exec (Aesi n))
    (hf : ∀ x, Sat (f x) fun r => r.sign = .zero) : Sat (e >>= f) fun r => r.sign = .zero := by
  obtain ⟨x, rfl⟩ := h
  exact hf x

theorem mulULL_defined (cfg : Cfg) (x : Aeu n) (v : U64) : Defined (Aeu.mulULL cfg x v) := by
  unfold Aeu.mulULL
  split
  · obtain ⟨r, h, -⟩ := Aeu.mulU64_spec x v
    exact ⟨r, h⟩
  · exact Sat.defined (Aeu.mulNarrow_lossy (by norm_num) x v)

/-- The operators of two signed numbers, on `==` operands. -/
theorem SBin.same (cfg : Cfg) (hn : 0 < n) (op : SBin) {a a' b b' : Aesi n} (ha : Same a a') (hb : Same b b') :
    SameRes (op.run cfg a b) (op.run cfg a' b') := by
  refine SameRes.trans (e' := op.run cfg a' b) (unary_same (fun x => op.run cfg x b) ?_ ha)
    (unary_same (fun x => op.run cfg a' x) ?_ hb)
  · intro a a' ha ha'
    cases op with
    | add =>
      simp only [SBin.run, Aesi.add, ha, ha', if_true]
      split
      · exact SameRes.zeros (.ok ha) (.ok ha')
      · exact .refl _
    | sub =>
      simp only [SBin.run, Aesi.sub, ha, ha', if_true]
      split
      · exact SameRes.zeros (.ok ha) (.ok ha')
      · exact .refl _
    | mul =>
      have key : ∀ a : Aesi n, a.sign = .zero → Sat (Aesi.mul a b) fun r => r.sign = .zero := by
        intro a ha
        unfold Aesi.mul
        split
        · exact .ok rfl
        · refine udef (UBin.defined cfg hn _ _ .mul) _ fun x => .ok ?_
          simp only
          split
          · exact inverse_zero ha
          · exact ha
      exact .zeros (key a ha) (key a' ha')
    | div =>
      have key : ∀ a : Aesi n, a.sign = .zero → Sat (Aesi.div cfg a b) fun r => r.sign = .zero := by
        intro a ha
        unfold Aesi.div
        split
        · exact .ok rfl
        · refine udef (UBin.defined cfg hn _ _ .div) _ fun x => normalise_zero _ ?_
          simp only
          split
          · exact inverse_zero ha
          · exact ha
      exact .zeros (key a ha) (key a' ha')
    | mod =>
      have key : ∀ a : Aesi n, a.sign = .zero → Sat (Aesi.mod cfg a b) fun r => r.sign = .zero := by
        intro a ha
        unfold Aesi.mod
        split
        · exact .ok ha
        · refine udef (UBin.defined cfg hn _ _ .mod) _ fun x => normalise_zero _ ?_
          simp only
          split
          · exact inverse_zero ha
          · exact ha
      exact .zeros (key a ha) (key a' ha')
  · intro b b' hb hb'
    cases op with
    | add => simp only [SBin.run, Aesi.add, hb, hb', if_true]; exact .refl _
    | sub => simp only [SBin.run, Aesi.sub, hb, hb', if_true]; exact .refl _
    | mul => simp only [SBin.run, Aesi.mul, Aesi.isZero, hb, hb', beq_self_eq_true, if_true]; exact .refl _
    | div => simp only [SBin.run, Aesi.div, Aesi.isZero, hb, hb', beq_self_eq_true, if_true]; exact .refl _
    | mod => simp only [SBin.run, Aesi.mod, Aesi.isZero, hb, hb', beq_self_eq_true, if_true]; exact .refl _

theorem SameRes.bind_left {α : Type} (e : Exec α) {f g : α → Exec (Aesi n)} (h : ∀ x, SameRes (f x) (g x)) :
    SameRes (e >>= f) (e >>= g) := by
  cases e with
  | error x => exact .error x rfl
  | ok x => exact h x

/-- The operators with a built-in operand. -/
theorem SMix.same (cfg : Cfg) (hn : 0 < n) (op : SMix) (t : ITy) {a a' : Aesi n} (ha : Same a a') (i : Int) :
    SameRes (op.run cfg t a i) (op.run cfg t a' i) := by
  cases op with
  | addR => exact .bind_left _ fun c => SBin.same cfg hn .add ha (.refl c)
  | subR => exact .bind_left _ fun c => SBin.same cfg hn .sub ha (.refl c)
  | addL => exact .bind_left _ fun c => SBin.same cfg hn .add (.refl c) ha
  | subL => exact .bind_left _ fun c => SBin.same cfg hn .sub (.refl c) ha
  | mulL => exact .bind_left _ fun c => SBin.same cfg hn .mul (.refl c) ha
  | divL => exact .bind_left _ fun c => SBin.same cfg hn .div (.refl c) ha
  | modL => exact .bind_left _ fun c => SBin.same cfg hn .mod (.refl c) ha
  | mulR =>
    refine unary_same (fun x => Aesi.mulIntegral cfg t x i) (fun a a' ha ha' => ?_) ha
    unfold Aesi.mulIntegral
    split
    · exact .zeros (.ok rfl) (.ok rfl)
    · rcases absorb_zero t ha ha' i with ⟨e, he⟩ | ⟨x, y, g, h1, h2, hx, hy⟩
      · exact .error e (by rw [he]; rfl)
      · rw [h1, h2]
        exact .zeros (udef (mulULL_defined cfg _ _) _ fun _ => .ok hx) (udef (mulULL_defined cfg _ _) _ fun _ => .ok hy)
  | divR =>
    refine unary_same (fun x => Aesi.divIntegral cfg t x i) (fun a a' ha ha' => ?_) ha
    unfold Aesi.divIntegral
    split
    · exact .zeros (.ok rfl) (.ok rfl)
    · rcases absorb_zero t ha ha' i with ⟨e, he⟩ | ⟨x, y, g, h1, h2, hx, hy⟩
      · exact .error e (by rw [he]; rfl)
      · rw [h1, h2]
        simp only [ok_bind]
        refine .bind_left _ fun d => ?_
        exact .zeros (udef (UBin.defined cfg hn _ _ .div) _ fun _ => normalise_zero _ hx)
          (udef (UBin.defined cfg hn _ _ .div) _ fun _ => normalise_zero _ hy)
  | modR =>
    refine unary_same (fun x => Aesi.modIntegral cfg t x i) (fun a a' ha ha' => ?_) ha
    unfold Aesi.modIntegral
    split
    · exact .zeros (.ok rfl) (.ok rfl)
    · rcases absorb_zero t ha ha' i with ⟨e, he⟩ | ⟨x, y, g, h1, h2, hx, hy⟩
      · exact .error e (by rw [he]; rfl)
      · rw [h1, h2]
        simp only [ok_bind]
        refine .bind_left _ fun d => ?_
        exact .zeros (udef (UBin.defined cfg hn _ _ .mod) _ fun _ => .ok hx)
          (udef (UBin.defined cfg hn _ _ .mod) _ fun _ => .ok hy)

/-! Whether a setter is defined depends on the index only. -/

theorem setBit_twin (cfg : Cfg) (x y : Aeu n) (i : Nat) (v : Bool) (h : Defined (Aeu.setBit cfg x i v)) :
    Defined (Aeu.setBit cfg y i v) := by
  obtain ⟨r, hr⟩ := h
  unfold Aeu.setBit at hr ⊢
  split
  · exact ⟨_, rfl⟩
  · rename_i hc
    rw [if_neg hc] at hr
    by_cases hb : i / 32 < n
    · have hj : i % 32 < 32 := Nat.mod_lt _ (by norm_num)
      cases v <;> simp [cassert, hb, hj, shl32, rd, wr, Defined]
    · cases hd : cfg.ndebug <;> simp [cassert, hb, shl32, rd, hd, Nat.mod_lt] at hr

theorem setByte_twin (cfg : Cfg) (x y : Aeu n) (i : Nat) (v : BitVec 8) (h : Defined (Aeu.setByte cfg x i v)) :
    Defined (Aeu.setByte cfg y i v) := by
  obtain ⟨r, hr⟩ := h
  unfold Aeu.setByte at hr ⊢
  split
  · exact ⟨_, rfl⟩
  · rename_i hc
    rw [if_neg hc] at hr
    have hj : i % 4 < 4 := Nat.mod_lt _ (by norm_num)
    have hj' : i % 4 * 8 < 32 := by omega
    by_cases hb : i / 4 < n
    · simp [cassert, hb, hj, hj', shl32, rd, wr, Defined]
    · cases hd : cfg.ndebug <;> simp [cassert, hb, shl32, rd, hd, hj'] at hr

theorem setBlock_twin (cfg : Cfg) (x y : Aeu n) (i : Nat) (v : Block) (h : Defined (Aeu.setBlock cfg x i v)) :
    Defined (Aeu.setBlock cfg y i v) := by
  obtain ⟨r, hr⟩ := h
  unfold Aeu.setBlock at hr ⊢
  split
  · exact ⟨_, rfl⟩
  · rename_i hc
    rw [if_neg hc] at hr
    by_cases hb : i < n
    · simp [hb, wr, Defined]
    · simp [hb, wr] at hr

theorem setter_same (f : Aeu n → Exec (Aeu n)) (hf : ∀ x y, Defined (f x) → Defined (f y)) {a b : Aesi n}
    (hs : Same a b) :
    SameRes (do let base ← f a.base; .ok { a with base := base }) (do let base ← f b.base; .ok { b with base := base }) := by
  refine unary_same (fun a => (do let base ← f a.base; .ok { a with base := base })) (fun a b ha hb => ?_) hs
  intro r hr
  cases hx : f a.base with
  | error e => rw [hx] at hr; exact absurd hr (by simp)
  | ok x =>
    obtain ⟨y, hy⟩ := hf _ b.base ⟨x, hx⟩
    rw [hx] at hr
    cases hr
    exact ⟨⟨b.sign, y⟩, by rw [hy]; rfl, same_zero ha hb⟩

/-! ### Programs -/

/-- Two states a client cannot tell apart with `==`. -/
def World.Same (w w' : World) : Prop :=
  w.u = w'.u ∧ (∀ n i, AesiMP.Same (w.s n i) (w'.s n i)) ∧ w.last = w'.last ∧ w.os = w'.os ∧
    w.sink = w'.sink ∧ w.src = w'.src

/-- Does not look at the digits of a signed number. -/
def UExpr.Numeric : UExpr n → Prop
  | .magnitude _ => False
  | _ => True

def Query.Numeric : Query → Prop
  | .sIsOdd .. | .sIsEven .. | .sBitCount .. | .sByteCount .. | .sGetBit .. | .sGetByte .. | .sGetBlock .. => False
  | _ => True

/-- Calls that treat a signed object as a number: all but reading its bits, bytes and blocks, its
parity, its bit and byte counts, and `unsignedCast`. -/
def Call.Numeric : Call → Prop
  | .setU _ _ e => e.Numeric
  | .setS n _ _ => 0 < n
  | .ask q => q.Numeric
  | .postIncS n .. | .postDecS n .. | .divideS n .. => 0 < n
  | _ => True

theorem UExpr.same (env : Env) {w w' : World} (h : w.Same w') (e : UExpr n) (he : e.Numeric) :
    e.run env w = e.run env w' := by
  obtain ⟨hu, -⟩ := h
  cases e <;> first | exact he.elim | simp only [UExpr.run, hu]

theorem SExpr.same (env : Env) {w w' : World} (h : w.Same w') (hn : 0 < n) (e : SExpr n) :
    SameRes (e.run env w) (e.run env w') := by
  obtain ⟨hu, hs, -⟩ := h
  cases e with
  | builtin t i => exact .refl _
  | text kind chars => exact .refl _
  | mpz z => exact .refl _
  | ofAeu a => simp only [SExpr.run, hu]; exact .refl _
  | reg a => exact fun r hr => ⟨_, rfl, by cases hr; exact hs n a⟩
  | plus a => exact fun r hr => ⟨_, rfl, by cases hr; exact hs n a⟩
  | neg a =>
    exact unary_same (fun x => .ok (Aesi.neg x)) (fun a b ha hb => .zeros (.ok (inverse_zero ha)) (.ok (inverse_zero hb)))
      (hs n a)
  | inc a =>
    exact unary_same Aesi.inc (fun a b ha hb => .of_eq (by simp only [Aesi.inc, ha, hb])) (hs n a)
  | dec a =>
    exact unary_same Aesi.dec (fun a b ha hb => .of_eq (by simp only [Aesi.dec, ha, hb])) (hs n a)
  | bin op a b => exact op.same env.cfg hn (hs n a) (hs n b)
  | mix op a t i => exact op.same env.cfg hn t (hs n a) i
  | mpzL op z a => exact .bind_left _ fun x => op.same env.cfg hn (.refl x) (hs n a)
  | mpzR op a z => exact .bind_left _ fun x => op.same env.cfg hn (hs n a) (.refl x)
  | squareRoot a =>
    exact unary_same (Aesi.squareRoot env.cfg) (fun a b ha hb => .of_eq (by simp [Aesi.squareRoot, ha, hb])) (hs n a)
  | power2 k => exact .refl _
  | setBit a i v => exact setter_same (fun x => Aeu.setBit env.cfg x i v) (fun x y => setBit_twin _ x y i v) (hs n a)
  | setByte a i v => exact setter_same (fun x => Aeu.setByte env.cfg x i v) (fun x y => setByte_twin _ x y i v) (hs n a)
  | setBlock a i v => exact setter_same (fun x => Aeu.setBlock env.cfg x i v) (fun x y => setBlock_twin _ x y i v) (hs n a)
  | cast k a =>
    exact unary_same (Aesi.precisionCast env.cfg n) (fun a b ha hb => .of_eq (by simp [Aesi.precisionCast, ha, hb])) (hs k a)

theorem obs_same {α : Type} (f : Aesi n → α) (h : ∀ a b : Aesi n, a.sign = .zero → b.sign = .zero → f a = f b)
    {a b : Aesi n} (hs : Same a b) : f a = f b := by
  rcases hs.cases with rfl | ⟨ha, hb⟩
  · rfl
  · exact h a b ha hb

theorem compareTo_same (cfg : Cfg) {a a' b b' : Aesi n} (ha : Same a a') (hb : Same b b') :
    Aesi.compareTo cfg a b = Aesi.compareTo cfg a' b' := by
  rw [obs_same (fun x => Aesi.compareTo cfg x b) (fun x y hx hy => by simp [Aesi.compareTo, hx, hy]) ha]
  exact obs_same (fun x => Aesi.compareTo cfg a' x) (fun x y hx hy => by simp [Aesi.compareTo, Aesi.isZero, hx, hy]) hb

theorem across_same (cfg : Cfg) {a a' : Aesi n} (ha : Same a a') :
    Aesi.precisionCast cfg m a = Aesi.precisionCast cfg m a' :=
  obs_same (Aesi.precisionCast cfg m) (fun x y hx hy => by simp [Aesi.precisionCast, hx, hy]) ha

theorem Query.same (env : Env) {w w' : World} (h : w.Same w') (q : Query) (hq : q.Numeric) :
    q.run env w = q.run env w' := by
  obtain ⟨hu, hs, -⟩ := h
  cases q with
  | sIsOdd => exact hq.elim
  | sIsEven => exact hq.elim
  | sBitCount => exact hq.elim
  | sByteCount => exact hq.elim
  | sGetBit => exact hq.elim
  | sGetByte => exact hq.elim
  | sGetBlock => exact hq.elim
  | sIsZero n a => simp only [Query.run, Aesi.isZero, (hs n a).1]
  | sIsPositive n a => simp only [Query.run, Aesi.isPositive, (hs n a).1]
  | sIsNegative n a => simp only [Query.run, Aesi.isNegative, (hs n a).1]
  | sEq n a b => simp only [Query.run, Aesi.eq, compareTo_same env.cfg (hs n a) (hs n b)]
  | sCompare n a b => simp only [Query.run, compareTo_same env.cfg (hs n a) (hs n b)]
  | sOrder n a b => simp only [Query.run, Aesi.spaceship, compareTo_same env.cfg (hs n a) (hs n b)]
  | sEqAcross n m a b =>
    simp only [Query.run, Aesi.eqAcross, across_same env.cfg (hs n a), Aesi.eq,
      fun c => compareTo_same env.cfg (Same.refl c) (hs m b)]
  | sCompareAcross n m a b =>
    simp only [Query.run, Aesi.compareToAcross, across_same env.cfg (hs n a),
      fun c => compareTo_same env.cfg (Same.refl c) (hs m b)]
  | sEqIntegral n a t i =>
    simp only [Query.run, Aesi.eqIntegral,
      obs_same (fun x => Aesi.compareToIntegral x i) (fun x y hx hy => by simp [Aesi.compareToIntegral, hx, hy]) (hs n a)]
  | sCompareIntegral n a t i =>
    simp only [Query.run,
      obs_same (fun x => Aesi.compareToIntegral x i) (fun x y hx hy => by simp [Aesi.compareToIntegral, hx, hy]) (hs n a)]
  | sRel op n a b =>
    cases op <;> simp only [Query.run, Rel.runS, Aesi.lt, Aesi.le, Aesi.gt, Aesi.ge, Aesi.spaceship,
      compareTo_same env.cfg (hs n a) (hs n b)]
  | sNe n a b => simp only [Query.run, Aesi.ne, Aesi.eq, compareTo_same env.cfg (hs n a) (hs n b)]
  | sOrderIntegral n a t i =>
    simp only [Query.run, Aesi.spaceshipIntegral,
      obs_same (fun x => Aesi.compareToIntegral x i) (fun x y hx hy => by simp [Aesi.compareToIntegral, hx, hy]) (hs n a)]
  | sLtIntegral n a t i =>
    simp only [Query.run, Aesi.ltIntegral, Aesi.spaceshipIntegral,
      obs_same (fun x => Aesi.compareToIntegral x i) (fun x y hx hy => by simp [Aesi.compareToIntegral, hx, hy]) (hs n a)]
  | sGtIntegral n a t i =>
    simp only [Query.run, Aesi.gtIntegral, Aesi.spaceshipIntegral,
      obs_same (fun x => Aesi.compareToIntegral x i) (fun x y hx hy => by simp [Aesi.compareToIntegral, hx, hy]) (hs n a)]
  | sEqMpz n a z =>
    simp only [Query.run, Aesi.eqMpz, Aesi.eq, fun c => compareTo_same env.cfg (hs n a) (Same.refl c)]
  | sCast n a t =>
    simp only [Query.run,
      obs_same (Aesi.integralCast t) (fun x y hx hy => by simp [Aesi.integralCast, hx, hy]) (hs n a)]
  | sText n a kind base upper showBase cap =>
    simp only [Query.run,
      obs_same (fun x => Aesi.getString env.cfg kind base upper x (Vector.replicate cap 0) showBase)
        (fun x y hx hy => by simp [Aesi.getString, hx, hy]) (hs n a)]
  | _ => simp only [Query.run, hu]

theorem World.Same.setU {w w' : World} (h : w.Same w') (n d : Nat) (x : Aeu n) :
    (w.setU n d x).Same (w'.setU n d x) := by
  obtain ⟨hu, hs, hl, ho, hk, hr⟩ := h
  refine ⟨?_, hs, hl, ho, hk, hr⟩
  simp only [World.setU, hu]

theorem World.Same.setS {w w' : World} (h : w.Same w') (n d : Nat) {x x' : Aesi n} (hx : AesiMP.Same x x') :
    (w.setS n d x).Same (w'.setS n d x') := by
  obtain ⟨hu, hs, hl, ho, hk, hr⟩ := h
  refine ⟨hu, fun k i => ?_, hl, ho, hk, hr⟩
  simp only [World.setS]
  by_cases hc : n = k ∧ i = d
  · obtain ⟨rfl, rfl⟩ := hc
    simpa using hx
  · simp only [hc, dite_false]
    exact hs k i

theorem post_same (f : Aesi n → Exec (Aesi n)) (g : Aesi n → Exec (Aesi n × Aesi n))
    (hg : ∀ x, g x = (f x).bind fun y => .ok (y, x)) {w w' : World} (h : w.Same w') (d a : Nat)
    (hf : SameRes (f (w.s n a)) (f (w'.s n a))) (st : World)
    (hr : (g (w.s n a)).bind (fun r => .ok ((w.setS n a r.1).setS n d r.2)) = (.ok st : Exec World)) :
    ∃ st', (g (w'.s n a)).bind (fun r => .ok ((w'.setS n a r.1).setS n d r.2)) = (.ok st' : Exec World) ∧
      st.Same st' := by
  rw [hg] at hr ⊢
  cases hx : f (w.s n a) with
  | error e => rw [hx] at hr; cases hr
  | ok x =>
    obtain ⟨y, hy, hxy⟩ := hf x hx
    rw [hx] at hr
    cases hr
    exact ⟨_, by rw [hy]; rfl, (h.setS n a hxy).setS n d (h.2.1 n a)⟩

/-- One call on two states that `==` cannot tell apart. -/
theorem Call.same (env : Env) {w w' : World} (h : w.Same w') (c : Call) (hc : c.Numeric) (st : World)
    (hr : c.run env w = .ok st) : ∃ st', c.run env w' = .ok st' ∧ st.Same st' := by
  have hw := h
  obtain ⟨hu, hs, hl, ho, hk, hsrc⟩ := h
  cases c with
  | setU n d e =>
    simp only [Call.run] at hr ⊢
    rw [← e.same env hw hc]
    cases hx : e.run env w with
    | error x => rw [hx] at hr; exact absurd hr (by simp)
    | ok x => rw [hx] at hr; cases hr; exact ⟨_, rfl, hw.setU n d x⟩
  | setS n d e =>
    simp only [Call.run] at hr ⊢
    cases hx : e.run env w with
    | error x => rw [hx] at hr; exact absurd hr (by simp)
    | ok x =>
      rw [hx] at hr
      cases hr
      obtain ⟨y, hy, hxy⟩ := e.same env hw hc x hx
      exact ⟨_, by rw [hy]; rfl, hw.setS n d hxy⟩
  | ask q =>
    simp only [Call.run] at hr ⊢
    rw [← q.same env hw hc]
    cases hx : q.run env w with
    | error x => rw [hx] at hr; exact absurd hr (by simp)
    | ok x => rw [hx] at hr; cases hr; exact ⟨_, rfl, hu, hs, rfl, ho, hk, hsrc⟩
  | postIncU n d a =>
    simp only [Call.run, ← hu] at hr ⊢
    cases hx : Aeu.postInc (w.u n a) with
    | error x => rw [hx] at hr; exact absurd hr (by simp)
    | ok x => rw [hx] at hr; cases hr; exact ⟨_, rfl, (hw.setU n a x.1).setU n d x.2⟩
  | postDecU n d a =>
    simp only [Call.run, ← hu] at hr ⊢
    cases hx : Aeu.postDec (w.u n a) with
    | error x => rw [hx] at hr; exact absurd hr (by simp)
    | ok x => rw [hx] at hr; cases hr; exact ⟨_, rfl, (hw.setU n a x.1).setU n d x.2⟩
  | postIncS n d a => exact post_same Aesi.inc Aesi.postInc (fun _ => rfl) hw d a (SExpr.same env hw hc (.inc a)) st hr
  | postDecS n d a => exact post_same Aesi.dec Aesi.postDec (fun _ => rfl) hw d a (SExpr.same env hw hc (.dec a)) st hr
  | divideU n a b q r =>
    simp only [Call.run, ← hu] at hr ⊢
    cases hx : Aeu.divide env.cfg (w.u n a) (w.u n b) with
    | error x => rw [hx] at hr; exact absurd hr (by simp)
    | ok x => rw [hx] at hr; cases hr; exact ⟨_, rfl, (hw.setU n q x.1).setU n r x.2⟩
  | dividePair n a b q r =>
    simp only [Call.run, ← hu] at hr ⊢
    cases hx : Aeu.dividePair env.cfg (w.u n a) (w.u n b) with
    | error x => rw [hx] at hr; exact absurd hr (by simp)
    | ok x => rw [hx] at hr; cases hr; exact ⟨_, rfl, (hw.setU n q x.1).setU n r x.2⟩
  | divideS n a b q r =>
    simp only [Call.run, Aesi.divide] at hr ⊢
    have ha := hs n a
    have hb := hs n b
    rw [← ha.1, ← hb.1]
    by_cases hz : (w.s n a).sign = .zero ∨ (w.s n b).sign = .zero
    · rw [if_pos hz] at hr ⊢
      cases hr
      exact ⟨_, rfl, (hw.setS n q (same_zero rfl rfl)).setS n r (same_zero rfl rfl)⟩
    · have h1 : (w.s n a).sign ≠ .zero := fun e => hz (.inl e)
      have h2 : (w.s n b).sign ≠ .zero := fun e => hz (.inr e)
      rw [if_neg hz] at hr ⊢
      rw [← ha.2 h1, ← hb.2 h2]
      generalize hE : (do
        let qr ← Aeu.divide env.cfg (w.s n a).base (w.s n b).base
        _ : Exec (Aesi n × Aesi n)) = E at hr ⊢
      cases E with
      | error x => exact absurd hr (by simp)
      | ok x => cases hr; exact ⟨_, rfl, (hw.setS n q (.refl _)).setS n r (.refl _)⟩
  | gcdExt n a b x y g =>
    simp only [Call.run, ← hu] at hr ⊢
    cases hx : Aeu.gcdExt env.cfg (w.u n a) (w.u n b) with
    | error x => rw [hx] at hr; exact absurd hr (by simp)
    | ok t => rw [hx] at hr; cases hr; exact ⟨_, rfl, ((hw.setU n x t.2.1).setU n y t.2.2).setU n g t.1⟩
  | swapU n a b =>
    simp only [Call.run, ← hu] at hr ⊢
    cases hr
    exact ⟨_, rfl, (hw.setU n a _).setU n b _⟩
  | swapS n a b =>
    simp only [Call.run] at hr ⊢
    cases hr
    refine ⟨_, rfl, (hw.setS n a ?_).setS n b ?_⟩
    · exact hs n b
    · exact hs n a
  | printU n a buf =>
    simp only [Call.run, ← hu, ← ho] at hr ⊢
    cases hx : Aeu.streamOut env.cfg buf w.os (w.u n a) with
    | error x => rw [hx] at hr; exact absurd hr (by simp)
    | ok x => rw [hx] at hr; cases hr; exact ⟨_, rfl, rfl, hs, hl, rfl, hk, hsrc⟩
  | printS n a buf =>
    simp only [Call.run, ← ho] at hr ⊢
    rw [← obs_same (Aesi.streamOut env.cfg buf w.os) (fun x y hx hy => by simp [Aesi.streamOut, hx, hy]) (hs n a)]
    cases hx : Aesi.streamOut env.cfg buf w.os (w.s n a) with
    | error x => rw [hx] at hr; exact absurd hr (by simp)
    | ok x => rw [hx] at hr; cases hr; exact ⟨_, rfl, hu, hs, hl, rfl, hk, hsrc⟩
  | read n d be =>
    simp only [Call.run, ← hu, ← hsrc] at hr ⊢
    cases hx : Aeu.readBinary env.host (w.u n d) w.src be with
    | error x => rw [hx] at hr; exact absurd hr (by simp)
    | ok x =>
      rw [hx] at hr
      cases hr
      have := hw.setU n d x.1
      exact ⟨_, rfl, this.1, this.2.1, hl, ho, hk, rfl⟩
  | write n a be =>
    simp only [Call.run, ← hu, ← hk] at hr ⊢
    cases hx : Aeu.writeBinary env.host (w.u n a) w.sink be with
    | error x => rw [hx] at hr; exact absurd hr (by simp)
    | ok x => rw [hx] at hr; cases hr; exact ⟨_, rfl, rfl, hs, hl, ho, rfl, hsrc⟩

/-- A client that makes only numeric calls and chooses them by what `==` can tell. -/
def Client.Numeric : Client → Prop
  | .done => True
  | .call c rest => c.Numeric ∧ (∀ w w' : World, w.Same w' → rest w = rest w') ∧ ∀ w, (rest w).Numeric

/-- C85: exchange any signed objects for objects that compare equal to them (`==` returns true).  Then
every program of numeric calls, of any length, runs as before: it returns the same values and texts,
prints the same characters, and leaves signed objects that again compare equal. -/
theorem C85_interchangeable_partial (env : Env) (p : Client) (hp : p.Numeric) :
    ∀ w w' : World, w.u = w'.u → (∀ n i, Aesi.eq env.cfg (w.s n i) (w'.s n i) = .ok true) → w.last = w'.last →
      w.os = w'.os → w.sink = w'.sink → w.src = w'.src → ∀ v, p.run env w = .ok v →
      ∃ v', p.run env w' = .ok v' ∧ v.u = v'.u ∧ (∀ n i, Aesi.eq env.cfg (v.s n i) (v'.s n i) = .ok true) ∧
        v.last = v'.last ∧ v.os = v'.os ∧ v.sink = v'.sink ∧ v.src = v'.src := by
  have key : ∀ w w' : World, w.Same w' → ∀ v, p.run env w = .ok v → ∃ v', p.run env w' = .ok v' ∧ v.Same v' := by
    induction p with
    | done => exact fun w w' h v hv => by cases hv; exact ⟨w', rfl, h⟩
    | call c rest ih =>
      obtain ⟨h1, h2, h3⟩ := hp
      intro w w' h v hv
      simp only [Client.run] at hv ⊢
      cases hx : c.run env w with
      | error e => rw [hx] at hv; exact absurd hv (by simp)
      | ok st =>
        obtain ⟨st', e', hs⟩ := c.same env h h1 st hx
        rw [hx] at hv
        simp only [ok_bind] at hv
        rw [e', ok_bind, ← h2 st st' hs]
        exact ih st (h3 st) st st' hs v hv
  intro w w' hu hs hl ho hk hr v hv
  obtain ⟨v', e, h1, h2, h3⟩ := key w w' ⟨hu, fun n i => (eq_iff_same _ _ _).1 (hs n i), hl, ho, hk, hr⟩ v hv
  exact ⟨v', e, h1, fun n i => (eq_iff_same _ _ _).2 (h2 n i), h3⟩

/-- A number minus itself, and zero. -/
private def staleZero : Aesi 2 := ⟨.zero, ofNat 2 5⟩

/-- C85 fails for the calls that are not numeric: `5 - 5` and `0` compare equal, but the parity, the bits,
the counts and the unsigned conversion of the first are those of 5. -/
theorem C85_counterexample :
    Aesi.sub lp64 (ofInt 2 5) (ofInt 2 5) = .ok staleZero ∧
    Aesi.eq lp64 staleZero (ofInt 2 0) = .ok true ∧
    Aesi.isOdd staleZero = .ok true ∧ Aesi.isOdd (ofInt 2 0) = .ok false ∧
    Aesi.isEven staleZero = .ok false ∧ Aesi.isEven (ofInt 2 0) = .ok true ∧
    Aesi.getBit lp64 staleZero 2 = .ok true ∧ Aesi.getBit lp64 (ofInt 2 0) 2 = .ok false ∧
    Aesi.bitCount staleZero = .ok 3 ∧ Aesi.bitCount (ofInt 2 0) = .ok 0 ∧
    Aesi.byteCount staleZero = .ok 1 ∧ Aesi.byteCount (ofInt 2 0) = .ok 0 ∧
    toNat (Aesi.unsignedCast staleZero) = 5 ∧ toNat (Aesi.unsignedCast (ofInt 2 0)) = 0 := by decide +kernel

/-! A program that branches on results, run from a state with a stale zero and from one with a plain zero. -/

private def world (z : Aesi 2) : World where
  u := fun k i => ofNat k i
  s := fun k i => if h : 2 = k ∧ i = 0 then h.1 ▸ z else ofInt k i
  last := []
  os := ⟨.other, false, false, .right, 32, 0, []⟩
  sink := ⟨[], 100, false⟩
  src := ⟨[], false⟩

private def prog : Client :=
  .call (.setS 2 3 (.bin .mul 0 7)) fun _ =>
  .call (.ask (.sCompare 2 3 7)) fun w =>
    if w.last = [1] then .call (.setS 2 4 (.bin .add 3 7)) fun _ => .call (.printS 2 4 20) fun _ => .done
    else .done

example : prog.Numeric := by
  refine ⟨(by decide : 0 < 2), fun _ _ _ => rfl, fun _ => ⟨trivial, fun w w' h => ?_, fun w => ?_⟩⟩
  · simp only [h.2.2.1]
  · simp only
    split
    · exact ⟨(by decide : 0 < 2), fun _ _ _ => rfl, fun _ => ⟨trivial, fun _ _ _ => rfl, fun _ => trivial⟩⟩
    · exact trivial

example : (prog.run ⟨lp64, .little, fun _ => false⟩ (world staleZero)).map (fun w => (w.last, w.os.out)) = .ok ([1], [55]) ∧
    (prog.run ⟨lp64, .little, fun _ => false⟩ (world (ofInt 2 0))).map (fun w => (w.last, w.os.out)) = .ok ([1], [55]) := by
  decide +kernel

end AesiMP
