import Verif.Model.Constexpr
import Verif.Props.Init
import Verif.Props.SafetyExact

/-!
# C115: constant expressions
-/

namespace AesiMP
open Aeu Aesi

/-! ## Specification: the calls that need a function that is not `constexpr` -/

/-- The classification function of a character type. -/
def classifier : CharKind → Foreign
  | .char => .isalnum
  | .wchar => .iswalnum

/-- The formatting function of a character type. -/
def formatter : CharKind → Foreign
  | .char => .snprintf
  | .wchar => .swprintf

def UExpr.Foreign {n : Nat} (f : Foreign) : UExpr n → Prop
  | .text kind chars => chars ≠ [] ∧ f = classifier kind
  | .mpz _ | .mpzL _ _ _ | .mpzR _ _ _ => f = .gmp
  | _ => False

def SExpr.Foreign {n : Nat} (f : Foreign) : SExpr n → Prop
  | .text kind chars => chars ≠ [] ∧ f = classifier kind
  | .mpz _ | .mpzL _ _ _ | .mpzR _ _ _ => f = .gmp
  | _ => False

def Query.Foreign (st : World) (f : Foreign) : Query → Prop
  | .uEqMpz _ _ _ | .sEqMpz _ _ _ => f = .gmp
  | .uText n a kind base _ _ cap => base.toNat = 16 ∧ 2 ≤ cap ∧ toNat (st.u n a) ≠ 0 ∧ f = formatter kind
  | .sText n a kind base _ _ cap =>
      base.toNat = 16 ∧ 2 ≤ (if sgn (st.s n a) = -1 then cap - 1 else cap) ∧ sgn (st.s n a) ≠ 0 ∧
        toNat (st.s n a).base ≠ 0 ∧ f = formatter kind
  | _ => False

def Call.Foreign (st : World) (f : Foreign) : Call → Prop
  | .setU _ _ e => e.Foreign f
  | .setS _ _ e => e.Foreign f
  | .ask q => q.Foreign st f
  | .printU _ _ _ | .printS _ _ _ | .read _ _ _ | .write _ _ _ => f = .iostream
  | _ => False

/-- The program reaches such a call. -/
def Client.ReachesForeign (env : Env) : Client → World → Prop
  | .done, _ => False
  | .call c rest, st => (∃ f, c.Foreign st f) ∨ ∃ st', c.run env st = .ok st' ∧ (rest st').ReachesForeign env st'

/-! ## Proof -/

variable {n m : Nat}

private theorem lift_bind {α β : Type} (e : Exec α) (f : α → Exec β) :
    lift (e >>= f) = lift e >>= fun r => lift (f r) := by
  cases e <;> rfl

private theorem lift_ok {α : Type} (r : α) : lift (.ok r : Exec α) = .ok r := rfl

private theorem const_bind {α β : Type} (r : α) (f : α → Const β) : (Except.ok r : Const α) >>= f = f r := rfl

private theorem make_eq {w : Nat} (v : BitVec w) : Raw.make n v = Aeu.ofUnsigned n v := by
  obtain ⟨x, h1, h2⟩ := C88_constructor (Raw.fresh n) v
  simp only [Raw.make, h1, ok_bind, Raw.load_store, h2]

private theorem ubin_eq (cfg : Cfg) (a b : Aeu n) (op : UBin) : op.constant cfg a b = op.run cfg a b := by
  cases op <;> simp only [UBin.constant, UBin.run, (C88_quotient_remainder cfg _ _).1, (C88_quotient_remainder cfg _ _).2,
    C88_gcd, Aeu.lcm]

private theorem umix_eq (cfg : Cfg) {w : Nat} (a : Aeu n) (v : BitVec w) (op : UMix) :
    op.constant cfg a v = op.run cfg a v := by
  cases op <;> simp only [UMix.constant, UMix.run, make_eq, ubin_eq, UBin.run] <;> rfl

private theorem divS_eq (cfg : Cfg) (a b : Aesi n) : Const.divS cfg a b = Aesi.div cfg a b := by
  simp only [Const.divS, Aesi.div, (C88_quotient_remainder cfg _ _).1]

private theorem modS_eq (cfg : Cfg) (a b : Aesi n) : Const.modS cfg a b = Aesi.mod cfg a b := by
  simp only [Const.modS, Aesi.mod, (C88_quotient_remainder cfg _ _).2]

private theorem ofIntegralS_eq (t : ITy) (i : Int) : Const.ofIntegralS n t i = Aesi.ofIntegral n t i := by
  simp only [Const.ofIntegralS, Aesi.ofIntegral, make_eq]

private theorem sbin_eq (cfg : Cfg) (a b : Aesi n) (op : SBin) : op.constant cfg a b = op.run cfg a b := by
  cases op <;> simp only [SBin.constant, SBin.run, divS_eq, modS_eq]

private theorem smix_eq (cfg : Cfg) (t : ITy) (a : Aesi n) (i : Int) (op : SMix) :
    op.constant cfg t a i = op.run cfg t a i := by
  cases op <;> simp only [SMix.constant, SMix.run, ofIntegralS_eq, sbin_eq, SBin.run, Const.divIntegralS,
    Const.modIntegralS, Aesi.divIntegral, Aesi.modIntegral, make_eq, (C88_quotient_remainder cfg _ _).1,
    (C88_quotient_remainder cfg _ _).2] <;> rfl

private theorem ofChars_nil (kind : CharKind) (alnum : Int → Bool) :
    Const.ofChars kind n [] = lift (Aeu.ofChars kind alnum n (⟨([] : List Int).toArray, rfl⟩ : Vector Int 0)) := rfl

private theorem UExpr.constant_eq (env : Env) (st : World) (e : UExpr n) :
    (∀ f, e.Foreign f → e.constant env st = .error (.calls f)) ∧
    ((∀ f, ¬ e.Foreign f) → e.constant env st = lift (e.run env st)) := by
  cases e with
  | builtin w v => exact ⟨fun _ h => h.elim, fun _ => by simp only [UExpr.constant, UExpr.run, make_eq]⟩
  | text kind chars =>
    constructor
    · rintro f ⟨h, rfl⟩
      have hl : chars.length ≠ 0 := by simpa using h
      simp only [UExpr.constant, Const.ofChars, if_neg hl]
      cases kind <;> rfl
    · intro h
      have h0 : chars = [] := by
        by_contra hc
        exact h _ ⟨hc, rfl⟩
      subst h0
      exact ofChars_nil kind env.alnum
  | mpz z => exact ⟨fun f h => by rw [show f = .gmp from h]; rfl, fun h => absurd rfl (h .gmp)⟩
  | mpzL op z a => exact ⟨fun f h => by rw [show f = .gmp from h]; rfl, fun h => absurd rfl (h .gmp)⟩
  | mpzR op a z => exact ⟨fun f h => by rw [show f = .gmp from h]; rfl, fun h => absurd rfl (h .gmp)⟩
  | not a => exact ⟨fun _ h => h.elim, fun _ => by simp only [UExpr.constant, UExpr.run, C88_complement]⟩
  | bin op a b => exact ⟨fun _ h => h.elim, fun _ => by simp only [UExpr.constant, UExpr.run, ubin_eq]⟩
  | mix op a w v => exact ⟨fun _ h => h.elim, fun _ => by simp only [UExpr.constant, UExpr.run, umix_eq]⟩
  | squareRoot a => exact ⟨fun _ h => h.elim, fun _ => by simp only [UExpr.constant, UExpr.run, C88_square_root]⟩
  | _ => exact ⟨fun _ h => h.elim, fun _ => rfl⟩

private theorem SExpr.constant_eq (env : Env) (st : World) (e : SExpr n) :
    (∀ f, e.Foreign f → e.constant env st = .error (.calls f)) ∧
    ((∀ f, ¬ e.Foreign f) → e.constant env st = lift (e.run env st)) := by
  cases e with
  | builtin t i => exact ⟨fun _ h => h.elim, fun _ => by simp only [SExpr.constant, SExpr.run, ofIntegralS_eq]⟩
  | text kind chars =>
    constructor
    · rintro f ⟨h, rfl⟩
      have hl : chars.length ≠ 0 := by simpa using h
      simp only [SExpr.constant, Const.ofCharsS, Const.ofChars, if_neg hl]
      cases kind <;> rfl
    · intro h
      have h0 : chars = [] := by
        by_contra hc
        exact h _ ⟨hc, rfl⟩
      subst h0
      simp only [SExpr.constant, SExpr.run, Const.ofCharsS, Aesi.ofChars, ofChars_nil kind env.alnum, lift_bind]
      congr 1
      funext r
      congr 1
      funext z
      cases z
      · simp only [Bool.not_false, if_true, lift_bind]
        rfl
      · rfl
  | mpz z => exact ⟨fun f h => by rw [show f = .gmp from h]; rfl, fun h => absurd rfl (h .gmp)⟩
  | mpzL op z a => exact ⟨fun f h => by rw [show f = .gmp from h]; rfl, fun h => absurd rfl (h .gmp)⟩
  | mpzR op a z => exact ⟨fun f h => by rw [show f = .gmp from h]; rfl, fun h => absurd rfl (h .gmp)⟩
  | bin op a b => exact ⟨fun _ h => h.elim, fun _ => by simp only [SExpr.constant, SExpr.run, sbin_eq]⟩
  | mix op a t i => exact ⟨fun _ h => h.elim, fun _ => by simp only [SExpr.constant, SExpr.run, smix_eq]⟩
  | squareRoot a =>
    refine ⟨fun _ h => h.elim, fun _ => ?_⟩
    simp only [SExpr.constant, SExpr.run, Const.squareRootS, Aesi.squareRoot, C88_square_root, ofIntegralS_eq]
  | _ => exact ⟨fun _ h => h.elim, fun _ => rfl⟩

/-! ### Texts -/

private theorem hex_byte {base : BitVec 8} : base.toNat = 16 ↔ base = 16#8 :=
  ⟨fun h => BitVec.eq_of_toNat_eq h, fun h => by rw [h]; rfl⟩

private theorem prefix_ok {cap : Nat} (base : BitVec 8) (showBase : Bool) (buffer : Vector Int cap) :
    ∃ r, Aeu.writePrefix base showBase buffer = .ok r := by
  unfold Aeu.writePrefix
  split
  · next h =>
    have h0 : 0 < cap := by omega
    have h1 : 1 < cap := by omega
    split
    · exact ⟨_, by simp only [wr_ok h0, wr_ok h1, ok_bind]; rfl⟩
    split
    · exact ⟨_, by simp only [wr_ok h0, wr_ok h1, ok_bind]; rfl⟩
    split
    · exact ⟨_, by simp only [wr_ok h0, wr_ok h1, ok_bind]; rfl⟩
    · exact ⟨_, rfl⟩
  · exact ⟨_, rfl⟩

private theorem scan_ok (hn : 0 < n) (a : Aeu n) : ∃ i, Aeu.scanDown a (n - 1) = .ok i ∧ i < n := by
  have key : ∀ k, k < n → ∃ i, Aeu.scanDown a k = .ok i ∧ i < n := by
    intro k
    induction k with
    | zero => intro _; exact ⟨0, rfl, hn⟩
    | succ k ih =>
      intro hk
      rw [Aeu.scanDown]
      simp only [rd_ok hk, ok_bind]
      split
      · exact ih (by omega)
      · exact ⟨_, rfl, hk⟩
  exact key (n - 1) (by omega)

private theorem getString_foreign (cfg : Cfg) (hn : 0 < n) (kind : CharKind) {base : BitVec 8} (hb : base.toNat = 16)
    (a : Aeu n) (ha : toNat a ≠ 0) {cap : Nat} (hc : 2 ≤ cap) (buffer : Vector Int cap) (showBase : Bool) :
    Const.getString cfg kind base a buffer showBase = .error (.calls (formatter kind)) := by
  obtain ⟨r, hr⟩ := prefix_ok base showBase buffer
  obtain ⟨i, hi, hin⟩ := scan_ok hn a
  have hz : Aeu.isZero a = .ok false := by
    rw [Aeu.isZero_spec]; simp [ha]
  simp only [Const.getString, if_neg (by omega : ¬ cap < 2), hr, hz, lift_ok, const_bind, ok_bind, Const.getStringBody,
    if_pos (hex_byte.mp hb), hi, rd_ok hin]
  cases kind <;> rfl

private theorem getString_same (cfg : Cfg) (kind : CharKind) (base : BitVec 8) (upper : Bool) (a : Aeu n) {cap : Nat}
    (h : ¬ (base.toNat = 16 ∧ 2 ≤ cap ∧ toNat a ≠ 0)) (buffer : Vector Int cap) (showBase : Bool) :
    Const.getString cfg kind base a buffer showBase = lift (Aeu.getString cfg kind base upper a buffer showBase) := by
  unfold Const.getString Aeu.getString
  by_cases hc : cap < 2
  · rw [if_pos hc, if_pos hc]; rfl
  rw [if_neg hc, if_neg hc]
  simp only [lift_bind]
  congr 1
  funext r
  rw [Aeu.isZero_spec]
  simp only [lift_ok, const_bind, ok_bind]
  by_cases ha : toNat a = 0
  · simp only [ha, decide_true, if_true, lift_bind]
    rfl
  · have hb : base ≠ 16#8 := fun hb => h ⟨hex_byte.mpr hb, by omega, ha⟩
    simp only [ha, decide_false, Bool.false_eq_true, if_false, Const.getStringBody, Aeu.getStringBody, if_neg hb, lift_bind]
    rfl

private theorem sgn_zero (a : Aesi n) : sgn a = 0 ↔ a.sign = .zero := by
  unfold sgn; cases a.sign <;> simp

private theorem sgn_neg (a : Aesi n) : sgn a = -1 ↔ a.sign = .negative := by
  unfold sgn; cases a.sign <;> simp

private theorem getStringS_foreign (cfg : Cfg) (hn : 0 < n) (kind : CharKind) {base : BitVec 8} (hb : base.toNat = 16)
    (upper : Bool) (a : Aesi n) (hs : sgn a ≠ 0) (ha : toNat a.base ≠ 0) {cap : Nat}
    (hc : 2 ≤ (if sgn a = -1 then cap - 1 else cap)) (buffer : Vector Int cap) (showBase : Bool) :
    Const.getStringS cfg kind base upper a buffer showBase = .error (.calls (formatter kind)) := by
  have hs' : a.sign ≠ .zero := fun h => hs ((sgn_zero a).mpr h)
  unfold Const.getStringS
  rw [if_pos hs']
  by_cases hneg : a.sign = .negative
  · rw [if_pos ((sgn_neg a).mpr hneg)] at hc
    have h0 : 0 < cap := by omega
    rw [if_pos ⟨hneg, h0⟩]
    simp only [wr_ok h0, lift_ok, const_bind, ok_bind, getString_foreign cfg hn kind hb a.base ha hc]
    rfl
  · rw [if_neg (fun h => hneg ((sgn_neg a).mp h))] at hc
    rw [if_neg (fun h => hneg h.1)]
    exact getString_foreign cfg hn kind hb a.base ha hc buffer showBase

private theorem getStringS_same (cfg : Cfg) (kind : CharKind) (base : BitVec 8) (upper : Bool) (a : Aesi n) {cap : Nat}
    (h : ¬ (base.toNat = 16 ∧ 2 ≤ (if sgn a = -1 then cap - 1 else cap) ∧ sgn a ≠ 0 ∧ toNat a.base ≠ 0))
    (buffer : Vector Int cap) (showBase : Bool) :
    Const.getStringS cfg kind base upper a buffer showBase =
      lift (Aesi.getString cfg kind base upper a buffer showBase) := by
  unfold Const.getStringS
  by_cases hs : a.sign = .zero
  · rw [if_neg (not_not.mpr hs)]
  have hs0 : sgn a ≠ 0 := fun h => hs ((sgn_zero a).mp h)
  rw [if_pos hs]
  unfold Aesi.getString
  rw [if_pos hs]
  by_cases hneg : a.sign = .negative
  · rw [if_pos ((sgn_neg a).mpr hneg)] at h
    by_cases h0 : cap > 0
    · rw [if_pos ⟨hneg, h0⟩, if_pos ⟨hneg, h0⟩]
      simp only [lift_bind, Aesi.onTail]
      congr 1
      funext b
      rw [getString_same cfg kind base upper a.base (fun hh => h ⟨hh.1, hh.2.1, hs0, hh.2.2⟩)]
      rfl
    · rw [if_neg (fun hh => h0 hh.2), if_neg (fun hh => h0 hh.2)]
      exact getString_same cfg kind base upper a.base (fun hh => by omega) buffer showBase
  · rw [if_neg (fun hh => hneg ((sgn_neg a).mp hh))] at h
    rw [if_neg (fun hh => hneg hh.1), if_neg (fun hh => hneg hh.1)]
    exact getString_same cfg kind base upper a.base (fun hh => h ⟨hh.1, hh.2.1, hs0, hh.2.2⟩) buffer showBase

private theorem Query.constant_eq (env : Env) (st : World) (q : Query) (ht : q.Typed) :
    (∀ f, q.Foreign st f → q.constant env st = .error (.calls f)) ∧
    ((∀ f, ¬ q.Foreign st f) → q.constant env st = lift (q.run env st)) := by
  cases q with
  | uEqMpz n a z => exact ⟨fun f h => by rw [show f = .gmp from h]; rfl, fun h => absurd rfl (h .gmp)⟩
  | sEqMpz n a z => exact ⟨fun f h => by rw [show f = .gmp from h]; rfl, fun h => absurd rfl (h .gmp)⟩
  | uText n a kind base upper showBase cap =>
    constructor
    · rintro f ⟨hb, hc, ha, rfl⟩
      simp only [Query.constant, getString_foreign env.cfg ht.1 kind hb _ ha hc]
      rfl
    · intro h
      simp only [Query.constant, Query.run, lift_bind]
      rw [getString_same env.cfg kind base upper _ (fun hh => h _ ⟨hh.1, hh.2.1, hh.2.2, rfl⟩)]
      rfl
  | sText n a kind base upper showBase cap =>
    constructor
    · rintro f ⟨hb, hc, hs, ha, rfl⟩
      simp only [Query.constant, getStringS_foreign env.cfg ht.1 kind hb upper _ hs ha hc]
      rfl
    · intro h
      simp only [Query.constant, Query.run, lift_bind]
      rw [getStringS_same env.cfg kind base upper _ (fun hh => h _ ⟨hh.1, hh.2.1, hh.2.2.1, hh.2.2.2, rfl⟩)]
      rfl
  | uOldBuiltin op n a w v =>
    refine ⟨fun _ h => h.elim, fun _ => ?_⟩
    simp only [Query.constant, Query.run, make_eq, Aeu.oldBuiltin, bind_assoc]
  | _ => exact ⟨fun _ h => h.elim, fun _ => rfl⟩

private theorem divide_lift (cfg : Cfg) (hn : 0 < n) (a b : Aeu n) (q r : Raw n) {β : Type} (k : Aeu n → Aeu n → Const β) :
    (do let x ← lift (Raw.divide cfg a b q r)
        let x1 ← lift (Raw.load x.1)
        let x2 ← lift (Raw.load x.2)
        k x1 x2) = (do let x ← lift (Aeu.divide cfg a b); k x.1 x.2) := by
  obtain ⟨q', r', h1, h2⟩ := C88_divide cfg hn a b q r
  simp only [h1, h2, lift_ok, const_bind, ok_bind, Raw.load_store]

private theorem loadS_store (a : Aesi n) : RawS.load (RawS.store a) = .ok a := by
  simp only [RawS.load, RawS.store, RawS.rdSign, ok_bind, Raw.load_store]

private theorem divideS_lift (cfg : Cfg) (hn : 0 < n) (a b q r : Aesi n) {β : Type} (k : Aesi n → Aesi n → Const β) :
    (do let x ← lift (RawS.divide cfg a b (RawS.store q) (RawS.store r))
        let x1 ← lift (RawS.load x.1)
        let x2 ← lift (RawS.load x.2)
        k x1 x2) = (do let x ← lift (Aesi.divide cfg a b q r); k x.1 x.2) := by
  by_cases h : sgn a ≠ 0 ∧ sgn b ≠ 0
  · obtain ⟨q', r', h1, h2⟩ := C88_divide_signed_partial cfg hn a b (RawS.store q) (RawS.store r) h.1 h.2
    simp only [h1, h2 q r, lift_ok, const_bind, ok_bind, loadS_store]
  · have h' : a.sign = .zero ∨ b.sign = .zero := by
      by_contra hc
      exact h ⟨fun e => hc (.inl ((sgn_zero a).mp e)), fun e => hc (.inr ((sgn_zero b).mp e))⟩
    simp only [RawS.divide, Aesi.divide, if_pos h', lift_ok, const_bind, ok_bind]
    simp only [RawS.load, RawS.store, RawS.rdSign, ok_bind, Raw.load_store, lift_ok, const_bind]

theorem Call.constant_eq (env : Env) (st : World) (c : Call) (ht : c.Typed) :
    (∀ f, c.Foreign st f → c.constant env st = .error (.calls f)) ∧
    ((∀ f, ¬ c.Foreign st f) → c.constant env st = lift (c.run env st)) := by
  cases c with
  | setU n d e =>
    have h := e.constant_eq env st
    exact ⟨fun f hf => by simp only [Call.constant, h.1 f hf]; rfl, fun hf => by
      simp only [Call.constant, Call.run, h.2 hf, lift_bind]; rfl⟩
  | setS n d e =>
    have h := e.constant_eq env st
    exact ⟨fun f hf => by simp only [Call.constant, h.1 f hf]; rfl, fun hf => by
      simp only [Call.constant, Call.run, h.2 hf, lift_bind]; rfl⟩
  | ask q =>
    have h := q.constant_eq env st ht
    exact ⟨fun f hf => by simp only [Call.constant, h.1 f hf]; rfl, fun hf => by
      simp only [Call.constant, Call.run, h.2 hf, lift_bind]; rfl⟩
  | divideU n a b q r =>
    refine ⟨fun _ h => h.elim, fun _ => ?_⟩
    simp only [Call.constant, Call.run, lift_bind]
    exact divide_lift env.cfg ht.1 _ _ _ _ fun x1 x2 => .ok ((st.setU n q x1).setU n r x2)
  | dividePair n a b q r =>
    refine ⟨fun _ h => h.elim, fun _ => ?_⟩
    simp only [Call.constant, Call.run, lift_bind, Aeu.dividePair]
    refine (divide_lift env.cfg ht _ _ _ _ fun x1 x2 => .ok ((st.setU n q x1).setU n r x2)).trans ?_
    cases Aeu.divide env.cfg (st.u n a) (st.u n b) <;> rfl
  | divideS n a b q r =>
    refine ⟨fun _ h => h.elim, fun _ => ?_⟩
    simp only [Call.constant, Call.run, lift_bind]
    exact divideS_lift env.cfg ht.1 _ _ _ _ fun x1 x2 => .ok ((st.setS n q x1).setS n r x2)
  | gcdExt n a b x y g =>
    refine ⟨fun _ h => h.elim, fun _ => ?_⟩
    obtain ⟨g', x', y', h1, h2⟩ := C88_gcd_extended env.cfg ht.1 (st.u n a) (st.u n b) (Raw.store (st.u n x))
      (Raw.store (st.u n y))
    simp only [Call.constant, Call.run, h1, h2, lift_ok, const_bind, ok_bind, Raw.load_store]
  | printU n a buf => exact ⟨fun f h => by rw [show f = .iostream from h]; rfl, fun h => absurd rfl (h .iostream)⟩
  | printS n a buf => exact ⟨fun f h => by rw [show f = .iostream from h]; rfl, fun h => absurd rfl (h .iostream)⟩
  | read n d be => exact ⟨fun f h => by rw [show f = .iostream from h]; rfl, fun h => absurd rfl (h .iostream)⟩
  | write n a be => exact ⟨fun f h => by rw [show f = .iostream from h]; rfl, fun h => absurd rfl (h .iostream)⟩
  | _ => exact ⟨fun _ h => h.elim, fun _ => rfl⟩

/-! ## C115 -/

/-- C115: one call in a constant expression.  If it needs a function that is not `constexpr`, the evaluation stops there,
whatever it would do at run time; otherwise it does exactly what it does at run time: the same result, or the same
undefined behaviour (which makes it no constant expression). -/
theorem C115_call (env : Env) (st : World) (c : Call) (ht : c.Typed) :
    (∀ f, c.Foreign st f → c.constant env st = .error (.calls f)) ∧
    ((∀ f, ¬ c.Foreign st f) →
      (∀ st', c.run env st = .ok st' → c.constant env st = .ok st') ∧
      (∀ u, c.run env st = .error u → c.constant env st = .error (.undefined u))) := by
  refine ⟨(c.constant_eq env st ht).1, fun h => ?_⟩
  rw [(c.constant_eq env st ht).2 h]
  exact ⟨fun st' hr => by rw [hr]; rfl, fun u hr => by rw [hr]; rfl⟩

/-- C115: a program of any length evaluates in a constant expression if and only if it reaches no call with undefined
behaviour (`C86`) and no call that needs a function that is not `constexpr`. -/
theorem C115_program_partial (env : Env) (p : Client) :
    ∀ st : World, p.Typed env st →
      ((∃ st', p.constant env st = .ok st') ↔ ¬ p.ReachesBad env st ∧ ¬ p.ReachesForeign env st) := by
  induction p with
  | done => exact fun st _ => ⟨fun _ => ⟨id, id⟩, fun _ => ⟨st, rfl⟩⟩
  | call c rest ih =>
    intro st ht
    have hc := c.constant_eq env st ht.1
    by_cases hf : ∃ f, c.Foreign st f
    · obtain ⟨f, hf⟩ := hf
      refine iff_of_false ?_ fun h => h.2 (.inl ⟨f, hf⟩)
      rintro ⟨st', h⟩
      simp only [Client.constant, hc.1 f hf] at h
      cases h
    · have hf' : ∀ f, ¬ c.Foreign st f := fun f h => hf ⟨f, h⟩
      have hb := C86_call env st c ht.1
      cases hr : c.run env st with
      | error u =>
        refine iff_of_false ?_ fun h => h.1 (.inl ?_)
        · rintro ⟨st', h⟩
          simp only [Client.constant, hc.2 hf', hr, lift] at h
          cases h
        · by_contra hbad
          obtain ⟨st', h⟩ := hb.mpr hbad
          rw [hr] at h; cases h
      | ok st1 =>
        have hnb := hb.mp ⟨st1, hr⟩
        have h := ih st1 st1 (ht.2 st1 hr)
        simp only [Client.constant, hc.2 hf', hr, lift_ok, const_bind, ok_bind, Client.ReachesBad, Client.ReachesForeign, hnb, hf,
          false_or]
        rw [h]
        refine and_congr (not_congr ⟨fun h => ⟨st1, rfl, h⟩, ?_⟩) (not_congr ⟨fun h => ⟨st1, rfl, h⟩, ?_⟩)
        · rintro ⟨st', he, h⟩; cases he; exact h
        · rintro ⟨st', he, h⟩; cases he; exact h

/-- C115: what the compiler computes is what the program would compute. -/
theorem C115_value (env : Env) (p : Client) :
    ∀ st st' : World, p.Typed env st → p.constant env st = .ok st' → p.run env st = .ok st' := by
  induction p with
  | done => exact fun st st' _ h => by cases h; rfl
  | call c rest ih =>
    intro st st' ht h
    have hc := c.constant_eq env st ht.1
    by_cases hf : ∃ f, c.Foreign st f
    · obtain ⟨f, hf⟩ := hf
      simp only [Client.constant, hc.1 f hf] at h
      cases h
    · have hc' := hc.2 fun f h => hf ⟨f, h⟩
      cases hr : c.run env st with
      | error u =>
        simp only [Client.constant, hc', hr, lift] at h
        cases h
      | ok st1 =>
        simp only [Client.constant, hc', hr, lift_ok, const_bind, ok_bind] at h
        simp only [Client.run, hr, ok_bind]
        exact ih st1 st1 st' (ht.2 st1 hr) h

/-- C115 fails for texts: no number can be constructed from a non-empty text in a constant expression, in any build and
for any text, although the constructors are declared `constexpr`; nor from a GMP integer. -/
theorem C115_text_never (env : Env) (st : World) (kind : CharKind) (chars : List Int) (h : chars ≠ []) (z : Int) :
    (UExpr.text (n := n) kind chars).constant env st = .error (.calls (classifier kind)) ∧
    (SExpr.text (n := n) kind chars).constant env st = .error (.calls (classifier kind)) ∧
    (UExpr.mpz (n := n) z).constant env st = .error (.calls .gmp) ∧
    (SExpr.mpz (n := n) z).constant env st = .error (.calls .gmp) :=
  ⟨(UExpr.constant_eq env st _).1 _ ⟨h, rfl⟩, (SExpr.constant_eq env st _).1 _ ⟨h, rfl⟩, rfl, rfl⟩

/-- C115 fails for hexadecimal texts: `getString<16>` of a number that is not 0 into an array of two or more characters is
never a constant expression; every other base is one whenever it is defined. -/
theorem C115_hex_never (env : Env) (st : World) (hn : 0 < n) (a cap : Nat) (kind : CharKind) (upper showBase : Bool)
    (hc : 2 ≤ cap) (ha : toNat (st.u n a) ≠ 0) :
    (Query.uText n a kind 16#8 upper showBase cap).constant env st = .error (.calls (formatter kind)) := by
  simp only [Query.constant, getString_foreign env.cfg hn kind (base := 16#8) rfl _ ha hc]
  rfl

/-- At run time `Aeu<64>("5")` is 5; as a constant it does not compile. -/
theorem C115_counterexample (st : World) (host : Host) :
    ∃ alnum, ((UExpr.text (n := 2) .char [53]).run ⟨lp64, host, alnum⟩ st = .ok (ofNat 2 5)) ∧
      (UExpr.text (n := 2) .char [53]).constant ⟨lp64, host, alnum⟩ st = .error (.calls .isalnum) :=
  ⟨fun _ => true, show Aeu.ofChars .char (fun _ => true) 2 (⟨#[53], rfl⟩ : Vector Int 1) = _ by decide +kernel, rfl⟩

/-- `Aeu<64> a = 97u; b = a * a; c = b.squareRoot(); d = b.gcd(c); b.getString<base>(text, 20)`. -/
def square (base : BitVec 8) : Client :=
  .call (.setU 2 0 (.builtin 32 97#32)) fun _ =>
  .call (.setU 2 1 (.bin .mul 0 0)) fun _ =>
  .call (.setU 2 2 (.squareRoot 1)) fun _ =>
  .call (.setU 2 3 (.bin .gcd 1 2)) fun _ =>
  .call (.ask (.uText 2 1 .char base false true 20)) fun _ => .done

theorem square_typed (env : Env) (st : World) (base : BitVec 8) (h : 2 ≤ base.toNat) : (square base).Typed env st :=
  ⟨⟨by norm_num, by simp [UExpr.Typed]⟩, fun _ _ => ⟨⟨by norm_num, trivial⟩, fun _ _ => ⟨⟨by norm_num, trivial⟩, fun _ _ =>
    ⟨⟨by norm_num, trivial⟩, fun _ _ => ⟨⟨by norm_num, h, by norm_num⟩, fun _ _ => trivial⟩⟩⟩⟩⟩

/-- In decimal it is a constant expression and gives "9409"; in hexadecimal it is not, although it runs. -/
example : ((square 10#8).constant ⟨lp64, .little, fun _ => false⟩ start).map
      (fun st => (toNat (st.u 2 2), toNat (st.u 2 3), st.last)) = .ok (97, 97, [57, 52, 48, 57, 0]) ∧
    ((square 16#8).constant ⟨lp64, .little, fun _ => false⟩ start).map (fun st => st.last) = .error (.calls .snprintf) ∧
    ((square 16#8).run ⟨lp64, .little, fun _ => false⟩ start).map (fun st => st.last) =
      .ok [48, 120, 50, 52, 99, 49, 0] := by decide +kernel

end AesiMP
