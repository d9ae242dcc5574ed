import Verif.Props.Safety
import Verif.Props.TextExact
import Verif.Props.Complete

/-!
# C86: the complete list of the calls with undefined behaviour

C75 gives conditions under which client programs are safe.  Here the condition is exact: `Call.Bad` lists
every call without defined behaviour, in terms of the values the client sees, and a program has undefined
behaviour if and only if it reaches one of them.
-/

namespace AesiMP
open Aeu Aesi

/-! ## What the compiler and the types guarantee -/

def UExpr.Typed {n : Nat} : UExpr n → Prop
  | .builtin w _ => w ≤ 64
  | .mix _ _ w _ => 0 < w ∧ w ≤ 64
  | .mulConst _ w _ => w ≤ 64
  | .powmT k _ _ _ => 32 * k < 2 ^ 32                -- the bit counter has 32 bits
  | _ => True

/-- The value belongs to the built-in type. -/
def ValueOf (t : ITy) (i : Int) : Prop := t ∈ ITy.all ∧ t.InRange i

def SExpr.Typed {n : Nat} : SExpr n → Prop
  | .builtin t i => ValueOf t i
  | .mix _ _ t i => ValueOf t i
  | .cast k _ => 0 < k
  | _ => True

def Query.Typed : Query → Prop
  | .uIsZero n _ | .uIsOdd n _ | .uIsEven n _ | .uBitCount n _ | .uByteCount n _ | .uFilledBlocks n _
  | .sIsZero n _ | .sIsPositive n _ | .sIsNegative n _ | .sIsOdd n _ | .sIsEven n _ | .sBitCount n _
  | .sByteCount n _ | .sEq n _ _ | .sCompare n _ _ | .sOrder n _ _ | .sRel _ n _ _ | .sNe n _ _
  | .uOld _ n _ _ | .uBitness n | .uBlocks n | .sBitness n | .sBlocks n | .uOrderU64 n _ _ | .uOrderSigned n _ _
  | .uGetBit n _ _ | .sGetBit n _ _ | .uGetByte n _ _ | .sGetByte n _ _ | .uGetBlock n _ _ | .sGetBlock n _ _
  | .uEqMpz n _ _ | .sEqMpz n _ _ | .uEqU64 n _ _ | .uCompareU64 n _ _ | .uEqSigned n _ _
  | .uCompareSigned n _ _ | .uCast n _ _ => 0 < n
  | .uEq n m _ _ | .uCompare n m _ _ | .uOrder n m _ _ | .sEqAcross n m _ _ | .sCompareAcross n m _ _
  | .uRel _ n m _ _ | .uNe n m _ _ =>
      0 < n ∧ 0 < m
  | .uEqNarrow n _ w _ | .uCompareNarrow n _ w _ | .uOrderNarrow n _ w _ => 0 < n ∧ w ≤ 32
  | .uOldBuiltin _ n _ w _ => 0 < n ∧ w ≤ 64
  | .sEqIntegral n _ t i | .sCompareIntegral n _ t i | .sOrderIntegral n _ t i | .sLtIntegral n _ t i
  | .sGtIntegral n _ t i => 0 < n ∧ ValueOf t i
  | .sCast n _ t => 0 < n ∧ t ∈ ITy.all
  | .uText n _ _ base _ _ cap | .sText n _ _ base _ _ cap => 0 < n ∧ 2 ≤ base.toNat ∧ cap < 2 ^ 63

def Call.Typed : Call → Prop
  | .setU n _ e => 0 < n ∧ e.Typed
  | .setS n _ e => 0 < n ∧ e.Typed
  | .ask q => q.Typed
  | .postIncU n _ _ | .postDecU n _ _ | .postIncS n _ _ | .postDecS n _ _ => 0 < n
  -- outputs that are inputs or each other are the subject of C54 and C64
  | .divideU n a b q r | .divideS n a b q r =>
      0 < n ∧ q ≠ r ∧ a ≠ q ∧ a ≠ r ∧ b ≠ q ∧ b ≠ r
  | .dividePair n _ _ _ _ => 0 < n
  | .gcdExt n a b x y _ => 0 < n ∧ x ≠ y ∧ a ≠ x ∧ a ≠ y ∧ b ≠ x ∧ b ≠ y
  | .swapU n _ _ | .swapS n _ _ => 0 < n
  | .printU n _ buf | .printS n _ buf => 0 < n ∧ Aeu.IsStreamBuf n buf
  | .read n _ _ | .write n _ _ => 0 < n

/-! ## The calls without defined behaviour -/

/-- A narrow text in which a character outside `EOF` and `unsigned char` comes before (or is) the first
letter or digit. -/
def TextBad (env : Env) (kind : CharKind) (chars : List Int) : Prop :=
  kind = .char ∧ ∃ p, ∃ hp : p < chars.length,
    (∀ j (_ : j < p), env.alnum chars[j] = false) ∧ ¬ (-1 ≤ chars[p] ∧ chars[p] ≤ 255)

/-- The minimum of `int` or of a wider signed type. -/
def WideMin (t : ITy) (i : Int) : Prop := t.signed = true ∧ 32 ≤ t.width ∧ i = -(2 : Int) ^ (t.width - 1)

/-- An index at or past `size`, in a build that does not check. -/
def Unchecked (env : Env) (size i : Nat) : Prop := env.cfg.unsafeMode = true ∧ size ≤ i

/-- A byte index: the check lets `size` itself through. -/
def ByteBad (env : Env) (n i : Nat) : Prop := i = 4 * n ∨ Unchecked env (4 * n) i

/-- A GMP integer of more than `32 n` bits, in a build that does not check. -/
def MpzBad (env : Env) (n : Nat) (z : Int) : Prop := Unchecked env (2 ^ (32 * n)) z.natAbs

/-- Text of `v` into a buffer of `cap` characters. -/
def BufferBad (n : Nat) (kind : CharKind) (base : Nat) (showBase : Bool) (cap v : Nat) : Prop :=
  2 ≤ cap ∧ v ≠ 0 ∧
  let p := (if showBase ∧ 3 < cap then basePrefix base else []).length
  let digits := (Nat.digits base v).length
  if base = 16 then
    match kind with
    | .char => cap ≤ p + digits
    | .wchar => cap ≤ 8 ∧ ∃ first groups, 1 ≤ first ∧ first ≤ 8 ∧ digits = first + 8 * groups ∧
        ¬ ((p + first < cap ∧ groups ≤ p + first) ∨ (cap ≤ p + first ∧ groups < p))
  else n < 2 ∨ cap ≤ p + digits

def UExpr.Bad (env : Env) {n : Nat} : UExpr n → Prop
  | .text kind chars => TextBad env kind chars
  | .mpz z | .mpzL _ z _ | .mpzR _ _ z => MpzBad env n z
  | .power2 k => Unchecked env (32 * n) k
  | .setBit _ i _ => Unchecked env (32 * n) i
  | .setByte _ i _ => ByteBad env n i
  | .setBlock _ i _ => Unchecked env n i
  | _ => False

def SExpr.Bad (env : Env) {n : Nat} : SExpr n → Prop
  | .builtin t i => WideMin t i
  | .text kind chars => TextBad env kind chars
  | .mpz z | .mpzL _ z _ | .mpzR _ _ z => MpzBad env n z
  | .mix _ _ t i => WideMin t i
  | .power2 k => Unchecked env (32 * n) k
  | .setBit _ i _ => Unchecked env (32 * n) i
  | .setByte _ i _ => ByteBad env n i
  | .setBlock _ i _ => Unchecked env n i
  | _ => False

def Query.Bad (env : Env) (st : World) : Query → Prop
  | .uGetBit n _ i | .sGetBit n _ i => Unchecked env (32 * n) i
  | .uGetByte n _ i | .sGetByte n _ i => ByteBad env n i
  | .uGetBlock n _ i | .sGetBlock n _ i => Unchecked env n i
  | .uEqMpz n _ z | .sEqMpz n _ z => MpzBad env n z
  | .uEqU64 n _ _ | .uCompareU64 n _ _ | .uEqSigned n _ _ | .uCompareSigned n _ _ | .uOrderU64 n _ _
  | .uOrderSigned n _ _ | .uCast n _ _ => n < 2
  | .uText n a kind base _ showBase cap => BufferBad n kind base.toNat showBase cap (toNat (st.u n a))
  | .sEqIntegral n a _ i | .sCompareIntegral n a _ i | .sOrderIntegral n a _ i | .sLtIntegral n a _ i
  | .sGtIntegral n a _ i =>
      i ≠ 0 ∧ sgn (st.s n a) = i.sign ∧ (n < 2 ∨ i = -(2 : Int) ^ 63)
  | .sCast n a t => sgn (st.s n a) ≠ 0 ∧ (n < 2 ∨
      t.signed = true ∧ 32 ≤ t.width ∧ toInt (st.s n a) < 0 ∧
        (toInt (st.s n a)).natAbs % 2 ^ t.width = 2 ^ (t.width - 1))
  | .sText n a kind base _ showBase cap =>
      if sgn (st.s n a) = 0 then showBase = false ∧ cap = 0
      else BufferBad n kind base.toNat showBase (if sgn (st.s n a) = -1 then cap - 1 else cap)
        (toNat (st.s n a).base)
  | _ => False

def Call.Bad (env : Env) (st : World) : Call → Prop
  | .setU _ _ e => e.Bad env
  | .setS _ _ e => e.Bad env
  | .ask q => q.Bad env st
  | .printU n a _ => st.os.basefield ≠ .hex ∧ n < 2 ∧ toNat (st.u n a) ≠ 0
  | .printS n a _ => st.os.basefield ≠ .hex ∧ n < 2 ∧ sgn (st.s n a) ≠ 0 ∧ toNat (st.s n a).base ≠ 0
  | _ => False

/-- The program reaches a call without defined behaviour. -/
def Client.ReachesBad (env : Env) : Client → World → Prop
  | .done, _ => False
  | .call c rest, st => c.Bad env st ∨ ∃ st', c.run env st = .ok st' ∧ (rest st').ReachesBad env st'

/-- Every call the program reaches is well typed. -/
def Client.Typed (env : Env) : Client → World → Prop
  | .done, _ => True
  | .call c rest, st => c.Typed ∧ ∀ st', c.run env st = .ok st' → (rest st').Typed env st'

/-! ## Proof -/

variable {n m : Nat}

private theorem not_defined {α : Type} {e : Exec α} {u : UB} (h : e = .error u) : ¬ Defined e := by
  rintro ⟨r, hr⟩; rw [h] at hr; cases hr

private theorem then_iff {α β : Type} {e : Exec α} (f : α → β) :
    Defined (do let r ← e; .ok (f r)) ↔ Defined e := by
  constructor
  · rintro ⟨r, hr⟩
    cases e with
    | error u => cases hr
    | ok a => exact ⟨a, rfl⟩
  · exact fun h => h.then f

private theorem bind_iff {α β : Type} {e : Exec α} {f : α → Exec β} (hf : ∀ a, Defined (f a)) :
    Defined (e >>= f) ↔ Defined e := by
  constructor
  · rintro ⟨r, hr⟩
    cases e with
    | error u => cases hr
    | ok a => exact ⟨a, rfl⟩
  · exact fun h => h.bind hf

/-- The two ways to use an exact theorem. -/
private theorem iff_of {p q : Prop} (h1 : ¬ q → p) (h2 : q → ¬ p) : p ↔ ¬ q :=
  ⟨fun hp hq => h2 hq hp, h1⟩

private theorem safe_of (env : Env) {size i : Nat} (h : ¬ Unchecked env size i) : Checked env (i < size) := by
  unfold Unchecked at h
  unfold Checked
  cases hu : env.cfg.unsafeMode
  · exact .inl rfl
  · exact .inr (by by_contra hc; exact h ⟨hu, by omega⟩)

private theorem setBit_bad (env : Env) {i : Nat} (h : Unchecked env (32 * n) i) (a : Aeu n) (v : Bool) :
    ¬ Defined (Aeu.setBit env.cfg a i v) := by
  have hi : ¬ i / 32 < n := by have := h.2; omega
  unfold Aeu.setBit
  rw [if_neg (by simp [h.1])]
  simp only [hi, false_and, decide_false, cassert]
  cases env.cfg.ndebug
  · exact not_defined (u := .assertFailed) rfl
  · have : shl32 1#32 (i % 32) = .ok (1#32 <<< (i % 32)) := shl32_ok (by omega)
    simp only [this, ok_bind, rd_oob hi]
    exact not_defined (u := .outOfBounds) rfl

private theorem getBit_bad (env : Env) {i : Nat} (h : Unchecked env (32 * n) i) (a : Aeu n) :
    ¬ Defined (Aeu.getBit env.cfg a i) := by
  have hi : ¬ i / 32 < n := by have := h.2; omega
  unfold Aeu.getBit
  rw [if_neg (by simp [h.1])]
  simp only [hi, false_and, decide_false, cassert]
  cases env.cfg.ndebug
  · exact not_defined (u := .assertFailed) rfl
  · have : shl32 1#32 (i % 32) = .ok (1#32 <<< (i % 32)) := shl32_ok (by omega)
    simp only [this, ok_bind, rd_oob hi]
    exact not_defined (u := .outOfBounds) rfl

private theorem setByte_bad (env : Env) {i : Nat} (h : ByteBad env n i) (a : Aeu n) (v : BitVec 8) :
    ¬ Defined (Aeu.setByte env.cfg a i v) := by
  rcases h with rfl | h
  · exact not_defined (C13_boundary_counterexample env.cfg a v).2
  have hi : ¬ i / 4 < n := by have := h.2; omega
  unfold Aeu.setByte
  rw [if_neg (by simp [h.1])]
  simp only [hi, false_and, decide_false, cassert]
  cases env.cfg.ndebug
  · exact not_defined (u := .assertFailed) rfl
  · have : shl32 0xff#32 (i % 4 * 8) = .ok (0xff#32 <<< (i % 4 * 8)) := shl32_ok (by omega)
    simp only [this, ok_bind, rd_oob hi]
    exact not_defined (u := .outOfBounds) rfl

private theorem getByte_bad (env : Env) {i : Nat} (h : ByteBad env n i) (a : Aeu n) :
    ¬ Defined (Aeu.getByte env.cfg a i) := by
  rcases h with rfl | h
  · exact not_defined (C13_boundary_counterexample env.cfg a 0).1
  have hi : ¬ i / 4 < n := by have := h.2; omega
  unfold Aeu.getByte
  rw [if_neg (by simp [h.1])]
  simp only [hi, false_and, decide_false, cassert]
  cases env.cfg.ndebug
  · exact not_defined (u := .assertFailed) rfl
  · have : shl32 0xff#32 (i % 4 * 8) = .ok (0xff#32 <<< (i % 4 * 8)) := shl32_ok (by omega)
    simp only [this, ok_bind, rd_oob hi]
    exact not_defined (u := .outOfBounds) rfl

private theorem setBlock_bad (env : Env) {i : Nat} (h : Unchecked env n i) (a : Aeu n) (v : Block) :
    ¬ Defined (Aeu.setBlock env.cfg a i v) := by
  unfold Aeu.setBlock
  rw [if_neg (by simp [h.1]), wr_oob (by have := h.2; omega)]
  exact not_defined rfl

private theorem getBlock_bad (env : Env) {i : Nat} (h : Unchecked env n i) (a : Aeu n) :
    ¬ Defined (Aeu.getBlock env.cfg a i) := by
  unfold Aeu.getBlock
  rw [if_neg (by simp [h.1]), rd_oob (by have := h.2; omega)]
  exact not_defined rfl

private theorem forUpN_step {σ : Type} (body : Nat → σ → Exec σ) (k : Nat) :
    ∀ (c lo : Nat) (s : σ), Defined (forUpN body c lo s) → lo ≤ k → k < lo + c → ∃ s', Defined (body k s') := by
  intro c
  induction c with
  | zero => intro lo s _ h1 h2; omega
  | succ c ih =>
    intro lo s h h1 h2
    simp only [forUpN] at h
    cases hb : body lo s with
    | error u => rw [hb] at h; exact absurd h (not_defined rfl)
    | ok s' =>
      rw [hb] at h
      by_cases hk : k = lo
      · subst hk; exact ⟨s, s', hb⟩
      · exact ih (lo + 1) s' h (by omega) (by omega)

theorem ofMpz_bad (env : Env) {z : Int} (h : MpzBad env n z) : ¬ Defined (Aeu.ofMpz env.cfg n z) := by
  have hz : z ≠ 0 := by
    rintro rfl
    have h2 := h.2
    have := Nat.two_pow_pos (32 * n)
    simp only [Int.natAbs_zero] at h2
    omega
  have hlog : 32 * n ≤ Nat.log2 z.natAbs := (Nat.le_log2 (by omega)).mpr h.2
  unfold Aeu.ofMpz mpzExport
  simp only [if_neg hz]
  generalize hcount : (Nat.log2 z.natAbs + 1 + 31) / 32 = count
  have hc : n < count := by omega
  intro hd
  simp only [bind_assoc] at hd
  revert hd
  generalize forUp 0 count _ _ = e
  cases e with
  | error u => exact not_defined rfl
  | ok b =>
    simp only [ok_bind]
    intro hd
    obtain ⟨s', hs'⟩ := forUpN_step _ n _ 0 _ hd (Nat.zero_le _) (by omega)
    revert hs'
    generalize rd b n = e
    cases e with
    | error u => exact not_defined rfl
    | ok x => exact setBlock_bad env ⟨h.1, le_refl _⟩ s' x

private theorem ofMpz_iff (env : Env) (z : Int) : Defined (Aeu.ofMpz env.cfg n z) ↔ ¬ MpzBad env n z :=
  iff_of (fun h => returns_defined (C60_unsigned env.cfg z (safe_of env h))) (ofMpz_bad env)

private theorem ofMpzS_iff (env : Env) (z : Int) : Defined (Aesi.ofMpz env.cfg n z) ↔ ¬ MpzBad env n z := by
  refine iff_of (fun h => mpz_defined env.cfg z (safe_of env h)) fun h => ?_
  have hz : z ≠ 0 := by
    rintro rfl
    have h2 := h.2
    have := Nat.two_pow_pos (32 * n)
    simp only [Int.natAbs_zero] at h2
    omega
  unfold Aesi.ofMpz
  rw [if_neg hz]
  have hb := ofMpz_bad (n := n) env h
  revert hb
  generalize Aeu.ofMpz env.cfg n z = e
  cases e with
  | error u => exact fun _ => not_defined rfl
  | ok b => exact fun hb => absurd ⟨b, rfl⟩ hb

private theorem text_iff (env : Env) (kind : CharKind) (chars : List Int) :
    Defined (Aeu.ofChars kind env.alnum n ⟨chars.toArray, rfl⟩) ↔ ¬ TextBad env kind chars := by
  cases kind with
  | wchar => exact iff_of (fun _ => returns_defined (C23_wide env.alnum chars)) fun h => by cases h.1
  | char =>
    exact iff_of (fun h => returns_defined ((C23_narrow_exact env.alnum chars).2 fun hb => h ⟨rfl, hb⟩))
      fun h => not_defined ((C23_narrow_exact env.alnum chars).1 h.2)

private theorem textS_iff (env : Env) (kind : CharKind) (chars : List Int) :
    Defined (Aesi.ofChars kind env.alnum n ⟨chars.toArray, rfl⟩) ↔ ¬ TextBad env kind chars := by
  cases kind with
  | wchar => exact iff_of (fun _ => Sat.defined (C46_wide env.alnum chars)) fun h => by cases h.1
  | char =>
    exact iff_of (fun h => Sat.defined ((C46_narrow_exact env.alnum chars).2 fun hb => h ⟨rfl, hb⟩))
      fun h => not_defined ((C46_narrow_exact env.alnum chars).1 h.2)

theorem UExpr.defined_iff (env : Env) (st : World) (hn : 0 < n) (e : UExpr n) (ht : e.Typed) :
    Defined (e.run env st) ↔ ¬ e.Bad env := by
  have good : e.Ok env → ¬ e.Bad env → (Defined (e.run env st) ↔ ¬ e.Bad env) := fun h h' =>
    ⟨fun _ => h', fun _ => e.defined env st hn h⟩
  cases e with
  | text kind chars => exact text_iff env kind chars
  | mpz z => exact ofMpz_iff env z
  | mpzL op z a => exact (bind_iff fun x => op.defined env.cfg hn x _).trans (ofMpz_iff env z)
  | mpzR op a z => exact (bind_iff fun x => op.defined env.cfg hn _ x).trans (ofMpz_iff env z)
  | mulConst a w v => exact good ht id
  | power2 k =>
    exact iff_of (fun h => UExpr.defined env st hn (.power2 k) (safe_of env h)) fun h => setBit_bad env h _ _
  | setBit a i v => exact iff_of (fun h => setBit_defined env.cfg _ i v (safe_of env h)) fun h => setBit_bad env h _ _
  | setByte a i v =>
    exact iff_of (fun h => setByte_defined env.cfg _ i v (safe_of env fun hu => h (.inr hu)) fun hi => h (.inl hi))
      fun h => setByte_bad env h _ _
  | setBlock a i v =>
    exact iff_of (fun h => setBlock_defined env.cfg _ i v (safe_of env h)) fun h => setBlock_bad env h _ _
  | builtin w v => exact good ht id
  | mix op a w v => exact good ht id
  | powmT k b e m => exact good ht id
  | _ => exact good trivial id

private theorem ofIntegral_iff {t : ITy} {i : Int} (h : ValueOf t i) :
    Defined (Aesi.ofIntegral n t i) ↔ ¬ WideMin t i := by
  refine iff_of (fun hb => ofIntegral_defined ⟨h.1, h.2, hb⟩) fun hb => ?_
  have := C47_construct_exact (n := n) h.1 h.2
  rw [if_pos (show _ ∧ _ ∧ _ from hb)] at this
  exact not_defined this

theorem SMix.defined_iff (cfg : Cfg) (hn : 0 < n) {t : ITy} {i : Int} (h : ValueOf t i) (a : Aesi n)
    (op : SMix) : Defined (op.run cfg t a i) ↔ ¬ WideMin t i := by
  refine iff_of (fun hb => SMix.defined cfg hn ⟨h.1, h.2, hb⟩ a op) fun hb => ?_
  have hc := (ofIntegral_iff (n := n) h).not.mpr (not_not.mpr hb)
  have hm := C49_wide_min cfg (n := n) h.1 ⟨hb.1, hb.2.1⟩ a
  rw [← hb.2.2] at hm
  have hbind : ∀ f : Aesi n → Exec (Aesi n), ¬ Defined (Aesi.ofIntegral n t i >>= f) := by
    intro f hd
    revert hc hd
    generalize Aesi.ofIntegral n t i = e
    cases e with
    | error u => exact fun _ => not_defined rfl
    | ok b => exact fun hb => absurd ⟨b, rfl⟩ hb
  cases op with
  | mulR => exact not_defined hm.1
  | divR => exact not_defined hm.2.1
  | modR => exact not_defined hm.2.2.1
  | _ => exact hbind _

theorem SExpr.defined_iff (env : Env) (st : World) (hn : 0 < n) (e : SExpr n) (ht : e.Typed) :
    Defined (e.run env st) ↔ ¬ e.Bad env := by
  have good : e.Ok env → ¬ e.Bad env → (Defined (e.run env st) ↔ ¬ e.Bad env) := fun h h' =>
    ⟨fun _ => h', fun _ => e.defined env st hn h⟩
  cases e with
  | builtin t i => exact ofIntegral_iff ht
  | text kind chars => exact textS_iff env kind chars
  | mpz z => exact ofMpzS_iff env z
  | mpzL op z a => exact (bind_iff fun x => op.defined env.cfg hn x _).trans (ofMpzS_iff env z)
  | mpzR op a z => exact (bind_iff fun x => op.defined env.cfg hn _ x).trans (ofMpzS_iff env z)
  | mix op a t i => exact op.defined_iff env.cfg hn ht _
  | power2 k =>
    refine iff_of (fun h => SExpr.defined env st hn (.power2 k) (safe_of env h)) fun h hd => ?_
    have hb := setBit_bad env h (Aeu.zero n) true
    revert hb hd
    simp only [SExpr.run, Aesi.power2, Aeu.power2]
    generalize Aeu.setBit env.cfg (Aeu.zero n) k true = e
    cases e with
    | error u => exact fun hd _ => not_defined rfl hd
    | ok b => exact fun _ hb => hb ⟨b, rfl⟩
  | setBit a i v =>
    exact (then_iff _).trans
      (iff_of (fun h => setBit_defined env.cfg _ i v (safe_of env h)) fun h => setBit_bad env h _ _)
  | setByte a i v =>
    exact (then_iff _).trans
      (iff_of (fun h => setByte_defined env.cfg _ i v (safe_of env fun hu => h (.inr hu)) fun hi => h (.inl hi))
        fun h => setByte_bad env h _ _)
  | setBlock a i v =>
    exact (then_iff _).trans
      (iff_of (fun h => setBlock_defined env.cfg _ i v (safe_of env h)) fun h => setBlock_bad env h _ _)
  | cast k a => exact good ht id
  | _ => exact good trivial id

theorem buffer_iff (cfg : Cfg) (hn : 0 < n) (kind : CharKind) (base : BitVec 8) (upper showBase : Bool)
    (a : Aeu n) {cap : Nat} (buffer : Vector Int cap) (hb : 2 ≤ base.toNat) (hcap : cap < 2 ^ 63) :
    Defined (Aeu.getString cfg kind base upper a buffer showBase) ↔
      ¬ BufferBad n kind base.toNat showBase cap (toNat a) := by
  by_cases hc : cap < 2
  · refine iff_of (fun _ => ?_) fun h => by have := h.1; omega
    unfold Aeu.getString
    rw [if_pos hc]
    exact ⟨_, rfl⟩
  by_cases h0 : toNat a = 0
  · exact iff_of (fun _ => Sat.defined (C24_get_string_zero cfg kind base upper a h0 buffer showBase
      (by omega) _ rfl)) fun h => absurd h0 h.2.1
  have hbb : BufferBad n kind base.toNat showBase cap (toNat a) ↔
      if base.toNat = 16 then
        match kind with
        | .char => cap ≤ (if showBase ∧ 3 < cap then basePrefix base.toNat else []).length +
            (Nat.digits base.toNat (toNat a)).length
        | .wchar => cap ≤ 8 ∧ ∃ first groups, 1 ≤ first ∧ first ≤ 8 ∧
            (Nat.digits base.toNat (toNat a)).length = first + 8 * groups ∧
            ¬ (((if showBase ∧ 3 < cap then basePrefix base.toNat else []).length + first < cap ∧
                groups ≤ (if showBase ∧ 3 < cap then basePrefix base.toNat else []).length + first) ∨
              (cap ≤ (if showBase ∧ 3 < cap then basePrefix base.toNat else []).length + first ∧
                groups < (if showBase ∧ 3 < cap then basePrefix base.toNat else []).length))
      else n < 2 ∨ cap ≤ (if showBase ∧ 3 < cap then basePrefix base.toNat else []).length +
            (Nat.digits base.toNat (toNat a)).length :=
    ⟨fun h => h.2.2, fun h => ⟨by omega, h0, h⟩⟩
  rw [hbb]
  clear hbb
  by_cases h16 : base.toNat = 16
  · rw [if_pos h16]
    have hlen : (numeral upper base.toNat (toNat a)).length = (Nat.digits base.toNat (toNat a)).length :=
      numeral_length upper (by omega) _ h0
    cases kind with
    | char =>
      simp only
      refine iff_of (fun h => C25_in_bounds_partial cfg .char base upper a buffer showBase hcap
        (.inr ⟨h16, hn⟩) (.inr (.inr ?_))) fun h => not_defined (C25_overrun cfg base upper a buffer
          showBase hcap (.inr ⟨h16, hn⟩) (by omega) h0 ?_)
      · rw [List.length_append, hlen]; omega
      · rw [List.length_append, hlen]; exact h
    | wchar =>
      simp only
      obtain rfl : base = 16#8 := BitVec.eq_of_toNat_eq h16
      change (numeral upper 16 (toNat a)).length = _ at hlen
      have hp : (if showBase = true ∧ 3 < cap then basePrefix (16#8).toNat else []).length =
          if showBase = true ∧ 3 < cap then 2 else 0 := by split_ifs <;> rfl
      have hex := C25_wide_hex_short cfg upper hn a h0 buffer showBase (by omega)
      by_cases h9 : 9 ≤ cap
      · exact iff_of (fun _ => Sat.defined (C25_wide_hex_in_bounds cfg upper hn a buffer showBase h9 hcap))
          fun h => by have := h.1; omega
      refine iff_of (fun h => ?_) ?_
      · have hd : 0 < (Nat.digits 16 (toNat a)).length :=
          List.length_pos_iff.mpr (Nat.digits_ne_nil_iff_ne_zero.mpr h0)
        have hs : (Nat.digits 16 (toNat a)).length = ((Nat.digits 16 (toNat a)).length - 1) % 8 + 1 +
            8 * (((Nat.digits 16 (toNat a)).length - 1) / 8) := by omega
        have := hex (by omega) _ (((Nat.digits 16 (toNat a)).length - 1) % 8 + 1)
          (((Nat.digits 16 (toNat a)).length - 1) / 8) hp ⟨by omega, by omega⟩ (hlen.trans hs)
        by_contra hnd
        refine h ⟨by omega, _, _, by omega, by omega, hs, fun hcond => ?_⟩
        rw [if_pos hcond] at this
        exact hnd (Sat.defined this)
      · rintro ⟨h8, first, groups, h1, h2, h3, h4⟩
        have := hex h8 _ first groups hp ⟨h1, h2⟩ (hlen.trans h3)
        rw [if_neg h4] at this
        exact not_defined this
  · rw [if_neg h16]
    have hol : (offsetNumeral base.toNat (toNat a)).length = (Nat.digits base.toNat (toNat a)).length := by
      simp [offsetNumeral]
    by_cases hn2 : n < 2
    · obtain rfl : n = 1 := by omega
      exact iff_of (fun h => absurd (.inl hn2) h)
        fun _ => not_defined (C24_one_block cfg kind base upper a h0 h16 buffer showBase (by omega))
    refine iff_of (fun h => Sat.defined (getString_offset cfg kind base upper (by omega) a h0 hb h16 buffer
      showBase hcap _ rfl ?_)) fun h => not_defined (C25_overrun_digits cfg kind base upper (by omega) a h0
        hb h16 buffer showBase (by omega) ?_)
    · rw [List.length_append, hol]; omega
    · rw [List.length_append, hol]; omega

private theorem eqU64_iff (hn : 0 < n) (a : Aeu n) (v : U64) : Defined (Aeu.eqU64 a v) ↔ ¬ n < 2 := by
  refine iff_of (fun h => .of_eq (Aeu.eqU64_spec (by omega) a v)) fun h => ?_
  obtain rfl : n = 1 := by omega
  exact not_defined (C17_one_block_counterexample a v).1

private theorem compareU64_iff (hn : 0 < n) (a : Aeu n) (v : U64) :
    Defined (Aeu.compareToU64 a v) ↔ ¬ n < 2 := by
  refine iff_of (fun h => .of_eq (Aeu.compareToU64_spec (by omega) a v)) fun h => ?_
  obtain rfl : n = 1 := by omega
  exact not_defined (C17_one_block_counterexample a v).2

private theorem compareIntegral_iff {t : ITy} {i : Int} (ht : ValueOf t i) (a : Aesi n) :
    Defined (Aesi.compareToIntegral a i) ↔ ¬ (i ≠ 0 ∧ sgn a = i.sign ∧ (n < 2 ∨ i = -(2 : Int) ^ 63)) := by
  rw [C42_compare_exact ht.1 a ht.2]
  by_cases h1 : sgn a < i.sign
  · rw [if_pos h1]; exact iff_of (fun _ => ⟨_, rfl⟩) fun h => by have := h.2.1; omega
  rw [if_neg h1]
  by_cases h2 : i.sign < sgn a
  · rw [if_pos h2]; exact iff_of (fun _ => ⟨_, rfl⟩) fun h => by have := h.2.1; omega
  rw [if_neg h2]
  by_cases h3 : i = 0
  · rw [if_pos h3]; exact iff_of (fun _ => ⟨_, rfl⟩) fun h => absurd h3 h.1
  rw [if_neg h3]
  by_cases h4 : i = -(2 : Int) ^ 63
  · rw [if_pos h4]; exact iff_of (fun h => absurd ⟨h3, by omega, .inr h4⟩ h) fun _ => not_defined rfl
  rw [if_neg h4]
  by_cases h5 : n < 2
  · rw [if_pos h5]; exact iff_of (fun h => absurd ⟨h3, by omega, .inl h5⟩ h) fun _ => not_defined rfl
  rw [if_neg h5]
  refine iff_of (fun _ => ?_) fun h => ?_
  · split_ifs <;> exact ⟨_, rfl⟩
  · rcases h.2.2 with h | h
    · exact absurd h h5
    · exact absurd h h4

private theorem castS_iff (hn : 0 < n) {t : ITy} (ht : t ∈ ITy.all) (a : Aesi n) :
    Defined (Aesi.integralCast t a) ↔ ¬ (sgn a ≠ 0 ∧ (n < 2 ∨ t.signed = true ∧ 32 ≤ t.width ∧ toInt a < 0 ∧
        (toInt a).natAbs % 2 ^ t.width = 2 ^ (t.width - 1))) := by
  have hs : sgn a ≠ 0 ↔ a.sign ≠ .zero := by
    unfold sgn
    cases a.sign <;> simp
  by_cases h2 : n < 2
  · obtain rfl : n = 1 := by omega
    rw [C48_one_block]
    by_cases hz : a.sign = .zero
    · rw [if_pos hz]; exact iff_of (fun _ => ⟨_, rfl⟩) fun h => absurd hz (hs.mp h.1)
    · rw [if_neg hz]; exact iff_of (fun h => absurd ⟨hs.mpr hz, .inl h2⟩ h) fun _ => not_defined rfl
  · rw [C48_cast_exact (by omega) ht]
    by_cases hb : t.signed = true ∧ 32 ≤ t.width ∧ toInt a < 0 ∧
        (toInt a).natAbs % 2 ^ t.width = 2 ^ (t.width - 1)
    · rw [if_pos hb]
      refine iff_of (fun h => absurd ⟨hs.mpr fun hz => ?_, .inr hb⟩ h) fun _ => not_defined rfl
      have := hb.2.2.1
      simp [toInt, hz] at this
    · rw [if_neg hb]
      exact iff_of (fun _ => ⟨_, rfl⟩) fun h => (h.2.elim (fun h => h2 h) hb).elim

private theorem textSigned_iff (cfg : Cfg) (hn : 0 < n) (kind : CharKind) (base : BitVec 8)
    (upper showBase : Bool) (a : Aesi n) {cap : Nat} (buffer : Vector Int cap) (hb : 2 ≤ base.toNat)
    (hcap : cap < 2 ^ 63) :
    Defined (Aesi.getString cfg kind base upper a buffer showBase) ↔
      ¬ (if sgn a = 0 then showBase = false ∧ cap = 0
        else BufferBad n kind base.toNat showBase (if sgn a = -1 then cap - 1 else cap) (toNat a.base)) := by
  rcases a with ⟨s, a⟩
  cases s with
  | zero =>
    rw [if_pos (by rfl)]
    unfold Aesi.getString
    rw [if_neg (by simp)]
    by_cases hs : showBase = true
    · refine iff_of (fun _ => ?_) fun h => by rw [hs] at h; cases h.1
      rw [if_pos hs]
      split_ifs
      · exact zeroPrefixed_defined _ _
      · exact zeroPrefixed_defined _ _
      · exact zeroPrefixed_defined _ _
      · exact ⟨_, rfl⟩
      · exact (wr_defined _ (by omega) _).then _
    · rw [if_neg hs]
      refine iff_of (fun h => (wr_defined _ ?_ _).then _) fun h => ?_
      · by_contra hc
        exact h ⟨by simpa using hs, by omega⟩
      · rw [wr_oob (by omega)]
        exact not_defined rfl
  | positive =>
    rw [if_neg (by simp [sgn]), if_neg (by simp [sgn])]
    unfold Aesi.getString
    rw [if_pos (by simp), if_neg (by simp)]
    exact buffer_iff cfg hn kind base upper showBase a buffer hb hcap
  | negative =>
    rw [if_neg (by simp [sgn]), if_pos (by rfl)]
    unfold Aesi.getString
    rw [if_pos (by simp)]
    by_cases hc : 0 < cap
    · rw [if_pos ⟨rfl, hc⟩, wr_ok hc]
      exact (then_iff _).trans (buffer_iff cfg hn kind base upper showBase a _ hb (by omega))
    · rw [if_neg (by simp; omega)]
      obtain rfl : cap = 0 := by omega
      exact buffer_iff cfg hn kind base upper showBase a buffer hb hcap

theorem Query.defined_iff (env : Env) (st : World) (q : Query) (ht : q.Typed) :
    Defined (q.run env st) ↔ ¬ q.Bad env st := by
  have good : q.Ok env st → ¬ q.Bad env st → (Defined (q.run env st) ↔ ¬ q.Bad env st) := fun h h' =>
    ⟨fun _ => h', fun _ => q.defined env st h⟩
  cases q with
  | uGetBit n a i | sGetBit n a i =>
    exact (then_iff _).trans
      (iff_of (fun h => getBit_defined env.cfg _ i (safe_of env h)) fun h => getBit_bad env h _)
  | uGetByte n a i | sGetByte n a i =>
    exact (then_iff _).trans
      (iff_of (fun h => getByte_defined env.cfg _ i (safe_of env fun hu => h (.inr hu)) fun hi => h (.inl hi))
        fun h => getByte_bad env h _)
  | uGetBlock n a i | sGetBlock n a i =>
    exact (then_iff _).trans
      (iff_of (fun h => getBlock_defined env.cfg _ i (safe_of env h)) fun h => getBlock_bad env h _)
  | uEqMpz n a z =>
    exact (then_iff _).trans ((bind_iff fun c => Defined.of_eq (C18_eq_across env.cfg (st.u n a) c)).trans
      (ofMpz_iff env z))
  | sEqMpz n a z =>
    exact (then_iff _).trans ((bind_iff fun c =>
      Defined.of_eq (C41_compare_exact env.cfg (st.s n a) c).2.1).trans (ofMpzS_iff env z))
  | uEqU64 n a v => exact (then_iff _).trans (eqU64_iff ht _ _)
  | uCompareU64 n a v => exact (then_iff _).trans (compareU64_iff ht _ _)
  | uEqSigned n a i => exact (then_iff _).trans (eqU64_iff ht _ _)
  | uCompareSigned n a i => exact (then_iff _).trans (compareU64_iff ht _ _)
  | uOrderU64 n a v => exact (then_iff _).trans ((then_iff _).trans (compareU64_iff ht _ _))
  | uOrderSigned n a i => exact (then_iff _).trans ((then_iff _).trans (compareU64_iff ht _ _))
  | uCast n a t =>
    refine (then_iff _).trans (iff_of (fun h => Defined.of_eq (C21_integralCast_partial (by
      simp only [Query.Bad] at h; omega) t _)) fun h => ?_)
    simp only [Query.Bad, Query.Typed] at h ht
    obtain rfl : n = 1 := by omega
    exact not_defined (C21_one_block_counterexample t _)
  | uText n a kind base upper showBase cap =>
    exact (then_iff _).trans (buffer_iff env.cfg ht.1 kind base upper showBase _ _ ht.2.1 ht.2.2)
  | sEqIntegral n a t i =>
    exact (then_iff _).trans ((then_iff _).trans (compareIntegral_iff ht.2 _))
  | sCompareIntegral n a t i => exact (then_iff _).trans (compareIntegral_iff ht.2 _)
  | sOrderIntegral n a t i => exact (then_iff _).trans ((then_iff _).trans (compareIntegral_iff ht.2 _))
  | sLtIntegral n a t i =>
    exact (then_iff _).trans ((then_iff _).trans ((then_iff _).trans (compareIntegral_iff ht.2 _)))
  | sGtIntegral n a t i =>
    exact (then_iff _).trans ((then_iff _).trans ((then_iff _).trans (compareIntegral_iff ht.2 _)))
  | sCast n a t => exact (then_iff _).trans (castS_iff ht.1 ht.2 _)
  | sText n a kind base upper showBase cap =>
    exact (then_iff _).trans (textSigned_iff env.cfg ht.1 kind base upper showBase _ _ ht.2.1 ht.2.2)
  | _ => exact good ht id

private theorem print_iff (cfg : Cfg) (hn : 0 < n) {buf : Nat} (hb : Aeu.IsStreamBuf n buf) (os : OStream) (a : Aeu n) :
    Defined (Aeu.streamOut cfg buf os a) ↔ ¬ (os.basefield ≠ .hex ∧ n < 2 ∧ toNat a ≠ 0) := by
  have hb0 : 0 < buf := by unfold Aeu.IsStreamBuf at hb; omega
  by_cases hh : os.basefield = .hex
  · exact iff_of (fun _ => stream_defined cfg hb0 os a (by rw [if_pos hh]; exact hn)) fun h => absurd hh h.1
  by_cases h2 : n < 2
  · obtain rfl : n = 1 := by omega
    by_cases h0 : toNat a = 0
    · refine iff_of (fun _ => ?_) fun h => absurd h0 h.2.2
      unfold Aeu.streamOut
      simp only [Aeu.isZero_spec, ok_bind]
      rw [if_pos (by simp [h0])]
      exact ⟨_, rfl⟩
    · exact iff_of (fun h => absurd ⟨hh, h2, h0⟩ h) fun _ => not_defined (C35_one_block cfg buf hb os hh a h0)
  · exact iff_of (fun _ => stream_defined cfg hb0 os a (by rw [if_neg hh]; omega)) fun h => absurd h.2.1 h2

theorem Call.defined_iff (env : Env) (st : World) (c : Call) (ht : c.Typed) :
    Defined (c.run env st) ↔ ¬ c.Bad env st := by
  have good : c.Ok env st → ¬ c.Bad env st → (Defined (c.run env st) ↔ ¬ c.Bad env st) := fun h h' =>
    ⟨fun _ => h', fun _ => c.defined env st h⟩
  cases c with
  | setU n d e => exact (then_iff _).trans (e.defined_iff env st ht.1 ht.2)
  | setS n d e => exact (then_iff _).trans (e.defined_iff env st ht.1 ht.2)
  | ask q => exact (then_iff _).trans (q.defined_iff env st ht)
  | printU n a buf => exact (then_iff _).trans (print_iff env.cfg ht.1 ht.2 _ _)
  | printS n a buf =>
    refine (then_iff _).trans ?_
    have hs : sgn (st.s n a) ≠ 0 ↔ (st.s n a).sign ≠ .zero := by
      unfold sgn
      cases (st.s n a).sign <;> simp
    unfold Aesi.streamOut
    by_cases hz : (st.s n a).sign ≠ .zero
    · rw [if_pos hz]
      refine (print_iff env.cfg ht.1 ht.2 _ _).trans (not_congr ?_)
      have hbf : (if (st.s n a).sign = .negative then st.os.putText [45] else st.os).basefield =
          st.os.basefield := by split <;> rfl
      simp only [Call.Bad, hbf, hs, hz, true_and, ne_eq, not_false_eq_true]
    · rw [if_neg hz]
      exact iff_of (fun _ => ⟨_, rfl⟩) fun h => absurd (hs.mp h.2.2.1) hz
  | _ => exact good ht id

/-! ## C86 -/

/-- C86: a well typed call has undefined behaviour exactly when it is in the list `Call.Bad`; in every other
case it returns.  For every precision, build, object contents (also signed zeros and stale digits) and
stream state. -/
theorem C86_call (env : Env) (st : World) (c : Call) (ht : c.Typed) :
    (∃ st', c.run env st = .ok st') ↔ ¬ c.Bad env st := c.defined_iff env st ht

/-- C86: a client program of any length, choosing its calls by everything it has seen, runs to its end if
and only if it never reaches a call in the list. -/
theorem C86_program (env : Env) (p : Client) :
    ∀ st : World, p.Typed env st → ((∃ st', p.run env st = .ok st') ↔ ¬ p.ReachesBad env st) := by
  induction p with
  | done => exact fun st _ => ⟨fun _ => id, fun _ => ⟨st, rfl⟩⟩
  | call c rest ih =>
    intro st ht
    have hc := C86_call env st c ht.1
    cases hr : c.run env st with
    | error u =>
      have hbad : c.Bad env st := by
        by_contra hb
        obtain ⟨st', h⟩ := hc.mpr hb
        rw [hr] at h; cases h
      refine iff_of (fun h => absurd (.inl hbad) h) ?_
      rintro - ⟨st', h⟩
      simp only [Client.run, hr] at h
      cases h
    | ok st1 =>
      have hnb := hc.mp ⟨st1, hr⟩
      have h := ih st1 st1 (ht.2 st1 hr)
      simp only [Client.run, hr, ok_bind, Client.ReachesBad]
      rw [h]
      refine not_congr ⟨fun h => .inr ⟨st1, rfl, h⟩, ?_⟩
      rintro (hb | ⟨st', he, h⟩)
      · exact absurd hb hnb
      · cases he; exact h

/-- Checked builds: what is left of the list.  Without `AESI_UNSAFE` no index, power or GMP integer is
dangerous except a byte index equal to the size. -/
theorem C86_checked_build (env : Env) (h : env.cfg.unsafeMode = false) (n i : Nat) (z : Int) (size : Nat) :
    ¬ Unchecked env size i ∧ ¬ MpzBad env n z ∧ (ByteBad env n i ↔ i = 4 * n) := by
  have hu : ∀ size i, ¬ Unchecked env size i := fun size i hh => by
    have h1 := hh.1; rw [h] at h1; cases h1
  exact ⟨hu _ _, hu _ _, fun hb => hb.resolve_right (hu _ _), .inl⟩

/-- A program that prints a 32-bit number in decimal after checking that it is zero is safe; without the
check it is not. -/
example (env : Env) (st : World) (h : st.os.basefield = .other) (hz : toNat (st.u 1 0) = 0)
    (hnz : toNat (st.u 1 1) ≠ 0) :
    (Call.printU 1 0 10).Typed ∧ ¬ (Call.printU 1 0 10).Bad env st ∧
    (Call.printU 1 1 10).Typed ∧ (Call.printU 1 1 10).Bad env st := by
  refine ⟨⟨by norm_num, by decide⟩, fun hb => hb.2.2 hz, ⟨by norm_num, by decide⟩, ?_, by norm_num, hnz⟩
  rw [h]; decide

/-- A text whose negative character comes after the first digit is harmless, before it is not. -/
example (env : Env) (h1 : env.alnum 49 = true) :
    ¬ (UExpr.text (n := 2) .char [49, -61]).Bad env ∧ (UExpr.text (n := 2) .char [-61, 49]).Bad env := by
  constructor
  · rintro ⟨-, p, hp, hpre, hbad⟩
    have : p = 0 ∨ p = 1 := by simp at hp; omega
    rcases this with rfl | rfl
    · simp at hbad
    · have := hpre 0 (by norm_num)
      simp [h1] at this
  · exact ⟨rfl, 0, by simp, by intro j hj; omega, by simp⟩

/-- A client that asks for the byte just above the highest bit. -/
def byteAbove : Client :=
  .call (.ask (.uBitCount 2 0)) fun st =>
  .call (.ask (.uGetByte 2 0 ((st.last.headD 0).toNat / 8))) fun _ => .done

/-- It is well typed, and in a checked build safe exactly for the 64-bit numbers below `2^63`. -/
example (env : Env) (h : env.cfg.unsafeMode = false) (st : World) : byteAbove.Typed env st ∧
    ((∃ st', byteAbove.run env st = .ok st') ↔ toNat (st.u 2 0) < 2 ^ 63) := by
  have ht : byteAbove.Typed env st :=
    ⟨by simp [Call.Typed, Query.Typed], fun _ _ => ⟨by simp [Call.Typed, Query.Typed], fun _ _ => trivial⟩⟩
  refine ⟨ht, (C86_program env _ st ht).trans ?_⟩
  obtain ⟨k, hk, hlt, hge⟩ := Aeu.bitCount_spec (by norm_num) (st.u 2 0)
  have hr : (Call.ask (.uBitCount 2 0)).run env st = .ok { st with last := [(k : Int)] } := by
    simp [Call.run, Query.run, hk]
  have hv : toNat (st.u 2 0) < 2 ^ 64 := Aeu.toNat_lt (st.u 2 0)
  have hk64 : k ≤ 64 := by
    by_contra hc
    have := hge (by omega)
    have : 2 ^ 64 ≤ 2 ^ (k - 1) := Nat.pow_le_pow_right (by norm_num) (by omega)
    omega
  have hiff : byteAbove.ReachesBad env st ↔ k / 8 = 8 := by
    simp only [byteAbove, Client.ReachesBad, hr, Except.ok.injEq, and_false, exists_false, or_false]
    constructor
    · rintro (hb | ⟨st', rfl, hb⟩)
      · exact hb.elim
      · exact (C86_checked_build env h 2 _ 0 0).2.2.mp hb
    · exact fun hk => .inr ⟨_, rfl, .inl hk⟩
  rw [hiff]
  constructor
  · intro hk8
    have : 2 ^ k ≤ 2 ^ 63 := Nat.pow_le_pow_right (by norm_num) (by omega)
    omega
  · intro hs hk8
    obtain rfl : k = 64 := by omega
    have := hge (by omega)
    omega

end AesiMP
