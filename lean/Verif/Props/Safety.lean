import Verif.Model.Client
import Verif.Props.SignedExact
import Verif.Props.Compare
import Verif.Props.Mixed
import Verif.Props.Powm
import Verif.Props.Text
import Verif.Props.SignedText
import Verif.Props.BinIO
import Verif.Props.Gmp
import Verif.Props.NumTheory
import Verif.Props.StreamExact

/-!
# C75: no admissible client program of any length meets undefined behaviour

`Client` (Model/Client.lean) chooses every call by what it has seen so far.  `Ok` below lists, call by
call, the arguments the library's interface admits; nothing else is assumed about the objects, which may
hold any value of any precision, and nothing about the order or number of the calls.
-/

namespace AesiMP
open Aeu Aesi

/-- The call returns. -/
def Defined {α : Type} (e : Exec α) : Prop := ∃ r, e = .ok r

theorem Sat.defined {α : Type} {e : Exec α} {P : α → Prop} (h : Sat e P) : Defined e :=
  let ⟨r, hr, _⟩ := h; ⟨r, hr⟩

theorem Defined.of_eq {α : Type} {e : Exec α} {r : α} (h : e = .ok r) : Defined e := ⟨r, h⟩

theorem Defined.bind {α β : Type} {e : Exec α} {f : α → Exec β} (h : Defined e) (hf : ∀ a, Defined (f a)) :
    Defined (e >>= f) := by
  obtain ⟨r, rfl⟩ := h; exact hf r

theorem Defined.then {α β : Type} {e : Exec α} (f : α → β) (h : Defined e) :
    Defined (do let r ← e; .ok (f r)) := h.bind fun _ => ⟨_, rfl⟩

/-! ## What a caller has to respect -/

/-- A text: narrow characters are `unsigned char` values (what `std::isalnum` requires). -/
def TextOk (kind : CharKind) (chars : List Int) : Prop :=
  kind = .char → ∀ c ∈ chars, 0 ≤ c ∧ c ≤ 255

/-- A value of a built-in type, other than the minimum of `int` or of a wider type. -/
def IntegralOk (t : ITy) (i : Int) : Prop :=
  t ∈ ITy.all ∧ t.InRange i ∧ ¬ (t.signed = true ∧ 32 ≤ t.width ∧ i = -(2 : Int) ^ (t.width - 1))

/-- The text of `v` fits a buffer of `cap` characters (`bases`: 2 to 10, and 16). -/
def BufferOk (n : Nat) (base : BitVec 8) (upper showBase : Bool) (cap v : Nat) : Prop :=
  cap < 2 ^ 63 ∧ ((2 ≤ base.toNat ∧ base.toNat ≤ 10 ∧ 2 ≤ n) ∨ base.toNat = 16) ∧
  (cap < 2 ∨ v = 0 ∨
    ((if showBase ∧ 3 < cap then basePrefix base.toNat else []) ++ numeral upper base.toNat v).length < cap)

/-- An index, or the size of a GMP integer: the `AESI_UNSAFE` build checks none. -/
def Checked (env : Env) (inRange : Prop) : Prop := env.cfg.unsafeMode = false ∨ inRange

def UExpr.Ok (env : Env) (n : Nat) : UExpr n → Prop
  | .builtin w _ => w ≤ 64
  | .text kind chars => TextOk kind chars
  | .mix _ _ w _ => 0 < w ∧ w ≤ 64
  | .mpz z | .mpzL _ z _ | .mpzR _ _ z => Checked env (z.natAbs < 2 ^ (32 * n))
  | .mulConst _ w _ => w ≤ 64
  | .powmT k _ _ _ => 32 * k < 2 ^ 32
  | .power2 k => Checked env (k < 32 * n)
  | .setBit _ i _ => Checked env (i < 32 * n)
  | .setByte _ i _ => Checked env (i < 4 * n) ∧ i ≠ 4 * n
  | .setBlock _ i _ => Checked env (i < n)
  | _ => True

def SExpr.Ok (env : Env) (n : Nat) : SExpr n → Prop
  | .builtin t i => IntegralOk t i
  | .text kind chars => TextOk kind chars
  | .mix _ _ t i => IntegralOk t i
  | .mpz z | .mpzL _ z _ | .mpzR _ _ z => Checked env (z.natAbs < 2 ^ (32 * n))
  | .power2 k => Checked env (k < 32 * n)
  | .setBit _ i _ => Checked env (i < 32 * n)
  | .setByte _ i _ => Checked env (i < 4 * n) ∧ i ≠ 4 * n
  | .setBlock _ i _ => Checked env (i < n)
  | .cast k _ => 0 < k
  | _ => True

def Query.Ok (env : Env) (st : World) : Query → Prop
  | .uIsZero n _ | .uIsOdd n _ | .uIsEven n _ | .uBitCount n _ | .uByteCount n _ | .uFilledBlocks n _
  | .sIsZero n _ | .sIsPositive n _ | .sIsNegative n _ | .sIsOdd n _ | .sIsEven n _ | .sBitCount n _
  | .sByteCount n _ | .sEq n _ _ | .sCompare n _ _ | .sOrder n _ _ | .sRel _ n _ _ | .sNe n _ _
  | .uOld _ n _ _ | .uBitness n | .uBlocks n | .sBitness n | .sBlocks n => 0 < n
  | .uGetBit n _ i | .sGetBit n _ i => 0 < n ∧ Checked env (i < 32 * n)
  | .uGetByte n _ i | .sGetByte n _ i => 0 < n ∧ Checked env (i < 4 * n) ∧ i ≠ 4 * n
  | .uGetBlock n _ i | .sGetBlock n _ i => 0 < n ∧ Checked env (i < n)
  | .uEqMpz n _ z | .sEqMpz n _ z => 0 < n ∧ Checked env (z.natAbs < 2 ^ (32 * n))
  | .uEq n m _ _ | .uCompare n m _ _ | .uOrder n m _ _ | .sEqAcross n m _ _ | .sCompareAcross n m _ _
  | .uRel _ n m _ _ | .uNe n m _ _ =>
      0 < n ∧ 0 < m
  | .uEqNarrow n _ w _ | .uCompareNarrow n _ w _ | .uOrderNarrow n _ w _ => 0 < n ∧ w ≤ 32
  | .uOldBuiltin _ n _ w _ => 0 < n ∧ w ≤ 64
  | .uEqU64 n _ _ | .uCompareU64 n _ _ | .uEqSigned n _ _ | .uCompareSigned n _ _ | .uOrderU64 n _ _
  | .uOrderSigned n _ _ => 2 ≤ n
  | .uCast n _ _ => 2 ≤ n
  | .uText n a _ base upper showBase cap => 0 < n ∧ BufferOk n base upper showBase cap (toNat (st.u n a))
  | .sEqIntegral n _ t i | .sCompareIntegral n _ t i | .sOrderIntegral n _ t i | .sLtIntegral n _ t i
  | .sGtIntegral n _ t i =>
      2 ≤ n ∧ t ∈ ITy.all ∧ t.InRange i ∧ i ≠ -(2 : Int) ^ 63
  | .sCast n a t => 2 ≤ n ∧ t ∈ ITy.all ∧
      ¬ (t.signed = true ∧ 32 ≤ t.width ∧ toInt (st.s n a) < 0 ∧
        (toInt (st.s n a)).natAbs % 2 ^ t.width = 2 ^ (t.width - 1))
  | .sText n a _ base upper showBase cap => 0 < n ∧ 0 < cap ∧
      BufferOk n base upper showBase (if (st.s n a).sign = .negative then cap - 1 else cap)
        (toNat (st.s n a).base)

def Call.Ok (env : Env) (st : World) : Call → Prop
  | .setU n _ e => 0 < n ∧ e.Ok env
  | .setS n _ e => 0 < n ∧ e.Ok env
  | .ask q => q.Ok env st
  | .postIncU n _ _ | .postDecU n _ _ | .postIncS n _ _ | .postDecS n _ _ => 0 < n
  | .divideU n a b q r | .divideS n a b q r =>
      0 < n ∧ q ≠ r ∧ a ≠ q ∧ a ≠ r ∧ b ≠ q ∧ b ≠ r
  | .dividePair n _ _ _ _ => 0 < n
  | .gcdExt n a b x y _ => 0 < n ∧ x ≠ y ∧ a ≠ x ∧ a ≠ y ∧ b ≠ x ∧ b ≠ y
  | .swapU n _ _ | .swapS n _ _ => 0 < n
  | .printU n _ buf | .printS n _ buf => 0 < buf ∧ if st.os.basefield = .hex then 0 < n else 2 ≤ n
  | .read n _ _ | .write n _ _ => 0 < n

/-- Every call the program reaches is admissible in the state it is made in. -/
def Client.Admissible (env : Env) : Client → World → Prop
  | .done, _ => True
  | .call c rest, st => c.Ok env st ∧ ∀ st', c.run env st = .ok st' → (rest st').Admissible env st'

/-! ## Every admissible call returns -/

variable {n m : Nat}

theorem returns_defined {e : Exec (Aeu n)} {v : Nat} (h : Aeu.Returns e v) : Defined e :=
  let ⟨r, hr, _⟩ := h; ⟨r, hr⟩

theorem UBin.defined (cfg : Cfg) (hn : 0 < n) (a b : Aeu n) (op : UBin) : Defined (op.run cfg a b) := by
  cases op with
  | add => exact returns_defined (Aeu.add_spec a b)
  | sub => exact Sat.defined (Aeu.sub_spec a b)
  | mul => exact returns_defined (Aeu.mul_spec a b)
  | div => exact (Sat.defined (Aeu.divide_total cfg hn a b)).then _
  | mod => exact (Sat.defined (Aeu.divide_total cfg hn a b)).then _
  | xor => exact returns_defined (Aeu.xor_spec a b)
  | and => exact returns_defined (Aeu.and_spec a b)
  | or => exact returns_defined (Aeu.or_spec a b)
  | gcd => exact returns_defined (Aeu.gcd_spec cfg hn a b)
  | lcm => exact returns_defined (Aeu.lcm_spec cfg hn a b)

theorem UMix.defined (cfg : Cfg) (hn : 0 < n) {w : Nat} (hw0 : 0 < w) (hw : w ≤ 64) (a : Aeu n) (v : BitVec w)
    (op : UMix) : Defined (op.run cfg a v) := by
  have hc := returns_defined (Aeu.ofUnsigned_spec (n := n) hw v)
  cases op with
  | addR => exact returns_defined (Aeu.addBuiltin_exact hw0 hw a v)
  | subR => exact hc.bind fun c => UBin.defined cfg hn a c .sub
  | mulR => exact Sat.defined (Aeu.mulNarrow_lossy hw a v)
  | divR => exact hc.bind fun c => UBin.defined cfg hn a c .div
  | modR => exact hc.bind fun c => UBin.defined cfg hn a c .mod
  | xorR => exact hc.bind fun c => UBin.defined cfg hn a c .xor
  | andR => exact hc.bind fun c => UBin.defined cfg hn a c .and
  | orR => exact hc.bind fun c => UBin.defined cfg hn a c .or
  | addL => exact hc.bind fun c => UBin.defined cfg hn c a .add
  | subL => exact hc.bind fun c => UBin.defined cfg hn c a .sub
  | mulL => exact hc.bind fun c => UBin.defined cfg hn c a .mul
  | divL => exact hc.bind fun c => UBin.defined cfg hn c a .div
  | modL => exact hc.bind fun c => UBin.defined cfg hn c a .mod
  | xorL => exact hc.bind fun c => UBin.defined cfg hn c a .xor
  | andL => exact hc.bind fun c => UBin.defined cfg hn c a .and
  | orL => exact hc.bind fun c => UBin.defined cfg hn c a .or

theorem ofChars_defined (alnum : Int → Bool) (kind : CharKind) (chars : List Int)
    (h : TextOk kind chars) : Defined (Aeu.ofChars kind alnum n ⟨chars.toArray, rfl⟩) := by
  cases kind with
  | wchar => exact returns_defined (C23_wide alnum chars)
  | char =>
    exact returns_defined (C23_narrow_partial alnum chars fun p hp _ => h rfl _ (List.getElem_mem hp))

theorem setBit_defined (cfg : Cfg) (a : Aeu n) (i : Nat) (v : Bool)
    (hs : cfg.unsafeMode = false ∨ i < 32 * n) : Defined (Aeu.setBit cfg a i v) := by
  by_cases h : i < 32 * n
  · exact Sat.defined (C12_setBit cfg a i v h)
  · exact .of_eq (C12_out_of_range cfg (hs.resolve_right h) a i v (by omega)).2

theorem getBit_defined (cfg : Cfg) (a : Aeu n) (i : Nat)
    (hs : cfg.unsafeMode = false ∨ i < 32 * n) : Defined (Aeu.getBit cfg a i) := by
  by_cases h : i < 32 * n
  · exact .of_eq (C12_getBit cfg a i h)
  · exact .of_eq (C12_out_of_range cfg (hs.resolve_right h) a i true (by omega)).1

theorem setByte_defined (cfg : Cfg) (a : Aeu n) (i : Nat)
    (v : BitVec 8) (hs : cfg.unsafeMode = false ∨ i < 4 * n) (hi : i ≠ 4 * n) : Defined (Aeu.setByte cfg a i v) := by
  by_cases h : i < 4 * n
  · exact Sat.defined (C13_setByte cfg a i v h)
  · exact .of_eq (C13_out_of_range_partial cfg (hs.resolve_right h) a i v (by omega)).2

theorem getByte_defined (cfg : Cfg) (a : Aeu n) (i : Nat)
    (hs : cfg.unsafeMode = false ∨ i < 4 * n) (hi : i ≠ 4 * n) : Defined (Aeu.getByte cfg a i) := by
  by_cases h : i < 4 * n
  · exact Sat.defined (C13_getByte cfg a i h)
  · exact .of_eq (C13_out_of_range_partial cfg (hs.resolve_right h) a i 0 (by omega)).1

theorem setBlock_defined (cfg : Cfg) (a : Aeu n) (i : Nat) (v : Block)
    (hs : cfg.unsafeMode = false ∨ i < n) : Defined (Aeu.setBlock cfg a i v) := by
  by_cases h : i < n
  · exact Sat.defined (C14_setBlock cfg a i v h)
  · exact .of_eq (C14_out_of_range cfg (hs.resolve_right h) a i v (by omega)).2

theorem getBlock_defined (cfg : Cfg) (a : Aeu n) (i : Nat)
    (hs : cfg.unsafeMode = false ∨ i < n) : Defined (Aeu.getBlock cfg a i) := by
  by_cases h : i < n
  · exact Sat.defined (C14_getBlock cfg a i h)
  · exact .of_eq (C14_out_of_range cfg (hs.resolve_right h) a i 0 (by omega)).1

theorem UExpr.defined (env : Env) (st : World) (hn : 0 < n) (e : UExpr n)
    (h : e.Ok env) : Defined (e.run env st) := by
  cases e with
  | builtin w v => exact returns_defined (Aeu.ofUnsigned_spec h v)
  | text kind chars => exact ofChars_defined env.alnum kind chars h
  | mpz z => exact returns_defined (C60_unsigned env.cfg z h)
  | reg a => exact ⟨_, rfl⟩
  | plus a => exact ⟨_, rfl⟩
  | neg a => exact returns_defined (Aeu.neg_spec _)
  | not a => exact returns_defined (Aeu.not_spec _)
  | inc a => exact returns_defined (Aeu.inc_spec _)
  | dec a => exact Sat.defined (Aeu.dec_spec _)
  | bin op a b => exact op.defined env.cfg hn _ _
  | shl a k =>
    by_cases hk : k < 32 * n
    · exact returns_defined (C10_shl _ k hk)
    · exact .of_eq (C10_shl_noop _ k (.inl (by omega)))
  | shr a k =>
    by_cases hk : k < 32 * n
    · exact returns_defined (C11_shr _ k hk)
    · exact .of_eq (C11_shr_noop _ k (.inl (by omega)))
  | mix op a w v => exact op.defined env.cfg hn h.1 h.2 _ v
  | mulU64 a v => exact returns_defined (Aeu.mulU64_spec _ v)
  | mulULL a v =>
    simp only [UExpr.run, Aeu.mulULL]
    split
    · exact returns_defined (Aeu.mulU64_spec _ v)
    · exact Sat.defined (Aeu.mulNarrow_lossy (by norm_num) _ v)
  | mulConst a w v =>
    exact (returns_defined (Aeu.ofUnsigned_spec (n := n) h v)).bind fun x => returns_defined (Aeu.mul_spec _ x)
  | mpzL op z a => exact (returns_defined (C60_unsigned env.cfg z h)).bind fun x => op.defined env.cfg hn x _
  | mpzR op a z => exact (returns_defined (C60_unsigned env.cfg z h)).bind fun x => op.defined env.cfg hn _ x
  | powm b e m => exact C69_powm_total env.cfg hn _ _ _
  | powmT k b e m => exact C69_powmT_total env.cfg hn h _ _ _
  | squareRoot a => exact returns_defined (Aeu.squareRoot_spec env.cfg hn _)
  | power2 k =>
    by_cases hk : k < 32 * n
    · exact returns_defined (Aeu.power2_spec env.cfg hk)
    · exact returns_defined (C31_power2_out_of_range env.cfg (h.resolve_right hk) k (by omega))
  | setBit a i v => exact setBit_defined env.cfg _ i v h
  | setByte a i v => exact setByte_defined env.cfg _ i v h.1 h.2
  | setBlock a i v => exact setBlock_defined env.cfg _ i v h
  | cast k a => exact returns_defined (Aeu.precisionCast_spec env.cfg _)
  | magnitude a => exact ⟨_, rfl⟩

theorem SBin.defined (cfg : Cfg) (hn : 0 < n) (a b : Aesi n) (op : SBin) : Defined (op.run cfg a b) := by
  cases op with
  | add => exact Sat.defined (Aesi.add_wrap cfg a b)
  | sub => exact Sat.defined (Aesi.sub_wrap cfg a b)
  | mul => exact Sat.defined (Aesi.mul_wrap a b)
  | div => exact C38_div_total cfg hn a b
  | mod => exact Sat.defined (C39_mod_every cfg hn a b)

theorem ofIntegral_defined {t : ITy} {i : Int} (h : IntegralOk t i) : Defined (Aesi.ofIntegral n t i) := by
  have := C47_construct_exact (n := n) h.1 h.2.1
  rw [if_neg h.2.2] at this
  exact Sat.defined this

theorem SMix.defined (cfg : Cfg) (hn : 0 < n) {t : ITy} {i : Int} (h : IntegralOk t i) (a : Aesi n)
    (op : SMix) : Defined (op.run cfg t a i) := by
  have hc := ofIntegral_defined (n := n) h
  cases op with
  | addR => exact hc.bind fun c => SBin.defined cfg hn a c .add
  | subR => exact hc.bind fun c => SBin.defined cfg hn a c .sub
  | mulR => exact C49_mul_total cfg h.1 a h.2.1 h.2.2
  | divR => exact C49_div_total cfg hn h.1 a h.2.1 h.2.2
  | modR => exact Sat.defined (C49_mod_exact cfg hn h.1 a h.2.1 h.2.2)
  | addL => exact hc.bind fun c => SBin.defined cfg hn c a .add
  | subL => exact hc.bind fun c => SBin.defined cfg hn c a .sub
  | mulL => exact hc.bind fun c => SBin.defined cfg hn c a .mul
  | divL => exact hc.bind fun c => SBin.defined cfg hn c a .div
  | modL => exact hc.bind fun c => SBin.defined cfg hn c a .mod

theorem mpz_defined (cfg : Cfg) (z : Int) (h : cfg.unsafeMode = false ∨ z.natAbs < 2 ^ (32 * n)) :
    Defined (Aesi.ofMpz cfg n z) := by
  unfold Aesi.ofMpz
  split
  · exact ⟨_, rfl⟩
  · exact (returns_defined (C60_unsigned cfg z h)).bind fun b => by split <;> exact ⟨_, rfl⟩

theorem SExpr.defined (env : Env) (st : World) (hn : 0 < n) (e : SExpr n)
    (h : e.Ok env) : Defined (e.run env st) := by
  cases e with
  | builtin t i => exact ofIntegral_defined h
  | text kind chars =>
    cases kind with
    | wchar => exact Sat.defined (C46_wide env.alnum chars)
    | char =>
      exact Sat.defined (C46_narrow_partial env.alnum chars fun p hp _ => h rfl _ (List.getElem_mem hp))
  | mpz z => exact mpz_defined env.cfg z h
  | ofAeu a => exact ⟨_, rfl⟩
  | reg a => exact ⟨_, rfl⟩
  | plus a => exact ⟨_, rfl⟩
  | neg a => exact ⟨_, rfl⟩
  | inc a => exact Sat.defined (Aesi.inc_mod hn _)
  | dec a => exact Sat.defined (Aesi.dec_mod hn _)
  | bin op a b => exact op.defined env.cfg hn _ _
  | mix op a t i => exact op.defined env.cfg hn h _
  | mpzL op z a => exact (mpz_defined env.cfg z h).bind fun x => op.defined env.cfg hn x _
  | mpzR op a z => exact (mpz_defined env.cfg z h).bind fun x => op.defined env.cfg hn _ x
  | squareRoot a => exact Sat.defined (C63_squareRoot env.cfg hn _)
  | power2 k =>
    by_cases hk : k < 32 * n
    · exact Sat.defined (C63_power2 env.cfg k hk)
    · exact Sat.defined (C63_power2_out_of_range env.cfg (h.resolve_right hk) k (by omega))
  | setBit a i v => exact (setBit_defined env.cfg _ i v h).then _
  | setByte a i v => exact (setByte_defined env.cfg _ i v h.1 h.2).then _
  | setBlock a i v => exact (setBlock_defined env.cfg _ i v h).then _
  | cast k a => exact Sat.defined (Aesi.precisionCast_exact env.cfg h hn _)

theorem compareIntegral_defined {t : ITy} {i : Int}
    (h : 2 ≤ n ∧ t ∈ ITy.all ∧ t.InRange i ∧ i ≠ -(2 : Int) ^ 63) (a : Aesi n) :
    Defined (Aesi.compareToIntegral a i) := by
  rw [C42_compare_exact h.2.1 a h.2.2.1, if_neg h.2.2.2, if_neg (by omega : ¬ n < 2)]
  split_ifs <;> exact ⟨_, rfl⟩

theorem Rel.definedU (cfg : Cfg) (x : Aeu n) (y : Aeu m) (op : Rel) : Defined (op.runU cfg x y) := by
  have h := (Defined.of_eq (Aeu.compareTo_general cfg x y)).then Aeu.toOrdering
  cases op <;> exact h.then _

theorem Rel.definedOld (cfg : Cfg) (x y : Aeu n) (op : Rel) : Defined (op.runOld cfg x y) := by
  have h := Defined.of_eq (Aeu.compareTo_general cfg x y)
  cases op
  · exact h.then _
  · exact (h.then (· == .greater)).then _
  · exact h.then _
  · exact (h.then (· == .less)).then _

theorem Rel.definedS (cfg : Cfg) (x y : Aesi n) (op : Rel) : Defined (op.runS cfg x y) := by
  have h := (Defined.of_eq (C41_compare_exact cfg x y).1).then Aeu.toOrdering
  cases op <;> exact h.then _

theorem text_defined (cfg : Cfg) (hn : 0 < n) (kind : CharKind) (base : BitVec 8) (upper showBase : Bool)
    (a : Aeu n) {cap : Nat} (buffer : Vector Int cap) (h : BufferOk n base upper showBase cap (toNat a)) :
    Defined (Aeu.getString cfg kind base upper a buffer showBase) :=
  C25_in_bounds_partial cfg kind base upper a buffer showBase h.1
    (h.2.1.imp id fun h => ⟨h, hn⟩) h.2.2

theorem wr_defined {α : Type} {k : Nat} (b : Vector α k) {i : Nat} (hi : i < k) (v : α) :
    Defined (wr b i v) := ⟨_, dif_pos hi⟩

theorem rd_defined {α : Type} {k : Nat} (b : Vector α k) {i : Nat} (hi : i < k) :
    Defined (rd b i) := ⟨_, dif_pos hi⟩

theorem zeroPrefixed_defined {cap : Nat} (buffer : Vector Int cap) (letter : Int) :
    Defined (Aesi.zeroPrefixed buffer letter) := by
  unfold Aesi.zeroPrefixed
  split
  · exact ⟨_, rfl⟩
  · exact (wr_defined _ (by omega) _).bind fun b => (wr_defined _ (by omega) _).bind fun b =>
      (rd_defined _ (by omega)).bind fun c => (wr_defined _ (by omega) _).then _

theorem signedText_defined (cfg : Cfg) (hn : 0 < n) (kind : CharKind) (base : BitVec 8)
    (upper showBase : Bool) (a : Aesi n) {cap : Nat} (hc : 0 < cap) (buffer : Vector Int cap)
    (h : BufferOk n base upper showBase (if a.sign = .negative then cap - 1 else cap) (toNat a.base)) :
    Defined (Aesi.getString cfg kind base upper a buffer showBase) := by
  unfold Aesi.getString
  split
  · split
    · rename_i hneg
      rw [if_pos hneg.1] at h
      exact (wr_defined _ hc _).bind fun b => (text_defined cfg hn kind base upper showBase _ _ h).then _
    · rename_i hneg
      rw [if_neg fun hh => hneg ⟨hh, hc⟩] at h
      exact text_defined cfg hn kind base upper showBase _ _ h
  · split
    · split
      · exact zeroPrefixed_defined _ _
      · split
        · exact zeroPrefixed_defined _ _
        · split
          · exact zeroPrefixed_defined _ _
          · split
            · exact ⟨_, rfl⟩
            · exact (wr_defined _ hc _).then _
    · exact (wr_defined _ hc _).then _

theorem Query.defined (env : Env) (st : World) (q : Query)
    (h : q.Ok env st) : Defined (q.run env st) := by
  cases q with
  | uIsZero n a => exact (Defined.of_eq (Aeu.isZero_spec _)).then _
  | uIsOdd n a => exact (Defined.of_eq (Aeu.isOdd_spec h _)).then _
  | uIsEven n a => exact (Defined.of_eq (Aeu.isEven_spec h _)).then _
  | uBitCount n a => exact (Sat.defined (Aeu.bitCount_spec h _)).then _
  | uByteCount n a => exact (Sat.defined (Aeu.byteCount_spec h _)).then _
  | uFilledBlocks n a => exact (Sat.defined (Aeu.filledBlocksNumber_spec _)).then _
  | uGetBit n a i => exact (getBit_defined env.cfg _ i h.2).then _
  | uGetByte n a i => exact (getByte_defined env.cfg _ i h.2.1 h.2.2).then _
  | uGetBlock n a i => exact (getBlock_defined env.cfg _ i h.2).then _
  | uEq n m a b => exact (Defined.of_eq (C18_eq_across env.cfg _ _)).then _
  | uCompare n m a b => exact (Defined.of_eq (Aeu.compareTo_general env.cfg _ _)).then _
  | uOrder n m a b =>
    exact ((Defined.of_eq (Aeu.compareTo_general env.cfg (st.u n a) (st.u m b))).then Aeu.toOrdering).then _
  | uEqNarrow n a w v => exact (Defined.of_eq (Aeu.eqNarrow_spec h.1 h.2 _ _)).then _
  | uCompareNarrow n a w v => exact (Defined.of_eq (Aeu.compareToNarrow_spec h.1 h.2 _ _)).then _
  | uEqU64 n a v => exact (Defined.of_eq (Aeu.eqU64_spec h _ _)).then _
  | uCompareU64 n a v => exact (Defined.of_eq (Aeu.compareToU64_spec h _ _)).then _
  | uEqSigned n a i => exact (Defined.of_eq (Aeu.eqU64_spec h _ _)).then _
  | uCompareSigned n a i => exact (Defined.of_eq (Aeu.compareToU64_spec h _ _)).then _
  | uRel op n m a b => exact (op.definedU env.cfg _ _).then _
  | uNe n m a b => exact ((Defined.of_eq (C18_eq_across env.cfg (st.u n a) (st.u m b))).then (!·)).then _
  | uOld op n a b => exact (op.definedOld env.cfg _ _).then _
  | uOldBuiltin op n a w v =>
    exact ((returns_defined (Aeu.ofUnsigned_spec (n := n) h.2 v)).bind fun x => op.definedOld env.cfg (st.u n a) x).then _
  | uOrderNarrow n a w v =>
    exact ((Defined.of_eq (Aeu.compareToNarrow_spec h.1 h.2 (st.u n a) v)).then Aeu.toOrdering).then _
  | uOrderU64 n a v => exact ((Defined.of_eq (Aeu.compareToU64_spec h (st.u n a) v)).then Aeu.toOrdering).then _
  | uOrderSigned n a i =>
    exact ((Defined.of_eq (Aeu.compareToU64_spec h (st.u n a) (Aeu.asU64 i))).then Aeu.toOrdering).then _
  | uBitness n => exact ⟨_, rfl⟩
  | uBlocks n => exact ⟨_, rfl⟩
  | uEqMpz n a z =>
    exact ((returns_defined (C60_unsigned env.cfg z h.2)).bind fun c =>
      Defined.of_eq (C18_eq_across env.cfg (st.u n a) c)).then _
  | uCast n a t => exact (Defined.of_eq (C21_integralCast_partial h t _)).then _
  | uText n a kind base upper showBase cap =>
    exact (text_defined env.cfg h.1 kind base upper showBase _ _ h.2).then _
  | sIsZero n a => exact ⟨_, rfl⟩
  | sIsPositive n a => exact ⟨_, rfl⟩
  | sIsNegative n a => exact ⟨_, rfl⟩
  | sIsOdd n a => exact (Defined.of_eq (Aeu.isOdd_spec h _)).then _
  | sIsEven n a => exact (Defined.of_eq (Aeu.isEven_spec h _)).then _
  | sBitCount n a => exact (Sat.defined (Aeu.bitCount_spec h _)).then _
  | sByteCount n a => exact (Sat.defined (Aeu.byteCount_spec h _)).then _
  | sGetBit n a i => exact (getBit_defined env.cfg _ i h.2).then _
  | sGetByte n a i => exact (getByte_defined env.cfg _ i h.2.1 h.2.2).then _
  | sGetBlock n a i => exact (getBlock_defined env.cfg _ i h.2).then _
  | sEq n a b => exact (Defined.of_eq (C41_compare_exact env.cfg _ _).2.1).then _
  | sCompare n a b => exact (Defined.of_eq (C41_compare_exact env.cfg _ _).1).then _
  | sOrder n a b =>
    exact ((Defined.of_eq (C41_compare_exact env.cfg (st.s n a) (st.s n b)).1).then Aeu.toOrdering).then _
  | sEqAcross n m a b => exact (Defined.of_eq (C50_across_exact env.cfg h.1 h.2 _ _).1).then _
  | sCompareAcross n m a b => exact (Defined.of_eq (C50_across_exact env.cfg h.1 h.2 _ _).2).then _
  | sEqIntegral n a t i => exact ((compareIntegral_defined h (st.s n a)).then (· == .equal)).then _
  | sCompareIntegral n a t i => exact (compareIntegral_defined h (st.s n a)).then _
  | sRel op n a b => exact (op.definedS env.cfg _ _).then _
  | sNe n a b => exact ((Defined.of_eq (C41_compare_exact env.cfg (st.s n a) (st.s n b)).2.1).then (!·)).then _
  | sOrderIntegral n a t i => exact ((compareIntegral_defined h (st.s n a)).then Aeu.toOrdering).then _
  | sLtIntegral n a t i =>
    exact (((compareIntegral_defined h (st.s n a)).then Aeu.toOrdering).then (· == .less)).then _
  | sGtIntegral n a t i =>
    exact (((compareIntegral_defined h (st.s n a)).then Aeu.toOrdering).then (· == .greater)).then _
  | sBitness n => exact ⟨_, rfl⟩
  | sBlocks n => exact ⟨_, rfl⟩
  | sEqMpz n a z =>
    exact ((mpz_defined env.cfg z h.2).bind fun c =>
      Defined.of_eq (C41_compare_exact env.cfg (st.s n a) c).2.1).then _
  | sCast n a t =>
    have := C48_cast_exact h.1 h.2.1 (st.s n a)
    rw [if_neg h.2.2] at this
    exact (Defined.of_eq this).then _
  | sText n a kind base upper showBase cap =>
    exact (signedText_defined env.cfg h.1 kind base upper showBase _ h.2.1 _ h.2.2).then _

theorem stream_defined (cfg : Cfg) {buf : Nat} (hb : 0 < buf) (os : OStream) (a : Aeu n)
    (h : if os.basefield = .hex then 0 < n else 2 ≤ n) : Defined (Aeu.streamOut cfg buf os a) := by
  unfold Aeu.streamOut
  simp only [Aeu.isZero_spec, ok_bind]
  by_cases h0 : toNat a = 0
  · rw [if_pos (by simp [h0])]; exact ⟨_, rfl⟩
  rw [if_neg (by simp [h0])]
  by_cases hh : os.basefield = .hex
  · rw [if_pos hh] at h
    rw [if_pos (by simp [streamBase, hh])]
    exact Sat.defined (Aeu.streamHex_any h _ a h0)
  · rw [if_neg hh] at h
    have hbase : (streamBase os.basefield = 8#32 ∨ streamBase os.basefield = 10#32) := by
      cases hf : os.basefield <;> simp [streamBase, hf] at hh ⊢
    rw [if_neg (by rcases hbase with e | e <;> rw [e] <;> decide)]
    refine Sat.defined (Aeu.streamDigits_any cfg buf hb _ ?_ ?_ _ h a h0 _ rfl)
    · rcases hbase with e | e <;> rw [e] <;> decide
    · rcases hbase with e | e <;> rw [e] <;> decide

theorem Call.defined (env : Env) (st : World) (c : Call)
    (h : c.Ok env st) : Defined (c.run env st) := by
  cases c with
  | setU n d e => exact (e.defined env st h.1 h.2).then _
  | setS n d e => exact (e.defined env st h.1 h.2).then _
  | ask q => exact (q.defined env st h).then _
  | postIncU n d a => exact ((returns_defined (Aeu.inc_spec (st.u n a))).then fun x => (x, st.u n a)).then _
  | postDecU n d a => exact ((Sat.defined (Aeu.dec_spec (st.u n a))).then fun x => (x, st.u n a)).then _
  | postIncS n d a => exact ((Sat.defined (Aesi.inc_mod h (st.s n a))).then fun x => (x, st.s n a)).then _
  | postDecS n d a => exact ((Sat.defined (Aesi.dec_mod h (st.s n a))).then fun x => (x, st.s n a)).then _
  | divideU n a b q r => exact (Sat.defined (Aeu.divide_total env.cfg h.1 _ _)).then _
  | dividePair n a b q r =>
    exact ((Sat.defined (Aeu.divide_total env.cfg h (st.u n a) (st.u n b))).then fun x => (x.1, x.2)).then _
  | divideS n a b q r => exact (Sat.defined (C40_divide_every env.cfg h.1 _ _ _ _)).then _
  | gcdExt n a b x y g => exact (Sat.defined (C27_bezout env.cfg h.1 _ _)).then _
  | swapU n a b => exact ⟨_, rfl⟩
  | swapS n a b => exact ⟨_, rfl⟩
  | printU n a buf => exact (stream_defined env.cfg h.1 st.os _ h.2).then _
  | printS n a buf =>
    refine Defined.then _ ?_
    unfold Aesi.streamOut
    split
    · refine stream_defined env.cfg h.1 _ _ ?_
      split
      · exact h.2
      · exact h.2
    · exact ⟨_, rfl⟩
  | read n d be =>
    refine Defined.then _ ?_
    rcases hsrc : st.src with ⟨data, fail⟩
    cases fail
    · exact Sat.defined (C33_read env.host _ be data)
    · exact Sat.defined (C33_read_failed env.host _ be data)
  | write n a be =>
    refine Defined.then _ ?_
    by_cases hf : st.sink.fail = true
    · exact .of_eq (C33_write_failed env.host be _ _ hf)
    · exact Sat.defined (Aeu.writeBinary_spec env.host _ _ (by simpa using hf) be)

/-- C75: in every build, a client program whose calls are admissible where they are made runs to its
end, however long it is and whatever it computes: no out-of-bounds access, overlong shift, signed overflow,
failed assertion, character-class violation, read of an indeterminate value, or endless loop. -/
theorem C75_no_undefined_behaviour (env : Env) (p : Client) :
    ∀ st : World, p.Admissible env st → ∃ st', p.run env st = .ok st' := by
  induction p with
  | done => exact fun st _ => ⟨st, rfl⟩
  | call c rest ih =>
    intro st h
    obtain ⟨st', e⟩ := c.defined env st h.1
    obtain ⟨r, hr⟩ := ih st' st' (h.2 st' e)
    exact ⟨r, by simp only [Client.run, e, ok_bind, hr]⟩

/-! A program with a loop that looks at its results: Euclid's algorithm on two signed registers and a
report; and what the excluded arguments would do. -/

/-- `while (r1 != 0) { r2 = r0 % r1; r0 = r1; r1 = r2; }` at most `k` times, then print `r0`. -/
def euclid : Nat → Client
  | 0 => .done
  | k + 1 => .call (.ask (.sIsZero 3 1)) fun st =>
      if st.last = [1] then .call (.printS 3 0 64) fun _ => .done
      else .call (.setS 3 2 (.bin .mod 0 1)) fun _ => .call (.setS 3 0 (.reg 1)) fun _ =>
        .call (.setS 3 1 (.reg 2)) fun _ => euclid k

/-- `euclid` is admissible from every state, for every bound. -/
theorem euclid_admissible (env : Env) (k : Nat) (st : World) : (euclid k).Admissible env st := by
  induction k generalizing st with
  | zero => trivial
  | succ k ih =>
    refine ⟨by simp [Call.Ok, Query.Ok], fun st' _ => ?_⟩
    dsimp only
    split
    · refine ⟨⟨by norm_num, ?_⟩, fun _ _ => trivial⟩
      split <;> norm_num
    · exact ⟨⟨by norm_num, trivial⟩, fun _ _ => ⟨⟨by norm_num, trivial⟩, fun _ _ =>
        ⟨⟨by norm_num, trivial⟩, fun _ _ => ih _⟩⟩⟩

example (env : Env) (st : World) : ∃ st', (euclid 1000).run env st = .ok st' :=
  C75_no_undefined_behaviour env _ st (euclid_admissible env 1000 st)

/-- A state: 252 and -105 in the first registers, everything else 0. -/
def start : World where
  u := fun n _ => Aeu.zero n
  s := fun n i => Aesi.ofInt n (if i = 0 then 252 else if i = 1 then -105 else 0)
  last := []
  os := { out := [], basefield := .other, showbase := false, uppercase := false, width := 0, fill := 32, adjust := .unset }
  sink := ⟨[], 0, false⟩
  src := ⟨[], false⟩

example : ((euclid 10).run ⟨lp64, .little, fun _ => false⟩ start).map (fun st => (Aesi.toInt (st.s 3 0), st.os.out)) =
    .ok (21, [50, 49]) := by decide +kernel

example (env : Env) (st : World) : (Call.setS 2 0 (.mix .modR 1 ITy.i8 (-128))).Ok env st ∧
    (Call.setS 2 1 (.builtin ITy.i64 (-(2 ^ 63 - 1)))).Ok env st ∧
    ¬ (Call.setS 2 1 (.builtin ITy.i64 (-(2 ^ 63)))).Ok env st ∧
    (Call.setU 2 4 (.setByte 1 7 9#8)).Ok env st ∧ ¬ (Call.setU 2 4 (.setByte 1 8 9#8)).Ok env st := by
  simp only [Call.Ok, SExpr.Ok, UExpr.Ok, IntegralOk]
  refine ⟨⟨by norm_num, ?_⟩, ⟨by norm_num, ?_⟩, ?_, ⟨by norm_num, .inr (by norm_num), by norm_num⟩, ?_⟩
  · decide
  · decide
  · decide
  · exact fun h => h.2.2 rfl

example (env : Env) (st : World) (h : env.cfg.unsafeMode = false) :
    (Call.setU 2 4 (.setByte 1 1000 9#8)).Ok env st := ⟨by norm_num, .inl h, by norm_num⟩

end AesiMP
