import Verif.Model.Client
import Verif.Model.Init

/-!
# Constant expressions

Every function of the library is declared `constexpr` (`gpu constexpr`), and the README (line 20) announces support for
`constexpr` expressions.  An expression is a constant expression when its evaluation meets no undefined behaviour, reads
nothing that was never written, and calls no function that is not itself `constexpr` ([expr.const] of C++20).  This file
evaluates the calls of a client under those rules: undefined behaviour and unwritten storage as in `Model/Init.lean`, and
a call of `isalnum`, `iswalnum`, `snprintf`, `swprintf`, of GMP or of a stream stops the evaluation.

The functions that call none of these and declare no unwritten object are evaluated as at run time (`lift`).  Objects that
are constructed from a built-in value inside such a function are written in full by the constructor
(`C88_constructor`); here it is spelled out where the client calls it.  Limits of compilers on the number of steps are not
modelled.
-/

namespace AesiMP

/-- Functions that are not `constexpr`. -/
inductive Foreign where
  | isalnum | iswalnum | snprintf | swprintf | gmp | iostream
deriving DecidableEq, Repr

/-- Why an expression is not a constant expression. -/
inductive NotConstant where
  | undefined (u : UB)
  | calls (f : Foreign)
deriving DecidableEq, Repr

/-- Constant evaluation. -/
abbrev Const := Except NotConstant

/-- Steps that are evaluated as at run time. -/
def lift {α : Type} (e : Exec α) : Const α :=
  match e with
  | .ok r => .ok r
  | .error u => .error (.undefined u)

/-- `Aeu(value)` for a built-in `value` (Aeu.h:166-176), and its copy. -/
def Raw.make (n : Nat) {w : Nat} (value : BitVec w) : Exec (Aeu n) := do
  let r ← Raw.ofUnsigned (Raw.fresh n) value
  Raw.load r

namespace Const
variable {n : Nat}

/-- `Aeu(const Char*, std::size_t)` (Aeu.h:184-231): the loop at 192 / 194 tests its first character with `std::isalnum`
/ `std::iswalnum`; nothing after that call is reached. -/
def ofChars (kind : CharKind) (n : Nat) (chars : List Int) : Const (Aeu n) :=
  if chars.length = 0 then .ok (Aeu.zero n)
  else .error (.calls (match kind with | .char => .isalnum | .wchar => .iswalnum))

/-- `Aesi(const Char*, std::size_t)` (Aesi.h:122-126): `base(ptr, size)` first. -/
def ofCharsS (kind : CharKind) (n : Nat) (chars : List Int) : Const (Aesi n) := do
  let base ← ofChars kind n chars
  let z ← lift (Aeu.isZero base)
  if !z then do
    let sign ← lift (Aesi.traverseDashes (⟨chars.toArray, rfl⟩ : Vector Int chars.length))
    .ok ⟨sign, base⟩
  else .ok ⟨.zero, base⟩

/-- `Aeu(const mpz_class&)` (Aeu.h:258-267) calls `mpz_sizeinbase` first; `Aesi(const mpz_class&)` (Aesi.h:159-171)
compares the number with 0 first, which GMP does. -/
def ofMpz {α : Type} : Const α := .error (.calls .gmp)

/-- `operator<<` (Aeu.h:1378, Aesi.h:1119), `readBinary` (1437), `writeBinary` (1456): the first thing that is done with
the stream. -/
def withStream {α : Type} : Const α := .error (.calls .iostream)

/-- The digits in `getString` (Aeu.h:1316-1361): for base 16 the first call of `snprintf` / `swprintf`. -/
def getStringBody (cfg : Cfg) (kind : CharKind) (base : BitVec 8) (this : Aeu n) {cap : Nat}
    (buffer : Vector Int cap) (position : Nat) : Const (Vector Int cap × Nat) :=
  if base = 16#8 then do
    let iter ← lift (Aeu.scanDown this (n - 1))
    let _ ← lift (rd this iter)
    .error (.calls (match kind with | .char => .snprintf | .wchar => .swprintf))
  else lift (Aeu.getStringDigits cfg base this buffer position)

/-- `Aeu::getString` (Aeu.h:1281-1364). -/
def getString (cfg : Cfg) (kind : CharKind) (base : BitVec 8) (this : Aeu n) {cap : Nat} (buffer : Vector Int cap)
    (showBase : Bool) : Const (Vector Int cap × Nat) :=
  if cap < 2 then .ok (buffer, 0) else do
    let r ← lift (Aeu.writePrefix base showBase buffer)
    let z ← lift (Aeu.isZero this)
    if z then do
      let buffer ← lift (wr r.1 r.2 48)
      .ok (buffer, r.2 + 1)
    else do
      let r ← getStringBody cfg kind base this r.1 r.2
      let buffer ← lift (wr r.1 r.2 0)
      .ok (buffer, (r.2 + 1) % 2 ^ 64)

/-- `Aesi::getString` (Aesi.h:1061-1105); for zero it writes at most three characters itself. -/
def getStringS (cfg : Cfg) (kind : CharKind) (base : BitVec 8) (upper : Bool) (a : Aesi n) {cap : Nat}
    (buffer : Vector Int cap) (showBase : Bool) : Const (Vector Int cap × Nat) :=
  if a.sign ≠ .zero then
    if a.sign = .negative ∧ cap > 0 then do
      let buffer ← lift (wr buffer 0 45)
      let r ← getString cfg kind base a.base (Vector.ofFn fun i : Fin (cap - 1) => buffer[1 + i.val]'(by omega)) showBase
      .ok (Vector.ofFn fun i => if h : 1 ≤ i.val then r.1[i.val - 1]'(by omega) else buffer[i.val], r.2)
    else getString cfg kind base a.base buffer showBase
  else lift (Aesi.getString cfg kind base upper a buffer showBase)

/-- `Aesi` division and modulo (Aesi.h:514-526, 584-594) with `Aeu quotient, _;`, `Aeu _, remainder;` (Aeu.h:521, 544). -/
def divS (cfg : Cfg) (division divisor : Aesi n) : Exec (Aesi n) :=
  if Aesi.isZero divisor then .ok { division with sign := .zero }
  else do
    let division := if Aesi.isNegative divisor then Aesi.inverse division else division
    let base ← Raw.div cfg division.base divisor.base
    Aesi.normalise { division with base := base }

@[inherit_doc divS]
def modS (cfg : Cfg) (modulation modulo : Aesi n) : Exec (Aesi n) :=
  if Aesi.isZero modulo then .ok modulation
  else do
    let modulation := if Aesi.isNegative modulo then Aesi.inverse modulation else modulation
    let base ← Raw.mod cfg modulation.base modulo.base
    Aesi.normalise { modulation with base := base }

/-- `Aesi` division and modulo by a built-in value (Aesi.h:492-506, 562-574). -/
def divIntegralS (cfg : Cfg) (t : ITy) (division : Aesi n) (divisor : Int) : Exec (Aesi n) :=
  if divisor = 0 then .ok { division with sign := .zero }
  else do
    let r ← Aesi.absorbSign t division divisor
    let d ← Raw.make n (toULL r.2)
    let base ← Raw.div cfg r.1.base d
    Aesi.normalise { r.1 with base := base }

@[inherit_doc divIntegralS]
def modIntegralS (cfg : Cfg) (t : ITy) (modulation : Aesi n) (modulo : Int) : Exec (Aesi n) :=
  if modulo = 0 then .ok { modulation with sign := .zero }
  else do
    let r ← Aesi.absorbSign t modulation modulo
    let d ← Raw.make n (toULL r.2)
    let base ← Raw.mod cfg r.1.base d
    .ok { r.1 with base := base }

/-- `Aesi(value)` for a built-in value (Aesi.h:100-112). -/
def ofIntegralS (n : Nat) (t : ITy) (value : Int) : Exec (Aesi n) :=
  if value < 0 then do
    let m ← t.negate value
    let base ← Raw.make n (toULL m)
    .ok ⟨.negative, base⟩
  else if value > 0 then do
    let base ← Raw.make n (toULL value)
    .ok ⟨.positive, base⟩
  else .ok (Aesi.zero n)

/-- `Aesi::squareRoot` (Aesi.h:981-986). -/
def squareRootS (cfg : Cfg) (a : Aesi n) : Exec (Aesi n) :=
  if a.sign = .positive then do
    let base ← Raw.squareRoot cfg a.base
    .ok ⟨.positive, base⟩
  else ofIntegralS n .i32 0

end Const

/-- The binary operators of `Aeu` (lines as in `UBin.run`); division, modulo and gcd declare unwritten objects. -/
def UBin.constant (cfg : Cfg) {n : Nat} (a b : Aeu n) : UBin → Exec (Aeu n)
  | .div => Raw.div cfg a b
  | .mod => Raw.mod cfg a b
  | .gcd => Raw.gcd cfg a b
  | .lcm => do
      let g ← Raw.gcd cfg a b
      let q ← Raw.div cfg a g
      Aeu.mul q b
  | op => op.run cfg a b

/-- The operators with a built-in value (lines as in `UMix.run`). -/
def UMix.constant (cfg : Cfg) {n w : Nat} (a : Aeu n) (v : BitVec w) : UMix → Exec (Aeu n)
  | .addR => Aeu.addBuiltin a v
  | .mulR => Aeu.mulNarrow a v
  | .subR => do let c ← Raw.make n v; UBin.sub.constant cfg a c
  | .divR => do let c ← Raw.make n v; UBin.div.constant cfg a c
  | .modR => do let c ← Raw.make n v; UBin.mod.constant cfg a c
  | .xorR => do let c ← Raw.make n v; UBin.xor.constant cfg a c
  | .andR => do let c ← Raw.make n v; UBin.and.constant cfg a c
  | .orR => do let c ← Raw.make n v; UBin.or.constant cfg a c
  | .addL => do let c ← Raw.make n v; UBin.add.constant cfg c a
  | .subL => do let c ← Raw.make n v; UBin.sub.constant cfg c a
  | .mulL => do let c ← Raw.make n v; UBin.mul.constant cfg c a
  | .divL => do let c ← Raw.make n v; UBin.div.constant cfg c a
  | .modL => do let c ← Raw.make n v; UBin.mod.constant cfg c a
  | .xorL => do let c ← Raw.make n v; UBin.xor.constant cfg c a
  | .andL => do let c ← Raw.make n v; UBin.and.constant cfg c a
  | .orL => do let c ← Raw.make n v; UBin.or.constant cfg c a

/-- Calls whose result is an `Aeu` (`UExpr.run`). -/
def UExpr.constant (env : Env) (st : World) {n : Nat} : UExpr n → Const (Aeu n)
  | .builtin _ v => lift (Raw.make n v)
  | .text kind chars => Const.ofChars kind n chars
  | .mpz _ | .mpzL _ _ _ | .mpzR _ _ _ => Const.ofMpz
  | .not a => lift (Raw.not (st.u n a))
  | .bin op a b => lift (op.constant env.cfg (st.u n a) (st.u n b))
  | .mix op a _ v => lift (op.constant env.cfg (st.u n a) v)
  | .squareRoot a => lift (Raw.squareRoot env.cfg (st.u n a))
  | e => lift (e.run env st)

/-- The binary operators of `Aesi` (`SBin.run`). -/
def SBin.constant (cfg : Cfg) {n : Nat} (a b : Aesi n) : SBin → Exec (Aesi n)
  | .div => Const.divS cfg a b
  | .mod => Const.modS cfg a b
  | op => op.run cfg a b

/-- The operators of `Aesi` with a built-in value (`SMix.run`). -/
def SMix.constant (cfg : Cfg) {n : Nat} (t : ITy) (a : Aesi n) (i : Int) : SMix → Exec (Aesi n)
  | .mulR => Aesi.mulIntegral cfg t a i
  | .divR => Const.divIntegralS cfg t a i
  | .modR => Const.modIntegralS cfg t a i
  | .addR => do let c ← Const.ofIntegralS n t i; SBin.add.constant cfg a c
  | .subR => do let c ← Const.ofIntegralS n t i; SBin.sub.constant cfg a c
  | .addL => do let c ← Const.ofIntegralS n t i; SBin.add.constant cfg c a
  | .subL => do let c ← Const.ofIntegralS n t i; SBin.sub.constant cfg c a
  | .mulL => do let c ← Const.ofIntegralS n t i; SBin.mul.constant cfg c a
  | .divL => do let c ← Const.ofIntegralS n t i; SBin.div.constant cfg c a
  | .modL => do let c ← Const.ofIntegralS n t i; SBin.mod.constant cfg c a

/-- Calls whose result is an `Aesi` (`SExpr.run`). -/
def SExpr.constant (env : Env) (st : World) {n : Nat} : SExpr n → Const (Aesi n)
  | .builtin t i => lift (Const.ofIntegralS n t i)
  | .text kind chars => Const.ofCharsS kind n chars
  | .mpz _ | .mpzL _ _ _ | .mpzR _ _ _ => Const.ofMpz
  | .bin op a b => lift (op.constant env.cfg (st.s n a) (st.s n b))
  | .mix op a t i => lift (op.constant env.cfg t (st.s n a) i)
  | .squareRoot a => lift (Const.squareRootS env.cfg (st.s n a))
  | e => lift (e.run env st)

/-- Observers (`Query.run`). -/
def Query.constant (env : Env) (st : World) : Query → Const (List Int)
  | .uEqMpz _ _ _ | .sEqMpz _ _ _ => Const.ofMpz
  | .uText n a kind base _ showBase cap => do
      let r ← Const.getString env.cfg kind base (st.u n a) (Vector.replicate cap 0) showBase
      .ok (r.1.toList.take r.2)
  | .sText n a kind base upper showBase cap => do
      let r ← Const.getStringS env.cfg kind base upper (st.s n a) (Vector.replicate cap 0) showBase
      .ok (r.1.toList.take r.2)
  | .uOldBuiltin op n a _ v => lift do
      let x ← Raw.make n v
      let r ← op.runOld env.cfg (st.u n a) x
      .ok (ofBool r)
  | q => lift (q.run env st)

/-- One call (`Call.run`). -/
def Call.constant (env : Env) (st : World) : Call → Const World
  | .setU n d e => do let r ← e.constant env st; .ok (st.setU n d r)
  | .setS n d e => do let r ← e.constant env st; .ok (st.setS n d r)
  | .ask q => do let r ← q.constant env st; .ok { st with last := r }
  | .divideU n a b q r => do
      let x ← lift (Raw.divide env.cfg (st.u n a) (st.u n b) (Raw.store (st.u n q)) (Raw.store (st.u n r)))
      let x1 ← lift (Raw.load x.1)
      let x2 ← lift (Raw.load x.2)
      .ok ((st.setU n q x1).setU n r x2)
  | .dividePair n a b q r => do
      let x ← lift (Raw.divide env.cfg (st.u n a) (st.u n b) (Raw.store (Aeu.zero n)) (Raw.store (Aeu.zero n)))
      let x1 ← lift (Raw.load x.1)
      let x2 ← lift (Raw.load x.2)
      .ok ((st.setU n q x1).setU n r x2)
  | .divideS n a b q r => do
      let x ← lift (RawS.divide env.cfg (st.s n a) (st.s n b) (RawS.store (st.s n q)) (RawS.store (st.s n r)))
      let x1 ← lift (RawS.load x.1)
      let x2 ← lift (RawS.load x.2)
      .ok ((st.setS n q x1).setS n r x2)
  | .gcdExt n a b x y g => do
      let r ← lift (Raw.gcdExt env.cfg (st.u n a) (st.u n b) (Raw.store (st.u n x)) (Raw.store (st.u n y)))
      let x1 ← lift (Raw.load r.2.1)
      let x2 ← lift (Raw.load r.2.2)
      .ok (((st.setU n x x1).setU n y x2).setU n g r.1)
  | .printU _ _ _ | .printS _ _ _ | .read _ _ _ | .write _ _ _ => Const.withStream
  | c => lift (c.run env st)

/-- A `constexpr` function of the client, evaluated in a constant expression. -/
def Client.constant (env : Env) : Client → World → Const World
  | .done, st => .ok st
  | .call c rest, st => do
      let st' ← c.constant env st
      (rest st').constant env st'

end AesiMP
