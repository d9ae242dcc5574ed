import Verif.Model.Client
import Verif.Model.Builtin

/-!
# Operands converted through `mpz_class`

With `AESI_GMP_INTEGRATION` the class has the implicit constructor `Aeu(const mpz_class&)` (Aeu.h:258-267).  Two
things follow from C++ overload resolution.

* The operators with a built-in value on the left (Aeu.h:1592-1656) accept every integral type and write
  `Aeu<bitness>(number)`.  The integral constructor takes only unsigned types (Aeu.h:166), so for a signed type
  (`char`, `short`, `int`, `long`, ...; for `long long` the choice is ambiguous) the only viable constructor is the one
  from `mpz_class`, to which these types convert implicitly with their value.  Without GMP such a statement does not
  compile.
* An `mpz_class` is accepted as either operand of the non-template operators on two `Aeu`s.
-/

namespace AesiMP
variable {n : Nat}

/-- The operators of Aeu.h:1592-1656. -/
inductive LeftOp where
  | add | sub | mul | div | mod | xor | and | or
deriving DecidableEq, Repr

/-- The operator on two `Aeu`s it calls. -/
def LeftOp.bin : LeftOp → UBin
  | .add => .add | .sub => .sub | .mul => .mul | .div => .div
  | .mod => .mod | .xor => .xor | .and => .and | .or => .or

/-- `Aeu<bitness>(i)` for a signed `i`: `Aeu(mpz_class(i))` (Aeu.h:258-267). -/
def Aeu.ofSigned (cfg : Cfg) (n : Nat) (i : Int) : Exec (Aeu n) := Aeu.ofMpz cfg n i

/-- `i op a` for a signed built-in `i` (Aeu.h:1592-1656): `Aeu<bitness>(i) op a`. -/
def LeftOp.signedLeft (cfg : Cfg) (op : LeftOp) (i : Int) (a : Aeu n) : Exec (Aeu n) := do
  let x ← Aeu.ofSigned cfg n i
  op.bin.run cfg x a

/-- `z op a` for an `mpz_class` `z`: the operators on two `Aeu`s (Aeu.h:352, 391, 426, 520, 543, 580, 603, 626), the
first operand converted. -/
def LeftOp.mpzLeft (cfg : Cfg) (op : LeftOp) (z : Int) (a : Aeu n) : Exec (Aeu n) := do
  let x ← Aeu.ofMpz cfg n z
  op.bin.run cfg x a

/-- `a op z` and `a op= z` for an `mpz_class` `z`: the second operand converted. -/
def LeftOp.mpzRight (cfg : Cfg) (op : LeftOp) (a : Aeu n) (z : Int) : Exec (Aeu n) := do
  let x ← Aeu.ofMpz cfg n z
  op.bin.run cfg a x

/-- `a op z` for an `Aesi` and an `mpz_class`: `z` is converted (Aesi.h:158-170), then the operator on two `Aesi`s
(Aesi.h:255, 325, 415, 480, 550). -/
def SBin.mpzRight (cfg : Cfg) (op : SBin) (a : Aesi n) (z : Int) : Exec (Aesi n) := do
  let x ← Aesi.ofMpz cfg n z
  op.run cfg a x

/-- `z op a` for an `mpz_class` and an `Aesi`. -/
def SBin.mpzLeft (cfg : Cfg) (op : SBin) (z : Int) (a : Aesi n) : Exec (Aesi n) := do
  let x ← Aesi.ofMpz cfg n z
  op.run cfg x a

end AesiMP
