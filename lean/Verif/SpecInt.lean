import Verif.Spec
import Verif.Model.Aesi

/-!
# Specification vocabulary for signed numbers
-/

namespace AesiMP
namespace Aesi
variable {n : Nat}

/-- The integer an `Aesi` object represents: sign times magnitude. -/
def toInt (a : Aesi n) : Int :=
  match a.sign with
  | .zero => 0
  | .positive => Aeu.toNat a.base
  | .negative => -(Aeu.toNat a.base : Int)

/-- The sign the object claims (what `isPositive`, `isZero`, `isNegative` answer), as `1`, `0`, `-1`. -/
def sgn (a : Aesi n) : Int :=
  match a.sign with
  | .zero => 0
  | .positive => 1
  | .negative => -1

/-- The object's sign field tells the truth about its value: it is `Zero` if the value is 0. -/
def Canon (a : Aesi n) : Prop := a.sign ≠ .zero → Aeu.toNat a.base ≠ 0

/-- The integer fits the precision: `|v| < 2^bitness`. -/
def Fits (n : Nat) (v : Int) : Prop := v.natAbs < 2 ^ (32 * n)

instance (n : Nat) (v : Int) : Decidable (Fits n v) := by unfold Fits; infer_instance
instance (a : Aesi n) : Decidable (Canon a) := by unfold Canon; infer_instance

/-- The canonical object with value `v` (used in the examples). -/
def ofInt (n : Nat) (v : Int) : Aesi n :=
  ⟨if v = 0 then .zero else if v < 0 then .negative else .positive, Aeu.ofNat n v.natAbs⟩

end Aesi
end AesiMP
