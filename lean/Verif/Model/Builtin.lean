import Verif.Model.Aeu

/-!
# Built-in integral types

A built-in type is a width, a signedness, and whether it is `bool`.  A value of the type is an
`Int` in range; conversions wrap as C++20 prescribes (two's complement); arithmetic on promoted
signed operands overflows with undefined behaviour.  `ITy.all` are the types of at
most 64 bits; `__int128` is in `Wide128.lean`.
-/

namespace AesiMP

/-- A built-in integral type. -/
structure ITy where
  width : Nat
  signed : Bool
  isBool : Bool := false
deriving DecidableEq, Repr

namespace ITy
/-- `int8_t` … `uint64_t`, `bool`. -/
def i8 : ITy := ⟨8, true, false⟩
def i16 : ITy := ⟨16, true, false⟩
def i32 : ITy := ⟨32, true, false⟩
def i64 : ITy := ⟨64, true, false⟩
def u8 : ITy := ⟨8, false, false⟩
def u16 : ITy := ⟨16, false, false⟩
def u32 : ITy := ⟨32, false, false⟩
def u64 : ITy := ⟨64, false, false⟩
def bool : ITy := ⟨8, false, true⟩

/-- The types of the model. -/
def all : List ITy := [i8, i16, i32, i64, u8, u16, u32, u64, bool]

/-- Is `v` a value of the type? -/
def InRange (t : ITy) (v : Int) : Prop :=
  if t.isBool then v = 0 ∨ v = 1
  else if t.signed then -(2 : Int) ^ (t.width - 1) ≤ v ∧ v < (2 : Int) ^ (t.width - 1)
  else 0 ≤ v ∧ v < (2 : Int) ^ t.width

instance (t : ITy) (v : Int) : Decidable (t.InRange v) := by
  unfold InRange; split
  · infer_instance
  · split <;> infer_instance

/-- `static_cast<T>(v)`: boolean conversion for `bool`, otherwise reduction modulo `2^width` into
the range of the type (C++20 [conv.integral]). -/
def conv (t : ITy) (v : Int) : Int :=
  if t.isBool then (if v ≠ 0 then 1 else 0)
  else if t.signed then
    let r := v % (2 : Int) ^ t.width
    if r < (2 : Int) ^ (t.width - 1) then r else r - (2 : Int) ^ t.width
  else v % (2 : Int) ^ t.width

/-- The type after integral promotion: `int` for everything narrower than `int`. -/
def promoted (t : ITy) : ITy := if t.width < 32 then i32 else t

end ITy

namespace Aeu
variable {n : Nat}

/-- `integralCast<Integral>` (Aeu.h:1475-1478). -/
def integralCast (t : ITy) (x : Aeu n) : Exec Int := do
  let v ← low64 x
  .ok (t.conv v.toNat)

/-! ### Comparison with a signed built-in

The templates of `operator==` and `compareTo` require an unsigned type (Aeu.h:725, 766), and the one
for `Aeu<otherBitness>` cannot be deduced from a built-in; the only overload that accepts a signed
argument (of any width) is the one for `uint64_t`, after the implicit conversion of the argument. -/

/-- The implicit conversion of a built-in to `uint64_t` ([conv.integral]). -/
def asU64 (i : Int) : U64 := BitVec.ofInt 64 i

/-- `our == i` for a signed `i`: `operator==(const Aeu&, uint64_t)` (Aeu.h:730-732). -/
def eqSigned (our : Aeu n) (i : Int) : Exec Bool := eqU64 our (asU64 i)

/-- `compareTo(i)` for a signed `i`: `compareTo(uint64_t)` (Aeu.h:790-796). -/
def compareToSigned (x : Aeu n) (i : Int) : Exec Comparison := compareToU64 x (asU64 i)

/-- `x <=> i` for a signed `i`: `operator<=>(const Unsigned&)` (Aeu.h:870-883), which is not
constrained and calls `compareTo(i)`. -/
def spaceshipSigned (x : Aeu n) (i : Int) : Exec StrongOrdering := do
  let c ← compareToSigned x i
  .ok (toOrdering c)

/-! ### The operators before C++20 (`PRE_CPP_20`, CUDA)

`operator!=` (Aeu.h:838) cannot be instantiated (`this->operator==` names no member) and is left
out. -/

/-- `operator<` (Aeu.h:839). -/
def oldLt (cfg : Cfg) (x y : Aeu n) : Exec Bool := do
  let c ← compareTo cfg x y
  .ok (c == .less)
/-- `operator>` (Aeu.h:841). -/
def oldGt (cfg : Cfg) (x y : Aeu n) : Exec Bool := do
  let c ← compareTo cfg x y
  .ok (c == .greater)
/-- `operator<=` (Aeu.h:840). -/
def oldLe (cfg : Cfg) (x y : Aeu n) : Exec Bool := do
  let b ← oldGt cfg x y
  .ok (!b)
/-- `operator>=` (Aeu.h:842). -/
def oldGe (cfg : Cfg) (x y : Aeu n) : Exec Bool := do
  let b ← oldLt cfg x y
  .ok (!b)

/-! ### Built-in operands that overload resolution converts to `Aeu` -/

/-- `a * u` where `a` is const or a temporary: the operator for built-in factors takes `Aeu&` (Aeu.h:415), so the one
on two `Aeu`s (Aeu.h:426) is taken, the factor converted (Aeu.h:166-176). -/
def mulConst {w : Nat} (a : Aeu n) (u : BitVec w) : Exec (Aeu n) := do
  let x ← ofUnsigned n u
  mul a x

/-- `a < u`, `a <= u`, `a > u`, `a >= u` with a built-in unsigned `u` before C++20 and in CUDA code: the members of
Aeu.h:839-842 take an `Aeu`, so `u` is converted (Aeu.h:166-176).  `cmp` is the member. -/
def oldBuiltin (cmp : Aeu n → Aeu n → Exec Bool) {w : Nat} (a : Aeu n) (u : BitVec w) : Exec Bool := do
  let x ← ofUnsigned n u
  cmp a x

end Aeu
end AesiMP
