import Verif.Model.Aesi

/-!
# 128-bit built-in operands

In GNU mode (the CMake files ask for C++20 and leave `CMAKE_CXX_EXTENSIONS` on: CMakeLists.txt:3)
`std::is_integral_v` and `std::is_unsigned_v` hold for `unsigned __int128`, `std::is_integral_v` and
`std::is_signed_v` for `__int128`, so the templates of both classes accept them.  Most of the model is
already generic in the width: `Aeu.ofUnsigned`, `addBuiltin`, `mulNarrow` (the branch for everything that
is not `uint64_t`, Aeu.h:461-468), the shifts (a shift count is a number), and on the signed side the
operations with an `ITy`.  Here are the two types and the operations that convert to `uint64_t` because
no overload takes more than 64 bits.
-/

namespace AesiMP

/-- `__int128`. -/
def ITy.i128 : ITy := ⟨128, true, false⟩
/-- `unsigned __int128`. -/
def ITy.u128 : ITy := ⟨128, false, false⟩

namespace Aeu
variable {n : Nat}

/-- `our == other` for an `unsigned __int128`: the templates for built-ins want `sizeof < 8` (Aeu.h:726);
`operator==(const Aeu&, uint64_t)` (Aeu.h:730-732) is called after the integral conversion. -/
def eqU128 (our : Aeu n) (other : BitVec 128) : Exec Bool := eqU64 our (other.setWidth 64)

/-- `compareTo(unsigned __int128)`: `compareTo(uint64_t)` (Aeu.h:790-796) after the conversion. -/
def compareToU128 (our : Aeu n) (other : BitVec 128) : Exec Comparison := compareToU64 our (other.setWidth 64)

/-- `our <=> other` (Aeu.h:873-881) for an `unsigned __int128`. -/
def spaceshipU128 (our : Aeu n) (other : BitVec 128) : Exec StrongOrdering := do
  let c ← compareToU128 our other
  .ok (toOrdering c)

end Aeu
end AesiMP
