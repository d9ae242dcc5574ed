import Mathlib.Data.Int.Log
import Mathlib.Data.Rat.Floor

/-!
# Arithmetic in `double`

IEEE 754 binary64 with rounding to nearest, ties to even, for numbers in the normal range (between 2^-1022 and 2^1024):
what the constant expression `static_cast<std::size_t>(static_cast<double>(bitness) / 2.95)` (Aeu.h:1410) is computed in.
A `double` is represented by the rational number it is; overflow, subnormal numbers, infinities and NaNs are not modelled
(none occurs in this expression).
-/

namespace AesiMP
namespace Double

/-- The integer nearest to `x`; of two, the even one. -/
def nearestEven (x : ℚ) : Int :=
  if x - ⌊x⌋ < 1 / 2 then ⌊x⌋
  else if 1 / 2 < x - ⌊x⌋ then ⌊x⌋ + 1
  else if ⌊x⌋ % 2 = 0 then ⌊x⌋ else ⌊x⌋ + 1

/-- The distance of neighbouring `double`s around `x`: 53 binary digits of which the first is that of `x`. -/
def ulp (x : ℚ) : ℚ := 2 ^ (Int.log 2 |x| - 52)

/-- `x` rounded to `double`. -/
def round (x : ℚ) : ℚ := if x = 0 then 0 else nearestEven (x / ulp x) * ulp x

/-- `x / y` in `double`. -/
def div (x y : ℚ) : ℚ := round (x / y)

/-- `static_cast<std::size_t>(x)`: the fraction is discarded. -/
def toSize (x : ℚ) : Nat := ⌊x⌋₊

end Double

/-- `constexpr auto bufferSize = static_cast<std::size_t>(static_cast<double>(bitness) / 2.95)` (Aeu.h:1410) for
`bitness = 32 * n`. -/
def Aeu.streamBuf (n : Nat) : Nat :=
  Double.toSize (Double.div (Double.round ((32 * n : Nat) : ℚ)) (Double.round (295 / 100)))

end AesiMP
