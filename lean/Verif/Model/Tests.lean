import Verif.Model.Gmp
import Verif.Model.Alias
import Verif.Model.Builtin

/-!
# The randomised tests of /repo/test

One iteration of each randomised test, as a function of the values drawn (`Generation::getRandom`,
test/generation.h:22-44).  The result is `true` when every `EXPECT_…` of the iteration holds; `EXPECT_…`
does not stop the test, so all of them are evaluated.  An `mpz_class` is an integer; GMP's `/` and `%`
truncate.  A zero divisor makes GMP raise `SIGFPE`, which is not modelled: theorems exclude it.
-/

namespace AesiMP.Tests
open AesiMP
variable {n m : Nat}

/-- `Generation::runCompositeTest` (test/generation.h:46-56) for `Aeu<N>`: object 0 is `lA`, 1 is `rA`. -/
def compositeU (cfg : Cfg) (op : Aeu n → Aeu n → Exec (Aeu n)) (assignOp : Heap n → Nat → Nat → Exec (Heap n))
    (opZ : Int → Int → Int) (l r : Int) : Exec Bool := do
  let lA ← Aeu.ofMpz cfg n l
  let rA ← Aeu.ofMpz cfg n r
  let x ← op lA rA
  let e1 ← Aeu.eqMpz cfg x (opZ l r)
  let h ← assignOp (fun p => if p = 0 then lA else rA) 0 1
  let e2 ← Aeu.eqMpz cfg (h 0) (opZ l r)
  .ok (e1 && e2)

/-- `Generation::runSignedCompositeTest` (test/generation.h:58-78) for `Aesi<N>`; `l` and `r` are the
signed values (the iteration number chooses the signs of the draws). -/
def compositeS (cfg : Cfg) (op : Aesi n → Aesi n → Exec (Aesi n)) (assignOp : SHeap n → Nat → Nat → Exec (SHeap n))
    (opZ : Int → Int → Int) (l r : Int) : Exec Bool := do
  let lA ← Aesi.ofMpz cfg n l
  let rA ← Aesi.ofMpz cfg n r
  let x ← op lA rA
  let e1 ← Aesi.eqMpz cfg x (opZ l r)
  let h ← assignOp ⟨fun p => if p = 0 then lA.sign else rA.sign, fun p => if p = 0 then lA.base else rA.base⟩ 0 1
  let e2 ← Aesi.eqMpz cfg (h.obj 0) (opZ l r)
  .ok (e1 && e2)

/-- The loops "Built-in types" of the unsigned tests: `EXPECT_EQ(aeu ∘ u, value ∘ u); aeu ∘= u;
EXPECT_EQ(aeu, value ∘ u)` (test/arithmetic/addition/addition.cpp:80-87, subtraction.cpp:76-83,
multiplication.cpp:54-63, division.cpp:22-30, modulo.cpp:36-44), `u` of type `unsigned`. -/
def builtinU (cfg : Cfg) (op : Aeu n → BitVec 32 → Exec (Aeu n)) (opZ : Int → Int → Int) (value : Int)
    (u : BitVec 32) : Exec Bool := do
  let aeu ← Aeu.ofMpz cfg n value
  let x ← op aeu u
  let e1 ← Aeu.eqMpz cfg x (opZ value u.toNat)
  let aeu ← op aeu u
  let e2 ← Aeu.eqMpz cfg aeu (opZ value u.toNat)
  .ok (e1 && e2)

/-- The loop "Built-in types" of the signed addition and division tests
(test/arithmetic/addition/addition.cpp:98-105, division.cpp:91-99): one application. -/
def builtinS (cfg : Cfg) (op : Aesi n → Int → Exec (Aesi n)) (opZ : Int → Int → Int) (value i : Int) :
    Exec Bool := do
  let aeu ← Aesi.ofMpz cfg n value
  let x ← op aeu i
  let e1 ← Aesi.eqMpz cfg x (opZ value i)
  let aeu ← op aeu i
  let e2 ← Aesi.eqMpz cfg aeu (opZ value i)
  .ok (e1 && e2)

/-- The loop "Built-in types" of the signed subtraction and multiplication tests
(test/arithmetic/subtraction/subtraction.cpp:94-101, multiplication.cpp:77-85): two applications. -/
def builtinTwiceS (cfg : Cfg) (op : Aesi n → Int → Exec (Aesi n)) (opZ : Int → Int → Int) (value i : Int) :
    Exec Bool := do
  let aeu ← Aesi.ofMpz cfg n value
  let x ← op aeu i
  let x ← op x i
  let e1 ← Aesi.eqMpz cfg x (opZ (opZ value i) i)
  let aeu ← op aeu i
  let aeu ← op aeu i
  let e2 ← Aesi.eqMpz cfg aeu (opZ (opZ value i) i)
  .ok (e1 && e2)

/-- The loop "Built-in types" of the signed modulo test (test/arithmetic/modulo/modulo.cpp:78-87):
`EXPECT_EQ(aesi % mod, value % mod); aesi %= mod; aesi %= mod; EXPECT_EQ(aesi, value % mod)`, `mod` of
type `unsigned long`. -/
def moduloBuiltinS (cfg : Cfg) (n : Nat) (value mod : Int) : Exec Bool := do
  let aesi ← Aesi.ofMpz cfg n value
  let x ← Aesi.modIntegral cfg ITy.u64 aesi mod
  let e1 ← Aesi.eqMpz cfg x (value.tmod mod)
  let aesi ← Aesi.modIntegral cfg ITy.u64 aesi mod
  let aesi ← Aesi.modIntegral cfg ITy.u64 aesi mod
  let e2 ← Aesi.eqMpz cfg aesi (value.tmod mod)
  .ok (e1 && e2)

/-- `TEST(Signed_Division, Huge)`, the composite part (test/arithmetic/division/division.cpp:72-85):
for a negative dividend the expected value is `-1 * ((l * -1) / r)`. -/
def divisionS (cfg : Cfg) (n : Nat) (firstPositive : Bool) (l r : Int) : Exec Bool := do
  let lA ← Aesi.ofMpz cfg n l
  let rA ← Aesi.ofMpz cfg n r
  let expected := if firstPositive then l.tdiv r else -1 * ((l * -1).tdiv r)
  let x ← Aesi.div cfg lA rA
  let e1 ← Aesi.eqMpz cfg x expected
  let h ← SAlias.divAssign cfg
    ⟨fun p => if p = 0 then lA.sign else rA.sign, fun p => if p = 0 then lA.base else rA.base⟩ 0 1
  let e2 ← Aesi.eqMpz cfg (h.obj 0) expected
  .ok (e1 && e2)

/-- `runIncrementLoop<Aeu<N>>` (test/arithmetic/addition/addition.cpp:54-63), `increments` drawn by
`rand() % 100`. -/
def incrementU (cfg : Cfg) (n : Nat) (l : Int) (increments : Nat) : Exec Bool := do
  let value ← Aeu.ofMpz cfg n l
  let s ← forUp 0 increments (value, true) fun j (value, good) => do
    let (value, old) ← Aeu.postInc value
    let e1 ← Aeu.eqMpz cfg old (l + 2 * j)
    let value ← Aeu.inc value
    let e2 ← Aeu.eqMpz cfg value (l + 2 * j + 2)
    .ok (value, good && e1 && e2)
  let e ← Aeu.eqMpz cfg s.1 (l + increments * 2)
  .ok (s.2 && e)

/-- `runIncrementLoop<Aesi<N>>` (test/arithmetic/addition/addition.cpp:54-63). -/
def incrementS (cfg : Cfg) (n : Nat) (l : Int) (increments : Nat) : Exec Bool := do
  let value ← Aesi.ofMpz cfg n l
  let s ← forUp 0 increments (value, true) fun j (value, good) => do
    let (value, old) ← Aesi.postInc value
    let e1 ← Aesi.eqMpz cfg old (l + 2 * j)
    let value ← Aesi.inc value
    let e2 ← Aesi.eqMpz cfg value (l + 2 * j + 2)
    .ok (value, good && e1 && e2)
  let e ← Aesi.eqMpz cfg s.1 (l + increments * 2)
  .ok (s.2 && e)

/-- `runDecrementLoop<Aeu<N>>` (test/arithmetic/subtraction/subtraction.cpp:6-15). -/
def decrementU (cfg : Cfg) (n : Nat) (l : Int) (decrements : Nat) : Exec Bool := do
  let value ← Aeu.ofMpz cfg n l
  let s ← forUp 0 decrements (value, true) fun j (value, good) => do
    let (value, old) ← Aeu.postDec value
    let e1 ← Aeu.eqMpz cfg old (l - 2 * j)
    let value ← Aeu.dec value
    let e2 ← Aeu.eqMpz cfg value (l - 2 * j - 2)
    .ok (value, good && e1 && e2)
  let e ← Aeu.eqMpz cfg s.1 (l - decrements * 2)
  .ok (s.2 && e)

/-- `runDecrementLoop<Aesi<N>>` (test/arithmetic/subtraction/subtraction.cpp:6-15). -/
def decrementS (cfg : Cfg) (n : Nat) (l : Int) (decrements : Nat) : Exec Bool := do
  let value ← Aesi.ofMpz cfg n l
  let s ← forUp 0 decrements (value, true) fun j (value, good) => do
    let (value, old) ← Aesi.postDec value
    let e1 ← Aesi.eqMpz cfg old (l - 2 * j)
    let value ← Aesi.dec value
    let e2 ← Aesi.eqMpz cfg value (l - 2 * j - 2)
    .ok (value, good && e1 && e2)
  let e ← Aesi.eqMpz cfg s.1 (l - decrements * 2)
  .ok (s.2 && e)

/-! ## Bitwise operations -/

/-- `runBitwiseTest` (test/bitwise/binary.cpp:5-19): the second half uses fresh draws `l'`, `r'`. -/
def bitwiseU (cfg : Cfg) (op : Aeu n → Aeu n → Exec (Aeu n)) (assignOp : Heap n → Nat → Nat → Exec (Heap n))
    (opZ : Nat → Nat → Nat) (l r l' r' : Int) : Exec Bool := do
  let left ← Aeu.ofMpz cfg n l
  let right ← Aeu.ofMpz cfg n r
  let x ← op left right
  let e1 ← Aeu.eqMpz cfg x (opZ l.natAbs r.natAbs)
  let left ← Aeu.ofMpz cfg n l'
  let right ← Aeu.ofMpz cfg n r'
  let h ← assignOp (fun p => if p = 0 then left else right) 0 1
  let e2 ← Aeu.eqMpz cfg (h 0) (opZ l'.natAbs r'.natAbs)
  .ok (e1 && e2)

/-- `TEST(Unsigned_Bitwise, LeftShift)` (test/bitwise/shift.cpp:5-15), 1024 bits, shift `i + 200`. -/
def leftShift (cfg : Cfg) (n : Nat) (value value' : Int) (shift : Nat) : Exec Bool := do
  let aeu ← Aeu.ofMpz cfg n value
  let x ← Aeu.shl aeu shift
  let e1 ← Aeu.eqMpz cfg x (value * 2 ^ shift)
  let aeu ← Aeu.ofMpz cfg n value'
  let aeu ← Aeu.shl aeu shift
  let e2 ← Aeu.eqMpz cfg aeu (value' * 2 ^ shift)
  .ok (e1 && e2)

/-- `TEST(Unsigned_Bitwise, RightShift)` (test/bitwise/shift.cpp:17-27), 1024 bits, shift `i + 256`. -/
def rightShift (cfg : Cfg) (n : Nat) (value value' : Int) (shift : Nat) : Exec Bool := do
  let aeu ← Aeu.ofMpz cfg n value
  let x ← Aeu.shr aeu shift
  let e1 ← Aeu.eqMpz cfg x (value / 2 ^ shift)
  let aeu ← Aeu.ofMpz cfg n value'
  let aeu ← Aeu.shr aeu shift
  let e2 ← Aeu.eqMpz cfg aeu (value' / 2 ^ shift)
  .ok (e1 && e2)

/-- `getByteGmp(k)` (test/bitwise/manipulations/manipulations.cpp:36-38): byte `k` of `|v|`. -/
def gmpByte (v : Int) (k : Nat) : BitVec 8 := BitVec.ofNat 8 (v.natAbs / 2 ^ (8 * k))

/-- `(mpz_sizeinbase(v, 2) + 7) / 8` (manipulations.cpp:35). -/
def gmpBytes (v : Int) : Nat := (mpzSizeInBase2 v + 7) / 8

/-- `testCountBitsBytes<Aeu, N>` (manipulations.cpp:6-10). -/
def countBitsU (cfg : Cfg) (n : Nat) (value : Int) : Exec Bool := do
  let aeu ← Aeu.ofMpz cfg n value
  let c ← Aeu.bitCount aeu
  .ok (mpzSizeInBase2 value == c)

/-- `testCountBitsBytes<Aesi, N>` (manipulations.cpp:6-10). -/
def countBitsS (cfg : Cfg) (n : Nat) (value : Int) : Exec Bool := do
  let aeu ← Aesi.ofMpz cfg n value
  let c ← Aesi.bitCount aeu
  .ok (mpzSizeInBase2 value == c)

/-- `TEST(Unsigned_Bitwise, GetSetBit)` (manipulations.cpp:12-28). -/
def getSetBitU (cfg : Cfg) (n : Nat) (value : Int) : Exec Bool := do
  let bitCount := mpzSizeInBase2 value
  let aeu ← forUp 0 bitCount (Aeu.zero n) fun j aeu => Aeu.setBit cfg aeu j (value.natAbs.testBit j)
  let e ← Aeu.eqMpz cfg aeu value
  let aeu ← Aeu.ofMpz cfg n value
  forUp 0 bitCount e fun j e => do
    let b ← Aeu.getBit cfg aeu j
    .ok (e && b == value.natAbs.testBit j)

/-- `TEST(Unsigned_Bitwise, GetSetByte)` (manipulations.cpp:30-49). -/
def getSetByteU (cfg : Cfg) (n : Nat) (value : Int) : Exec Bool := do
  let byteCount := gmpBytes value
  let aeu ← forUp 0 byteCount (Aeu.zero n) fun j aeu => Aeu.setByte cfg aeu j (gmpByte value j)
  let e ← Aeu.eqMpz cfg aeu value
  let aeu ← Aeu.ofMpz cfg n value
  forUp 0 byteCount e fun j e => do
    let b ← Aeu.getByte cfg aeu j
    .ok (e && b == gmpByte value j)

/-- The loop `for (k = firstByte; k < 5; ++k) { block <<= 8; block |= getByteGmp((j + 1) * 4 - k); }`
(manipulations.cpp:64-69 with `firstByte = 1`, 151-156 with `firstByte = 0`). -/
def blockOf (value : Int) (firstByte j : Nat) : Exec Block :=
  forUp firstByte 5 (0#32) fun k block => .ok ((block <<< 8) ||| (gmpByte value ((j + 1) * 4 - k)).setWidth 32)

/-- The loop `for (std::size_t j = byteCount - 1; j >= totalBlocks * 4; --j)` (manipulations.cpp:73-78,
160-165), which collects the bytes of the last, partial block.  `j` is a `size_t` and wraps; `fuel` bounds
the number of tests. -/
def lastBlock (fuel : Nat) (value : Int) : Exec Block :=
  let byteCount := gmpBytes value
  let totalBlocks := byteCount / 4
  whileC fuel (BitVec.ofNat 64 byteCount - 1#64, 0#32) fun (j, block) =>
    if totalBlocks * 4 ≤ j.toNat then
      .ok (.next (j - 1#64, (block <<< 8) ||| (gmpByte value j.toNat).setWidth 32))
    else .ok (.leave block)

/-- `TEST(Unsigned_Bitwise, GetSetBlock)` (manipulations.cpp:51-84). -/
def getSetBlockU (cfg : Cfg) (fuel n : Nat) (value : Int) : Exec Bool := do
  let totalBlocks := gmpBytes value / 4
  let aeu ← forUp 0 totalBlocks (Aeu.zero n) fun j aeu => do
    let block ← blockOf value 1 j
    Aeu.setBlock cfg aeu j block
  let block ← lastBlock fuel value
  let aeu ← Aeu.setBlock cfg aeu totalBlocks block
  Aeu.eqMpz cfg aeu value

/-- `TEST(Signed_Bitwise, GetSetBit)` (manipulations.cpp:95-115): `value` is the signed draw, `negative`
the parity of the iteration. -/
def getSetBitS (cfg : Cfg) (n : Nat) (negative : Bool) (value : Int) : Exec Bool := do
  let bitCount := mpzSizeInBase2 value
  let aeu ← Aesi.ofIntegral n ITy.i32 1
  let aeu ← forUp 0 bitCount aeu fun j aeu => Aesi.setBit cfg aeu j (value.natAbs.testBit j)
  let aeu := if negative then Aesi.inverse aeu else aeu
  let e ← Aesi.eqMpz cfg aeu value
  let aeu ← Aesi.ofMpz cfg n value
  forUp 0 bitCount e fun j e => do
    let b ← Aesi.getBit cfg aeu j
    .ok (e && b == value.natAbs.testBit j)

/-- `TEST(Signed_Bitwise, GetSetByte)` (manipulations.cpp:117-139). -/
def getSetByteS (cfg : Cfg) (n : Nat) (negative : Bool) (value : Int) : Exec Bool := do
  let byteCount := gmpBytes value
  let aeu ← Aesi.ofIntegral n ITy.i32 1
  let aeu ← forUp 0 byteCount aeu fun j aeu => Aesi.setByte cfg aeu j (gmpByte value j)
  let aeu := if negative then Aesi.inverse aeu else aeu
  let e ← Aesi.eqMpz cfg aeu value
  let aeu ← Aesi.ofMpz cfg n value
  forUp 0 byteCount e fun j e => do
    let b ← Aesi.getByte cfg aeu j
    .ok (e && b == gmpByte value j)

/-- `TEST(Signed_Bitwise, GetSetBlock)` (manipulations.cpp:141-175): the inner loop starts at 0, so five
bytes pass through the block and the first one is shifted out again. -/
def getSetBlockS (cfg : Cfg) (fuel n : Nat) (negative : Bool) (value : Int) : Exec Bool := do
  let totalBlocks := gmpBytes value / 4
  let aesi ← Aesi.ofIntegral n ITy.i32 1
  let aesi ← forUp 0 totalBlocks aesi fun j aesi => do
    let block ← blockOf value 0 j
    Aesi.setBlock cfg aesi j block
  let block ← lastBlock fuel value
  let aesi ← Aesi.setBlock cfg aesi totalBlocks block
  let aesi := if negative then Aesi.inverse aesi else aesi
  Aesi.eqMpz cfg aesi value

/-! ## Comparison, parity, roots, casts -/

/-- `checkComparisons<Aeu<N>, N>` (test/boolean/boolean.cpp:6-14). -/
def comparisonsU (cfg : Cfg) (n : Nat) (l r : Int) : Exec Bool := do
  let lA ← Aeu.ofMpz cfg n l
  let rA ← Aeu.ofMpz cfg n r
  let c1 ← Aeu.lt cfg lA rA
  let c2 ← Aeu.le cfg lA rA
  let c3 ← Aeu.gt cfg lA rA
  let c4 ← Aeu.ge cfg lA rA
  let c5 ← Aeu.eq cfg lA rA
  .ok (c1 == decide (l < r) && c2 == decide (l ≤ r) && c3 == decide (l > r) && c4 == decide (l ≥ r) &&
    c5 == decide (l = r))

/-- `checkComparisons<Aesi<N>, N>` (test/boolean/boolean.cpp:6-14). -/
def comparisonsS (cfg : Cfg) (n : Nat) (l r : Int) : Exec Bool := do
  let lA ← Aesi.ofMpz cfg n l
  let rA ← Aesi.ofMpz cfg n r
  let c1 ← Aesi.lt cfg lA rA
  let c2 ← Aesi.le cfg lA rA
  let c3 ← Aesi.gt cfg lA rA
  let c4 ← Aesi.ge cfg lA rA
  let c5 ← Aesi.eq cfg lA rA
  .ok (c1 == decide (l < r) && c2 == decide (l ≤ r) && c3 == decide (l > r) && c4 == decide (l ≥ r) &&
    c5 == decide (l = r))

/-- `TEST(Unsigned_OddEven, Basic)`, the loop (test/arithmetic/odd_even.cpp:26-30). -/
def oddEvenU (cfg : Cfg) (n : Nat) (value : Int) : Exec Bool := do
  let aeu ← Aeu.ofMpz cfg n value
  let e ← Aeu.isEven aeu
  let o ← Aeu.isOdd aeu
  .ok (decide (value % 2 = 0) == e && decide (value % 2 = 1) == o)

/-- `TEST(Signed_OddEven, Basic)`, the loop (test/arithmetic/odd_even.cpp:12-16). -/
def oddEvenS (cfg : Cfg) (n : Nat) (value : Int) : Exec Bool := do
  let aesi ← Aesi.ofMpz cfg n value
  let e ← Aesi.isEven aesi
  let o ← Aesi.isOdd aesi
  .ok (decide (value % 2 = 0) == e && decide (value % 2 = 1) == o)

/-- `TEST(Unsigned_SquareRoot, SquareRoot)`, the loop (test/arithmetic/square-root.cpp:26-29); `mpz_sqrt` is the
truncated root. -/
def sqrtU (cfg : Cfg) (n : Nat) (value : Int) : Exec Bool := do
  let m ← Aeu.ofMpz cfg n value
  let r ← Aeu.squareRoot cfg m
  Aeu.eqMpz cfg r (Nat.sqrt value.toNat)

/-- `TEST(Signed_SquareRoot, SquareRoot)`, the loop (test/arithmetic/square-root.cpp:10-15), `even` is
`i % 2 == 0`. -/
def sqrtS (cfg : Cfg) (n : Nat) (even : Bool) (value : Int) : Exec Bool := do
  let m ← Aesi.ofMpz cfg n value
  let r ← Aesi.squareRoot cfg m
  if even then Aesi.eqMpz cfg r (Nat.sqrt value.toNat) else Aesi.eqIntegral r 0

/-- `TEST(Unsigned_IntegralCast, IntegralCast)`, the first loop
(test/operations/casts/integral_cast.cpp:24-30); `value` is a `uint64_t` in both halves. -/
def integralCastU (n : Nat) (junk : Aeu n) (value : BitVec 64) (value' : BitVec 32) : Exec Bool := do
  let aeu ← Aeu.ofUnsignedJ junk value
  let x ← Aeu.integralCast ITy.u64 aeu
  let aeu ← Aeu.ofUnsignedJ junk (value'.setWidth 64)
  let y ← Aeu.integralCast ITy.u32 aeu
  .ok (x == (value.toNat : Int) && y == ((value'.setWidth 64).toNat : Int))

/-- `TEST(Signed_IntegralCast, IntegralCast)` (test/operations/casts/integral_cast.cpp:10-16); `value` is an
`int64_t` in both halves. -/
def integralCastS (n : Nat) (value value' : Int) : Exec Bool := do
  let aesi ← Aesi.ofIntegral n ITy.i64 value
  let x ← Aesi.integralCast ITy.i64 aesi
  let aesi ← Aesi.ofIntegral n ITy.i64 value'
  let y ← Aesi.integralCast ITy.i32 aesi
  .ok (x == value && y == value')

/-! ## Number theory (test/number-theory.cpp) -/

/-- `TEST(NumberTheory, PowerByModulo)` (number-theory.cpp:5-18). -/
def powmTest (cfg : Cfg) (n : Nat) (base power modulo : Int) : Exec Bool := do
  let b ← Aeu.ofMpz cfg n base
  let p ← Aeu.ofMpz cfg n power
  let m ← Aeu.ofMpz cfg n modulo
  let r ← Aeu.powm cfg b p m
  Aeu.eqMpz cfg r (base ^ power.toNat % modulo)

/-- `TEST(NumberTheory, PowerByModuloDifferentPrecision)` (number-theory.cpp:20-35): `powm<1024>` of 512-bit
numbers. -/
def powmDifferentTest (cfg : Cfg) (n m : Nat) (base power modulo : Int) : Exec Bool := do
  let b ← Aeu.ofMpz cfg n base
  let md ← Aeu.ofMpz cfg n modulo
  let result ← Aeu.ofMpz cfg n (base ^ power.toNat % modulo)
  let p ← Aeu.ofMpz cfg m power
  let r ← Aeu.powmT cfg b p md
  Aeu.eq cfg r result

/-- `TEST(NumberTheory, LeastCommonMultiplier)` (number-theory.cpp:37-49). -/
def lcmTest (cfg : Cfg) (n : Nat) (left right : Int) : Exec Bool := do
  let l ← Aeu.ofMpz cfg n left
  let r ← Aeu.ofMpz cfg n right
  let x ← Aeu.lcm cfg l r
  Aeu.eqMpz cfg x (Int.lcm left right)

/-- `TEST(NumberTheory, GreatestCommonDivisor)` (number-theory.cpp:51-63). -/
def gcdTest (cfg : Cfg) (n : Nat) (common left right : Int) : Exec Bool := do
  let l ← Aeu.ofMpz cfg n (common * left)
  let r ← Aeu.ofMpz cfg n (common * right)
  let x ← Aeu.gcd cfg l r
  Aeu.eqMpz cfg x (Int.gcd (common * left) (common * right))

end AesiMP.Tests
