import Verif.Basic

/-!
# Model of `Aeu.h`: the unsigned number, arithmetic part

Every definition cites the lines of `/repo/include/AesiMultiprecision/Aeu.h` it models.
A member function that modifies `*this` (or a reference argument) returns the new value.
Objects declared without initialiser (`Aeu result;`) start as `zero` in the model; in every such
function the C++ code overwrites all blocks before reading one (for the integral constructor this
is proved, see `ofUnsignedJ`).
-/

namespace AesiMP

/-- Build configuration: `AESI_UNSAFE` (Aeu.h:53), `NDEBUG` (disables `assert`), and whether
`uint64_t` is a typedef of `unsigned long long` (macOS, Windows) or `unsigned long` (LP64 Linux). -/
structure Cfg where
  unsafeMode : Bool
  ndebug : Bool
  u64IsULL : Bool
deriving DecidableEq, Repr

/-- `assert(b)`. -/
def cassert (cfg : Cfg) (b : Bool) : Exec Unit :=
  if cfg.ndebug || b then .ok () else .error .assertFailed

/-- `class Aeu<bitness>` (Aeu.h:83-104): its only data member is `blocks`, an array of
`blocksNumber = n = bitness / 32` blocks, least significant first. -/
abbrev Aeu (n : Nat) := Vector Block n

/-- `enum class Comparison` (Aeu.h:75). -/
inductive Comparison where
  | equal | less | greater | equivalent
deriving DecidableEq, Repr

namespace Aeu
variable {n m : Nat}

/-- `Aeu {}`: value initialisation, all blocks 0 (Aeu.h:142). -/
def zero (n : Nat) : Aeu n := Vector.replicate n 0#32

/-! ## Helper functions -/

/-- `addLine` (Aeu.h:113-120). Returns the new `dst` and the carry. -/
def addLine (dst src : Aeu n) : Exec (Aeu n × U64) :=
  forUp 0 n (dst, (0#64 : U64)) fun i (dst, carryOut) => do
    let d ← rd dst i
    let s ← rd src i
    let sum := toU64 d + toU64 s + carryOut
    let dst ← wr dst i (toBlock (sum % blockBase))
    .ok (dst, sum / blockBase)

/-- `makeComplement` (Aeu.h:127-134). -/
def makeComplement (line : Aeu n) : Exec (Aeu n × U64) :=
  forUp 0 n (line, (1#64 : U64)) fun i (line, carryOut) => do
    let b ← rd line i
    let sum := blockBase - 1#64 - toU64 b + carryOut
    let line ← wr line i (toBlock (sum % blockBase))
    .ok (line, sum / blockBase)

/-! ## Constructors -/

/-- Integral constructor (Aeu.h:166-176) with the indeterminate initial content of `blocks` made
explicit as `junk`.  `w` is the width of the built-in type. -/
def ofUnsignedJ {w : Nat} (junk : Aeu n) (value : BitVec w) : Exec (Aeu n) :=
  if value ≠ 0#w then do
    let r ← forUp 0 n (junk, value.setWidth 64) fun i (blocks, tValue) => do
      let blocks ← wr blocks i (toBlock (tValue % blockBase))
      .ok (blocks, tValue / blockBase)
    .ok r.1
  else .ok (zero n)

/-- Integral constructor (Aeu.h:166-176). -/
def ofUnsigned (n : Nat) {w : Nat} (value : BitVec w) : Exec (Aeu n) := ofUnsignedJ (zero n) value

/-! ## Unary operators -/

/-- Unary plus (Aeu.h:280). -/
def plus (x : Aeu n) : Exec (Aeu n) := .ok x

/-- Unary minus (Aeu.h:287-289). -/
def neg (x : Aeu n) : Exec (Aeu n) := do
  let r ← makeComplement x
  .ok r.1

/-- Prefix increment (Aeu.h:295-303). -/
def inc (x : Aeu n) : Exec (Aeu n) := do
  let r ← forUpC 0 n x fun i x => do
    let b ← rd x i
    if b < blockMax then do
      let x ← wr x i (b + 1#32)
      .ok (.leave x)
    else do
      let x ← wr x i 0#32
      .ok (.next x)
  match r with
  | .next x => .ok x
  | .leave x => .ok x

/-- Postfix increment (Aeu.h:309): (new object, returned old value). -/
def postInc (x : Aeu n) : Exec (Aeu n × Aeu n) := do
  let old := x
  let x ← inc x
  .ok (x, old)

/-- Prefix decrement (Aeu.h:315-323). -/
def dec (x : Aeu n) : Exec (Aeu n) := do
  let r ← forUpC 0 n x fun i x => do
    let b ← rd x i
    if b > 0#32 then do
      let x ← wr x i (b - 1#32)
      .ok (.leave x)
    else do
      let x ← wr x i blockMax
      .ok (.next x)
  match r with
  | .next x => .ok x
  | .leave x => .ok x

/-- Postfix decrement (Aeu.h:329). -/
def postDec (x : Aeu n) : Exec (Aeu n × Aeu n) := do
  let old := x
  let x ← dec x
  .ok (x, old)

/-! ## Addition and subtraction -/

/-- `operator+=(Aeu&, Unsigned)` (Aeu.h:362-369), built-in type of width `w`. The addendum variable
carries the carry and has the type `Unsigned`. -/
def addBuiltin {w : Nat} (addition : Aeu n) (addendum : BitVec w) : Exec (Aeu n) := do
  let r ← forUp 0 n (addition, addendum) fun i (x, addendum) => do
    let b ← rd x i
    let currentSum := toU64 b + addendum.setWidth 64
    let x ← wr x i (toBlock (currentSum % blockBase))
    .ok (x, (currentSum / blockBase).setWidth w)
  .ok r.1

/-- `operator+=(Aeu&, const Aeu&)` (Aeu.h:377-379); `operator+` (352-354) copies and calls it. -/
def add (addition addendum : Aeu n) : Exec (Aeu n) := do
  let r ← addLine addition addendum
  .ok r.1

/-- `operator-=(Aeu&, const Aeu&)` (Aeu.h:401-403); `operator-` (391-393) copies and calls it. -/
def sub (subtraction subtrahend : Aeu n) : Exec (Aeu n) := do
  let m ← neg subtrahend
  add subtraction m

/-! ## Supporting methods needed below -/

/-- `filledBlocksNumber` (Aeu.h:1048-1052). -/
def filledBlocksNumber (x : Aeu n) : Exec Nat := do
  let r ← forDownC n 0 () fun i _ => do
    let b ← rd x i
    if b ≠ 0#32 then .ok (.leave (i + 1)) else .ok (.next ())
  match r with
  | .next _ => .ok 0
  | .leave k => .ok k

/-- `isZero` (Aeu.h:1041). -/
def isZero (x : Aeu n) : Exec Bool := do
  let f ← filledBlocksNumber x
  .ok (f == 0)

/-! ## Multiplication -/

/-- One row of the schoolbook product: the inner `for j` loop that appears twice in the source
(Aeu.h:448-453 and 486-491).  `digit j` is the `j`-th digit of the shorter factor as `uint64_t`:
`factor >> 32*j & 0xffffffff` in the first place, `smallerLine[j]` in the second.  Returns the
buffer and the final `carryOut`.  The loop condition `j < smallerLength && j < buffer.size() - i`
is the bound `min smallerLength (n - i)`. -/
def mulRow (buffer : Aeu n) (i : Nat) (tBlock : U64) (digit : Nat → Exec U64)
    (smallerLength : Nat) : Exec (Aeu n × U64) :=
  forUp 0 (min smallerLength (n - i)) (buffer, (0#64 : U64)) fun j (buffer, carryOut) => do
    let d ← digit j
    let product := tBlock * d + carryOut
    let b ← rd buffer (i + j)
    let partialSum := toU64 b + product % blockBase
    let carryOut := product / blockBase + partialSum / blockBase
    let buffer ← wr buffer (i + j) (toBlock (partialSum % blockBase))
    .ok (buffer, carryOut)

/-- `operator*=(Aeu&, Unsigned)`, branch `Unsigned` = `uint64_t` (Aeu.h:440-460). -/
def mulU64 (x : Aeu n) (factor : U64) : Exec (Aeu n) := do
  let longerLength ← filledBlocksNumber x
  let smallerLength := if factor > toU64 blockMax then 2 else 1
  forUp 0 longerLength (zero n) fun i buffer => do
    let t ← rd x i
    let r ← mulRow buffer i (toU64 t)
      (fun j => do
        let f ← shr64 factor (32 * j)
        .ok (f &&& 0x00000000ffffffff#64)) smallerLength
    let (buffer, carryOut) := r
    if smallerLength + i < n then do
      let b ← rd buffer (smallerLength + i)
      wr buffer (smallerLength + i) (b + toBlock carryOut)
    else .ok buffer

/-- `operator*=(Aeu&, Unsigned)`, branch `Unsigned` ≠ `uint64_t` (Aeu.h:462-467).  On LP64 Linux
this is also the branch of the distinct 64-bit type `unsigned long long`. -/
def mulNarrow {w : Nat} (x : Aeu n) (factor : BitVec w) : Exec (Aeu n) := do
  let r ← forUp 0 n (x, (0#64 : U64)) fun i (x, carryOut) => do
    let b ← rd x i
    let product := factor.setWidth 64 * toU64 b + carryOut
    let x ← wr x i (toBlock (product % blockBase))
    .ok (x, product / blockBase)
  .ok r.1

/-- Multiplication by an `unsigned long long` (used by `Aesi`): picks the branch by
`std::is_same_v<Unsigned, uint64_t>` (Aeu.h:439). -/
def mulULL (cfg : Cfg) (x : Aeu n) (factor : U64) : Exec (Aeu n) :=
  if cfg.u64IsULL then mulU64 x factor else mulNarrow x factor

/-- The lambda `multiplyLines` (Aeu.h:478-498). -/
def multiplyLines (longerLine : Aeu n) (longerLength : Nat) (smallerLine : Aeu n)
    (smallerLength : Nat) : Exec (Aeu n) :=
  forUp 0 longerLength (zero n) fun i buffer => do
    let t ← rd longerLine i
    let r ← mulRow buffer i (toU64 t)
      (fun j => do
        let s ← rd smallerLine j
        .ok (toU64 s)) smallerLength
    let (buffer, carryOut) := r
    if smallerLength < n ∧ smallerLength + i < n then do
      let b ← rd buffer (smallerLength + i)
      wr buffer (smallerLength + i) (b + toBlock carryOut)
    else .ok buffer

/-- `operator*=(Aeu&, const Aeu&)` (Aeu.h:477-507); `operator*` (426-428) copies and calls it. -/
def mul (x factor : Aeu n) : Exec (Aeu n) := do
  let thisLength ← filledBlocksNumber x
  let valueLength ← filledBlocksNumber factor
  if thisLength > valueLength then multiplyLines x thisLength factor valueLength
  else multiplyLines factor valueLength x thisLength

/-! ## Bitwise operators -/

/-- `operator~` (Aeu.h:566-571). -/
def not (x : Aeu n) : Exec (Aeu n) :=
  forUp 0 n (zero n) fun i result => do
    let b ← rd x i
    wr result i (~~~ b)

/-- The loop shared by `operator^=`, `operator&=`, `operator|=` (Aeu.h:590-594, 613-617, 636-640),
which differ only in the block operation `f`. -/
def bitwiseLoop (f : Block → Block → Block) (left right : Aeu n) : Exec (Aeu n) :=
  forUp 0 n left fun i left => do
    let l ← rd left i
    let r ← rd right i
    wr left i (f l r)

/-- `operator^=` (Aeu.h:590-594), `operator^` (580-582). -/
def xor (left right : Aeu n) : Exec (Aeu n) := bitwiseLoop (· ^^^ ·) left right
/-- `operator&=` (Aeu.h:613-617), `operator&` (603-605). -/
def and (left right : Aeu n) : Exec (Aeu n) := bitwiseLoop (· &&& ·) left right
/-- `operator|=` (Aeu.h:636-640), `operator|` (626-628). -/
def or (left right : Aeu n) : Exec (Aeu n) := bitwiseLoop (· ||| ·) left right

/-- `operator<<=` (Aeu.h:662-678); `operator<<` (650-652) copies and calls it. -/
def shl (value : Aeu n) (bitShift : Nat) : Exec (Aeu n) :=
  if bitShift ≥ 32 * n ∨ bitShift = 0 then .ok value else do
    let quotient := bitShift / 32
    let remainder := bitShift % 32
    let one ← shl64 1#64 (32 - remainder)
    let stamp := toBlock (one - 1#64)
    let minI := quotient + (if remainder ≠ 0 then 1 else 0)
    let value ← forDown n minI value fun i value => do
      let a ← rd value (i - quotient)
      let hiPart ← shl32 (a &&& stamp) remainder
      let b ← rd value (i - quotient - (if remainder ≠ 0 then 1 else 0))
      let loPart ← shr32 (b &&& ~~~ stamp) ((32 - remainder) % 32)
      wr value i (hiPart ||| loPart)
    let b0 ← rd value 0
    let low ← shl32 (b0 &&& stamp) remainder
    let value ← wr value quotient low
    forUp 0 quotient value fun i value => wr value i 0#32

/-- `operator>>=` (Aeu.h:700-714); `operator>>` (688-690) copies and calls it. -/
def shr (value : Aeu n) (bitShift : Nat) : Exec (Aeu n) :=
  if bitShift ≥ 32 * n ∨ bitShift = 0 then .ok value else do
    let quotient := bitShift / 32
    let remainder := bitShift % 32
    let one ← shl64 1#64 remainder
    let stamp := toBlock (one - 1#64)
    let value ← forUp 0 (n - (quotient + (if remainder ≠ 0 then 1 else 0))) value fun i value => do
      let a ← rd value (i + quotient + (if remainder ≠ 0 then 1 else 0))
      let hiPart ← shl32 (a &&& stamp) ((32 - remainder) % 32)
      let b ← rd value (i + quotient)
      let loPart ← shr32 (b &&& ~~~ stamp) remainder
      wr value i (hiPart ||| loPart)
    let top ← rd value (n - 1)
    let t ← shr32 (top &&& ~~~ stamp) remainder
    let value ← wr value (n - 1 - quotient) t
    forUp (n - quotient) n value fun i value => wr value i 0#32

/-! ## Comparison -/

/-- `operator==(const Aeu&, Unsigned)` for built-in types narrower than 8 bytes (Aeu.h:726-729). -/
def eqNarrow {w : Nat} (our : Aeu n) (other : BitVec w) : Exec Bool := do
  let f ← filledBlocksNumber our
  if f ≤ 1 then do
    let b ← rd our 0
    .ok (other.setWidth 32 == b)
  else .ok false

/-- `static_cast<uint64_t>(blocks[1]) << 32 | static_cast<uint64_t>(blocks[0])`, the expression of
Aeu.h:731, 793 and 1476. -/
def low64 (x : Aeu n) : Exec U64 := do
  let b1 ← rd x 1
  let h ← shl64 (toU64 b1) 32
  let b0 ← rd x 0
  .ok (h ||| toU64 b0)

/-- `operator==(const Aeu&, uint64_t)` (Aeu.h:730-732). -/
def eqU64 (our : Aeu n) (other : U64) : Exec Bool := do
  let f ← filledBlocksNumber our
  if f ≤ 2 then do
    let v ← low64 our
    .ok (v == other)
  else .ok false

/-- `compareTo(Unsigned)` for built-in types narrower than 8 bytes (Aeu.h:767-781). -/
def compareToNarrow {w : Nat} (x : Aeu n) (other : BitVec w) : Exec Comparison := do
  let f ← filledBlocksNumber x
  if f > 1 then .ok .greater else do
    let cmp : Block := other.setWidth 32
    let b ← rd x 0
    if b > cmp then .ok .greater
    else if b < cmp then .ok .less
    else .ok .equal

/-- `compareTo(uint64_t)` (Aeu.h:790-796). -/
def compareToU64 (x : Aeu n) (other : U64) : Exec Comparison := do
  let f ← filledBlocksNumber x
  if f > 2 then .ok .greater else do
    let base ← low64 x
    if base > other then .ok .greater
    else if base < other then .ok .less
    else .ok .equal

/-- `getBlock` (Aeu.h:975-980). -/
def getBlock (cfg : Cfg) (x : Aeu n) (index : Nat) : Exec Block :=
  if !cfg.unsafeMode ∧ index ≥ n then .ok 0#32 else rd x index

/-- `compareTo(const Aeu<otherBitness>&)` (Aeu.h:804-829). -/
def compareTo (cfg : Cfg) (x : Aeu n) (other : Aeu m) : Exec Comparison := do
  let lowerBlockBorder := if n < m then n else m
  let r ← forDownC lowerBlockBorder 0 () fun i _ => do
    let thisBlock ← rd x i
    let otherBlock ← getBlock cfg other i
    if thisBlock ≠ otherBlock then
      .ok (.leave (if thisBlock > otherBlock then Comparison.greater else .less))
    else .ok (.next ())
  match r with
  | .leave c => .ok c
  | .next _ =>
    if m ≠ n then do
      if m > n then do
        let r ← forDownC m lowerBlockBorder () fun i _ => do
          let b ← getBlock cfg other i
          if b ≠ 0#32 then .ok (.leave Comparison.less) else .ok (.next ())
        match r with
        | .leave c => .ok c
        | .next _ => .ok .equal
      else if n > m then do
        let r ← forDownC n lowerBlockBorder () fun i _ => do
          let b ← rd x i
          if b ≠ 0#32 then .ok (.leave Comparison.greater) else .ok (.next ())
        match r with
        | .leave c => .ok c
        | .next _ => .ok .equal
      else .ok .equal
    else .ok .equal

/-- `operator==(const Aeu&, const Aeu<otherBitness>&)` (Aeu.h:740-743). -/
def eq (cfg : Cfg) (x : Aeu n) (y : Aeu m) : Exec Bool := do
  let c ← compareTo cfg x y
  .ok (c == .equal)

/-- `std::strong_ordering` (its value `equivalent` equals `equal`). -/
inductive StrongOrdering where
  | less | equal | greater
deriving DecidableEq, Repr

/-- `operator<=>` (Aeu.h:850-862 and 870-883): translation of the `Comparison`. -/
def toOrdering : Comparison → StrongOrdering
  | .less => .less
  | .greater => .greater
  | .equal => .equal
  | .equivalent => .equal

/-- `operator<=>(const Aeu&)` (Aeu.h:850-862). -/
def spaceship (cfg : Cfg) (x : Aeu n) (y : Aeu m) : Exec StrongOrdering := do
  let c ← compareTo cfg x y
  .ok (toOrdering c)

/-- `operator<=>(const Unsigned&)` (Aeu.h:870-883) for built-in types narrower than 8 bytes. -/
def spaceshipNarrow {w : Nat} (x : Aeu n) (u : BitVec w) : Exec StrongOrdering := do
  let c ← compareToNarrow x u
  .ok (toOrdering c)

/-- `operator<=>(const Unsigned&)` (Aeu.h:870-883) for 64-bit built-in types. -/
def spaceshipU64 (x : Aeu n) (u : U64) : Exec StrongOrdering := do
  let c ← compareToU64 x u
  .ok (toOrdering c)

/-- `x != y`, rewritten by C++20 to `!(x == y)` (and Aeu.h:838 before C++20). -/
def ne (cfg : Cfg) (x : Aeu n) (y : Aeu m) : Exec Bool := do
  let b ← eq cfg x y
  .ok (!b)
/-- `x < y`, rewritten by C++20 to `(x <=> y) < 0` (and Aeu.h:839). -/
def lt (cfg : Cfg) (x : Aeu n) (y : Aeu m) : Exec Bool := do
  let c ← spaceship cfg x y
  .ok (c == .less)
/-- `x <= y`, i.e. `(x <=> y) <= 0` (and Aeu.h:840). -/
def le (cfg : Cfg) (x : Aeu n) (y : Aeu m) : Exec Bool := do
  let c ← spaceship cfg x y
  .ok (c != .greater)
/-- `x > y`, i.e. `(x <=> y) > 0` (and Aeu.h:841). -/
def gt (cfg : Cfg) (x : Aeu n) (y : Aeu m) : Exec Bool := do
  let c ← spaceship cfg x y
  .ok (c == .greater)
/-- `x >= y`, i.e. `(x <=> y) >= 0` (and Aeu.h:842). -/
def ge (cfg : Cfg) (x : Aeu n) (y : Aeu m) : Exec Bool := do
  let c ← spaceship cfg x y
  .ok (c != .less)

/-! ## Supporting methods -/

/-- `setBit` (Aeu.h:896-906). -/
def setBit (cfg : Cfg) (x : Aeu n) (index : Nat) (bit : Bool) : Exec (Aeu n) :=
  if !cfg.unsafeMode ∧ index ≥ 32 * n then .ok x else do
    let blockNumber := index / 32
    let bitNumber := index % 32
    cassert cfg (decide (blockNumber < n ∧ bitNumber < 32))
    let one ← shl32 1#32 bitNumber
    let b ← rd x blockNumber
    if bit then wr x blockNumber (b ||| one)
    else wr x blockNumber (b &&& ~~~ one)

/-- `getBit` (Aeu.h:915-922). -/
def getBit (cfg : Cfg) (x : Aeu n) (index : Nat) : Exec Bool :=
  if !cfg.unsafeMode ∧ index ≥ 32 * n then .ok false else do
    let blockNumber := index / 32
    let bitNumber := index % 32
    cassert cfg (decide (blockNumber < n ∧ bitNumber < 32))
    let one ← shl32 1#32 bitNumber
    let b ← rd x blockNumber
    .ok ((b &&& one) != 0#32)

/-- `setByte` (Aeu.h:930-937).  Note the guard: `index > blocksNumber * sizeof(block)`. -/
def setByte (cfg : Cfg) (x : Aeu n) (index : Nat) (byte : BitVec 8) : Exec (Aeu n) :=
  if !cfg.unsafeMode ∧ index > n * 4 then .ok x else do
    let blockNumber := index / 4
    let byteInBlock := index % 4
    let shift := byteInBlock * 8
    cassert cfg (decide (blockNumber < n ∧ byteInBlock < 4))
    let mask ← shl32 0xff#32 shift
    let b ← rd x blockNumber
    let x ← wr x blockNumber (b &&& ~~~ mask)
    let v ← shl32 (byte.setWidth 32) shift
    let b ← rd x blockNumber
    wr x blockNumber (b ||| v)

/-- `getByte` (Aeu.h:946-953). -/
def getByte (cfg : Cfg) (x : Aeu n) (index : Nat) : Exec (BitVec 8) :=
  if !cfg.unsafeMode ∧ index > n * 4 then .ok 0#8 else do
    let blockNumber := index / 4
    let byteInBlock := index % 4
    let shift := byteInBlock * 8
    cassert cfg (decide (blockNumber < n ∧ byteInBlock < 4))
    let mask ← shl32 0xff#32 shift
    let b ← rd x blockNumber
    let v ← shr32 (b &&& mask) shift
    .ok (v.setWidth 8)

/-- `setBlock` (Aeu.h:961-966). -/
def setBlock (cfg : Cfg) (x : Aeu n) (index : Nat) (block : Block) : Exec (Aeu n) :=
  if !cfg.unsafeMode ∧ index ≥ n then .ok x else wr x index block

/-- The scan `for(; lastBlock > 0 && blocks[lastBlock] == 0; --lastBlock);` (Aeu.h:988-990,
1005-1007, 1317-1319, 1398-1400) started at `lastBlock`. -/
def scanDown (x : Aeu n) : (lastBlock : Nat) → Exec Nat
  | 0 => .ok 0
  | k + 1 => do
    let b ← rd x (k + 1)
    if b = 0#32 then scanDown x k else .ok (k + 1)

/-- `byteCount` (Aeu.h:987-997). -/
def byteCount (x : Aeu n) : Exec Nat := do
  let lastBlock ← scanDown x (n - 1)
  let r ← forDownC 4 0 () fun byteN _ => do
    let b ← rd x lastBlock
    let mask ← shl32 0xff#32 (byteN * 8)
    let v ← shr32 (b &&& mask) (byteN * 8)
    if v ≠ 0#32 then .ok (.leave (lastBlock * 4 + byteN + 1)) else .ok (.next ())
  match r with
  | .leave k => .ok k
  | .next _ => .ok (lastBlock * 4)

/-- `bitCount` (Aeu.h:1004-1020).  `(lastBlock - 1)` in the unreachable inner fall-through (1017) is
truncated subtraction in the model. -/
def bitCount (x : Aeu n) : Exec Nat := do
  let lastBlock ← scanDown x (n - 1)
  let r ← forDownC 4 0 () fun byteN _ => do
    let b ← rd x lastBlock
    let mask ← shl32 0xff#32 (byteN * 8)
    let byte ← shr32 (b &&& mask) (byteN * 8)
    if byte = 0#32 then .ok (.next ()) else do
      let r ← forDownC 8 0 () fun bitN _ => do
        let one ← shl32 1#32 bitN
        let v ← shr32 (byte &&& one) bitN
        if v ≠ 0#32 then .ok (.leave ((lastBlock * 4 + byteN) * 8 + bitN + 1)) else .ok (.next ())
      match r with
      | .leave k => .ok (.leave k)
      | .next _ => .ok (.leave (((lastBlock - 1) * 4 + byteN) * 8))
  match r with
  | .leave k => .ok k
  | .next _ => .ok (lastBlock * 4)

/-- `isOdd` (Aeu.h:1027). -/
def isOdd (x : Aeu n) : Exec Bool := do
  let b ← rd x 0
  .ok ((1#32 &&& b) == 1#32)

/-- `isEven` (Aeu.h:1034). -/
def isEven (x : Aeu n) : Exec Bool := do
  let b ← rd x 0
  .ok ((1#32 &&& b) == 0#32)

/-- `swap` (Aeu.h:1072-1074): new (`*this`, `other`). -/
def swap (this other : Aeu n) : Aeu n × Aeu n :=
  let t := other
  let other := this
  let this := t
  (this, other)

/-! ## Division and number theory -/

/-- `divide(number, divisor, quotient, remainder)` (Aeu.h:1087-1105), outputs returned as a pair
(quotient, remainder).  The outputs are distinct objects from the inputs here; see
`Verif/Model/Alias.lean` for aliased calls.  Same-object prior contents are overwritten at 1090. -/
def divide (cfg : Cfg) (number divisor : Aeu n) : Exec (Aeu n × Aeu n) := do
  let ratio ← compareTo cfg number divisor
  match ratio with
  | .greater => do
    let f ← filledBlocksNumber number
    let bitsUsed := f * 32
    forDown bitsUsed 0 (zero n, zero n) fun i (quotient, remainder) => do
      let remainder ← shl remainder 1
      let bit ← getBit cfg number i
      let remainder ← setBit cfg remainder 0 bit
      let g ← ge cfg remainder divisor
      if g then do
        let remainder ← sub remainder divisor
        let quotient ← setBit cfg quotient i true
        .ok (quotient, remainder)
      else .ok (quotient, remainder)
  | .less => .ok (zero n, number)
  | _ => do
    let one ← ofUnsigned n (1#32)
    .ok (one, zero n)

/-- `operator/` (Aeu.h:520-522), `operator/=` (531). -/
def div (cfg : Cfg) (x y : Aeu n) : Exec (Aeu n) := do
  let r ← divide cfg x y
  .ok r.1

/-- `operator%` (Aeu.h:543-545), `operator%=` (553-555). -/
def mod (cfg : Cfg) (x y : Aeu n) : Exec (Aeu n) := do
  let r ← divide cfg x y
  .ok r.2

/-- Extended `gcd` (Aeu.h:1127-1153): (gcd, bezoutX, bezoutY).  Loop state:
(gcd, quotient, remainder, bezoutX, bezoutY, tX, tY).  `tests` bounds the number of times the loop
condition is tested (the fuel of `whileC`): a run that needs more has the outcome `diverges`. -/
def gcdExtIn (cfg : Cfg) (tests : Nat) (first second : Aeu n) : Exec (Aeu n × Aeu n × Aeu n) := do
  let ratio ← compareTo cfg first second
  let gcd := if ratio = .greater then second else first
  let qr ← if ratio = .greater then divide cfg first second else divide cfg second first
  let bezoutX ← ofUnsigned n (0#32)
  let bezoutY ← ofUnsigned n (1#32)
  let tX ← ofUnsigned n (1#32)
  let tY ← ofUnsigned n (0#32)
  let r ← whileC tests (gcd, qr.1, qr.2, bezoutX, bezoutY, tX, tY)
    fun (gcd, quotient, remainder, bezoutX, bezoutY, tX, tY) => do
      let z ← eqNarrow remainder (0#32)
      if z then .ok (.leave (gcd, bezoutX, bezoutY)) else do
        let tGcd := gcd
        let gcd := remainder
        let t := bezoutX
        let p ← mul quotient bezoutX
        let bezoutX ← sub tX p
        let tX := t
        let t := bezoutY
        let p ← mul quotient bezoutY
        let bezoutY ← sub tY p
        let tY := t
        let qr ← divide cfg tGcd gcd
        .ok (.next (gcd, qr.1, qr.2, bezoutX, bezoutY, tX, tY))
  let (gcd, bezoutX, bezoutY) := r
  if ratio ≠ .greater then
    let s := swap bezoutX bezoutY
    .ok (gcd, s.1, s.2)
  else .ok (gcd, bezoutX, bezoutY)

/-- Extended `gcd` (Aeu.h:1127-1153), with more tests of the loop condition than there are values. -/
def gcdExt (cfg : Cfg) (first second : Aeu n) : Exec (Aeu n × Aeu n × Aeu n) :=
  gcdExtIn cfg (2 ^ (32 * n) + 1) first second

/-- `gcd(first, second)` (Aeu.h:1162-1180), `tests` as in `gcdExtIn`. -/
def gcdIn (cfg : Cfg) (tests : Nat) (first second : Aeu n) : Exec (Aeu n) := do
  let ratio ← compareTo cfg first second
  let gcd := if ratio = .greater then second else first
  let qr ← if ratio = .greater then divide cfg first second else divide cfg second first
  whileC tests (gcd, qr.2) fun (gcd, remainder) => do
    let z ← eqNarrow remainder (0#32)
    if z then .ok (.leave gcd) else do
      let tGcd := gcd
      let gcd := remainder
      let qr ← divide cfg tGcd gcd
      .ok (.next (gcd, qr.2))

/-- `gcd(first, second)` (Aeu.h:1162-1180). -/
def gcd (cfg : Cfg) (first second : Aeu n) : Exec (Aeu n) := gcdIn cfg (2 ^ (32 * n) + 1) first second

/-- `lcm` (Aeu.h:1189). -/
def lcm (cfg : Cfg) (first second : Aeu n) : Exec (Aeu n) := do
  let g ← gcd cfg first second
  let q ← div cfg first g
  mul q second

/-- `powm<powerBitness>` (Aeu.h:1200-1221).  `iteration` is a 32-bit `unsigned` that is compared
with the `size_t` `power.filledBlocksNumber() * 32`. -/
def powmT (cfg : Cfg) (base : Aeu n) (power : Aeu m) (modulo : Aeu n) : Exec (Aeu n) := do
  let e1 ← eqNarrow base (1#32)
  if e1 then .ok base else do
    let e0 ← eqNarrow base (0#32)
    if e0 then ofUnsigned n (1#32) else do
      let output ← ofUnsigned n (1#32)
      let qb ← divide cfg base modulo
      whileC (32 * m + 1) ((0#32 : BitVec 32), output, qb.2) fun (iteration, output, b) => do
        let f ← filledBlocksNumber power
        if f * 32 = iteration.toNat then .ok (.leave output) else do
          let bit ← getBit cfg power iteration.toNat
          let output ← if bit then do
              let p ← mul output b
              let qr ← divide cfg p modulo
              .ok qr.2
            else .ok output
          let p ← mul b b
          let qr ← divide cfg p modulo
          .ok (.next (iteration + 1#32, output, qr.2))

/-- `powm(const Aeu&, const Aeu&, const Aeu&)` (Aeu.h:1224-1239); `iteration` is a `size_t`. -/
def powm (cfg : Cfg) (base power modulo : Aeu n) : Exec (Aeu n) := do
  let output ← ofUnsigned n (1#32)
  let qb ← divide cfg base modulo
  whileC (32 * n + 1) ((0 : Nat), output, qb.2) fun (iteration, output, b) => do
    let f ← filledBlocksNumber power
    if f * 32 = iteration then .ok (.leave output) else do
      let bit ← getBit cfg power iteration
      let output ← if bit then do
          let p ← mul output b
          let qr ← divide cfg p modulo
          .ok qr.2
        else .ok output
      let p ← mul b b
      let qr ← divide cfg p modulo
      .ok (.next (iteration + 1, output, qr.2))

/-- `power2` (Aeu.h:1248). -/
def power2 (cfg : Cfg) (n : Nat) (power : Nat) : Exec (Aeu n) := setBit cfg (zero n) power true

/-- `squareRoot` (Aeu.h:1256-1265). Loop state: `y` (the `x = y` at the loop head included).  `rounds`
bounds the number of executions of the loop body; a run that needs more has the outcome `diverges`. -/
def squareRootIn (cfg : Cfg) (rounds : Nat) (this : Aeu n) : Exec (Aeu n) := do
  let bc ← bitCount this
  let y ← power2 cfg n ((bc + 1) / 2)
  whileC rounds y fun y => do
    let x := y
    let q ← div cfg this x
    let s ← add x q
    let y ← shr s 1
    let l ← lt cfg y x
    if l then .ok (.next y) else .ok (.leave x)

/-- `squareRoot` (Aeu.h:1256-1265). -/
def squareRoot (cfg : Cfg) (this : Aeu n) : Exec (Aeu n) := squareRootIn cfg (2 ^ (32 * n) + 1) this

/-! ## Casts -/

/-- `precisionCast<newBitness>` (Aeu.h:1488-1497), `m` = new number of blocks. -/
def precisionCast (cfg : Cfg) (m : Nat) (x : Aeu n) : Exec (Aeu m) :=
  forUp 0 (if m > n then n else m) (zero m) fun blockIdx result => do
    let b ← getBlock cfg x blockIdx
    setBlock cfg result blockIdx b

/-! ## Mixed operators with a built-in on the left (Aeu.h:1592-1656) -/

/-- `operator+(Integral, const Aeu&)` (Aeu.h:1593). -/
def addLeft {w : Nat} (number : BitVec w) (value : Aeu n) : Exec (Aeu n) := do
  let c ← ofUnsigned n number; add c value
/-- `operator-(Integral, const Aeu&)` (Aeu.h:1602). -/
def subLeft {w : Nat} (number : BitVec w) (value : Aeu n) : Exec (Aeu n) := do
  let c ← ofUnsigned n number; sub c value
/-- `operator*(Integral, const Aeu&)` (Aeu.h:1611). -/
def mulLeft {w : Nat} (number : BitVec w) (value : Aeu n) : Exec (Aeu n) := do
  let c ← ofUnsigned n number; mul c value
/-- `operator/(Integral, const Aeu&)` (Aeu.h:1620). -/
def divLeft (cfg : Cfg) {w : Nat} (number : BitVec w) (value : Aeu n) : Exec (Aeu n) := do
  let c ← ofUnsigned n number; div cfg c value
/-- `operator%(Integral, const Aeu&)` (Aeu.h:1629). -/
def modLeft (cfg : Cfg) {w : Nat} (number : BitVec w) (value : Aeu n) : Exec (Aeu n) := do
  let c ← ofUnsigned n number; mod cfg c value
/-- `operator^(Integral, const Aeu&)` (Aeu.h:1638). -/
def xorLeft {w : Nat} (number : BitVec w) (value : Aeu n) : Exec (Aeu n) := do
  let c ← ofUnsigned n number; xor c value
/-- `operator&(Integral, const Aeu&)` (Aeu.h:1647). -/
def andLeft {w : Nat} (number : BitVec w) (value : Aeu n) : Exec (Aeu n) := do
  let c ← ofUnsigned n number; and c value
/-- `operator|(Integral, const Aeu&)` (Aeu.h:1656). -/
def orLeft {w : Nat} (number : BitVec w) (value : Aeu n) : Exec (Aeu n) := do
  let c ← ofUnsigned n number; or c value

/-! The operators without an overload for a built-in on the right (`-`, `/`, `%`, `^`, `&`, `|` and
their assignment forms) convert it with the implicit integral constructor (Aeu.h:166-176). -/

/-- `a - u`, `a -= u` (Aeu.h:166-176, 391-403). -/
def subRight {w : Nat} (value : Aeu n) (number : BitVec w) : Exec (Aeu n) := do
  let c ← ofUnsigned n number; sub value c
/-- `a / u`, `a /= u` (Aeu.h:166-176, 520-531). -/
def divRight (cfg : Cfg) {w : Nat} (value : Aeu n) (number : BitVec w) : Exec (Aeu n) := do
  let c ← ofUnsigned n number; div cfg value c
/-- `a % u`, `a %= u` (Aeu.h:166-176, 543-555). -/
def modRight (cfg : Cfg) {w : Nat} (value : Aeu n) (number : BitVec w) : Exec (Aeu n) := do
  let c ← ofUnsigned n number; mod cfg value c
/-- `a ^ u`, `a ^= u` (Aeu.h:166-176, 580-594). -/
def xorRight {w : Nat} (value : Aeu n) (number : BitVec w) : Exec (Aeu n) := do
  let c ← ofUnsigned n number; xor value c
/-- `a & u`, `a &= u` (Aeu.h:166-176, 603-617). -/
def andRight {w : Nat} (value : Aeu n) (number : BitVec w) : Exec (Aeu n) := do
  let c ← ofUnsigned n number; and value c
/-- `a | u`, `a |= u` (Aeu.h:166-176, 626-640). -/
def orRight {w : Nat} (value : Aeu n) (number : BitVec w) : Exec (Aeu n) := do
  let c ← ofUnsigned n number; or value c

end Aeu
end AesiMP
