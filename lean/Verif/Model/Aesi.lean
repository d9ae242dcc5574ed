import Verif.Model.Text

/-!
# Model of `Aesi.h`: signed numbers

`Aesi n` is a sign and a magnitude (`Aesi.h`:66-73).  Only initialised objects are modelled: `Aesi a;`
leaves the sign indeterminate (the default constructor, line 82, is defaulted), reading it is undefined
behaviour.  `operator^`, `&`, `|` with a built-in on the left (1265-1285) are not modelled: `Aesi` has
no such operators and the templates cannot be instantiated.
-/

namespace AesiMP

/-- `enum class Sign` (Aesi.h:35-39). -/
inductive Sign where
  | zero | positive | negative
deriving DecidableEq, Repr

/-- `class Aesi` (Aesi.h:66-73). -/
structure Aesi (n : Nat) where
  sign : Sign
  base : Aeu n
deriving DecidableEq

namespace ITy

/-- `-value` for a built-in value: computed in the promoted type; undefined when it overflows a
signed type, modulo `2^width` for an unsigned one. -/
def negate (t : ITy) (v : Int) : Exec Int :=
  if t.promoted.signed then
    if t.promoted.InRange (-v) then .ok (-v) else .error .signedOverflow
  else .ok ((-v) % (2 : Int) ^ t.promoted.width)

/-- `x * y` in a promoted type. -/
def times (t : ITy) (x y : Int) : Exec Int :=
  if t.promoted.signed then
    if t.promoted.InRange (x * y) then .ok (x * y) else .error .signedOverflow
  else .ok ((x * y) % (2 : Int) ^ t.promoted.width)

end ITy

/-- `static_cast<unsigned long long>(v)` / `static_cast<uint64_t>(v)`. -/
def toULL (v : Int) : U64 := BitVec.ofInt 64 v

namespace Aesi
variable {n m : Nat}

/-! ## Constructors -/

/-- `Aesi {}` / `Aesi { 0 }`. -/
def zero (n : Nat) : Aesi n := ⟨.zero, Aeu.zero n⟩

/-- Integral constructor (Aesi.h:100-113); assignment from a built-in (178-180) constructs and
copies. -/
def ofIntegral (n : Nat) (t : ITy) (value : Int) : Exec (Aesi n) :=
  if value < 0 then do
    let m ← t.negate value
    let base ← Aeu.ofUnsigned n (toULL m)
    .ok ⟨.negative, base⟩
  else if value > 0 then do
    let base ← Aeu.ofUnsigned n (toULL value)
    .ok ⟨.positive, base⟩
  else .ok (zero n)

/-- `traverseDashes` (Aesi.h:44-60). -/
def traverseDashes {size : Nat} (ptr : Vector Int size) : Exec Sign := do
  let positive ← forUp 0 size true fun i positive => do
    let c ← rd ptr i
    .ok (if c = 45 then !positive else positive)
  .ok (if positive then .positive else .negative)

/-- Character constructor (Aesi.h:122-126); literals, strings and string views (133-145) call it. -/
def ofChars (kind : CharKind) (alnum : Int → Bool) (n : Nat) {size : Nat} (ptr : Vector Int size) :
    Exec (Aesi n) := do
  let base ← Aeu.ofChars kind alnum n ptr
  let z ← Aeu.isZero base
  if !z then do
    let sign ← traverseDashes ptr
    .ok ⟨sign, base⟩
  else .ok ⟨.zero, base⟩

/-- `explicit Aesi(const Aeu<bitness>&)` (Aesi.h:151). -/
def ofAeu (value : Aeu n) : Aesi n := ⟨.positive, value⟩

/-! ## Observers -/

/-- `isZero` (Aesi.h:877). -/
def isZero (a : Aesi n) : Bool := a.sign == .zero
/-- `isPositive` (Aesi.h:884). -/
def isPositive (a : Aesi n) : Bool := a.sign == .positive
/-- `isNegative` (Aesi.h:891). -/
def isNegative (a : Aesi n) : Bool := a.sign == .negative

/-- `inverse` (Aesi.h:927-930). -/
def inverse (a : Aesi n) : Aesi n :=
  { a with sign := match a.sign with
      | .zero => .zero
      | .negative => .positive
      | .positive => .negative }

/-- Unary plus (Aesi.h:197). -/
def plus (a : Aesi n) : Aesi n := a
/-- Unary minus (Aesi.h:204). -/
def neg (a : Aesi n) : Aesi n := inverse a

/-- `swap` (Aesi.h:918-921): new (`*this`, `other`). -/
def swap (this other : Aesi n) : Aesi n × Aesi n :=
  let tSign := this.sign
  let this := { this with sign := other.sign }
  let other := { other with sign := tSign }
  let b := Aeu.swap this.base other.base
  ({ this with base := b.1 }, { other with base := b.2 })

/-- `if(base.isZero()) sign = Zero;`, the normalisation step of lines 213, 235, 504, 524, 592, 997. -/
def normalise (a : Aesi n) : Exec (Aesi n) := do
  let z ← Aeu.isZero a.base
  .ok (if z then { a with sign := .zero } else a)

/-! ## Increment and decrement -/

/-- Prefix increment (Aesi.h:210-219). -/
def inc (a : Aesi n) : Exec (Aesi n) :=
  match a.sign with
  | .negative => do
    let base ← Aeu.dec a.base
    normalise { a with base := base }
  | .positive => do
    let base ← Aeu.inc a.base
    .ok { a with base := base }
  | .zero => do
    let base ← Aeu.ofUnsigned n (1#32)
    .ok ⟨.positive, base⟩

/-- Postfix increment (Aesi.h:224): (new object, returned value). -/
def postInc (a : Aesi n) : Exec (Aesi n × Aesi n) := do
  let old := a
  let a ← inc a
  .ok (a, old)

/-- Prefix decrement (Aesi.h:230-239). -/
def dec (a : Aesi n) : Exec (Aesi n) :=
  match a.sign with
  | .negative => do
    let base ← Aeu.inc a.base
    .ok { a with base := base }
  | .positive => do
    let base ← Aeu.dec a.base
    normalise { a with base := base }
  | .zero => do
    let base ← Aeu.ofUnsigned n (1#32)
    .ok ⟨.negative, base⟩

/-- Postfix decrement (Aesi.h:244). -/
def postDec (a : Aesi n) : Exec (Aesi n × Aesi n) := do
  let old := a
  let a ← dec a
  .ok (a, old)

/-! ## Addition and subtraction -/

/-- The `switch(lBase.compareTo(rBase))` of lines 281-297, 300-316, 351-367 and 378-394, which differ
only in the sign given to the result when the left magnitude is the smaller. -/
def subMagnitude (cfg : Cfg) (a : Aesi n) (rBase : Aeu n) (other : Sign) : Exec (Aesi n) := do
  let c ← Aeu.compareTo cfg a.base rBase
  match c with
  | .greater => do
    let base ← Aeu.sub a.base rBase
    .ok { a with base := base }
  | .less => do
    let base ← Aeu.sub rBase a.base
    .ok ⟨other, base⟩
  | _ => .ok { a with sign := .zero }

/-- `operator+=` (Aesi.h:265-318); `operator+` (255-257) copies and calls it. -/
def add (cfg : Cfg) (addition addendum : Aesi n) : Exec (Aesi n) :=
  if addendum.sign = .zero then .ok addition
  else if addition.sign = .zero then .ok addendum
  else if addition.sign = addendum.sign then do
    let base ← Aeu.add addition.base addendum.base
    .ok { addition with base := base }
  else if addition.sign = .positive then subMagnitude cfg addition addendum.base .negative
  else subMagnitude cfg addition addendum.base .positive

/-- `operator-=` (Aesi.h:335-395); `operator-` (325-327) copies and calls it. -/
def sub (cfg : Cfg) (subtraction subtrahend : Aesi n) : Exec (Aesi n) :=
  if subtrahend.sign = .zero then .ok subtraction
  else if subtraction.sign = .zero then .ok (inverse subtrahend)
  else if subtraction.sign = .positive then
    if subtrahend.sign = .positive then subMagnitude cfg subtraction subtrahend.base .negative
    else do
      let base ← Aeu.add subtraction.base subtrahend.base
      .ok { subtraction with base := base }
  else
    if subtrahend.sign = .negative then subMagnitude cfg subtraction subtrahend.base .positive
    else do
      let base ← Aeu.add subtraction.base subtrahend.base
      .ok { subtraction with base := base }

/-! ## Multiplication, division, modulo -/

/-- `operator*=(Aesi&, const Aesi&)` (Aesi.h:446-456); `operator*` (415-417) copies and calls it. -/
def mul (multiplication factor : Aesi n) : Exec (Aesi n) :=
  if isZero factor then .ok { multiplication with sign := .zero }
  else do
    let multiplication := if isNegative factor then inverse multiplication else multiplication
    let base ← Aeu.mul multiplication.base factor.base
    .ok { multiplication with base := base }

/-- The sign step of the operators with a built-in operand (Aesi.h:431-434, 497-500, 567-570):
`if(f < 0) { a.inverse(); f = static_cast<Integral>(-f); }`. -/
def absorbSign (t : ITy) (a : Aesi n) (f : Int) : Exec (Aesi n × Int) :=
  if f < 0 then do
    let f ← t.negate f
    .ok (inverse a, t.conv f)
  else .ok (a, f)

/-- `operator*=(Aesi&, Integral)` (Aesi.h:426-438); `operator*` (404-406). -/
def mulIntegral (cfg : Cfg) (t : ITy) (multiplication : Aesi n) (factor : Int) : Exec (Aesi n) :=
  if factor = 0 then .ok { multiplication with sign := .zero }
  else do
    let r ← absorbSign t multiplication factor
    let base ← Aeu.mulULL cfg r.1.base (toULL r.2)
    .ok { r.1 with base := base }

/-- `operator/=(Aesi&, const Aesi&)` (Aesi.h:514-526); `operator/` (480-482). -/
def div (cfg : Cfg) (division divisor : Aesi n) : Exec (Aesi n) :=
  if isZero divisor then .ok { division with sign := .zero }
  else do
    let division := if isNegative divisor then inverse division else division
    let base ← Aeu.div cfg division.base divisor.base
    normalise { division with base := base }

/-- `operator/=(Aesi&, Integral)` (Aesi.h:492-506); `operator/` (468-470). -/
def divIntegral (cfg : Cfg) (t : ITy) (division : Aesi n) (divisor : Int) : Exec (Aesi n) :=
  if divisor = 0 then .ok { division with sign := .zero }
  else do
    let r ← absorbSign t division divisor
    let d ← Aeu.ofUnsigned n (toULL r.2)
    let base ← Aeu.div cfg r.1.base d
    normalise { r.1 with base := base }

/-- `operator%=(Aesi&, const Aesi&)` (Aesi.h:584-594); `operator%` (550-552). -/
def mod (cfg : Cfg) (modulation modulo : Aesi n) : Exec (Aesi n) :=
  if isZero modulo then .ok modulation
  else do
    let modulation := if isNegative modulo then inverse modulation else modulation
    let base ← Aeu.mod cfg modulation.base modulo.base
    normalise { modulation with base := base }

/-- `operator%=(Aesi&, Integral)` (Aesi.h:562-574); `operator%` (537-539).  The result is not
normalised. -/
def modIntegral (cfg : Cfg) (t : ITy) (modulation : Aesi n) (modulo : Int) : Exec (Aesi n) :=
  if modulo = 0 then .ok { modulation with sign := .zero }
  else do
    let r ← absorbSign t modulation modulo
    let d ← Aeu.ofUnsigned n (toULL r.2)
    let base ← Aeu.mod cfg r.1.base d
    .ok { r.1 with base := base }

/-! ## Comparison -/

/-- Comparison of the sign with zero (Aesi.h:652-660, 697-706). -/
def signOnly (s : Sign) : Comparison :=
  match s with
  | .positive => .greater
  | .negative => .less
  | .zero => .equal

/-- The reversal of a comparison of magnitudes (Aesi.h:662-671, 709-717). -/
def reversed : Comparison → Comparison
  | .greater => .less
  | .less => .greater
  | _ => .equal

/-- `compareTo(Integral)` (Aesi.h:649-678). -/
def compareToIntegral (a : Aesi n) (integral : Int) : Exec Comparison :=
  if integral = 0 then .ok (signOnly a.sign)
  else if integral < 0 then
    if a.sign = .negative then do
      let m ← ITy.i64.negate (ITy.i64.conv integral)
      let c ← Aeu.compareToU64 a.base (toULL m)
      .ok (reversed c)
    else .ok .greater
  else
    if a.sign = .positive then Aeu.compareToU64 a.base (toULL (ITy.i64.conv integral))
    else .ok .less

/-- `operator==(const Aesi&, Integral)` (Aesi.h:608-610). -/
def eqIntegral (a : Aesi n) (integral : Int) : Exec Bool := do
  let c ← compareToIntegral a integral
  .ok (c == .equal)

/-- `compareTo(const Aesi&)` (Aesi.h:695-726). -/
def compareTo (cfg : Cfg) (a value : Aesi n) : Exec Comparison :=
  if isZero value then .ok (signOnly a.sign)
  else if isNegative value then
    if a.sign = .negative then do
      let c ← Aeu.compareTo cfg a.base value.base
      .ok (reversed c)
    else .ok .greater
  else
    if a.sign = .positive then Aeu.compareTo cfg a.base value.base
    else .ok .less

/-- `operator==(const Aesi&, const Aesi<otherBitness>&)` with equal precisions (Aesi.h:619-625). -/
def eq (cfg : Cfg) (our other : Aesi n) : Exec Bool := do
  let c ← compareTo cfg our other
  .ok (c == .equal)

/-- `operator<=>(const Aesi&)` (Aesi.h:754-766). -/
def spaceship (cfg : Cfg) (a b : Aesi n) : Exec Aeu.StrongOrdering := do
  let c ← compareTo cfg a b
  .ok (Aeu.toOrdering c)

/-- `operator<=>(const Object&)` for a built-in (Aesi.h:774-787). -/
def spaceshipIntegral (a : Aesi n) (i : Int) : Exec Aeu.StrongOrdering := do
  let c ← compareToIntegral a i
  .ok (Aeu.toOrdering c)

/-- `a < b`, i.e. `(a <=> b) < 0`. -/
def lt (cfg : Cfg) (a b : Aesi n) : Exec Bool := do
  let c ← spaceship cfg a b
  .ok (c == .less)
/-- `a <= b`, i.e. `(a <=> b) <= 0`. -/
def le (cfg : Cfg) (a b : Aesi n) : Exec Bool := do
  let c ← spaceship cfg a b
  .ok (c != .greater)
/-- `a > b`, i.e. `(a <=> b) > 0`. -/
def gt (cfg : Cfg) (a b : Aesi n) : Exec Bool := do
  let c ← spaceship cfg a b
  .ok (c == .greater)
/-- `a >= b`, i.e. `(a <=> b) >= 0`. -/
def ge (cfg : Cfg) (a b : Aesi n) : Exec Bool := do
  let c ← spaceship cfg a b
  .ok (c != .less)
/-- `a != b`, rewritten by C++20 to `!(a == b)`. -/
def ne (cfg : Cfg) (a b : Aesi n) : Exec Bool := do
  let r ← eq cfg a b
  .ok (!r)
/-- `a < i` for a built-in, i.e. `(a <=> i) < 0`. -/
def ltIntegral (a : Aesi n) (i : Int) : Exec Bool := do
  let c ← spaceshipIntegral a i
  .ok (c == .less)
/-- `a > i` for a built-in, i.e. `(a <=> i) > 0`. -/
def gtIntegral (a : Aesi n) (i : Int) : Exec Bool := do
  let c ← spaceshipIntegral a i
  .ok (c == .greater)

/-! ## Number theory and casts -/

/-- `divide(number, divisor, quotient, remainder)` (Aesi.h:942-975); `q0`, `r0` are the previous
contents of the output objects (distinct from the inputs). -/
def divide (cfg : Cfg) (number divisor q0 r0 : Aesi n) : Exec (Aesi n × Aesi n) :=
  if number.sign = .zero ∨ divisor.sign = .zero then
    .ok ({ q0 with sign := .zero }, { r0 with sign := .zero })
  else do
    let qr ← Aeu.divide cfg number.base divisor.base
    let signs : Sign × Sign :=
      if number.sign = .positive then
        if divisor.sign = .positive then (.positive, .positive) else (.negative, .positive)
      else
        if divisor.sign = .positive then (.negative, .negative) else (.positive, .negative)
    let q ← normalise ⟨signs.1, qr.1⟩
    let r ← normalise ⟨signs.2, qr.2⟩
    .ok (q, r)

/-- `squareRoot` (Aesi.h:981-986). -/
def squareRoot (cfg : Cfg) (a : Aesi n) : Exec (Aesi n) :=
  if a.sign = .positive then do
    let base ← Aeu.squareRoot cfg a.base
    .ok ⟨.positive, base⟩
  else ofIntegral n .i32 0

/-- `power2` (Aesi.h:993-999). -/
def power2 (cfg : Cfg) (n : Nat) (power : Nat) : Exec (Aesi n) := do
  let base ← Aeu.power2 cfg n power
  normalise ⟨.positive, base⟩

/-- `integralCast<Integral>` (Aesi.h:1007-1017); the product with `-1` is computed in the promoted
type and converted back. -/
def integralCast (t : ITy) (a : Aesi n) : Exec Int :=
  if a.sign = .zero then .ok 0
  else if t.signed ∧ a.sign = .negative then do
    let v ← Aeu.integralCast t a.base
    let p ← t.times v (-1)
    .ok (t.conv p)
  else Aeu.integralCast t a.base

/-- `precisionCast<newBitness>` (Aesi.h:1025-1040), `m` ≠ `n`. -/
def precisionCast (cfg : Cfg) (m : Nat) (a : Aesi n) : Exec (Aesi m) :=
  if a.sign ≠ .zero then do
    let result ← ofIntegral m .i32 1
    let blockBoarder := if m > n then n else m
    let base ← forUp 0 blockBoarder result.base fun blockIdx base => do
      let b ← Aeu.getBlock cfg a.base blockIdx
      Aeu.setBlock cfg base blockIdx b
    let result := { result with base := base }
    .ok (if a.sign = .negative then inverse result else result)
  else .ok (zero m)

/-- `operator==` between different precisions (Aesi.h:619-625). -/
def eqAcross (cfg : Cfg) (our : Aesi n) (other : Aesi m) : Exec Bool := do
  let c ← precisionCast cfg m our
  eq cfg c other

/-- `compareTo` between different precisions (Aesi.h:684-687). -/
def compareToAcross (cfg : Cfg) (our : Aesi n) (value : Aesi m) : Exec Comparison := do
  let c ← precisionCast cfg m our
  compareTo cfg c value

/-- `unsignedCast` (Aesi.h:1047). -/
def unsignedCast (a : Aesi n) : Aeu n := a.base

/-! ## Mixed operators with a built-in on the left or right -/

/-- `operator+(Integral, const Aesi&)` (Aesi.h:1220); `a + i` converts `i` by the same constructor. -/
def addLeft (cfg : Cfg) (t : ITy) (number : Int) (value : Aesi n) : Exec (Aesi n) := do
  let c ← ofIntegral n t number; add cfg c value
/-- `operator-(Integral, const Aesi&)` (Aesi.h:1229). -/
def subLeft (cfg : Cfg) (t : ITy) (number : Int) (value : Aesi n) : Exec (Aesi n) := do
  let c ← ofIntegral n t number; sub cfg c value
/-- `operator*(Integral, const Aesi&)` (Aesi.h:1238). -/
def mulLeft (t : ITy) (number : Int) (value : Aesi n) : Exec (Aesi n) := do
  let c ← ofIntegral n t number; mul c value
/-- `operator/(Integral, const Aesi&)` (Aesi.h:1247). -/
def divLeft (cfg : Cfg) (t : ITy) (number : Int) (value : Aesi n) : Exec (Aesi n) := do
  let c ← ofIntegral n t number; div cfg c value
/-- `operator%(Integral, const Aesi&)` (Aesi.h:1256). -/
def modLeft (cfg : Cfg) (t : ITy) (number : Int) (value : Aesi n) : Exec (Aesi n) := do
  let c ← ofIntegral n t number; mod cfg c value
/-- `a + i`, `a += i`: `i` is converted by the (implicit) integral constructor (Aesi.h:100, 265). -/
def addRight (cfg : Cfg) (t : ITy) (value : Aesi n) (number : Int) : Exec (Aesi n) := do
  let c ← ofIntegral n t number; add cfg value c
/-- `a - i`, `a -= i` (Aesi.h:100, 335). -/
def subRight (cfg : Cfg) (t : ITy) (value : Aesi n) (number : Int) : Exec (Aesi n) := do
  let c ← ofIntegral n t number; sub cfg value c

/-! ## Digit access (Aesi.h:799-870, 898): forwarded to the magnitude -/

/-- `setBit` (Aesi.h:799). -/
def setBit (cfg : Cfg) (a : Aesi n) (index : Nat) (bit : Bool) : Exec (Aesi n) := do
  let base ← Aeu.setBit cfg a.base index bit
  .ok { a with base := base }
/-- `getBit` (Aesi.h:808). -/
def getBit (cfg : Cfg) (a : Aesi n) (index : Nat) : Exec Bool := Aeu.getBit cfg a.base index
/-- `setByte` (Aesi.h:816). -/
def setByte (cfg : Cfg) (a : Aesi n) (index : Nat) (byte : BitVec 8) : Exec (Aesi n) := do
  let base ← Aeu.setByte cfg a.base index byte
  .ok { a with base := base }
/-- `getByte` (Aesi.h:825). -/
def getByte (cfg : Cfg) (a : Aesi n) (index : Nat) : Exec (BitVec 8) := Aeu.getByte cfg a.base index
/-- `setBlock` (Aesi.h:833). -/
def setBlock (cfg : Cfg) (a : Aesi n) (index : Nat) (block : Block) : Exec (Aesi n) := do
  let base ← Aeu.setBlock cfg a.base index block
  .ok { a with base := base }
/-- `getBlock` (Aesi.h:842). -/
def getBlock (cfg : Cfg) (a : Aesi n) (index : Nat) : Exec Block := Aeu.getBlock cfg a.base index
/-- `byteCount` (Aesi.h:849). -/
def byteCount (a : Aesi n) : Exec Nat := Aeu.byteCount a.base
/-- `bitCount` (Aesi.h:856). -/
def bitCount (a : Aesi n) : Exec Nat := Aeu.bitCount a.base
/-- `filledBlocksNumber` (Aesi.h:898). -/
def filledBlocksNumber (a : Aesi n) : Exec Nat := Aeu.filledBlocksNumber a.base
/-- `isOdd` (Aesi.h:863). -/
def isOdd (a : Aesi n) : Exec Bool := Aeu.isOdd a.base
/-- `isEven` (Aesi.h:870). -/
def isEven (a : Aesi n) : Exec Bool := Aeu.isEven a.base

/-! ## Output -/

/-- `getString` on a pointer into a buffer: run on the part from `from_` on, the rest unchanged. -/
def onTail {cap : Nat} (buffer : Vector Int cap) (from_ : Nat)
    (f : Vector Int (cap - from_) → Exec (Vector Int (cap - from_) × Nat)) :
    Exec (Vector Int cap × Nat) := do
  let r ← f (Vector.ofFn fun i => buffer[from_ + i.val]'(by omega))
  .ok (Vector.ofFn fun i => if h : from_ ≤ i.val then r.1[i.val - from_]'(by omega) else buffer[i.val], r.2)

/-- `case 2`, `8`, `16` of the zero branch with `showBase` (Aesi.h:1073-1093). -/
def zeroPrefixed {cap : Nat} (buffer : Vector Int cap) (letter : Int) : Exec (Vector Int cap × Nat) :=
  if cap < 3 then .ok (buffer, 0)
  else do
    let buffer ← wr buffer 0 48
    let buffer ← wr buffer 1 letter
    let c ← rd buffer 0
    let buffer ← wr buffer 2 c
    .ok (buffer, 3)

/-- `getString<notation, hexUppercase>(buffer, bufferSize, showBase)` (Aesi.h:1061-1105).  For a
negative number `*buffer++ = '-'` and the unsigned function on the rest. -/
def getString (cfg : Cfg) (kind : CharKind) (notation_ : BitVec 8) (hexUppercase : Bool) (a : Aesi n)
    {cap : Nat} (buffer : Vector Int cap) (showBase : Bool) : Exec (Vector Int cap × Nat) :=
  if a.sign ≠ .zero then
    if a.sign = .negative ∧ cap > 0 then do
      let buffer ← wr buffer 0 45
      onTail buffer 1 fun tail => Aeu.getString cfg kind notation_ hexUppercase a.base tail showBase
    else Aeu.getString cfg kind notation_ hexUppercase a.base buffer showBase
  else if showBase then
    if notation_ = 2#8 then zeroPrefixed buffer 98
    else if notation_ = 8#8 then zeroPrefixed buffer 111
    else if notation_ = 16#8 then zeroPrefixed buffer 120
    else if cap < 1 then .ok (buffer, 0)
    else do
      let buffer ← wr buffer 0 48
      .ok (buffer, 1)
  else do
    let buffer ← wr buffer 0 48
    .ok (buffer, 1)

/-- `operator<<` (Aesi.h:1119-1128). -/
def streamOut (cfg : Cfg) (bufferSize : Nat) (os : OStream) (number : Aesi n) : Exec OStream :=
  if number.sign ≠ .zero then
    let os := if number.sign = .negative then os.putText [45] else os
    Aeu.streamOut cfg bufferSize os number.base
  else .ok (os.putText [48])

end Aesi
end AesiMP
