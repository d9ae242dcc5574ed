import Verif.Model.Work
import Verif.Model.Aesi

/-!
# How much work text and the signed operators do

The text functions of `Aeu.h` and the operators of `Aesi.h` with the counter of `Model/Work.lean`.  Blocks of
numbers are counted, characters and signs are not.
-/

namespace AesiMP
namespace Work
open Aeu
variable {n m : Nat}

/-- `isZero` (Aeu.h:1041). -/
def isZero (x : Aeu n) : Counted Bool := do
  let f ← filledBlocksNumber x
  pure (f == 0)

/-- Aeu.h:731, 793 and 1476. -/
def low64 (x : Aeu n) : Counted U64 := do
  let b1 ← Counted.rd x 1
  let h ← Counted.lift (shl64 (toU64 b1) 32)
  let b0 ← Counted.rd x 0
  pure (h ||| toU64 b0)

/-- `compareTo(uint64_t)` (Aeu.h:790-796). -/
def compareToU64 (x : Aeu n) (other : U64) : Counted Comparison := do
  let f ← filledBlocksNumber x
  if f > 2 then pure .greater else do
    let base ← low64 x
    if base > other then pure .greater
    else if base < other then pure .less
    else pure .equal

/-- `integralCast<Integral>` (Aeu.h:1475-1478). -/
def integralCast (t : ITy) (x : Aeu n) : Counted Int := do
  let v ← low64 x
  pure (t.conv v.toNat)

/-- Multiplication by an `unsigned long long` (Aeu.h:439). -/
def mulULL (cfg : Cfg) (x : Aeu n) (factor : U64) : Counted (Aeu n) :=
  if cfg.u64IsULL then mulU64 x factor else mulNarrow x factor

/-! ### Text -/

/-- The character constructor (Aeu.h:184-231). -/
def ofChars (kind : CharKind) (alnum : Int → Bool) (n : Nat) {size : Nat} (data : Vector Int size) :
    Counted (Aeu n) :=
  if size = 0 then pure (zero n) else do
    let p ← Counted.lift (AesiMP.forUpC 0 size () fun position _ => do
      let c ← AesiMP.rd data position
      let a ← isAlnum kind alnum c
      if !a then .ok (.next ()) else .ok (.leave position))
    match p with
    | .next _ => pure (zero n)
    | .leave position => do
      let bp ← Counted.lift (detectBase data position)
      let base := bp.1
      let position := bp.2
      Counted.forUp position size (zero n) fun position this => do
        let ch ← Counted.lift (AesiMP.rd data position)
        let digit := BitVec.ofNat 32 (digitOf ch)
        if digit < base then do
          let this ← mulNarrow this base
          addBuiltin this digit
        else pure this

/-- `getString`, base 16 (Aeu.h:1316-1341). -/
def getStringHex (kind : CharKind) (upper : Bool) (this : Aeu n) {cap : Nat} (buffer : Vector Int cap)
    (position : Nat) : Counted (Vector Int cap × Nat) := do
  let iter ← scanDown this (n - 1)
  let b ← Counted.rd this iter
  let r ← Counted.lift (snprintfAt kind buffer position (hexText upper b))
  Counted.forDown iter 0 (r.1, (position + r.2) % 2 ^ 64) fun iter (buffer, position) => do
    let b ← Counted.rd this iter
    let r ← Counted.lift (snprintfAt kind buffer position (hexText8 upper b))
    pure (r.1, (position + r.2) % 2 ^ 64)

/-- `getString`, the other bases (Aeu.h:1343-1361). -/
def getStringDigits (cfg : Cfg) (base : BitVec 8) (this : Aeu n) {cap : Nat} (buffer : Vector Int cap)
    (position : Nat) : Counted (Vector Int cap × Nat) := do
  let startPosition := position
  let r ← Counted.whileC (cap + 1) (this, buffer, position) fun (copy, buffer, position) => do
    let z ← isZero copy
    if !z && position < cap then do
      let b ← ofUnsigned n base
      let qr ← divide cfg copy b
      let d ← integralCast .u8 qr.2
      let buffer ← Counted.lift (AesiMP.wr buffer position (48 + d))
      pure (.next (qr.1, buffer, position + 1))
    else pure (.leave (buffer, position))
  let position := r.2
  let digitsTotal := position - startPosition
  let buffer ← Counted.lift (AesiMP.forUp 0 ((digitsTotal + 1) / 2) r.1 fun i buffer => do
    let t ← AesiMP.rd buffer (startPosition + i)
    let u ← AesiMP.rd buffer (startPosition + digitsTotal - 1 - i)
    let buffer ← AesiMP.wr buffer (startPosition + i) u
    AesiMP.wr buffer (startPosition + digitsTotal - 1 - i) t)
  pure (buffer, position)

/-- The digits (Aeu.h:1316-1361). -/
def getStringBody (cfg : Cfg) (kind : CharKind) (base : BitVec 8) (hexUppercase : Bool) (this : Aeu n)
    {cap : Nat} (buffer : Vector Int cap) (position : Nat) : Counted (Vector Int cap × Nat) :=
  if base = 16#8 then getStringHex kind hexUppercase this buffer position
  else getStringDigits cfg base this buffer position

/-- `getString` (Aeu.h:1281-1364). -/
def getString (cfg : Cfg) (kind : CharKind) (base : BitVec 8) (hexUppercase : Bool) (this : Aeu n)
    {cap : Nat} (buffer : Vector Int cap) (showBase : Bool) : Counted (Vector Int cap × Nat) :=
  if cap < 2 then pure (buffer, 0) else do
    let r ← Counted.lift (writePrefix base showBase buffer)
    let z ← isZero this
    if z then do
      let buffer ← Counted.lift (AesiMP.wr r.1 r.2 48)
      pure (buffer, r.2 + 1)
    else do
      let r ← getStringBody cfg kind base hexUppercase this r.1 r.2
      let buffer ← Counted.lift (AesiMP.wr r.1 r.2 0)
      pure (buffer, (r.2 + 1) % 2 ^ 64)

/-- Hexadecimal output (Aeu.h:1402-1408). -/
def streamHex (os : OStream) (number : Aeu n) : Counted OStream := do
  let iter ← scanDown number (n - 1)
  let b ← Counted.rd number iter
  Counted.forDown iter 0 (os.putHex b) fun iter os => do
    let b ← Counted.rd number iter
    pure (({ os with fill := 48, width := 8, adjust := .right } : OStream).putHex b)

/-- Decimal and octal output (Aeu.h:1409-1423). -/
def streamDigits (cfg : Cfg) (bufferSize : Nat) (base : BitVec 32) (os : OStream) (number : Aeu n) :
    Counted OStream := do
  let r ← Counted.whileC (bufferSize + 1) (number, Vector.replicate bufferSize (0 : Int), 0)
    fun (copy, buffer, filled) => do
      let z ← isZero copy
      if !z && filled < bufferSize then do
        let b ← ofUnsigned n base
        let qr ← divide cfg copy b
        let d ← integralCast .u8 qr.2
        let buffer ← Counted.lift (AesiMP.wr buffer filled (48 + d))
        pure (.next (qr.1, buffer, filled + 1))
      else pure (.leave (buffer, filled))
  Counted.lift (AesiMP.forDown r.2 0 os fun i os => do
    let c ← AesiMP.rd r.1 i
    .ok (os.putText [c]))

/-- `operator<<` (Aeu.h:1378-1426). -/
def streamOut (cfg : Cfg) (bufferSize : Nat) (os : OStream) (number : Aeu n) : Counted OStream := do
  let base := streamBase os.basefield
  let os := streamHead os
  let z ← isZero number
  if z then pure (os.putText [48]) else
    if base = 16#32 then streamHex os number
    else streamDigits cfg bufferSize base os number

end Work

/-! ### Signed numbers -/

namespace WorkS
open Aesi
variable {n m : Nat}

/-- Integral constructor (Aesi.h:100-113). -/
def ofIntegral (n : Nat) (t : ITy) (value : Int) : Counted (Aesi n) :=
  if value < 0 then do
    let m ← Counted.lift (t.negate value)
    let base ← Work.ofUnsigned n (toULL m)
    pure ⟨.negative, base⟩
  else if value > 0 then do
    let base ← Work.ofUnsigned n (toULL value)
    pure ⟨.positive, base⟩
  else pure (zero n)

/-- Character constructor (Aesi.h:122-126). -/
def ofChars (kind : CharKind) (alnum : Int → Bool) (n : Nat) {size : Nat} (ptr : Vector Int size) :
    Counted (Aesi n) := do
  let base ← Work.ofChars kind alnum n ptr
  let z ← Work.isZero base
  if !z then do
    let sign ← Counted.lift (traverseDashes ptr)
    pure ⟨sign, base⟩
  else pure ⟨.zero, base⟩

/-- Lines 213, 235, 504, 524, 592, 997 of Aesi.h. -/
def normalise (a : Aesi n) : Counted (Aesi n) := do
  let z ← Work.isZero a.base
  pure (if z then { a with sign := .zero } else a)

/-- Prefix increment (Aesi.h:210-219). -/
def inc (a : Aesi n) : Counted (Aesi n) :=
  match a.sign with
  | .negative => do
    let base ← Work.dec a.base
    normalise { a with base := base }
  | .positive => do
    let base ← Work.inc a.base
    pure { a with base := base }
  | .zero => do
    let base ← Work.ofUnsigned n (1#32)
    pure ⟨.positive, base⟩

/-- Prefix decrement (Aesi.h:230-239). -/
def dec (a : Aesi n) : Counted (Aesi n) :=
  match a.sign with
  | .negative => do
    let base ← Work.inc a.base
    pure { a with base := base }
  | .positive => do
    let base ← Work.dec a.base
    normalise { a with base := base }
  | .zero => do
    let base ← Work.ofUnsigned n (1#32)
    pure ⟨.negative, base⟩

/-- Aesi.h:281-297, 300-316, 351-367 and 378-394. -/
def subMagnitude (cfg : Cfg) (a : Aesi n) (rBase : Aeu n) (other : Sign) : Counted (Aesi n) := do
  let c ← Work.compareTo cfg a.base rBase
  match c with
  | .greater => do
    let base ← Work.sub a.base rBase
    pure { a with base := base }
  | .less => do
    let base ← Work.sub rBase a.base
    pure ⟨other, base⟩
  | _ => pure { a with sign := .zero }

/-- `operator+=`, `operator+` (Aesi.h:265-318, 255-257). -/
def add (cfg : Cfg) (addition addendum : Aesi n) : Counted (Aesi n) :=
  if addendum.sign = .zero then pure addition
  else if addition.sign = .zero then pure addendum
  else if addition.sign = addendum.sign then do
    let base ← Work.add addition.base addendum.base
    pure { addition with base := base }
  else if addition.sign = .positive then subMagnitude cfg addition addendum.base .negative
  else subMagnitude cfg addition addendum.base .positive

/-- `operator-=`, `operator-` (Aesi.h:335-395, 325-327). -/
def sub (cfg : Cfg) (subtraction subtrahend : Aesi n) : Counted (Aesi n) :=
  if subtrahend.sign = .zero then pure subtraction
  else if subtraction.sign = .zero then pure (inverse subtrahend)
  else if subtraction.sign = .positive then
    if subtrahend.sign = .positive then subMagnitude cfg subtraction subtrahend.base .negative
    else do
      let base ← Work.add subtraction.base subtrahend.base
      pure { subtraction with base := base }
  else
    if subtrahend.sign = .negative then subMagnitude cfg subtraction subtrahend.base .positive
    else do
      let base ← Work.add subtraction.base subtrahend.base
      pure { subtraction with base := base }

/-- `operator*=`, `operator*` (Aesi.h:446-456, 415-417). -/
def mul (multiplication factor : Aesi n) : Counted (Aesi n) :=
  if isZero factor then pure { multiplication with sign := .zero }
  else do
    let multiplication := if isNegative factor then inverse multiplication else multiplication
    let base ← Work.mul multiplication.base factor.base
    pure { multiplication with base := base }

/-- `operator*=(Aesi&, Integral)` (Aesi.h:426-438). -/
def mulIntegral (cfg : Cfg) (t : ITy) (multiplication : Aesi n) (factor : Int) : Counted (Aesi n) :=
  if factor = 0 then pure { multiplication with sign := .zero }
  else do
    let r ← Counted.lift (absorbSign t multiplication factor)
    let base ← Work.mulULL cfg r.1.base (toULL r.2)
    pure { r.1 with base := base }

/-- `operator/=`, `operator/` (Aesi.h:514-526, 480-482). -/
def div (cfg : Cfg) (division divisor : Aesi n) : Counted (Aesi n) :=
  if isZero divisor then pure { division with sign := .zero }
  else do
    let division := if isNegative divisor then inverse division else division
    let base ← Work.div cfg division.base divisor.base
    normalise { division with base := base }

/-- `operator/=(Aesi&, Integral)` (Aesi.h:492-506). -/
def divIntegral (cfg : Cfg) (t : ITy) (division : Aesi n) (divisor : Int) : Counted (Aesi n) :=
  if divisor = 0 then pure { division with sign := .zero }
  else do
    let r ← Counted.lift (absorbSign t division divisor)
    let d ← Work.ofUnsigned n (toULL r.2)
    let base ← Work.div cfg r.1.base d
    normalise { r.1 with base := base }

/-- `operator%=`, `operator%` (Aesi.h:584-594, 550-552). -/
def mod (cfg : Cfg) (modulation modulo : Aesi n) : Counted (Aesi n) :=
  if isZero modulo then pure modulation
  else do
    let modulation := if isNegative modulo then inverse modulation else modulation
    let base ← Work.mod cfg modulation.base modulo.base
    normalise { modulation with base := base }

/-- `operator%=(Aesi&, Integral)` (Aesi.h:562-574). -/
def modIntegral (cfg : Cfg) (t : ITy) (modulation : Aesi n) (modulo : Int) : Counted (Aesi n) :=
  if modulo = 0 then pure { modulation with sign := .zero }
  else do
    let r ← Counted.lift (absorbSign t modulation modulo)
    let d ← Work.ofUnsigned n (toULL r.2)
    let base ← Work.mod cfg r.1.base d
    pure { r.1 with base := base }

/-- `compareTo(Integral)` (Aesi.h:649-678). -/
def compareToIntegral (a : Aesi n) (integral : Int) : Counted Comparison :=
  if integral = 0 then pure (signOnly a.sign)
  else if integral < 0 then
    if a.sign = .negative then do
      let m ← Counted.lift (ITy.i64.negate (ITy.i64.conv integral))
      let c ← Work.compareToU64 a.base (toULL m)
      pure (reversed c)
    else pure .greater
  else
    if a.sign = .positive then Work.compareToU64 a.base (toULL (ITy.i64.conv integral))
    else pure .less

/-- `compareTo(const Aesi&)` (Aesi.h:695-726). -/
def compareTo (cfg : Cfg) (a value : Aesi n) : Counted Comparison :=
  if isZero value then pure (signOnly a.sign)
  else if isNegative value then
    if a.sign = .negative then do
      let c ← Work.compareTo cfg a.base value.base
      pure (reversed c)
    else pure .greater
  else
    if a.sign = .positive then Work.compareTo cfg a.base value.base
    else pure .less

/-- `divide` (Aesi.h:942-975). -/
def divide (cfg : Cfg) (number divisor q0 r0 : Aesi n) : Counted (Aesi n × Aesi n) :=
  if number.sign = .zero ∨ divisor.sign = .zero then
    pure ({ q0 with sign := .zero }, { r0 with sign := .zero })
  else do
    let qr ← Work.divide cfg number.base divisor.base
    let signs : Sign × Sign :=
      if number.sign = .positive then
        if divisor.sign = .positive then (.positive, .positive) else (.negative, .positive)
      else
        if divisor.sign = .positive then (.negative, .negative) else (.positive, .negative)
    let q ← normalise ⟨signs.1, qr.1⟩
    let r ← normalise ⟨signs.2, qr.2⟩
    pure (q, r)

/-- `squareRoot` (Aesi.h:981-986). -/
def squareRoot (cfg : Cfg) (a : Aesi n) : Counted (Aesi n) :=
  if a.sign = .positive then do
    let base ← Work.squareRoot cfg a.base
    pure ⟨.positive, base⟩
  else ofIntegral n .i32 0

/-- `operator<<` (Aesi.h:1119-1128). -/
def streamOut (cfg : Cfg) (bufferSize : Nat) (os : OStream) (number : Aesi n) : Counted OStream :=
  if number.sign ≠ .zero then
    let os := if number.sign = .negative then os.putText [45] else os
    Work.streamOut cfg bufferSize os number.base
  else pure (os.putText [48])

end WorkS
end AesiMP
