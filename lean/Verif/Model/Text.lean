import Verif.Model.Builtin
import Verif.SpecText

/-!
# Model of the text interface of `Aeu.h`

Characters are their integer codes.  A buffer of `bufferSize` characters is a `Vector Int
bufferSize`: every write is checked against it.
-/

namespace AesiMP

/-- The two character types of the templates. -/
inductive CharKind where
  | char | wchar
deriving DecidableEq, Repr

/-- `std::isalnum(data[position])` / `std::iswalnum(static_cast<wint_t>(...))` (Aeu.h:192, 194).
`alnum` is the classification of the current locale.  `isalnum` is undefined unless its argument is
`EOF` (-1) or representable as `unsigned char`. -/
def isAlnum (kind : CharKind) (alnum : Int → Bool) (c : Int) : Exec Bool :=
  match kind with
  | .char => if c = -1 ∨ (0 ≤ c ∧ c ≤ 255) then .ok (alnum c) else .error .ctypeDomain
  | .wchar => .ok (alnum c)

namespace Aeu
variable {n : Nat}

/-- The `digit` lambda (Aeu.h:216-224): 99 for "not a digit". -/
def digitOf (ch : Int) : Nat :=
  if 48 ≤ ch ∧ ch ≤ 57 then (ch - 48).toNat
  else if 97 ≤ ch ∧ ch ≤ 102 then (ch - 97).toNat + 10
  else if 65 ≤ ch ∧ ch ≤ 70 then (ch - 65).toNat + 10
  else 99

/-- The `base` lambda (Aeu.h:200-213): base and new position. -/
def detectBase {size : Nat} (data : Vector Int size) (position : Nat) : Exec (BitVec 32 × Nat) := do
  let c ← rd data position
  if c = 48 ∧ size > position + 1 then do
    let d ← rd data (position + 1)
    if d = 98 ∨ d = 66 then .ok (2#32, position + 2)
    else if d = 111 ∨ d = 79 then .ok (8#32, position + 2)
    else if d = 120 ∨ d = 88 then .ok (16#32, position + 2)
    else .ok (10#32, position)
  else .ok (10#32, position)

/-- The character constructor `Aeu(const Char* data, std::size_t size)` (Aeu.h:184-231); the string
and string-view constructors (246-252) call it with `data()`, `size()`, the literal constructor (239)
with the whole array including the terminator.  `*this *= base` and `*this += digit` use
`unsigned int` operands. -/
def ofChars (kind : CharKind) (alnum : Int → Bool) (n : Nat) {size : Nat} (data : Vector Int size) :
    Exec (Aeu n) :=
  if size = 0 then .ok (zero n) else do
    let p ← forUpC 0 size () fun position _ => do
      let c ← rd data position
      let a ← isAlnum kind alnum c
      if !a then .ok (.next ()) else .ok (.leave position)
    match p with
    | .next _ => .ok (zero n)
    | .leave position => do
      let bp ← detectBase data position
      let base := bp.1
      let position := bp.2
      forUp position size (zero n) fun position this => do
        let ch ← rd data position
        let digit := BitVec.ofNat 32 (digitOf ch)
        if digit < base then do
          let this ← mulNarrow this base
          addBuiltin this digit
        else .ok this

/-! ## `getString` -/

/-- `snprintf(buffer + position, bufferSize - position, fmt, v)` / `swprintf`, where `text` is the
full output of the conversion.  `bufferSize - position` wraps as `size_t`.  At most `avail - 1`
characters and a terminator are written.  Result: buffer and the value added to `position`
(`snprintf` yields the full length; `swprintf` yields -1, i.e. `2^64 - 1`, if it does not fit). -/
def snprintfAt (kind : CharKind) {cap : Nat} (buffer : Vector Int cap) (position : Nat)
    (text : List Int) : Exec (Vector Int cap × Nat) := do
  let avail := if position ≤ cap then cap - position else 2 ^ 64 - (position - cap)
  let ret := if kind = .char ∨ text.length < avail then text.length else 2 ^ 64 - 1
  if avail = 0 then .ok (buffer, ret) else do
    let k := if text.length < avail then text.length else avail - 1
    let buffer ← forUp 0 k buffer fun i buffer => wr buffer (position + i) (text.getD i 0)
    let buffer ← wr buffer (position + k) 0
    .ok (buffer, ret)

/-- The `%x` / `%X` conversion of an `unsigned int` (a libc function: modelled by its contract, the
canonical hexadecimal numeral). -/
def hexText (upper : Bool) (v : Block) : List Int := numeral upper 16 v.toNat

/-- `%08x` / `%08X`. -/
def hexText8 (upper : Bool) (v : Block) : List Int :=
  let t := hexText upper v
  List.replicate (8 - t.length) 48 ++ t

/-- The part of `getString` for base 16 (Aeu.h:1316-1341), `position` already past the prefix. -/
def getStringHex (kind : CharKind) (upper : Bool) (this : Aeu n) {cap : Nat} (buffer : Vector Int cap)
    (position : Nat) : Exec (Vector Int cap × Nat) := do
  let iter ← scanDown this (n - 1)
  let b ← rd this iter
  let r ← snprintfAt kind buffer position (hexText upper b)
  forDown iter 0 (r.1, (position + r.2) % 2 ^ 64) fun iter (buffer, position) => do
    let b ← rd this iter
    let r ← snprintfAt kind buffer position (hexText8 upper b)
    .ok (r.1, (position + r.2) % 2 ^ 64)

/-- The part of `getString` for the other bases (Aeu.h:1343-1361).  The loop runs at most
`bufferSize` times. -/
def getStringDigits (cfg : Cfg) (base : BitVec 8) (this : Aeu n) {cap : Nat} (buffer : Vector Int cap)
    (position : Nat) : Exec (Vector Int cap × Nat) := do
  let startPosition := position
  let r ← whileC (cap + 1) (this, buffer, position) fun (copy, buffer, position) => do
    let z ← isZero copy
    if !z && position < cap then do
      let b ← ofUnsigned n base
      let qr ← divide cfg copy b
      let d ← integralCast .u8 qr.2
      let buffer ← wr buffer position (48 + d)
      .ok (.next (qr.1, buffer, position + 1))
    else .ok (.leave (buffer, position))
  let position := r.2
  let digitsTotal := position - startPosition
  -- `i * 2 < digitsTotal` iff `i < (digitsTotal + 1) / 2`
  let buffer ← forUp 0 ((digitsTotal + 1) / 2) r.1 fun i buffer => do
    let t ← rd buffer (startPosition + i)
    let u ← rd buffer (startPosition + digitsTotal - 1 - i)
    let buffer ← wr buffer (startPosition + i) u
    wr buffer (startPosition + digitsTotal - 1 - i) t
  .ok (buffer, position)

/-- The base prefix (Aeu.h:1287-1309): buffer and position. -/
def writePrefix (base : BitVec 8) (showBase : Bool) {cap : Nat} (buffer : Vector Int cap) :
    Exec (Vector Int cap × Nat) :=
  if showBase ∧ cap > 3 then
    if base = 2#8 then do
      let buffer ← wr buffer 0 48; let buffer ← wr buffer 1 98; .ok (buffer, 2)
    else if base = 8#8 then do
      let buffer ← wr buffer 0 48; let buffer ← wr buffer 1 111; .ok (buffer, 2)
    else if base = 16#8 then do
      let buffer ← wr buffer 0 48; let buffer ← wr buffer 1 120; .ok (buffer, 2)
    else .ok (buffer, 0)
  else .ok (buffer, 0)

/-- The digits (Aeu.h:1316-1361): `if constexpr (base == 16)` and its alternative. -/
def getStringBody (cfg : Cfg) (kind : CharKind) (base : BitVec 8) (hexUppercase : Bool) (this : Aeu n)
    {cap : Nat} (buffer : Vector Int cap) (position : Nat) : Exec (Vector Int cap × Nat) :=
  if base = 16#8 then getStringHex kind hexUppercase this buffer position
  else getStringDigits cfg base this buffer position

/-- `getString<base, hexUppercase>(buffer, bufferSize, showBase)` (Aeu.h:1281-1364): the new buffer
content and the returned count. -/
def getString (cfg : Cfg) (kind : CharKind) (base : BitVec 8) (hexUppercase : Bool) (this : Aeu n)
    {cap : Nat} (buffer : Vector Int cap) (showBase : Bool) : Exec (Vector Int cap × Nat) :=
  if cap < 2 then .ok (buffer, 0) else do
    let r ← writePrefix base showBase buffer
    let z ← isZero this
    if z then do
      let buffer ← wr r.1 r.2 48
      .ok (buffer, r.2 + 1)
    else do
      let r ← getStringBody cfg kind base hexUppercase this r.1 r.2
      let buffer ← wr r.1 r.2 0
      .ok (buffer, (r.2 + 1) % 2 ^ 64)

end Aeu

/-! ## `operator<<` -/

/-- Field adjustment flags. -/
inductive Adjust where
  | left | right | internal | unset
deriving DecidableEq, Repr

/-- The `basefield` flags of a stream: exactly `oct`, exactly `hex`, or anything else (`dec`, none,
combinations), which the standard facets treat as decimal. -/
inductive BaseField where
  | oct | hex | other
deriving DecidableEq, Repr

/-- The state of an output stream in the classic locale: the flags the operator consults, and the
characters written so far.  Stream errors (`badbit`): see `Model/FailingStream.lean`. -/
structure OStream where
  basefield : BaseField
  showbase : Bool
  uppercase : Bool
  adjust : Adjust
  fill : Int
  width : Nat
  out : List Int
deriving DecidableEq, Repr

namespace OStream

/-- Write an already formatted item padded to `width`; the width is reset to 0.  Padding goes after
the item for `left`, before it otherwise (the items of this library carry no sign or base prefix
when inserted, so `internal` pads in front as well). -/
def put (os : OStream) (item : List Int) : OStream :=
  let pad := List.replicate (os.width - item.length) os.fill
  { os with width := 0, out := os.out ++ (if os.adjust = .left then item ++ pad else pad ++ item) }

/-- Insertion of a `char`/`wchar_t` or C string: `operator<<(ostream&, Char)`, `(ostream&, const Char*)`. -/
def putText (os : OStream) (text : List Int) : OStream := os.put text

/-- Insertion of an `unsigned int` when `basefield` is `hex` and `showbase` is off: `%x` / `%X`. -/
def putHex (os : OStream) (v : Block) : OStream := os.put (Aeu.hexText os.uppercase v)

end OStream

namespace Aeu
variable {n : Nat}

/-- `bufferSize = static_cast<std::size_t>(static_cast<double>(bitness) / 2.95)` (Aeu.h:1410): the
integer part of `bitness * 20 / 59`, or one less when that is an integer.  `Aeu.streamBuf` (Model/Double.lean) is the
size as it is computed in `double`; `C35_buffer_size` shows that it is one of these. -/
def IsStreamBuf (n bufferSize : Nat) : Prop :=
  (59 * bufferSize ≤ 640 * n ∧ 640 * n < 59 * (bufferSize + 1)) ∨ 59 * (bufferSize + 1) = 640 * n

instance (n b : Nat) : Decidable (IsStreamBuf n b) := by unfold IsStreamBuf; infer_instance

/-- The lambda computing `base` from the stream flags (Aeu.h:1380-1397), its first half. -/
def streamBase (bf : BaseField) : BitVec 32 :=
  match bf with
  | .hex => 16#32 | .oct => 8#32 | .other => 10#32

/-- Its second half: the prefix, and `os << std::noshowbase` (Aeu.h:1380-1397). -/
def streamHead (os : OStream) : OStream :=
  if os.showbase ∧ streamBase os.basefield ≠ 10#32 then
    { os.putText (if streamBase os.basefield = 8#32 then [48, 111] else [48, 120]) with showbase := false }
  else os

/-- The hexadecimal digits (Aeu.h:1402-1408). -/
def streamHex (os : OStream) (number : Aeu n) : Exec OStream := do
  let iter ← scanDown number (n - 1)
  let b ← rd number iter
  forDown iter 0 (os.putHex b) fun iter os => do
    let b ← rd number iter
    .ok (({ os with fill := 48, width := 8, adjust := .right } : OStream).putHex b)

/-- The decimal or octal digits (Aeu.h:1409-1423). -/
def streamDigits (cfg : Cfg) (bufferSize : Nat) (base : BitVec 32) (os : OStream) (number : Aeu n) :
    Exec OStream := do
  let r ← whileC (bufferSize + 1) (number, Vector.replicate bufferSize (0 : Int), 0)
    fun (copy, buffer, filled) => do
      let z ← isZero copy
      if !z && filled < bufferSize then do
        let b ← ofUnsigned n base
        let qr ← divide cfg copy b
        let d ← integralCast .u8 qr.2
        let buffer ← wr buffer filled (48 + d)
        .ok (.next (qr.1, buffer, filled + 1))
      else .ok (.leave (buffer, filled))
  forDown r.2 0 os fun i os => do
    let c ← rd r.1 i
    .ok (os.putText [c])

/-- `operator<<(std::basic_ostream<Char>&, const Aeu&)` (Aeu.h:1378-1426). -/
def streamOut (cfg : Cfg) (bufferSize : Nat) (os : OStream) (number : Aeu n) : Exec OStream := do
  let base := streamBase os.basefield
  let os := streamHead os
  let z ← isZero number
  if z then .ok (os.putText [48]) else
    if base = 16#32 then streamHex os number
    else streamDigits cfg bufferSize base os number

end Aeu
end AesiMP
