import Verif.Model.Aesi

/-!
# `getString` into an array nobody has written

`char text[64]; a.getString<10>(text, 64);` passes an array of indeterminate characters.  This file models `getString`
again (Aeu.h:1281-1364, Aesi.h:1061-1105) on an array whose characters may be unwritten; reading one of those is the
outcome `uninitialised`.  `snprintf` and `swprintf` only write.
-/

namespace AesiMP

/-- The caller's array: `none` is a character never written. -/
abbrev RawText (cap : Nat) := Vector (Option Int) cap

namespace RawText
variable {n cap : Nat}

/-- `char text[cap];`. -/
def fresh (cap : Nat) : RawText cap := Vector.replicate cap none

/-- `text[i]` read. -/
def rdI (buffer : RawText cap) (i : Nat) : Exec Int := do
  match ← rd buffer i with
  | some c => .ok c
  | none => .error .uninitialised

/-- `text[i] = c`. -/
def wrI (buffer : RawText cap) (i : Nat) (c : Int) : Exec (RawText cap) := wr buffer i (some c)

/-- `Aeu.snprintfAt` on such an array: the contract of `snprintf` / `swprintf` (used in Aeu.h:1321-1339). -/
def snprintfAt (kind : CharKind) (buffer : RawText cap) (position : Nat) (text : List Int) :
    Exec (RawText cap × Nat) := do
  let avail := if position ≤ cap then cap - position else 2 ^ 64 - (position - cap)
  let ret := if kind = .char ∨ text.length < avail then text.length else 2 ^ 64 - 1
  if avail = 0 then .ok (buffer, ret) else do
    let k := if text.length < avail then text.length else avail - 1
    let buffer ← forUp 0 k buffer fun i buffer => wrI buffer (position + i) (text.getD i 0)
    let buffer ← wrI buffer (position + k) 0
    .ok (buffer, ret)

/-- The part for base 16 (Aeu.h:1316-1341). -/
def getStringHex (kind : CharKind) (upper : Bool) (this : Aeu n) (buffer : RawText cap) (position : Nat) :
    Exec (RawText cap × Nat) := do
  let iter ← Aeu.scanDown this (n - 1)
  let b ← rd this iter
  let r ← snprintfAt kind buffer position (Aeu.hexText upper b)
  forDown iter 0 (r.1, (position + r.2) % 2 ^ 64) fun iter (buffer, position) => do
    let b ← rd this iter
    let r ← snprintfAt kind buffer position (Aeu.hexText8 upper b)
    .ok (r.1, (position + r.2) % 2 ^ 64)

/-- The part for the other bases (Aeu.h:1343-1361): the digits, then the loop that reverses them, which reads
the array. -/
def getStringDigits (cfg : Cfg) (base : BitVec 8) (this : Aeu n) (buffer : RawText cap) (position : Nat) :
    Exec (RawText cap × Nat) := do
  let startPosition := position
  let r ← whileC (cap + 1) (this, buffer, position) fun (copy, buffer, position) => do
    let z ← Aeu.isZero copy
    if !z && position < cap then do
      let b ← Aeu.ofUnsigned n base
      let qr ← Aeu.divide cfg copy b
      let d ← Aeu.integralCast .u8 qr.2
      let buffer ← wrI buffer position (48 + d)
      .ok (.next (qr.1, buffer, position + 1))
    else .ok (.leave (buffer, position))
  let position := r.2
  let digitsTotal := position - startPosition
  let buffer ← forUp 0 ((digitsTotal + 1) / 2) r.1 fun i buffer => do
    let t ← rdI buffer (startPosition + i)
    let u ← rdI buffer (startPosition + digitsTotal - 1 - i)
    let buffer ← wrI buffer (startPosition + i) u
    wrI buffer (startPosition + digitsTotal - 1 - i) t
  .ok (buffer, position)

/-- The base prefix (Aeu.h:1287-1309). -/
def writePrefix (base : BitVec 8) (showBase : Bool) (buffer : RawText cap) : Exec (RawText cap × Nat) :=
  if showBase ∧ cap > 3 then
    if base = 2#8 then do
      let buffer ← wrI buffer 0 48; let buffer ← wrI buffer 1 98; .ok (buffer, 2)
    else if base = 8#8 then do
      let buffer ← wrI buffer 0 48; let buffer ← wrI buffer 1 111; .ok (buffer, 2)
    else if base = 16#8 then do
      let buffer ← wrI buffer 0 48; let buffer ← wrI buffer 1 120; .ok (buffer, 2)
    else .ok (buffer, 0)
  else .ok (buffer, 0)

/-- The digits (Aeu.h:1316-1361). -/
def getStringBody (cfg : Cfg) (kind : CharKind) (base : BitVec 8) (hexUppercase : Bool) (this : Aeu n)
    (buffer : RawText cap) (position : Nat) : Exec (RawText cap × Nat) :=
  if base = 16#8 then getStringHex kind hexUppercase this buffer position
  else getStringDigits cfg base this buffer position

/-- `Aeu::getString` (Aeu.h:1281-1364). -/
def getString (cfg : Cfg) (kind : CharKind) (base : BitVec 8) (hexUppercase : Bool) (this : Aeu n)
    (buffer : RawText cap) (showBase : Bool) : Exec (RawText cap × Nat) :=
  if cap < 2 then .ok (buffer, 0) else do
    let r ← writePrefix base showBase buffer
    let z ← Aeu.isZero this
    if z then do
      let buffer ← wrI r.1 r.2 48
      .ok (buffer, r.2 + 1)
    else do
      let r ← getStringBody cfg kind base hexUppercase this r.1 r.2
      let buffer ← wrI r.1 r.2 0
      .ok (buffer, (r.2 + 1) % 2 ^ 64)

/-- `buffer + 1` passed on (Aesi.h:1064-1069). -/
def onTail (buffer : RawText cap) (from_ : Nat) (f : RawText (cap - from_) → Exec (RawText (cap - from_) × Nat)) :
    Exec (RawText cap × Nat) := do
  let r ← f (Vector.ofFn fun i => buffer[from_ + i.val]'(by omega))
  .ok (Vector.ofFn fun i => if h : from_ ≤ i.val then r.1[i.val - from_]'(by omega) else buffer[i.val], r.2)

/-- `case 2`, `8`, `16` of the zero branch with `showBase` (Aesi.h:1073-1093): `buffer[2] = buffer[0]`. -/
def zeroPrefixed (buffer : RawText cap) (letter : Int) : Exec (RawText cap × Nat) :=
  if cap < 3 then .ok (buffer, 0)
  else do
    let buffer ← wrI buffer 0 48
    let buffer ← wrI buffer 1 letter
    let c ← rdI buffer 0
    let buffer ← wrI buffer 2 c
    .ok (buffer, 3)

/-- `Aesi::getString` (Aesi.h:1061-1105). -/
def getStringS (cfg : Cfg) (kind : CharKind) (notation_ : BitVec 8) (hexUppercase : Bool) (a : Aesi n)
    (buffer : RawText cap) (showBase : Bool) : Exec (RawText cap × Nat) :=
  if a.sign ≠ .zero then
    if a.sign = .negative ∧ cap > 0 then do
      let buffer ← wrI buffer 0 45
      onTail buffer 1 fun tail => getString cfg kind notation_ hexUppercase a.base tail showBase
    else getString cfg kind notation_ hexUppercase a.base buffer showBase
  else if showBase then
    if notation_ = 2#8 then zeroPrefixed buffer 98
    else if notation_ = 8#8 then zeroPrefixed buffer 111
    else if notation_ = 16#8 then zeroPrefixed buffer 120
    else if cap < 1 then .ok (buffer, 0)
    else do
      let buffer ← wrI buffer 0 48
      .ok (buffer, 1)
  else do
    let buffer ← wrI buffer 0 48
    .ok (buffer, 1)

end RawText
end AesiMP
