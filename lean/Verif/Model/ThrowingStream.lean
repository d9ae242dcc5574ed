import Verif.Model.FailingStream
import Verif.Model.BinIO

/-!
# Streams with exceptions enabled

`os.exceptions(std::ios::badbit)` / `is.exceptions(std::ios::failbit)`: the operation that breaks the stream
throws `std::ios_base::failure`.  The insertion operators and `readBinary` let it pass; `writeBinary` is declared
`noexcept` (Aeu.h:1456), so there it ends the program (`std::terminate`).  Streams are good when the call begins.
-/

namespace AesiMP

/-- How a call on such a stream ends: it returns, an exception leaves it, or the program ends.  `σ` is what
the caller (or, in the last case, the outside world) finds. -/
inductive Ends (σ : Type) where
  | returned (s : σ)
  | threw (s : σ)
  | terminated (s : σ)
deriving DecidableEq, Repr

namespace Ends

/-- What is left behind. -/
def state {σ : Type} : Ends σ → σ
  | returned s => s
  | threw s => s
  | terminated s => s

/-- Sequencing: what comes after a throwing statement is not executed. -/
def andThen {σ : Type} (x : Exec (Ends σ)) (f : σ → Exec (Ends σ)) : Exec (Ends σ) := do
  match ← x with
  | .returned s => f s
  | e => .ok e

end Ends

/-- Insertion of a formatted item into a stream that throws when it breaks. -/
def FStream.putX (s : FStream) (item : List Int) : Ends FStream :=
  if (s.put item).bad then .threw (s.put item) else .returned (s.put item)

/-- A loop (downwards) whose body may throw. -/
def forDownX {σ : Type} (lo : Nat) (body : Nat → σ → Exec (Ends σ)) : Nat → σ → Exec (Ends σ)
  | 0, s => .ok (.returned s)
  | k + 1, s => Ends.andThen (body (lo + k) s) (forDownX lo body k)

namespace Aeu
variable {n : Nat}

/-- The prefix and `std::noshowbase` (Aeu.h:1381-1392), on a throwing stream. -/
def streamHeadX (s : FStream) : Exec (Ends FStream) :=
  if s.os.showbase ∧ streamBase s.os.basefield ≠ 10#32 then
    Ends.andThen (.ok (s.putX (if streamBase s.os.basefield = 8#32 then [48, 111] else [48, 120]))) fun s =>
      .ok (.returned { s with os := { s.os with showbase := false } })
  else .ok (.returned s)

/-- The hexadecimal digits (Aeu.h:1397-1406), on a throwing stream. -/
def streamHexX (s : FStream) (number : Aeu n) : Exec (Ends FStream) := do
  let iter ← scanDown number (n - 1)
  let b ← rd number iter
  Ends.andThen (.ok (s.putX (hexText s.os.uppercase b))) (forDownX 0 (fun iter s => do
    let b ← rd number iter
    .ok (({ s with os := { s.os with fill := 48, width := 8, adjust := .right } } : FStream).putX
      (hexText s.os.uppercase b))) iter)

/-- The decimal or octal digits (Aeu.h:1407-1422), on a throwing stream. -/
def streamDigitsX (cfg : Cfg) (bufferSize : Nat) (base : BitVec 32) (s : FStream) (number : Aeu n) :
    Exec (Ends FStream) := do
  let r ← whileC (bufferSize + 1) (number, Vector.replicate bufferSize (0 : Int), 0)
    fun (copy, buffer, filled) => do
      let z ← isZero copy
      if !z && filled < bufferSize then do
        let b ← ofUnsigned n base
        let qr ← divide cfg copy b
        let d ← integralCast .u8 qr.2
        let buffer ← wr buffer filled (48 + d)
        .ok (.next (qr.1, buffer, filled + 1))
      else .ok (.leave (buffer, filled))
  forDownX 0 (fun i s => do
    let c ← rd r.1 i
    .ok (s.putX [c])) r.2 s

/-- `operator<<(std::basic_ostream<Char>&, const Aeu&)` (Aeu.h:1378-1426), on a throwing stream. -/
def streamOutX (cfg : Cfg) (bufferSize : Nat) (s : FStream) (number : Aeu n) : Exec (Ends FStream) :=
  let base := streamBase s.os.basefield
  Ends.andThen (streamHeadX s) fun s => do
    let z ← isZero number
    if z then .ok (s.putX [48]) else
      if base = 16#32 then streamHexX s number
      else streamDigitsX cfg bufferSize base s number

/-- `readBinary(is, bigEndian)` (Aeu.h:1437-1447), on a stream that throws when it fails: the bytes read so far
are in the object, the exception passes through. -/
def readBinaryX (host : Host) (this : Aeu n) (is : IStream) (bigEndian : Bool) :
    Exec (Ends (Aeu n × IStream)) := do
  let cleared := this.map fun _ => (0 : Block)   -- `blocks = {}`
  let r ← forUpC 0 n (cleared, is) fun i (this, is) => do
    let b ← rd this (visit n bigEndian i)
    let r := is.read host b
    let this ← wr this (visit n bigEndian i) r.2
    if r.1.fail then .ok (.leave (this, r.1)) else .ok (.next (this, r.1))
  match r with
  | .next s => .ok (.returned s)
  | .leave s => .ok (.threw s)

/-- `writeBinary(os, bigEndian)` (Aeu.h:1456-1465), on a stream that throws when it breaks: the function is
`noexcept`, the program ends. -/
def writeBinaryX (host : Host) (this : Aeu n) (os : BSink) (bigEndian : Bool) : Exec (Ends BSink) := do
  let r ← forUpC 0 n os fun i os => do
    let b ← rd this (visit n bigEndian i)
    let os := os.write [blockByte host b 0, blockByte host b 1, blockByte host b 2, blockByte host b 3]
    if os.fail then .ok (.leave os) else .ok (.next os)
  match r with
  | .next s => .ok (.returned s)
  | .leave s => .ok (.terminated s)

end Aeu

namespace Aesi
variable {n : Nat}

/-- `operator<<` (Aesi.h:1119-1128), on a throwing stream. -/
def streamOutX (cfg : Cfg) (bufferSize : Nat) (s : FStream) (number : Aesi n) : Exec (Ends FStream) :=
  if number.sign ≠ .zero then
    Ends.andThen (.ok (if number.sign = .negative then s.putX [45] else .returned s)) fun s =>
      Aeu.streamOutX cfg bufferSize s number.base
  else .ok (s.putX [48])

end Aesi

/-- One insertion on a throwing stream (Aeu.h:1378-1426, Aesi.h:1119-1128 for the numbers). -/
def Ins.runX (cfg : Cfg) : Ins → FStream → Exec (Ends FStream)
  | num _ buf v, s => Aeu.streamOutX cfg buf s v
  | snum _ buf v, s => Aesi.streamOutX cfg buf s v
  | text t, s => .ok (s.putX t)
  | base b, s => .ok (.returned { s with os := { s.os with basefield := b } })
  | showbase on, s => .ok (.returned { s with os := { s.os with showbase := on } })
  | uppercase on, s => .ok (.returned { s with os := { s.os with uppercase := on } })
  | adjust a, s => .ok (.returned { s with os := { s.os with adjust := a } })
  | fill c, s => .ok (.returned { s with os := { s.os with fill := c } })
  | width w, s => .ok (.returned { s with os := { s.os with width := w } })

/-- `os << x1 << x2 << ...` on a throwing stream (each a call of Aeu.h:1378, Aesi.h:1119 or the library). -/
def printAllX (cfg : Cfg) : List Ins → FStream → Exec (Ends FStream)
  | [], s => .ok (.returned s)
  | i :: is, s => Ends.andThen (i.runX cfg s) (printAllX cfg is)

end AesiMP
