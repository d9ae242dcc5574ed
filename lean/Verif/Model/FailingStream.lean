import Verif.Model.Aesi

/-!
# Text output to a stream that breaks

`Model/Text.lean` models the insertion operators on a stream that accepts every character. Here the same
operators write to a stream whose buffer accepts only `room` more characters (disk full, closed pipe): an
insertion that does not fit writes what fits and sets `badbit`, after which insertions do nothing (the
sentry of every formatted output function fails) while manipulators, `fill` and `width` still act.
-/

namespace AesiMP

/-- An output stream whose buffer takes `room` more characters. `os` is the formatting state and the
characters that got through. -/
structure FStream where
  os : OStream
  room : Nat
  bad : Bool
deriving DecidableEq, Repr

namespace FStream

/-- Insertion of a formatted item, padded as in `OStream.put` (standard library, [ostream.formatted]). -/
def put (s : FStream) (item : List Int) : FStream :=
  if s.bad then s else
    let pad := List.replicate (s.os.width - item.length) s.os.fill
    let text := if s.os.adjust = .left then item ++ pad else pad ++ item
    { os := { s.os with width := 0, out := s.os.out ++ text.take s.room },
      room := s.room - text.length, bad := decide (s.room < text.length) }

/-- Insertion of a character or a C string. -/
def putText (s : FStream) (text : List Int) : FStream := s.put text

/-- Insertion of an `unsigned int` when `basefield` is `hex` and `showbase` is off. -/
def putHex (s : FStream) (v : Block) : FStream := s.put (Aeu.hexText s.os.uppercase v)

end FStream

namespace Aeu
variable {n : Nat}

/-- The prefix and `std::noshowbase` (Aeu.h:1381-1392), on a stream that may break. -/
def streamHeadF (s : FStream) : FStream :=
  if s.os.showbase ∧ streamBase s.os.basefield ≠ 10#32 then
    let s := s.putText (if streamBase s.os.basefield = 8#32 then [48, 111] else [48, 120])
    { s with os := { s.os with showbase := false } }
  else s

/-- The hexadecimal digits (Aeu.h:1397-1406), on a stream that may break. -/
def streamHexF (s : FStream) (number : Aeu n) : Exec FStream := do
  let iter ← scanDown number (n - 1)
  let b ← rd number iter
  forDown iter 0 (s.putHex b) fun iter s => do
    let b ← rd number iter
    .ok (({ s with os := { s.os with fill := 48, width := 8, adjust := .right } } : FStream).putHex b)

/-- The decimal or octal digits (Aeu.h:1407-1422), on a stream that may break. -/
def streamDigitsF (cfg : Cfg) (bufferSize : Nat) (base : BitVec 32) (s : FStream) (number : Aeu n) :
    Exec FStream := do
  let r ← whileC (bufferSize + 1) (number, Vector.replicate bufferSize (0 : Int), 0)
    fun (copy, buffer, filled) => do
      let z ← isZero copy
      if !z && filled < bufferSize then do
        let b ← ofUnsigned n base
        let qr ← divide cfg copy b
        let d ← integralCast .u8 qr.2
        let buffer ← wr buffer filled (48 + d)
        .ok (.next (qr.1, buffer, filled + 1))
      else .ok (.leave (buffer, filled))
  forDown r.2 0 s fun i s => do
    let c ← rd r.1 i
    .ok (s.putText [c])

/-- `operator<<(std::basic_ostream<Char>&, const Aeu&)` (Aeu.h:1378-1426), on a stream that may break. -/
def streamOutF (cfg : Cfg) (bufferSize : Nat) (s : FStream) (number : Aeu n) : Exec FStream := do
  let base := streamBase s.os.basefield
  let s := streamHeadF s
  let z ← isZero number
  if z then .ok (s.putText [48]) else
    if base = 16#32 then streamHexF s number
    else streamDigitsF cfg bufferSize base s number

end Aeu

namespace Aesi
variable {n : Nat}

/-- `operator<<` (Aesi.h:1119-1128), on a stream that may break. -/
def streamOutF (cfg : Cfg) (bufferSize : Nat) (s : FStream) (number : Aesi n) : Exec FStream :=
  if number.sign ≠ .zero then
    let s := if number.sign = .negative then s.putText [45] else s
    Aeu.streamOutF cfg bufferSize s number.base
  else .ok (s.putText [48])

end Aesi

/-- One `<<` of a client's output statement: a number of any precision, text, or a manipulator. -/
inductive Ins where
  | num (blocks bufferSize : Nat) (value : Aeu blocks)
  | snum (blocks bufferSize : Nat) (value : Aesi blocks)
  | text (t : List Int)
  | base (b : BaseField)
  | showbase (on : Bool)
  | uppercase (on : Bool)
  | adjust (a : Adjust)
  | fill (c : Int)
  | width (w : Nat)

namespace Ins

/-- The insertion on a healthy stream (Aeu.h:1378-1426, Aesi.h:1119-1128 for the numbers). -/
def run (cfg : Cfg) : Ins → OStream → Exec OStream
  | num _ buf v, os => Aeu.streamOut cfg buf os v
  | snum _ buf v, os => Aesi.streamOut cfg buf os v
  | text t, os => .ok (os.putText t)
  | base b, os => .ok { os with basefield := b }
  | showbase on, os => .ok { os with showbase := on }
  | uppercase on, os => .ok { os with uppercase := on }
  | adjust a, os => .ok { os with adjust := a }
  | fill c, os => .ok { os with fill := c }
  | width w, os => .ok { os with width := w }

/-- The same insertion on a stream that may break. -/
def runF (cfg : Cfg) : Ins → FStream → Exec FStream
  | num _ buf v, s => Aeu.streamOutF cfg buf s v
  | snum _ buf v, s => Aesi.streamOutF cfg buf s v
  | text t, s => .ok (s.putText t)
  | base b, s => .ok { s with os := { s.os with basefield := b } }
  | showbase on, s => .ok { s with os := { s.os with showbase := on } }
  | uppercase on, s => .ok { s with os := { s.os with uppercase := on } }
  | adjust a, s => .ok { s with os := { s.os with adjust := a } }
  | fill c, s => .ok { s with os := { s.os with fill := c } }
  | width w, s => .ok { s with os := { s.os with width := w } }

end Ins

/-- `os << x1 << x2 << ...` (each a call of Aeu.h:1378, Aesi.h:1119 or the standard library). -/
def printAll (cfg : Cfg) : List Ins → OStream → Exec OStream
  | [], os => .ok os
  | i :: is, os => do let os ← i.run cfg os; printAll cfg is os

/-- The same on a stream that may break. -/
def printAllF (cfg : Cfg) : List Ins → FStream → Exec FStream
  | [], s => .ok s
  | i :: is, s => do let s ← i.runF cfg s; printAllF cfg is s

end AesiMP
