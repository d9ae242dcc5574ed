import Verif.Model.Aesi

/-!
# Reference parameters: objects at addresses

The functions of `Aeu.h`/`Aesi.h` that write through a reference parameter, with all objects in one
heap, so that the arguments may be the same object.  Every read sees the writes before it.  Locals
and temporaries have no address here: no reference argument can denote them.
-/

namespace AesiMP
open Aeu

/-- The caller's objects of one precision, by address. -/
abbrev Heap (n : Nat) := Nat → Aeu n

/-- Assignment to the object at `p`. -/
def Heap.put {n : Nat} (h : Heap n) (p : Nat) (v : Aeu n) : Heap n := fun i => if i = p then v else h i

namespace Alias
variable {n : Nat}

/-- `addLine(blockLine& dst, const blockLine& src)` (Aeu.h:113-120). -/
def addLine (h : Heap n) (dst src : Nat) : Exec (Heap n × U64) :=
  forUp 0 n (h, (0#64 : U64)) fun i (h, carryOut) => do
    let d ← rd (h dst) i
    let s ← rd (h src) i
    let sum := toU64 d + toU64 s + carryOut
    let line ← wr (h dst) i (toBlock (sum % blockBase))
    .ok (h.put dst line, sum / blockBase)

/-- `operator+=(Aeu&, const Aeu&)` (Aeu.h:377-379). -/
def addAssign (h : Heap n) (addition addendum : Nat) : Exec (Heap n) := do
  let r ← addLine h addition addendum
  .ok r.1

/-- `operator-=(Aeu&, const Aeu&)` (Aeu.h:401-403): `-subtrahend` is a temporary. -/
def subAssign (h : Heap n) (subtraction subtrahend : Nat) : Exec (Heap n) := do
  let m ← Aeu.neg (h subtrahend)
  let r ← Aeu.addLine (h subtraction) m
  .ok (h.put subtraction r.1)

/-- `operator*=(Aeu&, const Aeu&)` (Aeu.h:477-507): the product is built in a local buffer and
assigned at the end. -/
def mulAssign (h : Heap n) (multiplication factor : Nat) : Exec (Heap n) := do
  let thisLength ← filledBlocksNumber (h multiplication)
  let valueLength ← filledBlocksNumber (h factor)
  if thisLength > valueLength then do
    let r ← multiplyLines (h multiplication) thisLength (h factor) valueLength
    .ok (h.put multiplication r)
  else do
    let r ← multiplyLines (h factor) valueLength (h multiplication) thisLength
    .ok (h.put multiplication r)

/-- `operator/=` (Aeu.h:531): `division = division / divisor`; the outputs of `divide` are locals of
`operator/` (520-522). -/
def divAssign (cfg : Cfg) (h : Heap n) (division divisor : Nat) : Exec (Heap n) := do
  let r ← Aeu.div cfg (h division) (h divisor)
  .ok (h.put division r)

/-- `operator%=` (Aeu.h:553-555). -/
def modAssign (cfg : Cfg) (h : Heap n) (modulation modulo : Nat) : Exec (Heap n) := do
  let r ← Aeu.mod cfg (h modulation) (h modulo)
  .ok (h.put modulation r)

/-- The loop of `operator^=`, `operator&=`, `operator|=` (Aeu.h:590-594, 613-617, 636-640). -/
def bitwiseAssign (f : Block → Block → Block) (h : Heap n) (left right : Nat) : Exec (Heap n) :=
  forUp 0 n h fun i h => do
    let l ← rd (h left) i
    let r ← rd (h right) i
    let line ← wr (h left) i (f l r)
    .ok (h.put left line)

/-- `a.swap(b)` (Aeu.h:1072-1074). -/
def swap (h : Heap n) (this other : Nat) : Heap n :=
  let t := h other
  let h := h.put other (h this)
  h.put this t

/-- `divide(number, divisor, quotient, remainder)` (Aeu.h:1087-1105). -/
def divide (cfg : Cfg) (h : Heap n) (number divisor quotient remainder : Nat) : Exec (Heap n) := do
  let ratio ← compareTo cfg (h number) (h divisor)
  let h := h.put quotient (zero n)
  let h := h.put remainder (zero n)
  match ratio with
  | .greater => do
    let f ← filledBlocksNumber (h number)
    let bitsUsed := f * 32
    forDown bitsUsed 0 h fun i h => do
      let r ← shl (h remainder) 1
      let h := h.put remainder r
      let bit ← getBit cfg (h number) i
      let r ← setBit cfg (h remainder) 0 bit
      let h := h.put remainder r
      let g ← ge cfg (h remainder) (h divisor)
      if g then do
        let h ← subAssign h remainder divisor
        let q ← setBit cfg (h quotient) i true
        .ok (h.put quotient q)
      else .ok h
  | .less => .ok (h.put remainder (h number))
  | _ => do
    let one ← ofUnsigned n (1#32)
    .ok (h.put quotient one)

/-- `gcd(first, second, bezoutX, bezoutY)` (Aeu.h:1127-1153), the inputs and the Bézout outputs in the
heap; returns the gcd. -/
def gcdExt (cfg : Cfg) (h : Heap n) (first second bezoutX bezoutY : Nat) : Exec (Aeu n × Heap n) := do
  let ratio ← compareTo cfg (h first) (h second)
  let gcd := if ratio = .greater then h second else h first
  let qr ← if ratio = .greater then Aeu.divide cfg (h first) (h second)
    else Aeu.divide cfg (h second) (h first)
  let zero ← ofUnsigned n (0#32)
  let h := h.put bezoutX zero
  let one ← ofUnsigned n (1#32)
  let h := h.put bezoutY one
  let tX ← ofUnsigned n (1#32)
  let tY ← ofUnsigned n (0#32)
  let r ← whileC (2 ^ (32 * n) + 1) (gcd, qr.1, qr.2, h, tX, tY)
    fun (gcd, quotient, remainder, h, tX, tY) => do
      let z ← eqNarrow remainder (0#32)
      if z then .ok (.leave (gcd, h)) else do
        let tGcd := gcd
        let gcd := remainder
        let t := h bezoutX
        let p ← Aeu.mul quotient (h bezoutX)
        let d ← Aeu.sub tX p
        let h := h.put bezoutX d
        let tX := t
        let t := h bezoutY
        let p ← Aeu.mul quotient (h bezoutY)
        let d ← Aeu.sub tY p
        let h := h.put bezoutY d
        let tY := t
        let qr ← Aeu.divide cfg tGcd gcd
        .ok (.next (gcd, qr.1, qr.2, h, tX, tY))
  let (gcd, h) := r
  if ratio ≠ .greater then .ok (gcd, swap h bezoutX bezoutY)
  else .ok (gcd, h)

end Alias

/-- The caller's `Aesi` objects: the two data members of each. -/
structure SHeap (n : Nat) where
  sign : Nat → Sign
  base : Heap n

namespace SHeap
variable {n : Nat}

/-- The object at `p`. -/
def obj (h : SHeap n) (p : Nat) : Aesi n := ⟨h.sign p, h.base p⟩
/-- Assignment to the member `sign` of the object at `p`. -/
def setSign (h : SHeap n) (p : Nat) (s : Sign) : SHeap n :=
  { h with sign := fun i => if i = p then s else h.sign i }
/-- Assignment to the member `base`. -/
def setBase (h : SHeap n) (p : Nat) (v : Aeu n) : SHeap n := { h with base := h.base.put p v }
/-- Assignment to the whole object. -/
def put (h : SHeap n) (p : Nat) (v : Aesi n) : SHeap n := (h.setSign p v.sign).setBase p v.base

end SHeap

namespace SAlias
open SHeap
variable {n : Nat}

/-- `inverse` of the object at `p` (Aesi.h:927-930). -/
def inverse (h : SHeap n) (p : Nat) : SHeap n :=
  h.setSign p (match h.sign p with
    | .zero => .zero
    | .negative => .positive
    | .positive => .negative)

/-- `if(p.base.isZero()) p.sign = Zero;`. -/
def normalise (h : SHeap n) (p : Nat) : Exec (SHeap n) := do
  let z ← Aeu.isZero (h.base p)
  .ok (if z then h.setSign p .zero else h)

/-- The `switch(lBase.compareTo(rBase))` of Aesi.h:281-297, 300-316, 351-367 and 378-394. -/
def subMagnitude (cfg : Cfg) (h : SHeap n) (l r : Nat) (other : Sign) : Exec (SHeap n) := do
  let c ← Aeu.compareTo cfg (h.base l) (h.base r)
  match c with
  | .greater => do
    let base ← Alias.subAssign h.base l r
    .ok { h with base := base }
  | .less => do
    let base ← Aeu.sub (h.base r) (h.base l)
    let h := h.setBase l base
    .ok (h.setSign l other)
  | _ => .ok (h.setSign l .zero)

/-- `operator+=` (Aesi.h:265-318). -/
def addAssign (cfg : Cfg) (h : SHeap n) (l r : Nat) : Exec (SHeap n) :=
  if h.sign r = .zero then .ok h
  else if h.sign l = .zero then .ok (h.put l (h.obj r))
  else if h.sign l = h.sign r then do
    let base ← Alias.addAssign h.base l r
    .ok { h with base := base }
  else if h.sign l = .positive then subMagnitude cfg h l r .negative
  else subMagnitude cfg h l r .positive

/-- `operator-=` (Aesi.h:335-395). -/
def subAssign (cfg : Cfg) (h : SHeap n) (l r : Nat) : Exec (SHeap n) :=
  if h.sign r = .zero then .ok h
  else if h.sign l = .zero then
    let h := h.put l (h.obj r)
    .ok (inverse h l)
  else if h.sign l = .positive then
    if h.sign r = .positive then subMagnitude cfg h l r .negative
    else do
      let base ← Alias.addAssign h.base l r
      .ok { h with base := base }
  else
    if h.sign r = .negative then subMagnitude cfg h l r .positive
    else do
      let base ← Alias.addAssign h.base l r
      .ok { h with base := base }

/-- `operator*=(Aesi&, const Aesi&)` (Aesi.h:446-456). -/
def mulAssign (h : SHeap n) (l r : Nat) : Exec (SHeap n) :=
  if h.sign r = .zero then .ok (h.setSign l .zero)
  else do
    let h := if h.sign r = .negative then inverse h l else h
    let base ← Alias.mulAssign h.base l r
    .ok { h with base := base }

/-- `operator/=(Aesi&, const Aesi&)` (Aesi.h:514-526). -/
def divAssign (cfg : Cfg) (h : SHeap n) (l r : Nat) : Exec (SHeap n) :=
  if h.sign r = .zero then .ok (h.setSign l .zero)
  else do
    let h := if h.sign r = .negative then inverse h l else h
    let base ← Alias.divAssign cfg h.base l r
    normalise { h with base := base } l

/-- `operator%=(Aesi&, const Aesi&)` (Aesi.h:584-594). -/
def modAssign (cfg : Cfg) (h : SHeap n) (l r : Nat) : Exec (SHeap n) :=
  if h.sign r = .zero then .ok h
  else do
    let h := if h.sign r = .negative then inverse h l else h
    let base ← Alias.modAssign cfg h.base l r
    normalise { h with base := base } l

/-- `a.swap(b)` (Aesi.h:918-921). -/
def swap (h : SHeap n) (this other : Nat) : SHeap n :=
  let tSign := h.sign this
  let h := h.setSign this (h.sign other)
  let h := h.setSign other tSign
  { h with base := Alias.swap h.base this other }

/-- `divide(number, divisor, quotient, remainder)` (Aesi.h:942-975). -/
def divide (cfg : Cfg) (h : SHeap n) (number divisor quotient remainder : Nat) : Exec (SHeap n) :=
  if h.sign number = .zero ∨ h.sign divisor = .zero then
    .ok ((h.setSign quotient .zero).setSign remainder .zero)
  else do
    let base ← Alias.divide cfg h.base number divisor quotient remainder
    let h : SHeap n := { h with base := base }
    let h :=
      if h.sign number = .positive then
        if h.sign divisor = .positive then
          (h.setSign quotient .positive).setSign remainder .positive
        else (h.setSign quotient .negative).setSign remainder .positive
      else
        if h.sign divisor = .positive then
          (h.setSign quotient .negative).setSign remainder .negative
        else (h.setSign quotient .positive).setSign remainder .negative
    let h ← normalise h quotient
    normalise h remainder

end SAlias
end AesiMP
