import Verif.Model.Aesi

/-!
# Objects declared without initialiser

`Aeu a;` leaves the blocks indeterminate (the default constructor, Aeu.h:142, is defaulted and `blocks`,
103, has no initialiser), `Aesi a;` the sign as well (Aesi.h:66-82).  Reading such a block or sign is the
outcome `uninitialised`.  This file models again, on storage that may be unwritten, those functions of the
library that declare such objects or are documented to write into the caller's.  Whole objects are read
with `load`, which needs every block written.
-/

namespace AesiMP

/-- The storage of an `Aeu`: `none` is a block never written (Aeu.h:103). -/
abbrev Raw (n : Nat) := Vector (Option Block) n

namespace Raw
variable {n : Nat}

/-- `Aeu a;` (Aeu.h:142). -/
def fresh (n : Nat) : Raw n := Vector.replicate n none

/-- The storage after an assignment `a = value` (Aeu.h:158). -/
def store (value : Aeu n) : Raw n := value.map some

/-- Reading one block. -/
def rdI (a : Raw n) (i : Nat) : Exec Block := do
  match ← rd a i with
  | some b => .ok b
  | none => .error .uninitialised

/-- Reading the whole object, as its copy constructor does (Aeu.h:152). -/
def load (a : Raw n) : Exec (Aeu n) :=
  forUp 0 n (Aeu.zero n) fun i r => do
    let b ← rdI a i
    wr r i b

/-- The integral constructor (Aeu.h:166-176): `blocks` is not initialised before the body. -/
def ofUnsigned {w : Nat} (this : Raw n) (value : BitVec w) : Exec (Raw n) :=
  if value ≠ 0#w then do
    let r ← forUp 0 n (this, value.setWidth 64) fun i (blocks, tValue) => do
      let blocks ← wr blocks i (some (toBlock (tValue % blockBase)))
      .ok (blocks, tValue / blockBase)
    .ok r.1
  else .ok (store (Aeu.zero n))

/-- `operator~` (Aeu.h:566-571) with `Aeu result;` left unwritten; the `return` copies it. -/
def not (x : Aeu n) : Exec (Aeu n) := do
  let result ← forUp 0 n (fresh n) fun i result => do
    let b ← rd x i
    wr result i (some (~~~ b))
  load result

set_option linter.unusedVariables false in
/-- `divide(number, divisor, quotient, remainder)` (Aeu.h:1087-1105) on the storage of the outputs. -/
def divide (cfg : Cfg) (number divisor : Aeu n) (quotient remainder : Raw n) : Exec (Raw n × Raw n) := do
  let ratio ← Aeu.compareTo cfg number divisor
  let quotient : Raw n := store (Aeu.zero n)
  let remainder : Raw n := store (Aeu.zero n)
  match ratio with
  | .greater => do
    let f ← Aeu.filledBlocksNumber number
    let bitsUsed := f * 32
    forDown bitsUsed 0 (quotient, remainder) fun i (quotient, remainder) => do
      let r ← load remainder
      let r ← Aeu.shl r 1
      let remainder := store r
      let bit ← Aeu.getBit cfg number i
      let r ← load remainder
      let r ← Aeu.setBit cfg r 0 bit
      let remainder := store r
      let r ← load remainder
      let g ← Aeu.ge cfg r divisor
      if g then do
        let r ← load remainder
        let r ← Aeu.sub r divisor
        let q ← load quotient
        let q ← Aeu.setBit cfg q i true
        .ok (store q, store r)
      else .ok (quotient, remainder)
  | .less => .ok (quotient, store number)
  | _ => do
    let one ← Aeu.ofUnsigned n (1#32)
    .ok (store one, remainder)

/-- `operator/` (Aeu.h:520-522): `Aeu quotient, _;`. -/
def div (cfg : Cfg) (x y : Aeu n) : Exec (Aeu n) := do
  let r ← divide cfg x y (fresh n) (fresh n)
  load r.1

/-- `operator%` (Aeu.h:543-545): `Aeu _, remainder;`. -/
def mod (cfg : Cfg) (x y : Aeu n) : Exec (Aeu n) := do
  let r ← divide cfg x y (fresh n) (fresh n)
  load r.2

/-- `gcd(first, second)` (Aeu.h:1162-1180): `Aeu gcd, quotient, remainder;`. -/
def gcd (cfg : Cfg) (first second : Aeu n) : Exec (Aeu n) := do
  let ratio ← Aeu.compareTo cfg first second
  let gcd := if ratio = .greater then store second else store first
  let qr ← if ratio = .greater then divide cfg first second (fresh n) (fresh n)
    else divide cfg second first (fresh n) (fresh n)
  whileC (2 ^ (32 * n) + 1) (gcd, qr.1, qr.2) fun (gcd, quotient, remainder) => do
    let r ← load remainder
    let z ← Aeu.eqNarrow r (0#32)
    if z then do
      let g ← load gcd
      .ok (.leave g)
    else do
      let tGcd ← load gcd
      let g ← load remainder
      let qr ← divide cfg tGcd g quotient remainder
      .ok (.next (store g, qr.1, qr.2))

set_option linter.unusedVariables false in
/-- Extended `gcd` (Aeu.h:1127-1153) on the storage of `bezoutX`, `bezoutY`; `Aeu gcd, quotient,
remainder;`.  Returns the result and the storage of the two outputs. -/
def gcdExt (cfg : Cfg) (first second : Aeu n) (bezoutX bezoutY : Raw n) : Exec (Aeu n × Raw n × Raw n) := do
  let ratio ← Aeu.compareTo cfg first second
  let gcd := if ratio = .greater then store second else store first
  let qr ← if ratio = .greater then divide cfg first second (fresh n) (fresh n)
    else divide cfg second first (fresh n) (fresh n)
  let x0 ← Aeu.ofUnsigned n (0#32)
  let y0 ← Aeu.ofUnsigned n (1#32)
  let tX ← Aeu.ofUnsigned n (1#32)
  let tY ← Aeu.ofUnsigned n (0#32)
  let bezoutX : Raw n := store x0
  let bezoutY : Raw n := store y0
  let r ← whileC (2 ^ (32 * n) + 1) (gcd, qr.1, qr.2, bezoutX, bezoutY, tX, tY)
    fun (gcd, quotient, remainder, bezoutX, bezoutY, tX, tY) => do
      let r ← load remainder
      let z ← Aeu.eqNarrow r (0#32)
      if z then .ok (.leave (gcd, bezoutX, bezoutY)) else do
        let tGcd ← load gcd
        let g ← load remainder
        let q ← load quotient
        let t ← load bezoutX
        let p ← Aeu.mul q t
        let x ← Aeu.sub tX p
        let tX := t
        let t ← load bezoutY
        let p ← Aeu.mul q t
        let y ← Aeu.sub tY p
        let tY := t
        let qr ← divide cfg tGcd g quotient remainder
        .ok (.next (store g, qr.1, qr.2, store x, store y, tX, tY))
  let (gcd, bezoutX, bezoutY) := r
  if ratio ≠ .greater then do
    let x ← load bezoutX
    let y ← load bezoutY
    let s := Aeu.swap x y
    let g ← load gcd
    .ok (g, store s.1, store s.2)
  else do
    let g ← load gcd
    .ok (g, bezoutX, bezoutY)

set_option linter.unusedVariables false in
/-- `squareRoot` (Aeu.h:1256-1265): `Aeu x, y = ...;`, `x` unwritten until the loop. -/
def squareRoot (cfg : Cfg) (this : Aeu n) : Exec (Aeu n) := do
  let bc ← Aeu.bitCount this
  let y ← Aeu.power2 cfg n ((bc + 1) / 2)
  whileC (2 ^ (32 * n) + 1) (fresh n, y) fun (x, y) => do
    let x : Raw n := store y
    let xv ← load x
    let q ← div cfg this xv
    let s ← Aeu.add xv q
    let y ← Aeu.shr s 1
    let l ← Aeu.lt cfg y xv
    if l then .ok (.next (x, y)) else do
      let r ← load x
      .ok (.leave r)

end Raw

/-- The storage of an `Aesi` (Aesi.h:66-73); `Aesi a;` is `⟨none, Raw.fresh n⟩`. -/
structure RawS (n : Nat) where
  sign : Option Sign
  base : Raw n

namespace RawS
variable {n : Nat}

/-- `Aesi a;` (Aesi.h:82). -/
def fresh (n : Nat) : RawS n := ⟨none, Raw.fresh n⟩

/-- The storage of an initialised object. -/
def store (a : Aesi n) : RawS n := ⟨some a.sign, Raw.store a.base⟩

/-- Reading the sign. -/
def rdSign (a : RawS n) : Exec Sign :=
  match a.sign with
  | some s => .ok s
  | none => .error .uninitialised

/-- Copying the object (Aesi.h:92) reads the sign and every block. -/
def load (a : RawS n) : Exec (Aesi n) := do
  let s ← rdSign a
  let b ← Raw.load a.base
  .ok ⟨s, b⟩

/-- `isOdd` (Aesi.h:863). -/
def isOdd (a : RawS n) : Exec Bool := do
  let b ← Raw.rdI a.base 0
  .ok ((1#32 &&& b) == 1#32)

/-- `isZero` (Aesi.h:877). -/
def isZero (a : RawS n) : Exec Bool := do
  let s ← rdSign a
  .ok (s == .zero)

/-- `divide` (Aesi.h:942-974) on the storage of the outputs. -/
def divide (cfg : Cfg) (number divisor : Aesi n) (quotient remainder : RawS n) : Exec (RawS n × RawS n) :=
  if number.sign = .zero ∨ divisor.sign = .zero then
    .ok ({ quotient with sign := some .zero }, { remainder with sign := some .zero })
  else do
    let qr ← Raw.divide cfg number.base divisor.base quotient.base remainder.base
    let signs : Sign × Sign :=
      if number.sign = .positive then
        if divisor.sign = .positive then (.positive, .positive) else (.negative, .positive)
      else
        if divisor.sign = .positive then (.negative, .negative) else (.positive, .negative)
    let q ← Raw.load qr.1
    let zq ← Aeu.isZero q
    let r ← Raw.load qr.2
    let zr ← Aeu.isZero r
    .ok (⟨some (if zq then .zero else signs.1), qr.1⟩, ⟨some (if zr then .zero else signs.2), qr.2⟩)

end RawS
end AesiMP
