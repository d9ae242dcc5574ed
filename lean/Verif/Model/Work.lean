import Verif.Model.Aeu

/-!
# How much work a call does

The functions of `Aeu.h` once more, with a record of the accesses to single blocks: every `blocks[i]` that is
read or written adds one entry.  Forgetting the record gives the functions of `Model/Aeu.lean` back
(`Lemmas/WorkRun.lean`), so only the placement of the recorded accesses is new here.  Copies of whole objects are
not recorded.
-/

namespace AesiMP

/-- One access to a block: whether it writes, and the index of the block. -/
structure Touch where
  writes : Bool
  index : Nat
deriving DecidableEq, Repr

/-- An execution with the block accesses it made, in order (also when it ends in undefined behaviour). -/
structure Counted (α : Type) where
  trace : List Touch
  run : Exec α

namespace Counted
variable {α β σ ρ : Type}

/-- The number of block accesses. -/
def accesses (x : Counted α) : Nat := x.trace.length

/-- A step without block access. -/
def lift (e : Exec α) : Counted α := ⟨[], e⟩

protected def bind (x : Counted α) (f : α → Counted β) : Counted β :=
  match x.run with
  | .ok a => ⟨x.trace ++ (f a).trace, (f a).run⟩
  | .error e => ⟨x.trace, .error e⟩

instance : Monad Counted where
  pure a := ⟨[], .ok a⟩
  bind := Counted.bind

/-- `blocks[i]` read. -/
def rd {n : Nat} (b : Vector α n) (i : Nat) : Counted α := ⟨[⟨false, i⟩], AesiMP.rd b i⟩
/-- `blocks[i] = v`. -/
def wr {n : Nat} (b : Vector α n) (i : Nat) (v : α) : Counted (Vector α n) :=
  ⟨[⟨true, i⟩], AesiMP.wr b i v⟩

/-- `forUpN` of `Basic.lean`. -/
def forUpN (body : Nat → σ → Counted σ) : (k i : Nat) → σ → Counted σ
  | 0, _, s => pure s
  | k + 1, i, s => do let s' ← body i s; forUpN body k (i + 1) s'
/-- `forUp` of `Basic.lean`. -/
def forUp (lo hi : Nat) (s : σ) (body : Nat → σ → Counted σ) : Counted σ := forUpN body (hi - lo) lo s
/-- `forUpCN` of `Basic.lean`. -/
def forUpCN (body : Nat → σ → Counted (Ctl σ ρ)) : (k i : Nat) → σ → Counted (Ctl σ ρ)
  | 0, _, s => pure (.next s)
  | k + 1, i, s => do
    let c ← body i s
    match c with
    | .next s' => forUpCN body k (i + 1) s'
    | .leave r => pure (.leave r)
/-- `forUpC` of `Basic.lean`. -/
def forUpC (lo hi : Nat) (s : σ) (body : Nat → σ → Counted (Ctl σ ρ)) : Counted (Ctl σ ρ) :=
  forUpCN body (hi - lo) lo s
/-- `forDownN` of `Basic.lean`. -/
def forDownN (lo : Nat) (body : Nat → σ → Counted σ) : (k : Nat) → σ → Counted σ
  | 0, s => pure s
  | k + 1, s => do let s' ← body (lo + k) s; forDownN lo body k s'
/-- `forDown` of `Basic.lean`. -/
def forDown (hi lo : Nat) (s : σ) (body : Nat → σ → Counted σ) : Counted σ := forDownN lo body (hi - lo) s
/-- `forDownCN` of `Basic.lean`. -/
def forDownCN (lo : Nat) (body : Nat → σ → Counted (Ctl σ ρ)) : (k : Nat) → σ → Counted (Ctl σ ρ)
  | 0, s => pure (.next s)
  | k + 1, s => do
    let c ← body (lo + k) s
    match c with
    | .next s' => forDownCN lo body k s'
    | .leave r => pure (.leave r)
/-- `forDownC` of `Basic.lean`. -/
def forDownC (hi lo : Nat) (s : σ) (body : Nat → σ → Counted (Ctl σ ρ)) : Counted (Ctl σ ρ) :=
  forDownCN lo body (hi - lo) s
/-- `whileC` of `Basic.lean`. -/
def whileC (fuel : Nat) (s : σ) (body : σ → Counted (Ctl σ ρ)) : Counted ρ :=
  match fuel with
  | 0 => lift (.error .diverges)
  | k + 1 => do
    let c ← body s
    match c with
    | .next s' => whileC k s' body
    | .leave r => pure r

end Counted

namespace Work
open Aeu
variable {n m : Nat}

/-- `addLine` (Aeu.h:113-120). -/
def addLine (dst src : Aeu n) : Counted (Aeu n × U64) :=
  Counted.forUp 0 n (dst, (0#64 : U64)) fun i (dst, carryOut) => do
    let d ← Counted.rd dst i
    let s ← Counted.rd src i
    let sum := toU64 d + toU64 s + carryOut
    let dst ← Counted.wr dst i (toBlock (sum % blockBase))
    pure (dst, sum / blockBase)

/-- `makeComplement` (Aeu.h:127-134). -/
def makeComplement (line : Aeu n) : Counted (Aeu n × U64) :=
  Counted.forUp 0 n (line, (1#64 : U64)) fun i (line, carryOut) => do
    let b ← Counted.rd line i
    let sum := blockBase - 1#64 - toU64 b + carryOut
    let line ← Counted.wr line i (toBlock (sum % blockBase))
    pure (line, sum / blockBase)

/-- Integral constructor (Aeu.h:166-176). -/
def ofUnsigned (n : Nat) {w : Nat} (value : BitVec w) : Counted (Aeu n) :=
  if value ≠ 0#w then do
    let r ← Counted.forUp 0 n (zero n, value.setWidth 64) fun i (blocks, tValue) => do
      let blocks ← Counted.wr blocks i (toBlock (tValue % blockBase))
      pure (blocks, tValue / blockBase)
    pure r.1
  else pure (zero n)

/-- Unary minus (Aeu.h:287-289). -/
def neg (x : Aeu n) : Counted (Aeu n) := do
  let r ← makeComplement x
  pure r.1

/-- Prefix increment (Aeu.h:295-303). -/
def inc (x : Aeu n) : Counted (Aeu n) := do
  let r ← Counted.forUpC 0 n x fun i x => do
    let b ← Counted.rd x i
    if b < blockMax then do
      let x ← Counted.wr x i (b + 1#32)
      pure (.leave x)
    else do
      let x ← Counted.wr x i 0#32
      pure (.next x)
  match r with
  | .next x => pure x
  | .leave x => pure x

/-- Prefix decrement (Aeu.h:315-323). -/
def dec (x : Aeu n) : Counted (Aeu n) := do
  let r ← Counted.forUpC 0 n x fun i x => do
    let b ← Counted.rd x i
    if b > 0#32 then do
      let x ← Counted.wr x i (b - 1#32)
      pure (.leave x)
    else do
      let x ← Counted.wr x i blockMax
      pure (.next x)
  match r with
  | .next x => pure x
  | .leave x => pure x

/-- `operator+=(Aeu&, Unsigned)` (Aeu.h:362-369). -/
def addBuiltin {w : Nat} (addition : Aeu n) (addendum : BitVec w) : Counted (Aeu n) := do
  let r ← Counted.forUp 0 n (addition, addendum) fun i (x, addendum) => do
    let b ← Counted.rd x i
    let currentSum := toU64 b + addendum.setWidth 64
    let x ← Counted.wr x i (toBlock (currentSum % blockBase))
    pure (x, (currentSum / blockBase).setWidth w)
  pure r.1

/-- `operator+=`, `operator+` (Aeu.h:377-379, 352-354). -/
def add (addition addendum : Aeu n) : Counted (Aeu n) := do
  let r ← addLine addition addendum
  pure r.1

/-- `operator-=`, `operator-` (Aeu.h:401-403, 391-393). -/
def sub (subtraction subtrahend : Aeu n) : Counted (Aeu n) := do
  let m ← neg subtrahend
  add subtraction m

/-- `filledBlocksNumber` (Aeu.h:1048-1052). -/
def filledBlocksNumber (x : Aeu n) : Counted Nat := do
  let r ← Counted.forDownC n 0 () fun i _ => do
    let b ← Counted.rd x i
    if b ≠ 0#32 then pure (.leave (i + 1)) else pure (.next ())
  match r with
  | .next _ => pure 0
  | .leave k => pure k

/-- `mulRow` of `Model/Aeu.lean` (Aeu.h:448-453 and 486-491). -/
def mulRow (buffer : Aeu n) (i : Nat) (tBlock : U64) (digit : Nat → Counted U64)
    (smallerLength : Nat) : Counted (Aeu n × U64) :=
  Counted.forUp 0 (min smallerLength (n - i)) (buffer, (0#64 : U64)) fun j (buffer, carryOut) => do
    let d ← digit j
    let product := tBlock * d + carryOut
    let b ← Counted.rd buffer (i + j)
    let partialSum := toU64 b + product % blockBase
    let carryOut := product / blockBase + partialSum / blockBase
    let buffer ← Counted.wr buffer (i + j) (toBlock (partialSum % blockBase))
    pure (buffer, carryOut)

/-- `operator*=(Aeu&, Unsigned)`, `uint64_t` branch (Aeu.h:440-460). -/
def mulU64 (x : Aeu n) (factor : U64) : Counted (Aeu n) := do
  let longerLength ← filledBlocksNumber x
  let smallerLength := if factor > toU64 blockMax then 2 else 1
  Counted.forUp 0 longerLength (zero n) fun i buffer => do
    let t ← Counted.rd x i
    let r ← mulRow buffer i (toU64 t)
      (fun j => do
        let f ← Counted.lift (shr64 factor (32 * j))
        pure (f &&& 0x00000000ffffffff#64)) smallerLength
    let (buffer, carryOut) := r
    if smallerLength + i < n then do
      let b ← Counted.rd buffer (smallerLength + i)
      Counted.wr buffer (smallerLength + i) (b + toBlock carryOut)
    else pure buffer

/-- `operator*=(Aeu&, Unsigned)`, the other branch (Aeu.h:462-467). -/
def mulNarrow {w : Nat} (x : Aeu n) (factor : BitVec w) : Counted (Aeu n) := do
  let r ← Counted.forUp 0 n (x, (0#64 : U64)) fun i (x, carryOut) => do
    let b ← Counted.rd x i
    let product := factor.setWidth 64 * toU64 b + carryOut
    let x ← Counted.wr x i (toBlock (product % blockBase))
    pure (x, product / blockBase)
  pure r.1

/-- The lambda `multiplyLines` (Aeu.h:478-498). -/
def multiplyLines (longerLine : Aeu n) (longerLength : Nat) (smallerLine : Aeu n)
    (smallerLength : Nat) : Counted (Aeu n) :=
  Counted.forUp 0 longerLength (zero n) fun i buffer => do
    let t ← Counted.rd longerLine i
    let r ← mulRow buffer i (toU64 t)
      (fun j => do
        let s ← Counted.rd smallerLine j
        pure (toU64 s)) smallerLength
    let (buffer, carryOut) := r
    if smallerLength < n ∧ smallerLength + i < n then do
      let b ← Counted.rd buffer (smallerLength + i)
      Counted.wr buffer (smallerLength + i) (b + toBlock carryOut)
    else pure buffer

/-- `operator*=(Aeu&, const Aeu&)`, `operator*` (Aeu.h:477-507, 426-428). -/
def mul (x factor : Aeu n) : Counted (Aeu n) := do
  let thisLength ← filledBlocksNumber x
  let valueLength ← filledBlocksNumber factor
  if thisLength > valueLength then multiplyLines x thisLength factor valueLength
  else multiplyLines factor valueLength x thisLength

/-- `operator~` (Aeu.h:566-571). -/
def not (x : Aeu n) : Counted (Aeu n) :=
  Counted.forUp 0 n (zero n) fun i result => do
    let b ← Counted.rd x i
    Counted.wr result i (~~~ b)

/-- The loop of `operator^=`, `operator&=`, `operator|=` (Aeu.h:590-594, 613-617, 636-640). -/
def bitwiseLoop (f : Block → Block → Block) (left right : Aeu n) : Counted (Aeu n) :=
  Counted.forUp 0 n left fun i left => do
    let l ← Counted.rd left i
    let r ← Counted.rd right i
    Counted.wr left i (f l r)

/-- `operator<<=`, `operator<<` (Aeu.h:662-678, 650-652). -/
def shl (value : Aeu n) (bitShift : Nat) : Counted (Aeu n) :=
  if bitShift ≥ 32 * n ∨ bitShift = 0 then pure value else do
    let quotient := bitShift / 32
    let remainder := bitShift % 32
    let one ← Counted.lift (shl64 1#64 (32 - remainder))
    let stamp := toBlock (one - 1#64)
    let minI := quotient + (if remainder ≠ 0 then 1 else 0)
    let value ← Counted.forDown n minI value fun i value => do
      let a ← Counted.rd value (i - quotient)
      let hiPart ← Counted.lift (shl32 (a &&& stamp) remainder)
      let b ← Counted.rd value (i - quotient - (if remainder ≠ 0 then 1 else 0))
      let loPart ← Counted.lift (shr32 (b &&& ~~~ stamp) ((32 - remainder) % 32))
      Counted.wr value i (hiPart ||| loPart)
    let b0 ← Counted.rd value 0
    let low ← Counted.lift (shl32 (b0 &&& stamp) remainder)
    let value ← Counted.wr value quotient low
    Counted.forUp 0 quotient value fun i value => Counted.wr value i 0#32

/-- `operator>>=`, `operator>>` (Aeu.h:700-714, 688-690). -/
def shr (value : Aeu n) (bitShift : Nat) : Counted (Aeu n) :=
  if bitShift ≥ 32 * n ∨ bitShift = 0 then pure value else do
    let quotient := bitShift / 32
    let remainder := bitShift % 32
    let one ← Counted.lift (shl64 1#64 remainder)
    let stamp := toBlock (one - 1#64)
    let value ← Counted.forUp 0 (n - (quotient + (if remainder ≠ 0 then 1 else 0))) value fun i value => do
      let a ← Counted.rd value (i + quotient + (if remainder ≠ 0 then 1 else 0))
      let hiPart ← Counted.lift (shl32 (a &&& stamp) ((32 - remainder) % 32))
      let b ← Counted.rd value (i + quotient)
      let loPart ← Counted.lift (shr32 (b &&& ~~~ stamp) remainder)
      Counted.wr value i (hiPart ||| loPart)
    let top ← Counted.rd value (n - 1)
    let t ← Counted.lift (shr32 (top &&& ~~~ stamp) remainder)
    let value ← Counted.wr value (n - 1 - quotient) t
    Counted.forUp (n - quotient) n value fun i value => Counted.wr value i 0#32

/-- `operator==(const Aeu&, Unsigned)`, narrow types (Aeu.h:726-729). -/
def eqNarrow {w : Nat} (our : Aeu n) (other : BitVec w) : Counted Bool := do
  let f ← filledBlocksNumber our
  if f ≤ 1 then do
    let b ← Counted.rd our 0
    pure (other.setWidth 32 == b)
  else pure false

/-- `getBlock` (Aeu.h:975-980). -/
def getBlock (cfg : Cfg) (x : Aeu n) (index : Nat) : Counted Block :=
  if !cfg.unsafeMode ∧ index ≥ n then pure 0#32 else Counted.rd x index

/-- `compareTo(const Aeu<otherBitness>&)` (Aeu.h:804-829). -/
def compareTo (cfg : Cfg) (x : Aeu n) (other : Aeu m) : Counted Comparison := do
  let lowerBlockBorder := if n < m then n else m
  let r ← Counted.forDownC lowerBlockBorder 0 () fun i _ => do
    let thisBlock ← Counted.rd x i
    let otherBlock ← getBlock cfg other i
    if thisBlock ≠ otherBlock then
      pure (.leave (if thisBlock > otherBlock then Comparison.greater else .less))
    else pure (.next ())
  match r with
  | .leave c => pure c
  | .next _ =>
    if m ≠ n then do
      if m > n then do
        let r ← Counted.forDownC m lowerBlockBorder () fun i _ => do
          let b ← getBlock cfg other i
          if b ≠ 0#32 then pure (.leave Comparison.less) else pure (.next ())
        match r with
        | .leave c => pure c
        | .next _ => pure .equal
      else if n > m then do
        let r ← Counted.forDownC n lowerBlockBorder () fun i _ => do
          let b ← Counted.rd x i
          if b ≠ 0#32 then pure (.leave Comparison.greater) else pure (.next ())
        match r with
        | .leave c => pure c
        | .next _ => pure .equal
      else pure .equal
    else pure .equal

/-- `x >= y` (Aeu.h:850-862, 842). -/
def ge (cfg : Cfg) (x : Aeu n) (y : Aeu m) : Counted Bool := do
  let c ← compareTo cfg x y
  pure (toOrdering c != .less)

/-- `x < y` (Aeu.h:850-862, 839). -/
def lt (cfg : Cfg) (x : Aeu n) (y : Aeu m) : Counted Bool := do
  let c ← compareTo cfg x y
  pure (toOrdering c == .less)

/-- `setBit` (Aeu.h:896-906). -/
def setBit (cfg : Cfg) (x : Aeu n) (index : Nat) (bit : Bool) : Counted (Aeu n) :=
  if !cfg.unsafeMode ∧ index ≥ 32 * n then pure x else do
    let blockNumber := index / 32
    let bitNumber := index % 32
    Counted.lift (cassert cfg (decide (blockNumber < n ∧ bitNumber < 32)))
    let one ← Counted.lift (shl32 1#32 bitNumber)
    let b ← Counted.rd x blockNumber
    if bit then Counted.wr x blockNumber (b ||| one)
    else Counted.wr x blockNumber (b &&& ~~~ one)

/-- `getBit` (Aeu.h:915-922). -/
def getBit (cfg : Cfg) (x : Aeu n) (index : Nat) : Counted Bool :=
  if !cfg.unsafeMode ∧ index ≥ 32 * n then pure false else do
    let blockNumber := index / 32
    let bitNumber := index % 32
    Counted.lift (cassert cfg (decide (blockNumber < n ∧ bitNumber < 32)))
    let one ← Counted.lift (shl32 1#32 bitNumber)
    let b ← Counted.rd x blockNumber
    pure ((b &&& one) != 0#32)

/-- The scan of Aeu.h:988-990, 1005-1007. -/
def scanDown (x : Aeu n) : (lastBlock : Nat) → Counted Nat
  | 0 => pure 0
  | k + 1 => do
    let b ← Counted.rd x (k + 1)
    if b = 0#32 then scanDown x k else pure (k + 1)

/-- `bitCount` (Aeu.h:1004-1020). -/
def bitCount (x : Aeu n) : Counted Nat := do
  let lastBlock ← scanDown x (n - 1)
  let r ← Counted.forDownC 4 0 () fun byteN _ => do
    let b ← Counted.rd x lastBlock
    let mask ← Counted.lift (shl32 0xff#32 (byteN * 8))
    let byte ← Counted.lift (shr32 (b &&& mask) (byteN * 8))
    if byte = 0#32 then pure (.next ()) else do
      let r ← Counted.lift (AesiMP.forDownC 8 0 () fun bitN _ => do
        let one ← shl32 1#32 bitN
        let v ← shr32 (byte &&& one) bitN
        if v ≠ 0#32 then .ok (.leave ((lastBlock * 4 + byteN) * 8 + bitN + 1)) else .ok (.next ()))
      match r with
      | .leave k => pure (.leave k)
      | .next _ => pure (.leave (((lastBlock - 1) * 4 + byteN) * 8))
  match r with
  | .leave k => pure k
  | .next _ => pure (lastBlock * 4)

/-- `divide` (Aeu.h:1087-1105). -/
def divide (cfg : Cfg) (number divisor : Aeu n) : Counted (Aeu n × Aeu n) := do
  let ratio ← compareTo cfg number divisor
  match ratio with
  | .greater => do
    let f ← filledBlocksNumber number
    let bitsUsed := f * 32
    Counted.forDown bitsUsed 0 (zero n, zero n) fun i (quotient, remainder) => do
      let remainder ← shl remainder 1
      let bit ← getBit cfg number i
      let remainder ← setBit cfg remainder 0 bit
      let g ← ge cfg remainder divisor
      if g then do
        let remainder ← sub remainder divisor
        let quotient ← setBit cfg quotient i true
        pure (quotient, remainder)
      else pure (quotient, remainder)
  | .less => pure (zero n, number)
  | _ => do
    let one ← ofUnsigned n (1#32)
    pure (one, zero n)

/-- `operator/` (Aeu.h:520-531). -/
def div (cfg : Cfg) (x y : Aeu n) : Counted (Aeu n) := do
  let r ← divide cfg x y
  pure r.1

/-- `operator%` (Aeu.h:543-555). -/
def mod (cfg : Cfg) (x y : Aeu n) : Counted (Aeu n) := do
  let r ← divide cfg x y
  pure r.2

/-- `gcd(first, second)` (Aeu.h:1162-1180). -/
def gcdIn (cfg : Cfg) (tests : Nat) (first second : Aeu n) : Counted (Aeu n) := do
  let ratio ← compareTo cfg first second
  let gcd := if ratio = .greater then second else first
  let qr ← if ratio = .greater then divide cfg first second else divide cfg second first
  Counted.whileC tests (gcd, qr.2) fun (gcd, remainder) => do
    let z ← eqNarrow remainder (0#32)
    if z then pure (.leave gcd) else do
      let tGcd := gcd
      let gcd := remainder
      let qr ← divide cfg tGcd gcd
      pure (.next (gcd, qr.2))

/-- `gcd(first, second)` (Aeu.h:1162-1180). -/
def gcd (cfg : Cfg) (first second : Aeu n) : Counted (Aeu n) := gcdIn cfg (2 ^ (32 * n) + 1) first second

/-- Extended `gcd` (Aeu.h:1127-1153). -/
def gcdExtIn (cfg : Cfg) (tests : Nat) (first second : Aeu n) : Counted (Aeu n × Aeu n × Aeu n) := do
  let ratio ← compareTo cfg first second
  let gcd := if ratio = .greater then second else first
  let qr ← if ratio = .greater then divide cfg first second else divide cfg second first
  let bezoutX ← ofUnsigned n (0#32)
  let bezoutY ← ofUnsigned n (1#32)
  let tX ← ofUnsigned n (1#32)
  let tY ← ofUnsigned n (0#32)
  let r ← Counted.whileC tests (gcd, qr.1, qr.2, bezoutX, bezoutY, tX, tY)
    fun (gcd, quotient, remainder, bezoutX, bezoutY, tX, tY) => do
      let z ← eqNarrow remainder (0#32)
      if z then pure (.leave (gcd, bezoutX, bezoutY)) else do
        let tGcd := gcd
        let gcd := remainder
        let t := bezoutX
        let p ← mul quotient bezoutX
        let bezoutX ← sub tX p
        let tX := t
        let t := bezoutY
        let p ← mul quotient bezoutY
        let bezoutY ← sub tY p
        let tY := t
        let qr ← divide cfg tGcd gcd
        pure (.next (gcd, qr.1, qr.2, bezoutX, bezoutY, tX, tY))
  let (gcd, bezoutX, bezoutY) := r
  if ratio ≠ .greater then
    let s := swap bezoutX bezoutY
    pure (gcd, s.1, s.2)
  else pure (gcd, bezoutX, bezoutY)

/-- Extended `gcd` (Aeu.h:1127-1153). -/
def gcdExt (cfg : Cfg) (first second : Aeu n) : Counted (Aeu n × Aeu n × Aeu n) :=
  gcdExtIn cfg (2 ^ (32 * n) + 1) first second

/-- `lcm` (Aeu.h:1189). -/
def lcm (cfg : Cfg) (first second : Aeu n) : Counted (Aeu n) := do
  let g ← gcd cfg first second
  let q ← div cfg first g
  mul q second

/-- `powm<powerBitness>` (Aeu.h:1200-1221). -/
def powmT (cfg : Cfg) (base : Aeu n) (power : Aeu m) (modulo : Aeu n) : Counted (Aeu n) := do
  let e1 ← eqNarrow base (1#32)
  if e1 then pure base else do
    let e0 ← eqNarrow base (0#32)
    if e0 then ofUnsigned n (1#32) else do
      let output ← ofUnsigned n (1#32)
      let qb ← divide cfg base modulo
      Counted.whileC (32 * m + 1) ((0#32 : BitVec 32), output, qb.2) fun (iteration, output, b) => do
        let f ← filledBlocksNumber power
        if f * 32 = iteration.toNat then pure (.leave output) else do
          let bit ← getBit cfg power iteration.toNat
          let output ← if bit then do
              let p ← mul output b
              let qr ← divide cfg p modulo
              pure qr.2
            else pure output
          let p ← mul b b
          let qr ← divide cfg p modulo
          pure (.next (iteration + 1#32, output, qr.2))

/-- `powm` (Aeu.h:1224-1239). -/
def powm (cfg : Cfg) (base power modulo : Aeu n) : Counted (Aeu n) := do
  let output ← ofUnsigned n (1#32)
  let qb ← divide cfg base modulo
  Counted.whileC (32 * n + 1) ((0 : Nat), output, qb.2) fun (iteration, output, b) => do
    let f ← filledBlocksNumber power
    if f * 32 = iteration then pure (.leave output) else do
      let bit ← getBit cfg power iteration
      let output ← if bit then do
          let p ← mul output b
          let qr ← divide cfg p modulo
          pure qr.2
        else pure output
      let p ← mul b b
      let qr ← divide cfg p modulo
      pure (.next (iteration + 1, output, qr.2))

/-- `power2` (Aeu.h:1248). -/
def power2 (cfg : Cfg) (n : Nat) (power : Nat) : Counted (Aeu n) := setBit cfg (zero n) power true

/-- `squareRoot` (Aeu.h:1256-1265). -/
def squareRootIn (cfg : Cfg) (rounds : Nat) (this : Aeu n) : Counted (Aeu n) := do
  let bc ← bitCount this
  let y ← power2 cfg n ((bc + 1) / 2)
  Counted.whileC rounds y fun y => do
    let x := y
    let q ← div cfg this x
    let s ← add x q
    let y ← shr s 1
    let l ← lt cfg y x
    if l then pure (.next y) else pure (.leave x)

/-- `squareRoot` (Aeu.h:1256-1265). -/
def squareRoot (cfg : Cfg) (this : Aeu n) : Counted (Aeu n) := squareRootIn cfg (2 ^ (32 * n) + 1) this

end Work
end AesiMP
