import Verif.Model.Aeu

/-!
# Model of binary input and output (`Aeu.h`:1428-1463)

Streams of `char` only: for `wchar_t` the code passes a `char*` to a function taking `wchar_t*` and
does not compile.
-/

namespace AesiMP

/-- Byte order of the host. -/
inductive Host where
  | little | big
deriving DecidableEq, Repr

/-- Object representation of a block: byte `k` in memory (k < 4). -/
def blockByte (host : Host) (b : Block) (k : Nat) : BitVec 8 :=
  match host with
  | .little => b.extractLsb' (8 * k) 8
  | .big => b.extractLsb' (8 * (3 - k)) 8

/-- Store byte `k` of a block in memory. -/
def storeByte (host : Host) (b : Block) (k : Nat) (v : BitVec 8) : Block :=
  let s := match host with | .little => 8 * k | .big => 8 * (3 - k)
  (b &&& ~~~(0xff#32 <<< s)) ||| (v.setWidth 32 <<< s)

/-- An input stream: the bytes not yet read and the fail state. -/
structure IStream where
  data : List (BitVec 8)
  fail : Bool
deriving DecidableEq, Repr

/-- `is.read(reinterpret_cast<char*>(&block), sizeof(block))`: stores the bytes available, up to four;
fails if there are fewer; does nothing if the stream has already failed. -/
def IStream.read (host : Host) (is : IStream) (b : Block) : IStream × Block :=
  if is.fail then (is, b)
  else
    let k := min is.data.length 4
    ({ data := is.data.drop k, fail := is.data.length < 4 },
      (List.range k).foldl (fun b j => storeByte host b j (is.data.getD j 0)) b)

/-- An output stream: the bytes written, the number of bytes it still accepts before it breaks, the
fail state. -/
structure BSink where
  out : List (BitVec 8)
  room : Nat
  fail : Bool
deriving DecidableEq, Repr

/-- `os.write(bytes, 4)`: the stream may accept only part of them and then fails. -/
def BSink.write (os : BSink) (bytes : List (BitVec 8)) : BSink :=
  if os.fail then os
  else { out := os.out ++ bytes.take os.room, room := os.room - bytes.length,
         fail := os.room < bytes.length }

namespace Aeu
variable {n : Nat}

/-- The block visited in the `i`-th iteration: `rbegin()..rend()` or `begin()..end()`. -/
def visit (n : Nat) (bigEndian : Bool) (i : Nat) : Nat := if bigEndian then n - 1 - i else i

/-- `readBinary(is, bigEndian)` (Aeu.h:1437-1447). -/
def readBinary (host : Host) (this : Aeu n) (is : IStream) (bigEndian : Bool) :
    Exec (Aeu n × IStream) := do
  let cleared := this.map fun _ => (0 : Block)   -- `blocks = {}`
  let r ← forUpC 0 n (cleared, is) fun i (this, is) => do
    let b ← rd this (visit n bigEndian i)
    let r := is.read host b
    let this ← wr this (visit n bigEndian i) r.2
    if r.1.fail then .ok (.leave (this, r.1)) else .ok (.next (this, r.1))
  match r with
  | .next s => .ok s
  | .leave s => .ok s

/-- `writeBinary(os, bigEndian)` (Aeu.h:1456-1465). -/
def writeBinary (host : Host) (this : Aeu n) (os : BSink) (bigEndian : Bool) : Exec BSink := do
  let r ← forUpC 0 n os fun i os => do
    let b ← rd this (visit n bigEndian i)
    let os := os.write [blockByte host b 0, blockByte host b 1, blockByte host b 2, blockByte host b 3]
    if os.fail then .ok (.leave os) else .ok (.next os)
  match r with
  | .next s => .ok s
  | .leave s => .ok s

end Aeu
end AesiMP
