import Verif.Model.BinIO

/-!
# Clients: a number carried from one machine to another

A file written by `writeBinary` on one machine and read by `readBinary` on another one, whose byte order may differ, and
the same done byte by byte with `getByte` and `setByte` (client code over the library's calls).
-/

namespace AesiMP
namespace Client
variable {n : Nat}

/-- `a.writeBinary(file, flag1)` on one machine, `old.readBinary(file, flag2)` on another one (Aeu.h:1437-1465); the file
takes everything. -/
def transfer (host1 : Host) (flag1 : Bool) (host2 : Host) (flag2 : Bool) (a old : Aeu n) : Exec (Aeu n × IStream) := do
  let w ← Aeu.writeBinary host1 a ⟨[], 4 * n, false⟩ flag1
  Aeu.readBinary host2 old ⟨w.out, false⟩ flag2

/-- `for(size_t p = 0; p < size; ++p) bytes.push_back(a.getByte(size - 1 - p))` with `size = bitness / 8`
(Aeu.h:946-953). -/
def exportBytes (cfg : Cfg) (a : Aeu n) : Exec (List (BitVec 8)) :=
  forUp 0 (4 * n) [] fun p bytes => do
    let b ← Aeu.getByte cfg a (4 * n - 1 - p)
    .ok (bytes ++ [b])

/-- `for(size_t p = 0; p < size; ++p) a.setByte(size - 1 - p, bytes.at(p))` (Aeu.h:930-941). -/
def importBytes (cfg : Cfg) (old : Aeu n) (bytes : List (BitVec 8)) : Exec (Aeu n) :=
  forUp 0 (4 * n) old fun p a =>
    match bytes[p]? with
    | none => .error .outOfBounds
    | some b => Aeu.setByte cfg a (4 * n - 1 - p) b

end Client
end AesiMP
