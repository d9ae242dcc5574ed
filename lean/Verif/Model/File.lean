import Verif.Model.BinIO

/-!
# A client: several numbers in one binary file

A program that writes numbers of any precisions one after another into one stream with `writeBinary` and
reads them back with `readBinary` (the use README describes for binary streams).
-/

namespace AesiMP

/-- An object together with its precision and the flag used for it. -/
structure Rec where
  blocks : Nat
  bigEndian : Bool
  value : Aeu blocks

/-- `for(const auto& r: records) r.value.writeBinary(os, r.bigEndian)` (Aeu.h:1456-1465 for each). -/
def writeAll (host : Host) : List Rec → BSink → Exec BSink
  | [], os => .ok os
  | r :: rs, os => do
    let os ← Aeu.writeBinary host r.value os r.bigEndian
    writeAll host rs os

/-- `for(auto& r: records) r.value.readBinary(is, r.bigEndian)` (Aeu.h:1437-1447 for each): the objects keep
their precisions and flags, their previous values are overwritten. -/
def readAll (host : Host) : List Rec → IStream → Exec (List Rec × IStream)
  | [], is => .ok ([], is)
  | r :: rs, is => do
    let x ← Aeu.readBinary host r.value is r.bigEndian
    let y ← readAll host rs x.2
    .ok (⟨r.blocks, r.bigEndian, x.1⟩ :: y.1, y.2)

end AesiMP
