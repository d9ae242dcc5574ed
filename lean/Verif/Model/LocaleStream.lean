import Verif.Model.Aesi

/-!
# Text output to a stream with a locale that groups digits

`Model/Text.lean` has the classic locale. A stream may be imbued with another one (`os.imbue`,
`std::locale::global`), whose `numpunct` facet separates groups of digits ("1,234,567"). Characters and C
strings are inserted as they are, integers are grouped: of all insertions in `operator<<` only that of the
blocks in hexadecimal notation (Aeu.h:1402, 1405) is an insertion of an integer.
-/

namespace AesiMP

/-- What `std::numpunct` says: the separator and the sizes of the groups, from the right; the last size
repeats; no sizes, or a size 0 or `CHAR_MAX`, mean no (further) grouping. -/
structure NumPunct where
  separator : Int
  sizes : List Nat
deriving DecidableEq, Repr

/-- Grouping as `std::num_put::do_put` specifies it (stage 2 of [facet.num.put.virtuals]): as long as more
digits are left than the current group takes, a group is cut off at the right. `fuel`: at most as many
groups as digits. -/
def groupDigits (separator : Int) : (fuel : Nat) → (sizes : List Nat) → List Int → List Int
  | 0, _, d => d
  | _, [], d => d
  | fuel + 1, g :: rest, d =>
    if 0 < g ∧ g < 127 ∧ g < d.length then
      groupDigits separator fuel (if rest = [] then [g] else rest) (d.take (d.length - g)) ++
        separator :: d.drop (d.length - g)
    else d

/-- The digits of an integer as the locale writes them. -/
def NumPunct.group (L : NumPunct) (d : List Int) : List Int := groupDigits L.separator d.length L.sizes d

/-- Insertion of an `unsigned int` when `basefield` is `hex` and `showbase` is off, in locale `L`. -/
def OStream.putHexL (L : NumPunct) (os : OStream) (v : Block) : OStream :=
  os.put (L.group (Aeu.hexText os.uppercase v))

namespace Aeu
variable {n : Nat}

/-- The hexadecimal digits (Aeu.h:1397-1406), in locale `L`. -/
def streamHexL (L : NumPunct) (os : OStream) (number : Aeu n) : Exec OStream := do
  let iter ← scanDown number (n - 1)
  let b ← rd number iter
  forDown iter 0 (os.putHexL L b) fun iter os => do
    let b ← rd number iter
    .ok (({ os with fill := 48, width := 8, adjust := .right } : OStream).putHexL L b)

/-- `operator<<(std::basic_ostream<Char>&, const Aeu&)` (Aeu.h:1378-1426), in locale `L`. -/
def streamOutL (cfg : Cfg) (L : NumPunct) (bufferSize : Nat) (os : OStream) (number : Aeu n) :
    Exec OStream := do
  let base := streamBase os.basefield
  let os := streamHead os
  let z ← isZero number
  if z then .ok (os.putText [48]) else
    if base = 16#32 then streamHexL L os number
    else streamDigits cfg bufferSize base os number

end Aeu

namespace Aesi
variable {n : Nat}

/-- `operator<<` (Aesi.h:1119-1128), in locale `L`. -/
def streamOutL (cfg : Cfg) (L : NumPunct) (bufferSize : Nat) (os : OStream) (number : Aesi n) :
    Exec OStream :=
  if number.sign ≠ .zero then
    let os := if number.sign = .negative then os.putText [45] else os
    Aeu.streamOutL cfg L bufferSize os number.base
  else .ok (os.putText [48])

end Aesi
end AesiMP
