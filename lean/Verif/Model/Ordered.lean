import Verif.Model.Aesi

/-!
# Clients: sorted sequences

`std::sort` and `std::binary_search` on sequences of numbers, as the standard library does them with the operator `<` of
the elements (client code; the library's part is the comparison).
-/

namespace AesiMP
namespace Client
variable {α : Type} {n m : Nat}

/-- `std::lower_bound(v.begin(), v.end(), value)` as libstdc++ has it; `less x` is `x < value`. -/
def lowerBound (less : α → Exec Bool) (v : List α) : Exec Nat :=
  whileC (v.length + 1) (0, v.length) fun (first, len) =>
    if len = 0 then .ok (.leave first)
    else
      match v[first + len / 2]? with
      | none => .error .outOfBounds
      | some x => do
        if ← less x then .ok (.next (first + len / 2 + 1, len - len / 2 - 1))
        else .ok (.next (first, len / 2))

/-- `std::binary_search(v.begin(), v.end(), value)`; `greater x` is `value < x`. -/
def binarySearch (less greater : α → Exec Bool) (v : List α) : Exec Bool := do
  let i ← lowerBound less v
  match v[i]? with
  | none => .ok false
  | some x => do
    let b ← greater x
    .ok (!b)

/-- The inner loop of an insertion sort, `while(value < *--position) move it up`: `l` is what is sorted already, last
element first. -/
def insertBack (less : α → α → Exec Bool) (value : α) : List α → Exec (List α)
  | [] => .ok [value]
  | y :: l => do
    if ← less value y then
      let r ← insertBack less value l
      .ok (y :: r)
    else .ok (value :: y :: l)

/-- Insertion sort (what `std::sort` does on short sequences). -/
def insertionSort (less : α → α → Exec Bool) (v : List α) : Exec (List α) := do
  let r ← v.foldlM (fun l x => insertBack less x l) []
  .ok r.reverse

/-- `std::sort` of numbers of one precision (comparisons: Aeu.h:850). -/
def sortU (cfg : Cfg) (v : List (Aeu n)) : Exec (List (Aeu n)) := insertionSort (Aeu.lt cfg) v

/-- `std::sort` of signed numbers (comparisons: Aesi.h:754). -/
def sortS (cfg : Cfg) (v : List (Aesi n)) : Exec (List (Aesi n)) := insertionSort (Aesi.lt cfg) v

/-- `std::lower_bound` for a number, which may have another precision (Aeu.h:850, 870). -/
def lowerBoundU (cfg : Cfg) (v : List (Aeu n)) (key : Aeu m) : Exec Nat := lowerBound (fun x => Aeu.lt cfg x key) v

/-- `std::binary_search` for a number, which may have another precision. -/
def findU (cfg : Cfg) (v : List (Aeu n)) (key : Aeu m) : Exec Bool :=
  binarySearch (fun x => Aeu.lt cfg x key) (fun x => Aeu.lt cfg key x) v

/-- `std::binary_search` for a built-in value of at most 32 bits (Aeu.h:870). -/
def findNarrow {w : Nat} (v : List (Aeu n)) (key : BitVec w) : Exec Bool :=
  binarySearch (fun x => do let c ← Aeu.spaceshipNarrow x key; .ok (c == .less))
    (fun x => do let c ← Aeu.spaceshipNarrow x key; .ok (c == .greater)) v

/-- `std::binary_search` among signed numbers (Aesi.h:754). -/
def findS (cfg : Cfg) (v : List (Aesi n)) (key : Aesi n) : Exec Bool :=
  binarySearch (fun x => Aesi.lt cfg x key) (fun x => Aesi.lt cfg key x) v

/-- `std::binary_search` for a 64-bit built-in value (Aeu.h:870-883). -/
def findU64 (v : List (Aeu n)) (key : BitVec 64) : Exec Bool :=
  binarySearch (fun x => do let c ← Aeu.spaceshipU64 x key; .ok (c == .less))
    (fun x => do let c ← Aeu.spaceshipU64 x key; .ok (c == .greater)) v

/-- `std::binary_search` for a built-in value among signed numbers (Aesi.h:774-787). -/
def findIntegral (v : List (Aesi n)) (key : Int) : Exec Bool :=
  binarySearch (fun x => Aesi.ltIntegral x key) (fun x => Aesi.gtIntegral x key) v

/-- `std::set::insert`: the place before which the number goes, and nothing if an equivalent number is there. -/
def setInsert (less : α → α → Exec Bool) (v : List α) (x : α) : Exec (List α) := do
  let i ← lowerBound (fun y => less y x) v
  match v[i]? with
  | none => .ok (v ++ [x])
  | some y => do
    if ← less x y then .ok (v.take i ++ x :: v.drop i) else .ok v

/-- The contents of a `std::set` after inserting a sequence of numbers (comparisons: Aeu.h:850). -/
def setU (cfg : Cfg) (v : List (Aeu n)) : Exec (List (Aeu n)) := v.foldlM (setInsert (Aeu.lt cfg)) []

/-- The contents of a `std::set` after inserting a sequence of signed numbers (comparisons: Aesi.h:754). -/
def setS (cfg : Cfg) (v : List (Aesi n)) : Exec (List (Aesi n)) := v.foldlM (setInsert (Aesi.lt cfg)) []

end Client
end AesiMP
