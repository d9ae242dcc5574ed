import Mathlib.Data.Nat.Digits.Defs

/-!
# Specification vocabulary for text

A character is its code (an `Int`: `char` may be signed).  Nothing here refers to the model.
-/

namespace AesiMP

/-- The character of the digit `d < 36`: `0`-`9`, then `a`.. or `A`... -/
def digitChar (upper : Bool) (d : Nat) : Int :=
  if d < 10 then 48 + d else (if upper then 55 else 87) + d

/-- The canonical numeral of `v` in base `b`: no leading zeros, `"0"` for zero. -/
def numeral (upper : Bool) (b v : Nat) : List Int :=
  if v = 0 then [48] else (Nat.digits b v).reverse.map (digitChar upper)

/-- The conventional prefix of a base: `0b`, `0o`, none, `0x`. -/
def basePrefix (b : Nat) : List Int :=
  if b = 2 then [48, 98] else if b = 8 then [48, 111] else if b = 16 then [48, 120] else []

/-- An item in a field of the given width: fill characters behind it (`left`) or in front of it. -/
def padded (left : Bool) (fill : Int) (width : Nat) (item : List Int) : List Int :=
  if left then item ++ List.replicate (width - item.length) fill
  else List.replicate (width - item.length) fill ++ item

/-- The value of a digit character, if it is one (`0`-`9`, `a`-`f`, `A`-`F`). -/
def digitVal (c : Int) : Option Nat :=
  if 48 ≤ c ∧ c ≤ 57 then some (c - 48).toNat
  else if 97 ≤ c ∧ c ≤ 102 then some (c - 87).toNat
  else if 65 ≤ c ∧ c ≤ 70 then some (c - 55).toNat
  else none

/-- Value of a text in base `b`; characters that are not digits below `b` are ignored. -/
def textValue (b : Nat) (cs : List Int) : Nat :=
  ((cs.filterMap digitVal).filter (· < b)).foldl (fun v d => v * b + d) 0

/-- Split off a base prefix (either letter case). -/
def splitBase : List Int → Nat × List Int
  | 48 :: c :: rest =>
    if c = 98 ∨ c = 66 then (2, rest)
    else if c = 111 ∨ c = 79 then (8, rest)
    else if c = 120 ∨ c = 88 then (16, rest)
    else (10, 48 :: c :: rest)
  | cs => (10, cs)

/-- The number a text denotes under the documented rule; `alnum` is the locale's
alphanumeric predicate. -/
def parsed (alnum : Int → Bool) (text : List Int) : Nat :=
  let cs := text.dropWhile fun c => !alnum c
  textValue (splitBase cs).1 (splitBase cs).2

/-- ASCII alphanumerics: the C locale. -/
def asciiAlnum (c : Int) : Bool :=
  (48 ≤ c ∧ c ≤ 57) ∨ (65 ≤ c ∧ c ≤ 90) ∨ (97 ≤ c ∧ c ≤ 122)

end AesiMP
