import Verif.Model.Aeu
import Verif.Model.Builtin

/-!
# Specification vocabulary

What an object represents, and what "an execution returns this number" means.  The property
theorems (`Verif/Props`) use these definitions and ordinary arithmetic only.
-/

namespace AesiMP

/-- `f 0 + f 1 * 2^32 + ... + f (k-1) * 2^(32 (k-1))`. -/
def psum (f : Nat → Nat) : Nat → Nat
  | 0 => 0
  | k + 1 => psum f k + f k * 2 ^ (32 * k)

namespace Aeu
variable {n : Nat}

/-- The `i`-th base-`2^32` digit of the object (0 beyond the last block). -/
def dig (x : Aeu n) (i : Nat) : Nat := if h : i < n then x[i].toNat else 0

/-- The number an `Aeu` object represents: blocks are base-`2^32` digits, least significant first. -/
def toNat (x : Aeu n) : Nat := psum (dig x) n

/-- The object holding `v mod 2^bitness`. -/
def ofNat (n : Nat) (v : Nat) : Aeu n := Vector.ofFn fun i => BitVec.ofNat 32 (v / 2 ^ (32 * i.val))

/-- The execution has no undefined behaviour, terminates, and yields an object representing `v`. -/
def Returns (e : Exec (Aeu n)) (v : Nat) : Prop := ∃ r, e = .ok r ∧ toNat r = v

end Aeu

/-- Right-to-left square and multiply on `k` bits of `e` from bit `i` on, every product truncated to
`W` and then reduced modulo `M` (`M = 0`: not reduced). -/
def sqMul (W M e : Nat) : (k i out b : Nat) → Nat
  | 0, _, out, _ => out
  | k + 1, i, out, b =>
    sqMul W M e k (i + 1) (if e.testBit i then out * b % W % M else out) (b * b % W % M)

/-- `r` is what C++ makes of the integer `z` in the built-in type `t`: for `bool`, whether it is zero ([conv.bool]);
otherwise the value of the type's range that is congruent to `z` ([conv.integral]). -/
def ITy.Converted (t : ITy) (z r : Int) : Prop :=
  if t.isBool then r = if z = 0 then 0 else 1
  else (if t.signed then -(2 : Int) ^ (t.width - 1) ≤ r ∧ r < (2 : Int) ^ (t.width - 1)
    else 0 ≤ r ∧ r < (2 : Int) ^ t.width) ∧ (2 : Int) ^ t.width ∣ r - z

end AesiMP
