import Verif.Model.SignedLeft

/-!
# Conversion of GMP operands when memory may run out

`Aeu(const mpz_class&)` puts the words of the number in a `std::vector` (Aeu.h:261), the only allocation in the library.
A refused request leaves the constructor as `std::bad_alloc`; when the constructor is called inside a function declared
`noexcept` the program ends (`std::terminate`).  Memory GMP takes for its own numbers is not modelled.
-/

namespace AesiMP
variable {n : Nat} {α : Type}

/-- How a statement ends: with a value, with `std::bad_alloc`, or with the program. -/
inductive Alloc (α : Type) where
  | value (x : α)
  | badAlloc
  | terminated
deriving DecidableEq, Repr

/-- A function declared `noexcept` whose body ends as given. -/
def Alloc.noexcept : Alloc α → Alloc α
  | .badAlloc => .terminated
  | r => r

/-- `f` goes on with the value; an exception passes by. -/
def Alloc.andThen {β : Type} (x : Exec (Alloc α)) (f : α → Exec β) : Exec (Alloc β) := do
  match ← x with
  | .value v => do let r ← f v; .ok (.value r)
  | .badAlloc => .ok .badAlloc
  | .terminated => .ok .terminated

/-- `Aeu(const mpz_class&)` (Aeu.h:258-267); `grants b` says whether a request for `b` bytes is granted.  The vector of
`1 + (bitLength - 1) / sizeof(block) * 8` words is requested at once. -/
def Aeu.ofMpzM (cfg : Cfg) (grants : Nat → Bool) (n : Nat) (value : Int) : Exec (Alloc (Aeu n)) :=
  let bitLength := mpzSizeInBase2 value
  let tBlocksNumber := 1 + (bitLength - 1) / 4 * 8
  if grants (4 * tBlocksNumber) then do
    let r ← Aeu.ofMpz cfg n value
    .ok (.value r)
  else .ok .badAlloc

/-- `Aesi(const mpz_class&)` (Aesi.h:159-171): zero needs no conversion. -/
def Aesi.ofMpzM (cfg : Cfg) (grants : Nat → Bool) (n : Nat) (number : Int) : Exec (Alloc (Aesi n)) :=
  if number = 0 then .ok (.value ⟨.zero, Aeu.zero n⟩)
  else Alloc.andThen (Aeu.ofMpzM cfg grants n number) fun base =>
    if number < 0 then .ok ⟨.negative, base⟩ else .ok ⟨.positive, base⟩

/-- `a op= z` for an `mpz_class` `z`: the operand is converted by the caller, then the operator on two `Aeu`s runs (Aeu.h:377,
401, 477, 531, 553, 590, 613, 636).  Result: how it ends, and `a` afterwards. -/
def LeftOp.assignM (cfg : Cfg) (grants : Nat → Bool) (op : LeftOp) (a : Aeu n) (z : Int) :
    Exec (Alloc Unit × Aeu n) := do
  match ← Aeu.ofMpzM cfg grants n z with
  | .value x => do let r ← op.bin.run cfg a x; .ok (.value (), r)
  | .badAlloc => .ok (.badAlloc, a)
  | .terminated => .ok (.terminated, a)

/-- `a op= z` for an `Aesi` (Aesi.h:265, 335, 446, 514, 584): the same. -/
def SBin.assignM (cfg : Cfg) (grants : Nat → Bool) (op : SBin) (a : Aesi n) (z : Int) :
    Exec (Alloc Unit × Aesi n) := do
  match ← Aesi.ofMpzM cfg grants n z with
  | .value x => do let r ← op.run cfg a x; .ok (.value (), r)
  | .badAlloc => .ok (.badAlloc, a)
  | .terminated => .ok (.terminated, a)

/-- `i op a` for a signed built-in `i` (Aeu.h:1592-1656): the conversion happens inside the `noexcept` operator. -/
def LeftOp.signedLeftM (cfg : Cfg) (grants : Nat → Bool) (op : LeftOp) (i : Int) (a : Aeu n) :
    Exec (Alloc (Aeu n)) := do
  let r ← Alloc.andThen (Aeu.ofMpzM cfg grants n i) fun x => op.bin.run cfg x a
  .ok r.noexcept

/-- `a == z` (Aeu.h:752-755, declared `noexcept`). -/
def Aeu.eqMpzM (cfg : Cfg) (grants : Nat → Bool) (our : Aeu n) (other : Int) : Exec (Alloc Bool) := do
  let r ← Alloc.andThen (Aeu.ofMpzM cfg grants n other) fun v => Aeu.eq cfg our v
  .ok r.noexcept

/-- `a == z` for an `Aesi` (Aesi.h:634-637, declared `noexcept`). -/
def Aesi.eqMpzM (cfg : Cfg) (grants : Nat → Bool) (our : Aesi n) (other : Int) : Exec (Alloc Bool) := do
  let r ← Alloc.andThen (Aesi.ofMpzM cfg grants n other) fun v => Aesi.eq cfg our v
  .ok r.noexcept

end AesiMP
