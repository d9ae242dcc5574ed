import Verif.Model.Aeu
import Verif.Props.Bezout

/-!
# Clients: primality tests, perfect squares and the Chinese remainder theorem

Programs a user of the library writes with its calls only (the number-theoretic use README.md names).
-/

namespace AesiMP
namespace Client
open Aeu
variable {n : Nat}

/-- `root = a.squareRoot(); return root * root == a;` (client code; the calls are Aeu.h:1256, 477 and 741). -/
def isSquare (cfg : Cfg) (a : Aeu n) : Exec Bool := do
  let root ← squareRoot cfg a
  let s ← mul root root
  eq cfg s a

/-- `for(; d <= root; ++d) if((a % d).isZero()) return false; return true;`; `fuel` bounds the rounds. -/
def trialLoop (cfg : Cfg) (a root : Aeu n) : (fuel : Nat) → (d : Aeu n) → Exec Bool
  | 0, _ => .error .diverges
  | fuel + 1, d => do
    if ← le cfg d root then
      let r ← mod cfg a d
      if ← isZero r then .ok false
      else
        let d ← inc d
        trialLoop cfg a root fuel d
    else .ok true

/-- Trial division: `if(a < Aeu(2u)) return false; trialLoop(a, a.squareRoot(), 2u)`. -/
def isPrime (cfg : Cfg) (fuel : Nat) (a : Aeu n) : Exec Bool := do
  let two ← ofUnsigned n (2#32)
  if ← lt cfg a two then .ok false
  else
    let root ← squareRoot cfg a
    trialLoop cfg a root fuel two

/-- `while(d.isEven()) { d >>= 1; ++s; }`. -/
def splitLoop : (fuel : Nat) → (d : Aeu n) → (s : Nat) → Exec (Aeu n × Nat)
  | 0, _, _ => .error .diverges
  | fuel + 1, d, s => do
    if ← isEven d then
      let d ← shr d 1
      splitLoop fuel d (s + 1)
    else .ok (d, s)

/-- `for(i = 1; i < s; ++i) { x = (x * x) % p; if(x == minusOne) return true; } return false;`, `k` rounds left. -/
def squareLoop (cfg : Cfg) (p minusOne : Aeu n) : (k : Nat) → (x : Aeu n) → Exec Bool
  | 0, _ => .ok false
  | k + 1, x => do
    let x ← mul x x
    let x ← mod cfg x p
    if ← eq cfg x minusOne then .ok true else squareLoop cfg p minusOne k x

/-- One round of the Miller-Rabin test of odd `p > 2` to base `a`. -/
def millerRabin (cfg : Cfg) (fuel : Nat) (p a : Aeu n) : Exec Bool := do
  let one ← ofUnsigned n (1#32)
  let minusOne ← sub p one
  let (d, s) ← splitLoop fuel minusOne 0
  let x ← powm cfg a d p
  if ← eq cfg x one then .ok true
  else if ← eq cfg x minusOne then .ok true
  else squareLoop cfg p minusOne (s - 1) x

/-- Chinese remainder theorem for two moduli: `r1 + m1 * (((r2 + m2 - r1 % m2) % m2 * inverse(m1, m2)) % m2)`. -/
def chineseRemainder (cfg : Cfg) (r1 m1 r2 m2 : Aeu n) : Exec (Aeu n) := do
  let inv ← invMod cfg m1 m2
  let t ← mod cfg r1 m2
  let u ← add r2 m2
  let u ← sub u t
  let u ← mod cfg u m2
  let u ← mul u inv
  let u ← mod cfg u m2
  let u ← mul m1 u
  add r1 u

end Client
end AesiMP
