import Verif.Model.Programs
import Verif.Model.Benchmarks
import Mathlib.Data.Nat.Prime.Defs

/-!
# `main` of sanitize/unsigned/main.cpp
-/

namespace AesiMP
namespace Prog

/-- `primesieve::generate_primes(bound, &primes)` (sanitize/unsigned/main.cpp:37-38), by its documentation: the primes
not greater than `bound`, in ascending order. -/
def primesUpTo (bound : Nat) : List Nat := (List.range (bound + 1)).filter Nat.Prime

/-- The values `static_cast<uint64_t>(pow(primeF, primePower))` (sanitize/unsigned/main.cpp:19-23) for the primes up to
20000.  `exponent p` is the `primePower` of `p`; the `long double` computation of it is not modelled. -/
def primePowers (exponent : Nat → Nat) : List U64 := (primesUpTo 20000).map fun p => BitVec.ofNat 64 (p ^ exponent p)

/-- One number of `main` (sanitize/unsigned/main.cpp:40-46): `Aeu512("0x...")`, then `factorize`. -/
def factorizeLiteral (cfg : Cfg) (alnum : Int → Bool) (value : Nat) (factors : List U64) :
    Exec (Option (Aeu 16)) := do
  let number ← Aeu.ofChars .char alnum 16 ⟨(Client.hexLiteral value).toArray, rfl⟩
  factorize cfg 128 3072 number factors

/-- sanitize/unsigned/main.cpp:40. -/
def pollardFirst : Nat := 0x4c6f0a38f6c296d07052b794a02317ce9758855
/-- sanitize/unsigned/main.cpp:42. -/
def pollardSecond : Nat := 0x14cd01a38ac5c55992acb21ff9665294b30f9ee578393dad147

end Prog
end AesiMP
