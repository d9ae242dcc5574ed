import Verif.Model.Aeu
import Verif.Model.Aesi

/-!
# The remaining small members
-/

namespace AesiMP
variable {n : Nat}

/-- `Aeu<bitness>::getBitness()` (Aeu.h:1059), with bitness = 32 n. -/
def Aeu.getBitness (n : Nat) : Nat := 32 * n

/-- `Aeu<bitness>::totalBlocksNumber()`: `bitness / blockBitLength` (Aeu.h:1066, 87). -/
def Aeu.totalBlocksNumber (n : Nat) : Nat := Aeu.getBitness n / 32

/-- `Aesi<bitness>::getBitness()` (Aesi.h:905). -/
def Aesi.getBitness (n : Nat) : Nat := 32 * n

/-- `Aesi<bitness>::totalBlocksNumber()` (Aesi.h:912). -/
def Aesi.totalBlocksNumber (n : Nat) : Nat := Aeu.totalBlocksNumber n

/-- `Aeu::divide(number, divisor)` that returns a pair (Aeu.h:1114-1116): the members of the pair are the outputs. -/
def Aeu.dividePair (cfg : Cfg) (number divisor : Aeu n) : Exec (Aeu n × Aeu n) := do
  let results ← Aeu.divide cfg number divisor
  .ok (results.1, results.2)

end AesiMP
