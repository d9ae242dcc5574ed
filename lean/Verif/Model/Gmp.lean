import Verif.Model.Aesi

/-!
# Construction from a GMP integer (`AESI_GMP_INTEGRATION`)

An `mpz_class` is an integer.  `mpz_sizeinbase` and `mpz_export` are modelled by their documentation;
`size_t` arithmetic on the bit length is exact (an `mpz` has fewer than `2^38` bits).
-/

namespace AesiMP
open Aeu

/-- `mpz_sizeinbase(z, 2)` (called at Aeu.h:259): the bit length of `|z|`; 1 for zero. -/
def mpzSizeInBase2 (z : Int) : Nat := if z = 0 then 1 else Nat.log2 z.natAbs + 1

/-- `mpz_export(buffer, &count, -1, 4, -1, 0, z)` (called at Aeu.h:263): the 32-bit words of `|z|`, least
significant first, are stored from the start of the buffer; `count` receives their number, 0 for zero.
A buffer that is too short is overrun. -/
def mpzExport {cap : Nat} (buffer : Vector Block cap) (z : Int) : Exec (Vector Block cap × Nat) := do
  let count := if z = 0 then 0 else (Nat.log2 z.natAbs + 1 + 31) / 32
  let buffer ← forUp 0 count buffer fun i buffer =>
    wr buffer i (BitVec.ofNat 32 (z.natAbs / 2 ^ (32 * i)))
  .ok (buffer, count)

/-- `Aeu(const mpz_class&)` (Aeu.h:258-267). -/
def Aeu.ofMpz (cfg : Cfg) (n : Nat) (value : Int) : Exec (Aeu n) := do
  let bitLength := mpzSizeInBase2 value
  let tBlocksNumber := 1 + (bitLength - 1) / 4 * 8
  let buffer := Vector.replicate tBlocksNumber (0#32 : Block)
  let r ← mpzExport buffer value
  forUp 0 r.2 (zero n) fun i blocks => do
    let b ← rd r.1 i
    setBlock cfg blocks i b

/-- `operator==(const Aeu&, const __gmp_expr&)` (Aeu.h:752-755). -/
def Aeu.eqMpz (cfg : Cfg) {n : Nat} (our : Aeu n) (other : Int) : Exec Bool := do
  let v ← Aeu.ofMpz cfg n other
  Aeu.eq cfg our v

/-- `Aesi(const mpz_class&)` (Aesi.h:159-171). -/
def Aesi.ofMpz (cfg : Cfg) (n : Nat) (number : Int) : Exec (Aesi n) :=
  if number = 0 then .ok ⟨.zero, Aeu.zero n⟩
  else do
    let base ← Aeu.ofMpz cfg n number
    if number < 0 then .ok ⟨.negative, base⟩ else .ok ⟨.positive, base⟩

/-- `operator==(const Aesi&, const __gmp_expr&)` (Aesi.h:634-637). -/
def Aesi.eqMpz (cfg : Cfg) {n : Nat} (our : Aesi n) (other : Int) : Exec Bool := do
  let v ← Aesi.ofMpz cfg n other
  Aesi.eq cfg our v

end AesiMP
