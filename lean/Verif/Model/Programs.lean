import Verif.Model.Alias

/-!
# The programs shipped with the library

`/repo/sanitize/unsigned/main.cpp` (Pollard's p-1 factorisation), `/repo/sanitize/signed/main.cpp` (extended
Euclid and its checks), `/repo/ci/cuda/smoke.cu` (the kernels) and `/repo/ci/integration/presentation.cpp`
(the factorial loop), written with the modelled library calls.  Precisions are parameters.
-/

namespace AesiMP
namespace Prog
variable {n m : Nat}

/-! ## sanitize/unsigned/main.cpp -/

/-- The loop of `factorize` (sanitize/unsigned/main.cpp:18-31).  `factors` are the values of
`static_cast<uint64_t>(pow(primeF, primePower))`, one per prime: the floating point computation is not
modelled, any list is allowed.  `limit` is 3072, `n` is 16 and `m` is 128 in the source.  `none` is the
`throw` of line 33. -/
def factorizeLoop (cfg : Cfg) (limit : Nat) (number : Aeu n) :
    List U64 → Aeu n → Aeu m → Exec (Option (Aeu n))
  | [], _, _ => .ok none
  | f :: fs, base, power => do
    let power ← Aeu.mulU64 power f
    let bits ← Aeu.bitCount power
    if bits > limit then do
      let base ← Aeu.powmT cfg base power number
      let power ← Aeu.ofUnsigned m (1#32)
      let d ← Aeu.subRight base (1#32)
      let candidate ← Aeu.gcd cfg d number
      let o ← Aeu.spaceshipNarrow candidate (1#32)
      if o = .greater then .ok (some candidate)
      else factorizeLoop cfg limit number fs base power
    else factorizeLoop cfg limit number fs base power

/-- `factorize(number, primes)` (sanitize/unsigned/main.cpp:14-34). -/
def factorize (cfg : Cfg) (m limit : Nat) (number : Aeu n) (factors : List U64) : Exec (Option (Aeu n)) := do
  let base ← Aeu.ofUnsigned n (2#32)
  let power ← Aeu.ofUnsigned m (1#32)
  factorizeLoop cfg limit number factors base power

/-! ## sanitize/signed/main.cpp -/

/-- `extendedGcd(a, b, x, y)` (sanitize/signed/main.cpp:14-24): (result, x, y).  The recursion depth is bounded
by the first argument; a run that needs more has the outcome `diverges`. -/
def extendedGcdIn (cfg : Cfg) : Nat → Aesi n → Aesi n → Exec (Aesi n × Aesi n × Aesi n)
  | 0, _, _ => .error .diverges
  | depth + 1, a, b => do
    let z ← Aesi.eqIntegral b 0
    if z then do
      let x ← Aesi.ofIntegral n .i32 1
      let y ← Aesi.ofIntegral n .i32 0
      .ok (a, x, y)
    else do
      let rem ← Aesi.mod cfg a b
      let r ← extendedGcdIn cfg depth b rem
      let (g, x1, y1) := r
      let q ← Aesi.div cfg a b
      let p ← Aesi.mul q y1
      let y ← Aesi.sub cfg x1 p
      .ok (g, y1, y)

/-- `extendedGcd` (sanitize/signed/main.cpp:14-24), with more depth than there are values. -/
def extendedGcd (cfg : Cfg) (a b : Aesi n) : Exec (Aesi n × Aesi n × Aesi n) :=
  extendedGcdIn cfg (2 ^ (32 * n) + 1) a b

/-- `checkBezout(a, b)` (sanitize/signed/main.cpp:26-43): `true` when it returns, `false` when it reports
the failure and exits. -/
def checkBezout (cfg : Cfg) (a b : Aesi n) : Exec Bool := do
  let absA := if Aesi.isNegative a then Aesi.neg a else a
  let absB := if Aesi.isNegative b then Aesi.neg b else b
  let r ← extendedGcd cfg absA absB
  let (g, x, y) := r
  let x := if Aesi.isNegative a then Aesi.neg x else x
  let y := if Aesi.isNegative b then Aesi.neg y else y
  let ax ← Aesi.mul a x
  let bY ← Aesi.mul b y
  let s ← Aesi.add cfg ax bY
  let e ← Aesi.ne cfg s g
  .ok (!e)

/-- The check of `power2` and `squareRoot` (sanitize/signed/main.cpp:60-66): `true` when it passes. -/
def checkRoot (cfg : Cfg) (n p : Nat) : Exec Bool := do
  let powered ← Aesi.power2 cfg n p
  let root ← Aesi.squareRoot cfg powered
  let sq ← Aesi.mul root root
  let e ← Aesi.ne cfg sq powered
  .ok (!e)

/-- The check of `divide` (sanitize/signed/main.cpp:69-75), `q` and `r` value initialised: `true` when it passes. -/
def checkDivide (cfg : Cfg) (a b : Aesi n) : Exec Bool := do
  let qr ← Aesi.divide cfg a b (Aesi.zero n) (Aesi.zero n)
  let p ← Aesi.mul qr.1 b
  let s ← Aesi.add cfg p qr.2
  let e ← Aesi.ne cfg s a
  .ok (!e)

/-- The check of increment and decrement (sanitize/signed/main.cpp:52-57) from the start value `start` in place of
`-1`: `++v` must give `start + 1` and then `--v` give `start` again.  The first failure leaves the program. -/
def checkIncDec (n : Nat) (start : Int) : Exec Bool := do
  let v ← Aesi.ofIntegral n .i32 start
  let v ← Aesi.inc v
  let e ← Aesi.eqIntegral v (start + 1)
  if e then do
    let v ← Aesi.dec v
    Aesi.eqIntegral v start
  else .ok false

/-- The loop over the even powers (sanitize/signed/main.cpp:60-66): `count` rounds from `p`. -/
def checkRoots (cfg : Cfg) (n : Nat) : (count p : Nat) → Exec Bool
  | 0, _ => .ok true
  | count + 1, p => do
    let passed ← checkRoot cfg n p
    if passed then checkRoots cfg n count (p + 2) else .ok false

/-- `checkSignedOps` (sanitize/signed/main.cpp:45-76): `true` when it returns. -/
def checkSignedOps (cfg : Cfg) (n : Nat) : Exec Bool := do
  let pos ← Aesi.ofIntegral n .i32 42
  let negated := Aesi.neg pos
  if !Aesi.isNegative negated || Aesi.isNegative pos then .ok false
  else do
    let passed ← checkIncDec n (-1)
    if passed then do
      let passed ← checkRoots cfg n 10 2
      if passed then do
        let a ← Aesi.ofIntegral n .i32 1000
        let b ← Aesi.ofIntegral n .i32 (-337)
        checkDivide cfg a b
      else .ok false
    else .ok false

/-- `primes[i]` of a `std::vector<unsigned int>`: out of range is undefined. -/
def vectorAt (primes : List (BitVec 32)) (i : Nat) : Exec (BitVec 32) :=
  match primes[i]? with
  | some v => .ok v
  | none => .error .outOfBounds

/-- The loop of `primeProduct` (sanitize/signed/main.cpp:81-82): at most `left` more factors, the next one at
position `pos = offset + k * step`. -/
def primeProductLoop (cfg : Cfg) (primes : List (BitVec 32)) (step : Nat) :
    (left pos : Nat) → Aesi n → Exec (Aesi n)
  | 0, _, result => .ok result
  | left + 1, pos, result =>
    if pos < primes.length then do
      let f ← vectorAt primes pos
      let result ← Aesi.mulIntegral cfg .u32 result f.toNat
      primeProductLoop cfg primes step left (pos + step) result
    else .ok result

/-- `primeProduct` (sanitize/signed/main.cpp:79-84). -/
def primeProduct (cfg : Cfg) (n : Nat) (primes : List (BitVec 32)) (offset step count : Nat) : Exec (Aesi n) := do
  let result ← Aesi.ofIntegral n .i32 1
  primeProductLoop cfg primes step count offset result

/-- The first loop of `main` (sanitize/signed/main.cpp:93-95) from `i` on. -/
def pairLoop (cfg : Cfg) (n : Nat) (primes : List (BitVec 32)) (i : Nat) : Exec Bool :=
  if h : i + 1 < primes.length then do
    let p ← vectorAt primes i
    let a ← Aesi.ofIntegral n .u32 p.toNat
    let q ← vectorAt primes (i + 1)
    let b ← Aesi.ofIntegral n .u32 q.toNat
    let passed ← checkBezout cfg a b
    if passed then pairLoop cfg n primes (i + 2) else .ok false
  else .ok true
termination_by primes.length - i

/-- The second loop of `main` (sanitize/signed/main.cpp:101-108) from `i` on; `groupSize` is 12. -/
def groupLoop (cfg : Cfg) (n : Nat) (primes : List (BitVec 32)) (i : Nat) : Exec Bool :=
  if h : i + 3 * 12 < primes.length then do
    let p ← vectorAt primes i
    let shared ← Aesi.ofIntegral n .u32 p.toNat
    let pa ← primeProduct cfg n primes (i + 1) 1 12
    let a ← Aesi.mul shared pa
    let pb ← primeProduct cfg n primes (i + 12 + 1) 1 12
    let b ← Aesi.mul shared pb
    let passed ← checkBezout cfg a b
    if passed then do
      let passed ← checkBezout cfg (Aesi.neg a) b
      if passed then do
        let passed ← checkBezout cfg a (Aesi.neg b)
        if passed then groupLoop cfg n primes (i + 12) else .ok false
      else .ok false
    else .ok false
  else .ok true
termination_by primes.length - i

/-- `main` (sanitize/signed/main.cpp:86-112) on the list `primesieve` delivers: `true` when it prints
"All checks passed." and returns 0, `false` when it exits with 1.  `n` is 16 in the source. -/
def signedMain (cfg : Cfg) (n : Nat) (primes : List (BitVec 32)) : Exec Bool := do
  let passed ← checkSignedOps cfg n
  if passed then do
    let passed ← pairLoop cfg n primes 0
    if passed then groupLoop cfg n primes 0 else .ok false
  else .ok false

/-! ## ci/cuda/smoke.cu -/

/-- `unsignedKernel(a, b, out)` (ci/cuda/smoke.cu:4-8) on device memory; the pointers may coincide. -/
def unsignedKernel (h : Heap n) (a b out : Nat) : Exec (Heap n) := do
  let s ← Aeu.add (h a) (h b)
  let h := h.put out s
  Alias.mulAssign h out b

/-- `signedKernel(a, b, out)` (ci/cuda/smoke.cu:10-14). -/
def signedKernel (cfg : Cfg) (h : SHeap n) (a b out : Nat) : Exec (SHeap n) := do
  let s ← Aesi.add cfg (h.obj a) (h.obj b)
  let h := h.put out s
  SAlias.mulAssign h out b

/-! ## ci/integration/presentation.cpp -/

/-- The factorial loop (ci/integration/presentation.cpp:8-10), to `k` in place of 50. -/
def factorial (n k : Nat) : Exec (Aeu n) := do
  let f ← Aeu.ofUnsigned n (1#32)
  forUp 2 (k + 1) f fun i f => Aeu.mulNarrow f (BitVec.ofNat 32 i)

end Prog
end AesiMP
