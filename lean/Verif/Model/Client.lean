import Verif.Model.Aesi
import Verif.Model.BinIO
import Verif.Model.Gmp
import Verif.Model.Rest

/-!
# Client programs of the whole library

A client keeps numbers of every precision, signed and unsigned, in registers; it calls the library, and
may choose each call by everything it has seen so far (`Prog.call` takes a function of the state).  Only
the functions of the other `Model` files are called; the lines they model are cited there.
-/

namespace AesiMP
open Aeu (StrongOrdering)

/-- What the build and the platform fix: macros, byte order, the locale's character classes. -/
structure Env where
  cfg : Cfg
  host : Host
  alnum : Int → Bool

/-- The state of a client: objects of every precision, the last value or text a call returned, and one
stream of each kind. -/
structure World where
  u : (n : Nat) → Nat → Aeu n
  s : (n : Nat) → Nat → Aesi n
  last : List Int
  os : OStream
  sink : BSink
  src : IStream

/-- Assignment to one unsigned object. -/
def World.setU (w : World) (n d : Nat) (x : Aeu n) : World :=
  { w with u := fun k i => if h : n = k ∧ i = d then h.1 ▸ x else w.u k i }

/-- Assignment to one signed object. -/
def World.setS (w : World) (n d : Nat) (x : Aesi n) : World :=
  { w with s := fun k i => if h : n = k ∧ i = d then h.1 ▸ x else w.s k i }

/-- The binary operators and functions of two `Aeu`s of the same precision. -/
inductive UBin where
  | add | sub | mul | div | mod | xor | and | or | gcd | lcm

def UBin.run (cfg : Cfg) {n : Nat} (a b : Aeu n) : UBin → Exec (Aeu n)
  | .add => Aeu.add a b
  | .sub => Aeu.sub a b
  | .mul => Aeu.mul a b
  | .div => Aeu.div cfg a b
  | .mod => Aeu.mod cfg a b
  | .xor => Aeu.xor a b
  | .and => Aeu.and a b
  | .or => Aeu.or a b
  | .gcd => Aeu.gcd cfg a b
  | .lcm => Aeu.lcm cfg a b

/-- The operators of an `Aeu` and a built-in unsigned value, on the right or on the left. -/
inductive UMix where
  | addR | subR | mulR | divR | modR | xorR | andR | orR
  | addL | subL | mulL | divL | modL | xorL | andL | orL

def UMix.run (cfg : Cfg) {n w : Nat} (a : Aeu n) (v : BitVec w) : UMix → Exec (Aeu n)
  | .addR => Aeu.addBuiltin a v
  | .subR => Aeu.subRight a v
  | .mulR => Aeu.mulNarrow a v
  | .divR => Aeu.divRight cfg a v
  | .modR => Aeu.modRight cfg a v
  | .xorR => Aeu.xorRight a v
  | .andR => Aeu.andRight a v
  | .orR => Aeu.orRight a v
  | .addL => Aeu.addLeft v a
  | .subL => Aeu.subLeft v a
  | .mulL => Aeu.mulLeft v a
  | .divL => Aeu.divLeft cfg v a
  | .modL => Aeu.modLeft cfg v a
  | .xorL => Aeu.xorLeft v a
  | .andL => Aeu.andLeft v a
  | .orL => Aeu.orLeft v a

/-- The relational operators. -/
inductive Rel where
  | lt | le | gt | ge

/-- On two `Aeu`s, C++20. -/
def Rel.runU (cfg : Cfg) {n m : Nat} (x : Aeu n) (y : Aeu m) : Rel → Exec Bool
  | .lt => Aeu.lt cfg x y
  | .le => Aeu.le cfg x y
  | .gt => Aeu.gt cfg x y
  | .ge => Aeu.ge cfg x y

/-- On two `Aeu`s, before C++20 and in CUDA code. -/
def Rel.runOld (cfg : Cfg) {n : Nat} (x y : Aeu n) : Rel → Exec Bool
  | .lt => Aeu.oldLt cfg x y
  | .le => Aeu.oldLe cfg x y
  | .gt => Aeu.oldGt cfg x y
  | .ge => Aeu.oldGe cfg x y

/-- On two `Aesi`s, C++20. -/
def Rel.runS (cfg : Cfg) {n : Nat} (x y : Aesi n) : Rel → Exec Bool
  | .lt => Aesi.lt cfg x y
  | .le => Aesi.le cfg x y
  | .gt => Aesi.gt cfg x y
  | .ge => Aesi.ge cfg x y

/-- Calls whose result is an `Aeu<32 n>`; numbers name registers. -/
inductive UExpr (n : Nat) where
  | builtin (w : Nat) (v : BitVec w)               -- Aeu(v), v of an unsigned type of w bits
  | text (kind : CharKind) (chars : List Int)       -- Aeu(string)
  | mpz (z : Int)                                   -- Aeu(mpz_class)
  | reg (a : Nat)                                   -- copy
  | plus (a : Nat) | neg (a : Nat) | not (a : Nat) | inc (a : Nat) | dec (a : Nat)
  | bin (op : UBin) (a b : Nat)
  | shl (a k : Nat) | shr (a k : Nat)
  | mix (op : UMix) (a w : Nat) (v : BitVec w)
  | mulU64 (a : Nat) (v : BitVec 64)                -- a * uint64_t
  | mulULL (a : Nat) (v : BitVec 64)                -- a * unsigned long long
  | mulConst (a w : Nat) (v : BitVec w)             -- a * v, a const or a temporary
  | mpzL (op : UBin) (z : Int) (a : Nat)            -- z op a, z an mpz_class or a signed built-in
  | mpzR (op : UBin) (a : Nat) (z : Int)            -- a op z, z an mpz_class
  | powm (b e m : Nat)                              -- powm(b, e, m)
  | powmT (k : Nat) (b e m : Nat)                   -- powm with an exponent of precision k
  | squareRoot (a : Nat) | power2 (k : Nat)
  | setBit (a i : Nat) (v : Bool) | setByte (a i : Nat) (v : BitVec 8) | setBlock (a i : Nat) (v : Block)
  | cast (k a : Nat)                                -- from precision k
  | magnitude (a : Nat)                             -- unsignedCast() of a signed object

def UExpr.run (env : Env) (st : World) {n : Nat} : UExpr n → Exec (Aeu n)
  | .builtin _ v => Aeu.ofUnsigned n v
  | .text kind chars => Aeu.ofChars kind env.alnum n ⟨chars.toArray, rfl⟩
  | .mpz z => Aeu.ofMpz env.cfg n z
  | .reg a => .ok (st.u n a)
  | .plus a => Aeu.plus (st.u n a)
  | .neg a => Aeu.neg (st.u n a)
  | .not a => Aeu.not (st.u n a)
  | .inc a => Aeu.inc (st.u n a)
  | .dec a => Aeu.dec (st.u n a)
  | .bin op a b => op.run env.cfg (st.u n a) (st.u n b)
  | .shl a k => Aeu.shl (st.u n a) k
  | .shr a k => Aeu.shr (st.u n a) k
  | .mix op a _ v => op.run env.cfg (st.u n a) v
  | .mulU64 a v => Aeu.mulU64 (st.u n a) v
  | .mulULL a v => Aeu.mulULL env.cfg (st.u n a) v
  | .mulConst a _ v => Aeu.mulConst (st.u n a) v
  | .mpzL op z a => do let x ← Aeu.ofMpz env.cfg n z; op.run env.cfg x (st.u n a)
  | .mpzR op a z => do let x ← Aeu.ofMpz env.cfg n z; op.run env.cfg (st.u n a) x
  | .powm b e m => Aeu.powm env.cfg (st.u n b) (st.u n e) (st.u n m)
  | .powmT k b e m => Aeu.powmT env.cfg (st.u n b) (st.u k e) (st.u n m)
  | .squareRoot a => Aeu.squareRoot env.cfg (st.u n a)
  | .power2 k => Aeu.power2 env.cfg n k
  | .setBit a i v => Aeu.setBit env.cfg (st.u n a) i v
  | .setByte a i v => Aeu.setByte env.cfg (st.u n a) i v
  | .setBlock a i v => Aeu.setBlock env.cfg (st.u n a) i v
  | .cast k a => Aeu.precisionCast env.cfg n (st.u k a)
  | .magnitude a => .ok (Aesi.unsignedCast (st.s n a))

/-- The binary operators of two `Aesi`s of the same precision. -/
inductive SBin where
  | add | sub | mul | div | mod

def SBin.run (cfg : Cfg) {n : Nat} (a b : Aesi n) : SBin → Exec (Aesi n)
  | .add => Aesi.add cfg a b
  | .sub => Aesi.sub cfg a b
  | .mul => Aesi.mul a b
  | .div => Aesi.div cfg a b
  | .mod => Aesi.mod cfg a b

/-- The operators of an `Aesi` and a built-in value, on the right or on the left. -/
inductive SMix where
  | addR | subR | mulR | divR | modR | addL | subL | mulL | divL | modL

def SMix.run (cfg : Cfg) {n : Nat} (t : ITy) (a : Aesi n) (i : Int) : SMix → Exec (Aesi n)
  | .addR => Aesi.addRight cfg t a i
  | .subR => Aesi.subRight cfg t a i
  | .mulR => Aesi.mulIntegral cfg t a i
  | .divR => Aesi.divIntegral cfg t a i
  | .modR => Aesi.modIntegral cfg t a i
  | .addL => Aesi.addLeft cfg t i a
  | .subL => Aesi.subLeft cfg t i a
  | .mulL => Aesi.mulLeft t i a
  | .divL => Aesi.divLeft cfg t i a
  | .modL => Aesi.modLeft cfg t i a

/-- Calls whose result is an `Aesi<32 n>`. -/
inductive SExpr (n : Nat) where
  | builtin (t : ITy) (i : Int)                     -- Aesi(i), i of type t
  | text (kind : CharKind) (chars : List Int)
  | mpz (z : Int)
  | ofAeu (a : Nat)                                 -- Aesi(Aeu)
  | reg (a : Nat)
  | plus (a : Nat) | neg (a : Nat) | inc (a : Nat) | dec (a : Nat)
  | bin (op : SBin) (a b : Nat)
  | mix (op : SMix) (a : Nat) (t : ITy) (i : Int)
  | mpzL (op : SBin) (z : Int) (a : Nat)            -- z op a, z an mpz_class
  | mpzR (op : SBin) (a : Nat) (z : Int)            -- a op z
  | squareRoot (a : Nat) | power2 (k : Nat)
  | setBit (a i : Nat) (v : Bool) | setByte (a i : Nat) (v : BitVec 8) | setBlock (a i : Nat) (v : Block)
  | cast (k a : Nat)                                -- from precision k

def SExpr.run (env : Env) (st : World) {n : Nat} : SExpr n → Exec (Aesi n)
  | .builtin t i => Aesi.ofIntegral n t i
  | .text kind chars => Aesi.ofChars kind env.alnum n ⟨chars.toArray, rfl⟩
  | .mpz z => Aesi.ofMpz env.cfg n z
  | .ofAeu a => .ok (Aesi.ofAeu (st.u n a))
  | .reg a => .ok (st.s n a)
  | .plus a => .ok (Aesi.plus (st.s n a))
  | .neg a => .ok (Aesi.neg (st.s n a))
  | .inc a => Aesi.inc (st.s n a)
  | .dec a => Aesi.dec (st.s n a)
  | .bin op a b => op.run env.cfg (st.s n a) (st.s n b)
  | .mix op a t i => op.run env.cfg t (st.s n a) i
  | .mpzL op z a => do let x ← Aesi.ofMpz env.cfg n z; op.run env.cfg x (st.s n a)
  | .mpzR op a z => do let x ← Aesi.ofMpz env.cfg n z; op.run env.cfg (st.s n a) x
  | .squareRoot a => Aesi.squareRoot env.cfg (st.s n a)
  | .power2 k => Aesi.power2 env.cfg n k
  | .setBit a i v => Aesi.setBit env.cfg (st.s n a) i v
  | .setByte a i v => Aesi.setByte env.cfg (st.s n a) i v
  | .setBlock a i v => Aesi.setBlock env.cfg (st.s n a) i v
  | .cast k a => Aesi.precisionCast env.cfg n (st.s k a)

/-! ### Results as numbers -/

def ofBool (b : Bool) : List Int := [if b then 1 else 0]
def ofCmp : Comparison → List Int
  | .equal => [0] | .less => [1] | .greater => [2] | .equivalent => [3]
def ofOrd : StrongOrdering → List Int
  | .less => [-1] | .equal => [0] | .greater => [1]

/-- Observers: calls that return a built-in value, a comparison or a text. -/
inductive Query where
  -- on an `Aeu` of precision n
  | uIsZero (n a : Nat) | uIsOdd (n a : Nat) | uIsEven (n a : Nat)
  | uBitCount (n a : Nat) | uByteCount (n a : Nat) | uFilledBlocks (n a : Nat)
  | uGetBit (n a i : Nat) | uGetByte (n a i : Nat) | uGetBlock (n a i : Nat)
  | uEq (n m a b : Nat) | uCompare (n m a b : Nat) | uOrder (n m a b : Nat)
  | uEqNarrow (n a w : Nat) (v : BitVec w) | uCompareNarrow (n a w : Nat) (v : BitVec w)
  | uEqU64 (n a : Nat) (v : BitVec 64) | uCompareU64 (n a : Nat) (v : BitVec 64)
  | uEqSigned (n a : Nat) (i : Int) | uCompareSigned (n a : Nat) (i : Int)
  | uRel (op : Rel) (n m a b : Nat) | uNe (n m a b : Nat)
  | uOld (op : Rel) (n a b : Nat) | uOldBuiltin (op : Rel) (n a w : Nat) (v : BitVec w)
  | uOrderNarrow (n a w : Nat) (v : BitVec w) | uOrderU64 (n a : Nat) (v : BitVec 64)
  | uOrderSigned (n a : Nat) (i : Int)
  | uBitness (n : Nat) | uBlocks (n : Nat)
  | uEqMpz (n a : Nat) (z : Int)
  | uCast (n a : Nat) (t : ITy)                     -- integralCast
  | uText (n a : Nat) (kind : CharKind) (base : BitVec 8) (upper showBase : Bool) (cap : Nat)
  -- on an `Aesi` of precision n
  | sIsZero (n a : Nat) | sIsPositive (n a : Nat) | sIsNegative (n a : Nat)
  | sIsOdd (n a : Nat) | sIsEven (n a : Nat) | sBitCount (n a : Nat) | sByteCount (n a : Nat)
  | sGetBit (n a i : Nat) | sGetByte (n a i : Nat) | sGetBlock (n a i : Nat)
  | sEq (n a b : Nat) | sCompare (n a b : Nat) | sOrder (n a b : Nat)
  | sEqAcross (n m a b : Nat) | sCompareAcross (n m a b : Nat)
  | sEqIntegral (n a : Nat) (t : ITy) (i : Int) | sCompareIntegral (n a : Nat) (t : ITy) (i : Int)
  | sRel (op : Rel) (n a b : Nat) | sNe (n a b : Nat)
  | sOrderIntegral (n a : Nat) (t : ITy) (i : Int)
  | sLtIntegral (n a : Nat) (t : ITy) (i : Int) | sGtIntegral (n a : Nat) (t : ITy) (i : Int)
  | sBitness (n : Nat) | sBlocks (n : Nat)
  | sEqMpz (n a : Nat) (z : Int)
  | sCast (n a : Nat) (t : ITy)
  | sText (n a : Nat) (kind : CharKind) (base : BitVec 8) (upper showBase : Bool) (cap : Nat)

def Query.run (env : Env) (st : World) : Query → Exec (List Int)
  | .uIsZero n a => do let r ← Aeu.isZero (st.u n a); .ok (ofBool r)
  | .uIsOdd n a => do let r ← Aeu.isOdd (st.u n a); .ok (ofBool r)
  | .uIsEven n a => do let r ← Aeu.isEven (st.u n a); .ok (ofBool r)
  | .uBitCount n a => do let r ← Aeu.bitCount (st.u n a); .ok [(r : Int)]
  | .uByteCount n a => do let r ← Aeu.byteCount (st.u n a); .ok [(r : Int)]
  | .uFilledBlocks n a => do let r ← Aeu.filledBlocksNumber (st.u n a); .ok [(r : Int)]
  | .uGetBit n a i => do let r ← Aeu.getBit env.cfg (st.u n a) i; .ok (ofBool r)
  | .uGetByte n a i => do let r ← Aeu.getByte env.cfg (st.u n a) i; .ok [(r.toNat : Int)]
  | .uGetBlock n a i => do let r ← Aeu.getBlock env.cfg (st.u n a) i; .ok [(r.toNat : Int)]
  | .uEq n m a b => do let r ← Aeu.eq env.cfg (st.u n a) (st.u m b); .ok (ofBool r)
  | .uCompare n m a b => do let r ← Aeu.compareTo env.cfg (st.u n a) (st.u m b); .ok (ofCmp r)
  | .uOrder n m a b => do let r ← Aeu.spaceship env.cfg (st.u n a) (st.u m b); .ok (ofOrd r)
  | .uEqNarrow n a _ v => do let r ← Aeu.eqNarrow (st.u n a) v; .ok (ofBool r)
  | .uCompareNarrow n a _ v => do let r ← Aeu.compareToNarrow (st.u n a) v; .ok (ofCmp r)
  | .uEqU64 n a v => do let r ← Aeu.eqU64 (st.u n a) v; .ok (ofBool r)
  | .uCompareU64 n a v => do let r ← Aeu.compareToU64 (st.u n a) v; .ok (ofCmp r)
  | .uEqSigned n a i => do let r ← Aeu.eqSigned (st.u n a) i; .ok (ofBool r)
  | .uCompareSigned n a i => do let r ← Aeu.compareToSigned (st.u n a) i; .ok (ofCmp r)
  | .uRel op n m a b => do let r ← op.runU env.cfg (st.u n a) (st.u m b); .ok (ofBool r)
  | .uNe n m a b => do let r ← Aeu.ne env.cfg (st.u n a) (st.u m b); .ok (ofBool r)
  | .uOld op n a b => do let r ← op.runOld env.cfg (st.u n a) (st.u n b); .ok (ofBool r)
  | .uOldBuiltin op n a _ v => do
      let r ← Aeu.oldBuiltin (fun x y => op.runOld env.cfg x y) (st.u n a) v
      .ok (ofBool r)
  | .uOrderNarrow n a _ v => do let r ← Aeu.spaceshipNarrow (st.u n a) v; .ok (ofOrd r)
  | .uOrderU64 n a v => do let r ← Aeu.spaceshipU64 (st.u n a) v; .ok (ofOrd r)
  | .uOrderSigned n a i => do let r ← Aeu.spaceshipSigned (st.u n a) i; .ok (ofOrd r)
  | .uBitness n => .ok [(Aeu.getBitness n : Int)]
  | .uBlocks n => .ok [(Aeu.totalBlocksNumber n : Int)]
  | .uEqMpz n a z => do let r ← Aeu.eqMpz env.cfg (st.u n a) z; .ok (ofBool r)
  | .uCast n a t => do let r ← Aeu.integralCast t (st.u n a); .ok [r]
  | .uText n a kind base upper showBase cap => do
      let r ← Aeu.getString env.cfg kind base upper (st.u n a) (Vector.replicate cap 0) showBase
      .ok (r.1.toList.take r.2)
  | .sIsZero n a => .ok (ofBool (Aesi.isZero (st.s n a)))
  | .sIsPositive n a => .ok (ofBool (Aesi.isPositive (st.s n a)))
  | .sIsNegative n a => .ok (ofBool (Aesi.isNegative (st.s n a)))
  | .sIsOdd n a => do let r ← Aesi.isOdd (st.s n a); .ok (ofBool r)
  | .sIsEven n a => do let r ← Aesi.isEven (st.s n a); .ok (ofBool r)
  | .sBitCount n a => do let r ← Aesi.bitCount (st.s n a); .ok [(r : Int)]
  | .sByteCount n a => do let r ← Aesi.byteCount (st.s n a); .ok [(r : Int)]
  | .sGetBit n a i => do let r ← Aesi.getBit env.cfg (st.s n a) i; .ok (ofBool r)
  | .sGetByte n a i => do let r ← Aesi.getByte env.cfg (st.s n a) i; .ok [(r.toNat : Int)]
  | .sGetBlock n a i => do let r ← Aesi.getBlock env.cfg (st.s n a) i; .ok [(r.toNat : Int)]
  | .sEq n a b => do let r ← Aesi.eq env.cfg (st.s n a) (st.s n b); .ok (ofBool r)
  | .sCompare n a b => do let r ← Aesi.compareTo env.cfg (st.s n a) (st.s n b); .ok (ofCmp r)
  | .sOrder n a b => do let r ← Aesi.spaceship env.cfg (st.s n a) (st.s n b); .ok (ofOrd r)
  | .sEqAcross n m a b => do let r ← Aesi.eqAcross env.cfg (st.s n a) (st.s m b); .ok (ofBool r)
  | .sCompareAcross n m a b => do let r ← Aesi.compareToAcross env.cfg (st.s n a) (st.s m b); .ok (ofCmp r)
  | .sEqIntegral n a _ i => do let r ← Aesi.eqIntegral (st.s n a) i; .ok (ofBool r)
  | .sCompareIntegral n a _ i => do let r ← Aesi.compareToIntegral (st.s n a) i; .ok (ofCmp r)
  | .sRel op n a b => do let r ← op.runS env.cfg (st.s n a) (st.s n b); .ok (ofBool r)
  | .sNe n a b => do let r ← Aesi.ne env.cfg (st.s n a) (st.s n b); .ok (ofBool r)
  | .sOrderIntegral n a _ i => do let r ← Aesi.spaceshipIntegral (st.s n a) i; .ok (ofOrd r)
  | .sLtIntegral n a _ i => do let r ← Aesi.ltIntegral (st.s n a) i; .ok (ofBool r)
  | .sGtIntegral n a _ i => do let r ← Aesi.gtIntegral (st.s n a) i; .ok (ofBool r)
  | .sBitness n => .ok [(Aesi.getBitness n : Int)]
  | .sBlocks n => .ok [(Aesi.totalBlocksNumber n : Int)]
  | .sEqMpz n a z => do let r ← Aesi.eqMpz env.cfg (st.s n a) z; .ok (ofBool r)
  | .sCast n a t => do let r ← Aesi.integralCast t (st.s n a); .ok [r]
  | .sText n a kind base upper showBase cap => do
      let r ← Aesi.getString env.cfg kind base upper (st.s n a) (Vector.replicate cap 0) showBase
      .ok (r.1.toList.take r.2)

/-- One call by the client. -/
inductive Call where
  | setU (n d : Nat) (e : UExpr n)                  -- d = e (also d op= ..., ++d, d.setBit(...))
  | setS (n d : Nat) (e : SExpr n)
  | ask (q : Query)
  | postIncU (n d a : Nat) | postDecU (n d a : Nat)  -- d = a++; d = a--
  | postIncS (n d a : Nat) | postDecS (n d a : Nat)
  | divideU (n a b q r : Nat)                        -- divide(a, b, q, r)
  | divideS (n a b q r : Nat)
  | dividePair (n a b q r : Nat)                     -- auto p = divide(a, b); q = p.first; r = p.second
  | gcdExt (n a b x y g : Nat)                       -- g = gcd(a, b, x, y)
  | swapU (n a b : Nat) | swapS (n a b : Nat)
  | printU (n a buf : Nat) | printS (n a buf : Nat)  -- os << a
  | read (n d : Nat) (bigEndian : Bool)              -- d.readBinary(src, bigEndian)
  | write (n a : Nat) (bigEndian : Bool)             -- a.writeBinary(sink, bigEndian)

def Call.run (env : Env) (st : World) : Call → Exec World
  | .setU n d e => do let r ← e.run env st; .ok (st.setU n d r)
  | .setS n d e => do let r ← e.run env st; .ok (st.setS n d r)
  | .ask q => do let r ← q.run env st; .ok { st with last := r }
  | .postIncU n d a => do let r ← Aeu.postInc (st.u n a); .ok ((st.setU n a r.1).setU n d r.2)
  | .postDecU n d a => do let r ← Aeu.postDec (st.u n a); .ok ((st.setU n a r.1).setU n d r.2)
  | .postIncS n d a => do let r ← Aesi.postInc (st.s n a); .ok ((st.setS n a r.1).setS n d r.2)
  | .postDecS n d a => do let r ← Aesi.postDec (st.s n a); .ok ((st.setS n a r.1).setS n d r.2)
  | .divideU n a b q r => do
      let x ← Aeu.divide env.cfg (st.u n a) (st.u n b)
      .ok ((st.setU n q x.1).setU n r x.2)
  | .dividePair n a b q r => do
      let x ← Aeu.dividePair env.cfg (st.u n a) (st.u n b)
      .ok ((st.setU n q x.1).setU n r x.2)
  | .divideS n a b q r => do
      let x ← Aesi.divide env.cfg (st.s n a) (st.s n b) (st.s n q) (st.s n r)
      .ok ((st.setS n q x.1).setS n r x.2)
  | .gcdExt n a b x y g => do
      let r ← Aeu.gcdExt env.cfg (st.u n a) (st.u n b)
      .ok (((st.setU n x r.2.1).setU n y r.2.2).setU n g r.1)
  | .swapU n a b =>
      let r := Aeu.swap (st.u n a) (st.u n b)
      .ok ((st.setU n a r.1).setU n b r.2)
  | .swapS n a b =>
      let r := Aesi.swap (st.s n a) (st.s n b)
      .ok ((st.setS n a r.1).setS n b r.2)
  | .printU n a buf => do let os ← Aeu.streamOut env.cfg buf st.os (st.u n a); .ok { st with os := os }
  | .printS n a buf => do let os ← Aesi.streamOut env.cfg buf st.os (st.s n a); .ok { st with os := os }
  | .read n d be => do
      let r ← Aeu.readBinary env.host (st.u n d) st.src be
      .ok { st.setU n d r.1 with src := r.2 }
  | .write n a be => do
      let r ← Aeu.writeBinary env.host (st.u n a) st.sink be
      .ok { st with sink := r }

/-- A client program: after each call the rest may depend on the whole state. -/
inductive Client where
  | done
  | call (c : Call) (rest : World → Client)

def Client.run (env : Env) : Client → World → Exec World
  | .done, st => .ok st
  | .call c rest, st => do
      let st' ← c.run env st
      (rest st').run env st'

end AesiMP
