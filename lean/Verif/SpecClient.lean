import Verif.Model.Client
import Verif.SpecInt
import Verif.SpecText
import Mathlib.Data.Nat.Log

/-!
# What client programs should compute

The same calls as in `Model/Client.lean`, over numbers: an unsigned object is a natural number, a signed
one an integer.  No function of the library model is used, only its data types and `IsStreamBuf` (the
length of the buffer inside `<<`).  `none` means that the library makes no promise
for the call (an operand out of range, a result that does not fit, a defect listed in DESIGN.md).
-/

namespace AesiMP
open Aesi (Fits)

/-- `z` modulo `2^bitness`. -/
def wrap (n : Nat) (z : Int) : Nat := (z % (2 : Int) ^ (32 * n)).toNat

/-- The value, under a condition. -/
def given {α : Type} (p : Prop) [Decidable p] (v : α) : Option α := if p then some v else none

/-- Digit `i` of `v` in base `b`. -/
def digitAt (b v i : Nat) : Nat := v / b ^ i % b

/-- `v` with digit `i` in base `b` replaced by `d`. -/
def putDigit (b v i d : Nat) : Nat := v + d * b ^ i - digitAt b v i * b ^ i

/-- Number of digits in base `b`, none for zero. -/
def digitCount (b v : Nat) : Nat := if v = 0 then 0 else Nat.log b v + 1

/-- The state of a client, as numbers: precision, then register. -/
structure Ideal where
  u : Nat → Nat → Nat
  s : Nat → Nat → Int
  last : List Int
  os : OStream
  sink : BSink
  src : IStream

def Ideal.setU (w : Ideal) (n d v : Nat) : Ideal :=
  { w with u := fun k i => if k = n ∧ i = d then v else w.u k i }
def Ideal.setS (w : Ideal) (n d : Nat) (v : Int) : Ideal :=
  { w with s := fun k i => if k = n ∧ i = d then v else w.s k i }

/-! ### Unsigned results -/

def UBin.ideal (n a b : Nat) : UBin → Option Nat
  | .add => some (wrap n (a + b))
  | .sub => some (wrap n (a - b))
  | .mul => some (wrap n (a * b))
  | .div => given (b ≠ 0) (a / b)
  | .mod => given (b ≠ 0) (a % b)
  | .xor => some (a ^^^ b)
  | .and => some (a &&& b)
  | .or => some (a ||| b)
  | .gcd => some (Nat.gcd a b)
  | .lcm => some (wrap n (Nat.lcm a b))

/-- `a` the object, `v` the value of a built-in unsigned type of `w` bits. -/
def UMix.ideal (n w a v : Nat) (op : UMix) : Option Nat :=
  if 0 < w ∧ w ≤ 64 then
    match op with
    | .addR => given (n ≤ 2 ∨ a % 2 ^ 32 + v < 2 ^ 64) (wrap n (a + v))
    | .subR => given (v < 2 ^ (32 * n)) (wrap n (a - v))
    | .mulR => given (w ≤ 32) (wrap n (a * v))
    | .divR => given (v < 2 ^ (32 * n) ∧ v ≠ 0) (a / v)
    | .modR => given (v < 2 ^ (32 * n) ∧ v ≠ 0) (a % v)
    | .xorR => given (v < 2 ^ (32 * n)) (a ^^^ v)
    | .andR => given (v < 2 ^ (32 * n)) (a &&& v)
    | .orR => given (v < 2 ^ (32 * n)) (a ||| v)
    | .addL => some (wrap n (v + a))
    | .subL => some (wrap n (v - a))
    | .mulL => some (wrap n (v * a))
    | .divL => given (v < 2 ^ (32 * n) ∧ a ≠ 0) (v / a)
    | .modL => given (v < 2 ^ (32 * n) ∧ a ≠ 0) (v % a)
    | .xorL => given (v < 2 ^ (32 * n)) (v ^^^ a)
    | .andL => given (v < 2 ^ (32 * n)) (v &&& a)
    | .orL => given (v < 2 ^ (32 * n)) (v ||| a)
  else none

/-- A text: narrow characters are `unsigned char` values (what `std::isalnum` requires). -/
def CharsOk (kind : CharKind) (chars : List Int) : Prop :=
  kind = .char → ∀ c ∈ chars, 0 ≤ c ∧ c ≤ 255

instance (kind : CharKind) (chars : List Int) : Decidable (CharsOk kind chars) := by
  unfold CharsOk; infer_instance

def UExpr.ideal (env : Env) (w : Ideal) {n : Nat} : UExpr n → Option Nat
  | .builtin k v => given (k ≤ 64) (wrap n v.toNat)
  | .text kind chars => given (CharsOk kind chars) (wrap n (parsed env.alnum chars))
  | .mpz z => given (z.natAbs < 2 ^ (32 * n)) z.natAbs
  | .reg a => some (w.u n a)
  | .plus a => some (w.u n a)
  | .neg a => some (wrap n (-(w.u n a : Int)))
  | .not a => some (2 ^ (32 * n) - 1 - w.u n a)
  | .inc a => some (wrap n (w.u n a + 1))
  | .dec a => some (wrap n (w.u n a - 1))
  | .bin op a b => op.ideal n (w.u n a) (w.u n b)
  | .shl a k => given (k < 32 * n) (wrap n (w.u n a * 2 ^ k))
  | .shr a k => given (k < 32 * n) (w.u n a / 2 ^ k)
  | .mix op a k v => op.ideal n k (w.u n a) v.toNat
  | .mulU64 a v => some (wrap n (w.u n a * v.toNat))
  | .mulULL a v => given (env.cfg.u64IsULL = true ∨ v.toNat ≤ 2 ^ 32) (wrap n (w.u n a * v.toNat))
  | .mulConst a k v => given (k ≤ 64) (wrap n (w.u n a * v.toNat))
  | .mpzL op z a => if 0 ≤ z ∧ z < 2 ^ (32 * n) then op.ideal n z.toNat (w.u n a) else none
  | .mpzR op a z => if 0 ≤ z ∧ z < 2 ^ (32 * n) then op.ideal n (w.u n a) z.toNat else none
  | .powm b e m => given (1 < w.u n m ∧ (w.u n m - 1) ^ 2 < 2 ^ (32 * n)) (w.u n b ^ w.u n e % w.u n m)
  | .powmT k b e m =>
      given (32 * k < 2 ^ 32 ∧ 1 < w.u n m ∧ (w.u n m - 1) ^ 2 < 2 ^ (32 * n) ∧ 0 < w.u n b)
        (w.u n b ^ w.u k e % w.u n m)
  | .squareRoot a => some (Nat.sqrt (w.u n a))
  | .power2 k => given (k < 32 * n) (2 ^ k)
  | .setBit a i v => given (i < 32 * n) (putDigit 2 (w.u n a) i v.toNat)
  | .setByte a i v => given (i < 4 * n) (putDigit 256 (w.u n a) i v.toNat)
  | .setBlock a i v => given (i < n) (putDigit (2 ^ 32) (w.u n a) i v.toNat)
  | .cast k a => some (wrap n (w.u k a))
  | .magnitude a => given (w.s n a ≠ 0) (w.s n a).natAbs

/-! ### Signed results -/

/-- An integer that fits the precision. -/
def fitting (n : Nat) (z : Int) : Option Int := given (Fits n z) z

def SBin.ideal (n : Nat) (a b : Int) : SBin → Option Int
  | .add => fitting n (a + b)
  | .sub => fitting n (a - b)
  | .mul => fitting n (a * b)
  | .div => given (b ≠ 0) (a.tdiv b)
  | .mod => given (0 < b) (a.tmod b)

/-- A value of the built-in type `t` that fits the precision, other than the type's minimum. -/
def OperandOk (n : Nat) (t : ITy) (i : Int) : Prop :=
  t ∈ ITy.all ∧ t.InRange i ∧ ¬ (t.signed = true ∧ i = -(2 : Int) ^ (t.width - 1)) ∧ Fits n i

instance (n : Nat) (t : ITy) (i : Int) : Decidable (OperandOk n t i) := by unfold OperandOk; infer_instance

def SMix.ideal (env : Env) (n : Nat) (t : ITy) (a i : Int) (op : SMix) : Option Int :=
  if OperandOk n t i then
    match op with
    | .addR => fitting n (a + i)
    | .subR => fitting n (a - i)
    | .mulR => if env.cfg.u64IsULL = true ∨ i.natAbs ≤ 2 ^ 32 then fitting n (a * i) else none
    | .divR => given (i ≠ 0) (a.tdiv i)
    | .modR => given (0 < i ∧ a.tmod i ≠ 0) (a.tmod i)
    | .addL => fitting n (i + a)
    | .subL => fitting n (i - a)
    | .mulL => fitting n (i * a)
    | .divL => given (a ≠ 0) (i.tdiv a)
    | .modL => given (0 < a) (i.tmod a)
  else none

/-- `z` with another magnitude; nothing is promised about zero. -/
def withMagnitude (z : Int) (m : Nat) : Option Int := given (z ≠ 0 ∧ m ≠ 0) (z.sign * m)

def SExpr.ideal (env : Env) (w : Ideal) {n : Nat} : SExpr n → Option Int
  | .builtin t i => given (OperandOk n t i) i
  | .text kind chars => given (CharsOk kind chars)
      ((if chars.count 45 % 2 = 0 then 1 else -1) * (wrap n (parsed env.alnum chars) : Int))
  | .mpz z => fitting n z
  | .ofAeu a => given (w.u n a ≠ 0) (w.u n a : Int)
  | .reg a => some (w.s n a)
  | .plus a => some (w.s n a)
  | .neg a => some (-w.s n a)
  | .inc a => fitting n (w.s n a + 1)
  | .dec a => fitting n (w.s n a - 1)
  | .bin op a b => op.ideal n (w.s n a) (w.s n b)
  | .mix op a t i => op.ideal env n t (w.s n a) i
  | .mpzL op z a => if Fits n z then op.ideal n z (w.s n a) else none
  | .mpzR op a z => if Fits n z then op.ideal n (w.s n a) z else none
  | .squareRoot a => some (Nat.sqrt (w.s n a).toNat)
  | .power2 k => given (k < 32 * n) (2 ^ k)
  | .setBit a i v => if i < 32 * n then
      withMagnitude (w.s n a) (putDigit 2 (w.s n a).natAbs i v.toNat) else none
  | .setByte a i v => if i < 4 * n then
      withMagnitude (w.s n a) (putDigit 256 (w.s n a).natAbs i v.toNat) else none
  | .setBlock a i v => if i < n then
      withMagnitude (w.s n a) (putDigit (2 ^ 32) (w.s n a).natAbs i v.toNat) else none
  | .cast k a => if 0 < k then fitting n (w.s k a) else none

/-! ### Observers -/

def truth (p : Prop) [Decidable p] : List Int := [if p then 1 else 0]

/-- The codes of `Comparison` for two integers: `less` is 1, `equal` 0, `greater` 2. -/
def cmpCode (x y : Int) : List Int := [if x < y then 1 else if x = y then 0 else 2]
/-- `<=>`. -/
def ordCode (x y : Int) : List Int := [if x < y then -1 else if x = y then 0 else 1]

/-- The relational operators on numbers. -/
def Rel.ideal (x y : Int) : Rel → List Int
  | .lt => truth (x < y)
  | .le => truth (x ≤ y)
  | .gt => truth (y < x)
  | .ge => truth (y ≤ x)

/-- The bases `getString` supports for a precision. -/
def BaseOk (n base : Nat) : Prop := 2 ≤ base ∧ base ≤ 10 ∧ 2 ≤ n ∨ base = 16

instance (n base : Nat) : Decidable (BaseOk n base) := by unfold BaseOk; infer_instance

/-- The characters `getString` counts for a non-negative number: prefix, numeral, and a terminator
unless the number is zero. -/
def shownText (n base : Nat) (upper showBase : Bool) (cap v : Nat) : Option (List Int) :=
  let text := (if showBase ∧ 3 < cap then basePrefix base else []) ++ numeral upper base v
  given (BaseOk n base ∧ cap < 2 ^ 63 ∧ text.length < cap) (if v = 0 then text else text ++ [0])

def Query.ideal (w : Ideal) : Query → Option (List Int)
  | .uIsZero n a => given (0 < n) (truth (w.u n a = 0))
  | .uIsOdd n a => given (0 < n) (truth (w.u n a % 2 = 1))
  | .uIsEven n a => given (0 < n) (truth (w.u n a % 2 = 0))
  | .uBitCount n a => given (0 < n) [(digitCount 2 (w.u n a) : Int)]
  | .uByteCount n a => given (0 < n) [(digitCount 256 (w.u n a) : Int)]
  | .uFilledBlocks n a => given (0 < n) [(digitCount (2 ^ 32) (w.u n a) : Int)]
  | .uGetBit n a i => given (i < 32 * n) (truth (digitAt 2 (w.u n a) i = 1))
  | .uGetByte n a i => given (i < 4 * n) [(digitAt 256 (w.u n a) i : Int)]
  | .uGetBlock n a i => given (i < n) [(digitAt (2 ^ 32) (w.u n a) i : Int)]
  | .uEq n m a b => some (truth (w.u n a = w.u m b))
  | .uCompare n m a b =>
      given (w.u n a < 2 ^ (32 * min n m) ∧ w.u m b < 2 ^ (32 * min n m)) (cmpCode (w.u n a) (w.u m b))
  | .uOrder n m a b =>
      given (w.u n a < 2 ^ (32 * min n m) ∧ w.u m b < 2 ^ (32 * min n m)) (ordCode (w.u n a) (w.u m b))
  | .uEqNarrow n a k v => given (0 < n ∧ k ≤ 32) (truth (w.u n a = v.toNat))
  | .uCompareNarrow n a k v => given (0 < n ∧ k ≤ 32) (cmpCode (w.u n a) v.toNat)
  | .uEqU64 n a v => given (2 ≤ n) (truth (w.u n a = v.toNat))
  | .uCompareU64 n a v => given (2 ≤ n) (cmpCode (w.u n a) v.toNat)
  | .uEqSigned n a i => given (2 ≤ n ∧ 0 ≤ i ∧ i < 2 ^ 63) (truth ((w.u n a : Int) = i))
  | .uCompareSigned n a i => given (2 ≤ n ∧ 0 ≤ i ∧ i < 2 ^ 63) (cmpCode (w.u n a) i)
  | .uRel op n m a b =>
      given (w.u n a < 2 ^ (32 * min n m) ∧ w.u m b < 2 ^ (32 * min n m)) (op.ideal (w.u n a) (w.u m b))
  | .uNe n m a b => some (truth (w.u n a ≠ w.u m b))
  | .uOld op n a b => some (op.ideal (w.u n a) (w.u n b))
  | .uOldBuiltin op n a k v => given (k ≤ 64 ∧ v.toNat < 2 ^ (32 * n)) (op.ideal (w.u n a) v.toNat)
  | .uOrderNarrow n a k v => given (0 < n ∧ k ≤ 32) (ordCode (w.u n a) v.toNat)
  | .uOrderU64 n a v => given (2 ≤ n) (ordCode (w.u n a) v.toNat)
  | .uOrderSigned n a i => given (2 ≤ n ∧ 0 ≤ i ∧ i < 2 ^ 63) (ordCode (w.u n a) i)
  | .uBitness n => some [(32 * n : Int)]
  | .uBlocks n => some [(n : Int)]
  | .uEqMpz n a z => given (0 ≤ z ∧ z < 2 ^ (32 * n)) (truth ((w.u n a : Int) = z))
  | .uCast n a t => given (2 ≤ n ∧ t ∈ ITy.all ∧ t.InRange (w.u n a)) [(w.u n a : Int)]
  | .uText n a _ base upper showBase cap => shownText n base.toNat upper showBase cap (w.u n a)
  | .sIsZero n a => some (truth (w.s n a = 0))
  | .sIsPositive n a => some (truth (0 < w.s n a))
  | .sIsNegative n a => some (truth (w.s n a < 0))
  | .sIsOdd n a => given (0 < n ∧ w.s n a ≠ 0) (truth (w.s n a % 2 = 1))
  | .sIsEven n a => given (0 < n ∧ w.s n a ≠ 0) (truth (w.s n a % 2 = 0))
  | .sBitCount n a => given (0 < n ∧ w.s n a ≠ 0) [(digitCount 2 (w.s n a).natAbs : Int)]
  | .sByteCount n a => given (0 < n ∧ w.s n a ≠ 0) [(digitCount 256 (w.s n a).natAbs : Int)]
  | .sGetBit n a i => given (i < 32 * n ∧ w.s n a ≠ 0) (truth (digitAt 2 (w.s n a).natAbs i = 1))
  | .sGetByte n a i => given (i < 4 * n ∧ w.s n a ≠ 0) [(digitAt 256 (w.s n a).natAbs i : Int)]
  | .sGetBlock n a i => given (i < n ∧ w.s n a ≠ 0) [(digitAt (2 ^ 32) (w.s n a).natAbs i : Int)]
  | .sEq n a b => some (truth (w.s n a = w.s n b))
  | .sCompare n a b => some (cmpCode (w.s n a) (w.s n b))
  | .sOrder n a b => some (ordCode (w.s n a) (w.s n b))
  | .sEqAcross n m a b => given (0 < n ∧ 0 < m ∧ Fits m (w.s n a)) (truth (w.s n a = w.s m b))
  | .sCompareAcross n m a b => given (0 < n ∧ 0 < m ∧ Fits m (w.s n a)) (cmpCode (w.s n a) (w.s m b))
  | .sEqIntegral n a t i => given (2 ≤ n ∧ t ∈ ITy.all ∧ t.InRange i ∧ i ≠ -(2 : Int) ^ 63) (truth (w.s n a = i))
  | .sCompareIntegral n a t i =>
      given (2 ≤ n ∧ t ∈ ITy.all ∧ t.InRange i ∧ i ≠ -(2 : Int) ^ 63) (cmpCode (w.s n a) i)
  | .sRel op n a b => some (op.ideal (w.s n a) (w.s n b))
  | .sNe n a b => some (truth (w.s n a ≠ w.s n b))
  | .sOrderIntegral n a t i =>
      given (2 ≤ n ∧ t ∈ ITy.all ∧ t.InRange i ∧ i ≠ -(2 : Int) ^ 63) (ordCode (w.s n a) i)
  | .sLtIntegral n a t i =>
      given (2 ≤ n ∧ t ∈ ITy.all ∧ t.InRange i ∧ i ≠ -(2 : Int) ^ 63) (truth (w.s n a < i))
  | .sGtIntegral n a t i =>
      given (2 ≤ n ∧ t ∈ ITy.all ∧ t.InRange i ∧ i ≠ -(2 : Int) ^ 63) (truth (i < w.s n a))
  | .sBitness n => some [(32 * n : Int)]
  | .sBlocks n => some [(n : Int)]
  | .sEqMpz n a z => given (Fits n z) (truth (w.s n a = z))
  | .sCast n a t => given (2 ≤ n ∧ t ∈ ITy.all ∧ t.InRange (w.s n a) ∧
      ¬ (t.signed = true ∧ w.s n a = -(2 : Int) ^ (t.width - 1))) [w.s n a]
  | .sText n a _ base upper showBase cap =>
      if w.s n a < 0 then
        -- the count leaves out the dash, so the terminator is not counted
        let text := (if showBase ∧ 4 < cap then basePrefix base.toNat else []) ++
          numeral upper base.toNat (w.s n a).natAbs
        given (BaseOk n base.toNat ∧ cap < 2 ^ 63 ∧ text.length + 1 < cap) (45 :: text)
      else if w.s n a = 0 then
        let text := (if showBase then basePrefix base.toNat else []) ++ [48]
        given (text.length ≤ cap) text
      else shownText n base.toNat upper showBase cap (w.s n a).natAbs

/-! ### Streams -/

/-- The radix of the stream's `basefield`. -/
def BaseField.base : BaseField → Nat
  | .hex => 16 | .oct => 8 | .other => 10

/-- The stream's flags after a number of magnitude `v` has been inserted (C61): hexadecimal and octal
output switch `showbase` off; hexadecimal output from `2^32` on leaves fill `'0'`, right adjusted. -/
def OStream.after (os : OStream) (v : Nat) : OStream :=
  match os.basefield with
  | .other => os
  | .oct => { os with showbase := false }
  | .hex => if v < 2 ^ 32 then { os with showbase := false }
      else { os with showbase := false, fill := 48, adjust := .right }

/-- No field width is pending, and the precision is one `<<` supports in the stream's base. -/
def PrintOk (n : Nat) (os : OStream) : Prop :=
  os.width = 0 ∧ match os.basefield with | .hex => 1 ≤ n | .other => 2 ≤ n | .oct => 3 ≤ n

instance (n : Nat) (os : OStream) : Decidable (PrintOk n os) := by
  unfold PrintOk; cases os.basefield <;> infer_instance

/-- Byte `k` of the number is byte `imageIndex k` of its binary image, and conversely. -/
def imageIndex (host : Host) (bigEndian : Bool) (n p : Nat) : Nat :=
  4 * (if bigEndian then n - 1 - p / 4 else p / 4) + (if host = .little then p % 4 else 3 - p % 4)

/-- The binary image of a number. -/
def image (host : Host) (bigEndian : Bool) (n v : Nat) : List (BitVec 8) :=
  (List.range (4 * n)).map fun p => BitVec.ofNat 8 (digitAt 256 v (imageIndex host bigEndian n p))

/-- The number with a given binary image. -/
def ofImage (host : Host) (bigEndian : Bool) (n : Nat) (bytes : List (BitVec 8)) : Nat :=
  Nat.ofDigits 256 ((List.range (4 * n)).map fun k => (bytes.getD (imageIndex host bigEndian n k) 0).toNat)

/-! ### Calls and programs -/

/-- Neither output of a two-output function is an input, and they are two objects. -/
def Apart (a b q r : Nat) : Prop := q ≠ r ∧ a ≠ q ∧ a ≠ r ∧ b ≠ q ∧ b ≠ r

instance (a b q r : Nat) : Decidable (Apart a b q r) := by unfold Apart; infer_instance

def Call.ideal (env : Env) (w : Ideal) : Call → Option Ideal
  | .setU n d e => if 0 < n then (e.ideal env w).map fun v => w.setU n d v else none
  | .setS n d e => if 0 < n then (e.ideal env w).map fun v => w.setS n d v else none
  | .ask q => (q.ideal w).map fun r => { w with last := r }
  | .postIncU n d a => some ((w.setU n a (wrap n (w.u n a + 1))).setU n d (w.u n a))
  | .postDecU n d a => some ((w.setU n a (wrap n (w.u n a - 1))).setU n d (w.u n a))
  | .postIncS n d a =>
      given (0 < n ∧ Fits n (w.s n a + 1)) ((w.setS n a (w.s n a + 1)).setS n d (w.s n a))
  | .postDecS n d a =>
      given (0 < n ∧ Fits n (w.s n a - 1)) ((w.setS n a (w.s n a - 1)).setS n d (w.s n a))
  | .divideU n a b q r => given (0 < n ∧ Apart a b q r ∧ w.u n b ≠ 0)
      ((w.setU n q (w.u n a / w.u n b)).setU n r (w.u n a % w.u n b))
  | .dividePair n a b q r => given (0 < n ∧ w.u n b ≠ 0)
      ((w.setU n q (w.u n a / w.u n b)).setU n r (w.u n a % w.u n b))
  | .divideS n a b q r => given (0 < n ∧ Apart a b q r ∧ w.s n b ≠ 0)
      ((w.setS n q ((w.s n a).tdiv (w.s n b))).setS n r ((w.s n a).tmod (w.s n b)))
  | .gcdExt n a b x y g => given (0 < n ∧ x ≠ y ∧ w.u n a ≠ 0 ∧ w.u n b ≠ 0)
      (((w.setU n x (wrap n (Nat.gcdA (w.u n a) (w.u n b)))).setU n y
        (wrap n (Nat.gcdB (w.u n a) (w.u n b)))).setU n g (Nat.gcd (w.u n a) (w.u n b)))
  | .swapU n a b => some ((w.setU n a (w.u n b)).setU n b (w.u n a))
  | .swapS n a b => some ((w.setS n a (w.s n b)).setS n b (w.s n a))
  | .printU n a buf => given (Aeu.IsStreamBuf n buf ∧ PrintOk n w.os)
      { w with os := { w.os.after (w.u n a) with
          out := w.os.out ++ (if w.os.showbase then basePrefix w.os.basefield.base else []) ++
            numeral w.os.uppercase w.os.basefield.base (w.u n a) } }
  | .printS n a buf => given (Aeu.IsStreamBuf n buf ∧ PrintOk n w.os)
      { w with os := if w.s n a = 0 then { w.os with out := w.os.out ++ [48] } else
        { w.os.after (w.s n a).natAbs with
          out := w.os.out ++ (if w.s n a < 0 then [45] else []) ++
            (if w.os.showbase then basePrefix w.os.basefield.base else []) ++
            numeral w.os.uppercase w.os.basefield.base (w.s n a).natAbs } }
  | .read n d be => given (w.src.fail = false ∧ 4 * n ≤ w.src.data.length)
      { w.setU n d (ofImage env.host be n w.src.data) with src := ⟨w.src.data.drop (4 * n), false⟩ }
  | .write n a be => given (w.sink.fail = false ∧ 4 * n ≤ w.sink.room)
      { w with sink := ⟨w.sink.out ++ image env.host be n (w.u n a), w.sink.room - 4 * n, false⟩ }

/-- A client program that chooses every call by the results it has seen (comparisons, values, texts). -/
inductive Adaptive where
  | done
  | call (c : Call) (rest : List Int → Adaptive)

/-- The program over numbers. -/
def Adaptive.ideal (env : Env) : Adaptive → Ideal → Option Ideal
  | .done, w => some w
  | .call c rest, w => (c.ideal env w).bind fun w' => (rest w'.last).ideal env w'

/-- The program over the library. -/
def Adaptive.run (env : Env) : Adaptive → World → Exec World
  | .done, st => .ok st
  | .call c rest, st => do
      let st' ← c.run env st
      (rest st'.last).run env st'

end AesiMP
