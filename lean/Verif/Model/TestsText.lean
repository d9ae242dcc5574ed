import Verif.Model.Tests
import Verif.Model.BinIO
import Verif.Model.Text

/-!
# The randomised tests of /repo/test that read or print text or bytes

Continues `Model/Tests.lean`.  The texts the tests compare with are built by GMP's `operator<<`, the standard
streams and `std::bitset`, which are modelled by their contracts.  A string literal is the list of its
character codes (48 `0`, 45 `-`, 98 `b`, 111 `o`, 120 `x`).
-/

namespace AesiMP.Tests
open AesiMP
variable {n m cap : Nat}

/-- `ss << std::dec/oct/hex << std::noshowbase << value` of an `mpz_class`, and `value.get_str()` for
`b = 10`: GMP prints a dash and the numeral of the absolute value. -/
def mpzText (upper : Bool) (b : Nat) (v : Int) : List Int :=
  (if v < 0 then [45] else []) ++ numeral upper b v.natAbs

/-- `Aeu(const std::string&)` (Aeu.h:245-252): the character constructor on `data()`, `size()`. -/
def ofStringU (alnum : Int → Bool) (n : Nat) (ss : List Int) : Exec (Aeu n) :=
  Aeu.ofChars .char alnum n ⟨ss.toArray, rfl⟩
/-- `Aesi(const std::string&)` (Aesi.h:139-146). -/
def ofStringS (alnum : Int → Bool) (n : Nat) (ss : List Int) : Exec (Aesi n) :=
  Aesi.ofChars .char alnum n ⟨ss.toArray, rfl⟩

/-- `for (byte = ...; byte; byte >>= 1) binary += (byte & 1 ? '1' : '0')`, then the string reversed
(test/operations/initialization/initialization.cpp:90-92, test/operations/display/display.cpp:14-17,
test/bitwise/not.cpp:22-24). -/
def topBits (byte : BitVec 8) : Exec (List Int) := do
  let binary ← whileC 9 (byte, ([] : List Int)) fun (byte, binary) =>
    if byte ≠ 0#8 then .ok (.next (byte >>> 1, binary ++ [if byte &&& 1#8 ≠ 0#8 then (49 : Int) else 48]))
    else .ok (.leave binary)
  .ok binary.reverse

/-- `std::bitset<8>(byte)` as text: eight characters, most significant first. -/
def bitset8 (byte : BitVec 8) : List Int :=
  [7, 6, 5, 4, 3, 2, 1, 0].map fun i => if byte.getLsbD i then (49 : Int) else 48

/-- The binary digits the tests build: the bits of the topmost byte without leading zeros, then eight bits
for every other byte (initialization.cpp:85-95, 203-214; `gmpToBinaryString`, display.cpp:8-21; with every
byte complemented, not.cpp:16-26). -/
def byteText (f : BitVec 8 → BitVec 8) (v : Int) : Exec (List Int) := do
  let byteCount := gmpBytes v
  let top ← topBits (f (gmpByte v (byteCount - 1)))
  .ok (top ++ (List.range (byteCount - 1)).reverse.flatMap fun j => bitset8 (f (gmpByte v j)))

/-! ## Construction from text (test/operations/initialization/initialization.cpp) -/

/-- `record = value; EXPECT_EQ(record, value); record = ss.str(); EXPECT_EQ(record, value)`, the body of the
unsigned loops (testInitDecimal:33-38, Binary:81-98, Octal:117-121, Hexadecimal:130-138). -/
def initTextU (cfg : Cfg) (alnum : Int → Bool) (n : Nat) (ss : List Int) (value : Int) : Exec Bool := do
  let record ← Aeu.ofMpz cfg n value
  let e1 ← Aeu.eqMpz cfg record value
  let record ← ofStringU alnum n ss
  let e2 ← Aeu.eqMpz cfg record value
  .ok (e1 && e2)

/-- The same for `Aesi<N>` (testInitDecimal:33-38, Binary:200-216, Octal:237-241, Hexadecimal:251-260). -/
def initTextS (cfg : Cfg) (alnum : Int → Bool) (n : Nat) (ss : List Int) (value : Int) : Exec Bool := do
  let record ← Aesi.ofMpz cfg n value
  let e1 ← Aesi.eqMpz cfg record value
  let record ← ofStringS alnum n ss
  let e2 ← Aesi.eqMpz cfg record value
  .ok (e1 && e2)

/-- `TEST(Unsigned_Initialization, Decimal)` (initialization.cpp:102-108). -/
def initDecimalU (cfg : Cfg) (alnum : Int → Bool) (n : Nat) (value : Int) : Exec Bool :=
  initTextU cfg alnum n (mpzText false 10 value) value
/-- `TEST(Unsigned_Initialization, Octal)` (initialization.cpp:110-123). -/
def initOctalU (cfg : Cfg) (alnum : Int → Bool) (n : Nat) (value : Int) : Exec Bool :=
  initTextU cfg alnum n ([48, 111] ++ mpzText false 8 value) value
/-- `TEST(Unsigned_Initialization, Hexadecimal)` (initialization.cpp:125-141); `even` is `i % 2 == 0`. -/
def initHexU (cfg : Cfg) (alnum : Int → Bool) (n : Nat) (even : Bool) (value : Int) : Exec Bool :=
  initTextU cfg alnum n ([48, 120] ++ mpzText even 16 value) value
/-- `TEST(Unsigned_Initialization, Binary)` (initialization.cpp:76-100). -/
def initBinaryU (cfg : Cfg) (alnum : Int → Bool) (n : Nat) (value : Int) : Exec Bool := do
  let digits ← byteText id value
  initTextU cfg alnum n ([48, 98] ++ digits) value

/-- `TEST(Signed_Initialization, Decimal)` (initialization.cpp:221-227). -/
def initDecimalS (cfg : Cfg) (alnum : Int → Bool) (n : Nat) (value : Int) : Exec Bool :=
  initTextS cfg alnum n (mpzText false 10 value) value
/-- `TEST(Signed_Initialization, Octal)` (initialization.cpp:229-244); `even` is `i % 2 == 0`. -/
def initOctalS (cfg : Cfg) (alnum : Int → Bool) (n : Nat) (even : Bool) (value : Int) : Exec Bool :=
  initTextS cfg alnum n
    ((if even then [] else [45]) ++ [48, 111] ++ mpzText false 8 (if even then value else value * -1)) value
/-- `TEST(Signed_Initialization, Hexadecimal)` (initialization.cpp:246-264). -/
def initHexS (cfg : Cfg) (alnum : Int → Bool) (n : Nat) (even : Bool) (value : Int) : Exec Bool :=
  initTextS cfg alnum n
    (if even then [48, 120] ++ mpzText true 16 value else [45, 48, 120] ++ mpzText false 16 (value * -1)) value
/-- `TEST(Signed_Initialization, Binary)` (initialization.cpp:194-219). -/
def initBinaryS (cfg : Cfg) (alnum : Int → Bool) (n : Nat) (even : Bool) (value : Int) : Exec Bool := do
  let digits ← byteText id value.natAbs
  initTextS cfg alnum n ((if even then [] else [45]) ++ [48, 98] ++ digits) value

/-- `testDifferentPrecisions<Aeu>` for one precision (initialization.cpp:8-30): construct from a `uint64_t`
and compare with it. -/
def differentPrecisionsU (n : Nat) (junk : Aeu n) (value : BitVec 64) : Exec Bool := do
  let o ← Aeu.ofUnsignedJ junk value
  Aeu.eqU64 o value

/-! ## `operator~` (test/bitwise/not.cpp) -/

/-- `TEST(Unsigned_Bitwise, NOT)` (not.cpp:6-31); `value` is the draw, shifted so that its topmost bit is
bit `N - 1`. -/
def notTest (cfg : Cfg) (alnum : Int → Bool) (n : Nat) (value : Int) : Exec Bool := do
  let bitCount := mpzSizeInBase2 value
  let value := if bitCount < 32 * n then value * 2 ^ (32 * n - bitCount) else value
  let digits ← byteText (fun b => ~~~ b) value
  let aeu ← Aeu.ofMpz cfg n value
  let notted ← ofStringU alnum n ([48, 98] ++ digits)
  let x ← Aeu.not aeu
  Aeu.eq cfg x notted

/-! ## `power2` (test/arithmetic/power2.cpp) -/

/-- `TEST(Unsigned, Power2)` (power2.cpp:17-27), one iteration: `EXPECT_EQ(Aeu<N>::power2(i), ss.str())`. -/
def power2U (cfg : Cfg) (alnum : Int → Bool) (n i : Nat) : Exec Bool := do
  let p ← Aeu.power2 cfg n i
  let s ← ofStringU alnum n ([48, 120] ++ mpzText false 16 (2 ^ i))
  Aeu.eq cfg p s

/-- `TEST(Signed, Power2)` (power2.cpp:5-15), one iteration. -/
def power2S (cfg : Cfg) (alnum : Int → Bool) (n i : Nat) : Exec Bool := do
  let p ← Aesi.power2 cfg n i
  let s ← ofStringS alnum n ([48, 120] ++ mpzText false 16 (2 ^ i))
  Aesi.eq cfg p s

/-! ## Casts (test/operations/casts) -/

/-- `TEST(Unsigned_IntegralCast, IntegralCast)`, the second loop (integral_cast.cpp:33-40): `"0x"`, a random
number in hexadecimal and a `uint64_t` with `std::setw(16) << std::setfill('0')`. -/
def castTextU (alnum : Int → Bool) (n : Nat) (high : Int) (baseValue : BitVec 64) : Exec Bool := do
  let low := numeral false 16 baseValue.toNat
  let ss := [48, 120] ++ mpzText false 16 high ++ (List.replicate (16 - low.length) 48 ++ low)
  let aeu ← ofStringU alnum n ss
  let x ← Aeu.integralCast ITy.u64 aeu
  .ok (x == (baseValue.toNat : Int))

/-- `EXPECT_EQ(aesi.precisionCast<M>(), init0)` (precision_cast.cpp:9-34). -/
def precisionCastS (cfg : Cfg) (n m : Nat) (value : Int) : Exec Bool := do
  let aesi ← Aesi.ofMpz cfg n value
  let x ← Aesi.precisionCast cfg m aesi
  Aesi.eqMpz cfg x value

/-- `EXPECT_EQ(aeu.precisionCast<M>(), init0)` (precision_cast.cpp:95-122). -/
def precisionCastU (cfg : Cfg) (n m : Nat) (value : Int) : Exec Bool := do
  let aeu ← Aeu.ofMpz cfg n value
  let x ← Aeu.precisionCast cfg m aeu
  Aeu.eqMpz cfg x value

/-! ## Binary input and output (test/operations/binary_io.cpp) -/

/-- `ss.write(reinterpret_cast<const char*>(&block), sizeof(block))`: the object representation. -/
def blockBytes (host : Host) (b : Block) : List (BitVec 8) :=
  [blockByte host b 0, blockByte host b 1, blockByte host b 2, blockByte host b 3]

/-- `TEST(Unsigned_BinaryIO, BinaryRead)` (binary_io.cpp:7-35), one iteration: `blocks` as drawn. -/
def binaryRead (cfg : Cfg) (alnum : Int → Bool) (host : Host) (even : Bool) (blocks : Vector Block n) :
    Exec Bool := do
  let ss2 := [48, 120] ++ blocks.toList.flatMap (Aeu.hexText8 false)
  let ss := if even then blocks.toList.flatMap (blockBytes host)
    else blocks.toList.reverse.flatMap (blockBytes host)
  let r ← Aeu.readBinary host (Aeu.zero n) ⟨ss, false⟩ even
  let s ← ofStringU alnum n ss2
  Aeu.eq cfg r.1 s

/-- `TEST(Unsigned_BinaryIO, BinaryWrite)` (binary_io.cpp:37-64), one iteration; `temp` is never
initialised (binary_io.cpp:45). -/
def binaryWrite (cfg : Cfg) (alnum : Int → Bool) (host : Host) (even : Bool) (temp : Block)
    (blocks : Vector Block n) : Exec Bool := do
  let ss := [48, 120] ++ blocks.toList.flatMap (Aeu.hexText8 false)
  let l ← ofStringU alnum n ss
  let w ← Aeu.writeBinary host l ⟨[], 4 * n, false⟩ (!even)
  let body := fun j (s : Aeu n × IStream × Block) => do
    let x := s.2.1.read host s.2.2
    let r ← Aeu.setBlock cfg s.1 j x.2
    (.ok (r, x.1, x.2) : Exec _)
  let s ← if even then forUp 0 n (Aeu.zero n, (⟨w.out, false⟩ : IStream), temp) body
    else forDown n 0 (Aeu.zero n, (⟨w.out, false⟩ : IStream), temp) body
  Aeu.eq cfg l s.1

/-! ## Output (test/operations/display/display.cpp, test/operations/initialization/gmp-integration.cpp) -/

/-- A default constructed `std::stringstream` / `std::wstringstream`. -/
def stringstream : OStream :=
  { basefield := .other, showbase := false, uppercase := false, adjust := .unset, fill := 32, width := 0, out := [] }

/-- The prefixes `"0b"`, `"0o"`, `"0x"` and none the tests expect under `showbase`. -/
def testPrefix (base : Nat) : List Int :=
  if base = 2 then [48, 98] else if base = 8 then [48, 111] else if base = 16 then [48, 120] else []

/-- The base of the flags `std::oct`, `std::hex`, `std::dec`. -/
def fieldBase : BaseField → Nat
  | .oct => 8 | .hex => 16 | .other => 10

/-- The stream tests of `Aeu` (display.cpp:80-172; ShowBaseAskii, cases 0-3, 293-316; ShowBaseUtf; with
`.other` and no flags gmp-integration.cpp:23-33): `head` is inserted first, then the flags, then the number. -/
def streamU (cfg : Cfg) (bufferSize n : Nat) (bf : BaseField) (upper showbase : Bool) (head : List Int)
    (value : Int) : Exec Bool := do
  let aeu ← Aeu.ofMpz cfg n value
  let ss := head ++ (if showbase then testPrefix (fieldBase bf) else []) ++ mpzText upper (fieldBase bf) value
  let ss2 ← Aeu.streamOut cfg bufferSize
    { stringstream with basefield := bf, showbase := showbase, uppercase := upper, out := head } aeu
  .ok (ss2.out == ss)

/-- The stream tests of `Aesi` without `showbase` (display.cpp:507-577; gmp-integration.cpp:10-21). -/
def streamS (cfg : Cfg) (bufferSize n : Nat) (bf : BaseField) (value : Int) : Exec Bool := do
  let aesi ← Aesi.ofMpz cfg n value
  let ss2 ← Aesi.streamOut cfg bufferSize { stringstream with basefield := bf } aesi
  .ok (ss2.out == mpzText false (fieldBase bf) value)

/-- The stream tests of `Aesi` with `showbase` (display.cpp:702-726; ShowBaseUtf): octal and hexadecimal
texts get `"0o"` or `"-0o"` by the parity of the iteration, the decimal text is `value`'s. -/
def streamBaseS (cfg : Cfg) (bufferSize n : Nat) (bf : BaseField) (upper even : Bool) (value : Int) :
    Exec Bool := do
  let aesi ← Aesi.ofMpz cfg n value
  let ss := if bf = .other then mpzText false 10 value
    else (if even then [] else [45]) ++ testPrefix (fieldBase bf) ++ mpzText upper (fieldBase bf) value.natAbs
  let ss2 ← Aesi.streamOut cfg bufferSize
    { stringstream with basefield := bf, showbase := true, uppercase := upper } aesi
  .ok (ss2.out == ss)

/-- `std::string_view(buffer.data())`: the characters before the first terminator; reading past the array
if there is none. -/
def cString (buffer : Vector Int cap) : Exec (List Int) :=
  if (0 : Int) ∈ buffer.toList then .ok (buffer.toList.takeWhile (· != 0)) else .error .outOfBounds

/-- The digits expected of `getString<base>`: `gmpToBinaryString` for base 2, GMP's output otherwise. -/
def digitsText (upper : Bool) (base : BitVec 8) (v : Int) : Exec (List Int) :=
  if base = 2#8 then byteText id v else .ok (mpzText upper base.toNat v)

/-- The `getString` tests of `Aeu` (FormatAskii 181-219, FormatUtf 229-271, ShowBaseAskii cases 4-8, 317-346,
ShowBaseUtf): `askii` is the static buffer with what earlier iterations left in it. -/
def bufferU (cfg : Cfg) (kind : CharKind) (n : Nat) (base : BitVec 8) (upper showBase : Bool)
    (askii : Vector Int cap) (value : Int) : Exec (Vector Int cap × Bool) := do
  let aeu ← Aeu.ofMpz cfg n value
  let digits ← digitsText upper base value
  let ss := (if showBase then testPrefix base.toNat else []) ++ digits
  let r ← Aeu.getString cfg kind base upper aeu askii showBase
  let s ← cString r.1
  .ok (r.1, s == ss)

/-- The `getString` tests of `Aesi` (FormatAskii 586-625, FormatUtf 635-679, ShowBaseAskii cases 4-8,
727-757, ShowBaseUtf): the sign of the expected text is the value's, or the parity of the iteration for
base 2 and for prefixed texts. -/
def bufferS (cfg : Cfg) (kind : CharKind) (n : Nat) (base : BitVec 8) (upper showBase even : Bool)
    (askii : Vector Int cap) (value : Int) : Exec (Vector Int cap × Bool) := do
  let aesi ← Aesi.ofMpz cfg n value
  let digits ← digitsText upper base value.natAbs
  let ss := if base = 10#8 ∨ (!showBase ∧ base ≠ 2#8) then mpzText upper base.toNat value
    else (if even then [] else [45]) ++ (if showBase then testPrefix base.toNat else []) ++ digits
  let r ← Aesi.getString cfg kind base upper aesi askii showBase
  let s ← cString r.1
  .ok (r.1, s == ss)

/-- The whole of `TEST(Unsigned_Display, FormatAskii)` / `FormatUtf` (display.cpp:181-219, 229-271): the
buffer is static and starts zeroed; the iteration number selects octal, hexadecimal (two cases), decimal,
binary. -/
def formatU (cfg : Cfg) (kind : CharKind) (n : Nat) (draws : List Int) : Exec Bool := do
  let s ← forUp 0 draws.length (Vector.replicate (32 * n + 2) (0 : Int), true) fun i (askii, good) => do
    let base : BitVec 8 := if i % 5 = 0 then 8 else if i % 5 = 1 then 16 else if i % 5 = 2 then 16
      else if i % 5 = 3 then 10 else 2
    let r ← bufferU cfg kind n base (i % 5 == 2) false askii (draws.getD i 0)
    .ok (r.1, good && r.2)
  .ok s.2

/-- The whole of `TEST(Signed_Display, FormatAskii)` / `FormatUtf` (display.cpp:586-625, 635-679); `draws`
are the values before the sign of the iteration is applied. -/
def formatS (cfg : Cfg) (kind : CharKind) (n : Nat) (draws : List Int) : Exec Bool := do
  let s ← forUp 0 draws.length (Vector.replicate (32 * n + 2) (0 : Int), true) fun i (askii, good) => do
    let base : BitVec 8 := if i % 5 = 0 then 8 else if i % 5 = 1 then 16 else if i % 5 = 2 then 16
      else if i % 5 = 3 then 10 else 2
    let r ← bufferS cfg kind n base (i % 5 == 2) false (i % 2 == 0) askii
      ((if i % 2 = 0 then 1 else -1) * draws.getD i 0)
    .ok (r.1, good && r.2)
  .ok s.2

end AesiMP.Tests
