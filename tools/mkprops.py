#!/usr/bin/env python3
# Generates /verif/properties.jsonl (kept as a script only so that the JSON stays well formed).
import json
A="include/AesiMultiprecision/Aeu.h"; S="include/AesiMultiprecision/Aesi.h"
P=[]
def p(title, statement, quantifier, why, anchors):
    P.append(dict(id="C%02d"%(len(P)+1), title=title, statement=statement, quantifier=quantifier, why_tests_cant=why, anchors=anchors))
N="every precision bitness = 32*n (n >= 1)"
p("Unsigned addition is addition modulo 2^bitness",
  "For Aeu<bitness> a, b: a + b and a += b produce the number (a + b) mod 2^bitness; no out-of-bounds access or other undefined behaviour occurs, whatever the carries.",
  N+", every pair of operands (all 2^(2*bitness) of them)", "Carry chains depend on every block; random tests practically never produce a carry that crosses many blocks, and precision is unbounded.",
  [A+": operator+, operator+=, addLine"])
p("Unsigned subtraction and negation are modular",
  "a - b, a -= b give (a - b) mod 2^bitness and -a gives (2^bitness - a) mod 2^bitness, including b > a and a = 0.",
  N+", every operand pair", "The borrow/complement chain and the a = 0 wrap are measure-zero cases for random tests.",
  [A+": operator-, operator-=, unary operator-, makeComplement"])
p("Unsigned multiplication is multiplication modulo 2^bitness",
  "a * b and a *= b give (a*b) mod 2^bitness for all operands, including products that overflow the precision, one operand zero, or operands of very different lengths; every buffer index stays in range.",
  N+", every operand pair", "Carry propagation in the schoolbook loop and truncation at the top are only exercised by special operand patterns; tests use half-width operands only.",
  [A+": operator*=(Aeu&, const Aeu&), multiplyLines"])
p("Multiplication by a built-in unsigned factor is exact modulo 2^bitness",
  "For every built-in unsigned type and every factor f, a *= f gives (a*f) mod 2^bitness.",
  N+", every a, every unsigned built-in type (bool, 8, 16, 32, 64 bit, both 64-bit spellings), every factor", "Only 32-bit factors are tested; the 64-bit intermediate product overflows only for particular factor/carry combinations and particular type spellings.",
  [A+": operator*=(Aeu&, Unsigned), operator*(Aeu&, Unsigned)"])
p("Addition of a built-in unsigned addendum is exact modulo 2^bitness",
  "For every built-in unsigned type and every addendum u, a += u gives (a + u) mod 2^bitness.",
  N+", every a, every unsigned built-in type, every addendum", "Only 32-bit addenda are tested; the 64-bit intermediate sum wraps only for addenda within 2^32 of 2^64.",
  [A+": operator+=(Aeu&, Unsigned), operator+(const Aeu&, Unsigned)"])
p("Unsigned division and modulo are Euclidean",
  "For b != 0: divide(a,b) gives q, r with a = q*b + r and 0 <= r < b; a/b, a%b, a/=b, a%=b give these q and r.  This includes divisors with the top bit set (the internal remainder never loses a bit).",
  N+", every a, every b != 0", "Overflow of the shifted remainder could only happen for operands close to 2^bitness; tests use divisors of half width.",
  [A+": divide, operator/, operator%, operator/=, operator%="])
p("Unsigned division by zero is total",
  "divide(a, 0) terminates without out-of-bounds access for every a: remainder a and a quotient depending only on the number of used blocks (1 for a = 0).",
  N+", every a", "It is documented as undefined, yet gcd and lcm rely on it; a test can only sample dividends.",
  [A+": divide", A+": gcd"])
p("Increment and decrement are modular and report old/new values",
  "++a / --a change the value by +1/-1 modulo 2^bitness and yield the new value; a++ / a-- have the same effect and yield the old value.",
  N+", every a", "The wrap and long carry chains (all-ones blocks) are special values.",
  [A+": operator++, operator--"])
p("Bitwise operators act bit by bit",
  "For every bit index i < bitness, bit i of ~a is the negation of bit i of a and bit i of a&b, a|b, a^b is the and/or/xor of the operands' bits; numerically they coincide with and/or/xor of the values.",
  N+", every operand pair, every bit index", "A per-block slip on one block index is invisible unless the test hits it; universally quantified bit index.",
  [A+": operator~, operator^=, operator&=, operator|="])
p("Left shift",
  "For s < bitness, a << s equals (a * 2^s) mod 2^bitness; for s >= bitness (and s = 0) the documented behaviour is that a is unchanged.  No shift by the block width or more and no out-of-range block access happens.",
  N+", every a, every shift amount s of any unsigned type", "Tests sample shifts by at least 200 of short numbers; shifts by multiples of 32, by less than 32, and of full-width numbers need all (a,s).",
  [A+": operator<<=, operator<<"])
p("Right shift",
  "For s < bitness, a >> s equals floor(a / 2^s); for s >= bitness (and s = 0) a is unchanged.  No shift by the block width or more and no out-of-range block access happens.",
  N+", every a, every shift amount s", "As for left shift.", [A+": operator>>=, operator>>"])
p("Bit access behaves like an array of bits",
  "setBit(i,v) makes getBit(i) = v and leaves every other bit unchanged for i < bitness; getBit(i) is the i-th binary digit of the value; for i >= bitness setBit does nothing and getBit returns false.",
  N+", every a, every index, every value of the bit, safe mode for out-of-range", "Quantifies over all pairs of indices and all values.",
  [A+": setBit, getBit", S+": setBit, getBit"])
p("Byte access behaves like an array of bytes",
  "For i < bitness/8, setByte(i,v) makes getByte(i) = v and leaves every other byte unchanged, getByte(i) is the i-th base-256 digit; for every i >= bitness/8 setByte does nothing and getByte returns 0, as documented.",
  N+", every a, every index, every byte", "The boundary index bitness/8 is one value among 2^64; tests never probe it.",
  [A+": setByte, getByte"])
p("Block access behaves like an array of 32-bit words",
  "For i < bitness/32 setBlock(i,w) makes getBlock(i) = w and leaves others unchanged, getBlock(i) is the i-th base-2^32 digit; beyond the range setBlock does nothing and getBlock returns 0.",
  N+", every a, every index, every word; out of range for builds without AESI_UNSAFE", "Quantifies over all pairs of indices and all values.", [A+": setBlock, getBlock"])
p("Size observers report the exact size",
  "bitCount() is the position of the highest set bit plus one (0 for zero), byteCount() and filledBlocksNumber() the number of base-256 / base-2^32 digits; isZero() iff the value is 0; isOdd()/isEven() the parity.",
  N+", every a", "Each depends on the position of the top non-zero digit; bounds on random numbers never hit sparse or zero numbers.",
  [A+": bitCount, byteCount, filledBlocksNumber, isZero, isOdd, isEven"])
p("Same-precision comparison is the numeric total order",
  "compareTo, ==, !=, <, <=, >, >=, <=> on Aeu<bitness> agree with comparison of the represented values; in particular exactly one of <, ==, > holds, and 'equivalent' is never returned.",
  N+", every operand pair", "Order laws (trichotomy, transitivity) quantify over all pairs and triples.",
  [A+": compareTo, operator==, operator<=>"])
p("Comparison with built-in unsigned integers is numeric",
  "a == u, compareTo(u), a <=> u for 8/16/32/64-bit unsigned u agree with comparing the values, and never read outside the object.",
  "every precision the template accepts, every a, every u", "A one-block precision is accepted by the static_assert; only then does the 64-bit path read out of bounds.",
  [A+": operator==(const Aeu&, Unsigned), operator==(const Aeu&, uint64_t), compareTo(Unsigned), compareTo(uint64_t)"])
p("Equality across precisions is numeric",
  "Aeu<N> a == Aeu<M> b iff the represented numbers are equal, for any N and M, in either operand order.",
  "all pairs of precisions, all operand pairs", "Pairs of precisions are unbounded, and the high-part check matters only for numbers that agree in all low blocks.",
  [A+": operator==<otherBitness>, compareTo<otherBitness>"])
p("Ordering across precisions is numeric",
  "Aeu<N> a compared (<, >, <=>, compareTo) with Aeu<M> b agrees with the order of the represented numbers for any N and M.",
  "all pairs of precisions, all operand pairs", "Tests only compare numbers that both fit the smaller precision; the failure needs a non-zero high part.",
  [A+": compareTo<otherBitness>, operator<=>"])
p("precisionCast preserves the value modulo the target precision",
  "a.precisionCast<M>() represents a mod 2^M; widening is lossless and widening followed by narrowing back is the identity.",
  "all pairs of precisions, every a", "Unbounded pairs of precisions.", [A+": precisionCast"])
p("integralCast takes the low bits",
  "a.integralCast<T>() is the value of a modulo 2^width(T), interpreted in T (two's complement for signed T; non-zeroness of the low 64 bits for bool), with no out-of-bounds read.",
  "every precision, every a, every built-in integral type", "One-block precision reads a second block; only types and values sampled are tested.",
  [A+": integralCast"])
p("Integral construction is exact",
  "Aeu<bitness>(u) represents u mod 2^bitness for every unsigned built-in u (u itself when bitness >= 64), and integralCast gives u back.",
  N+", every unsigned value", "All 2^64 values at every precision.", [A+": Aeu(Integral)"])
p("String construction evaluates the digits",
  "Aeu(text): leading non-alphanumeric characters are skipped, a 0b/0o/0x prefix (either case) selects the base (otherwise 10), and the result is the base-b value of the characters that are digits below the base, all other characters being ignored, modulo 2^bitness; any canonical numeral of v < 2^bitness in base 2, 8, 10, 16 constructs v.",
  N+", every character sequence", "Unbounded strings.", [A+": Aeu(const Char*, size_t), Aeu(const Char(&)[]), Aeu(String&&)"])
p("getString writes the numeral and round-trips",
  "With a large enough buffer, getString<base>(buf) writes optional prefix, the canonical numeral of a in base 2, 8, 10 or 16 (lower or upper case hex), returns the number of characters written, and constructing an Aeu from that text gives a back.",
  N+", every a, every sufficiently large buffer, each supported base", "Round-trip over all values and precisions.", [A+": getString"])
p("getString never writes outside the buffer",
  "getString(buf, size) writes only to buf[0..size-1], for every size.",
  N+", every a, every size", "Memory safety for all sizes; tests always pass an amply sized buffer.", [A+": getString"])
p("gcd is the greatest common divisor",
  "gcd(a,b) terminates and returns the greatest common divisor for all operands, including either or both zero.",
  N+", every operand pair", "Termination and correctness of a data-dependent loop.", [A+": gcd(first, second)"])
p("Extended gcd satisfies the Bezout identity",
  "gcd(a,b,x,y) terminates, returns gcd(a,b), and a*x + b*y is congruent to it modulo 2^bitness; for non-zero operands the coefficients read in two's complement satisfy the identity over the integers and |x| <= max(2,b)/2, |y| <= max(2,a)/2.",
  N+", every operand pair", "Data-dependent loop with intermediate wrap-around; not tested at all.", [A+": gcd(first, second, bezoutX, bezoutY)"])
p("lcm is the least common multiple",
  "lcm(a,b) is the least common multiple whenever it fits the precision (and its residue modulo 2^bitness otherwise), including zero operands.",
  N+", every operand pair", "Overflow boundary and zero operands.", [A+": lcm"])
p("powm computes modular exponentiation",
  "powm(b,e,m) = b^e mod m for every b, e and every m >= 1 for which (m-1)^2 fits the precision (documented overflow caveat).",
  N+", every base, exponent, modulus in range", "All exponents; special modulus 1 / exponent 0.", [A+": powm(const Aeu&, const Aeu&, const Aeu&)"])
p("powm with an exponent of another precision computes modular exponentiation",
  "powm<M>(b,e,m) = b^e mod m for every b, e of precision M, and every m >= 1 for which (m-1)^2 fits the precision.",
  "all pairs of precisions, every base, exponent, modulus in range", "The shortcut for base 0 and base 1 is taken only for those two bases, which random tests never produce.",
  [A+": powm<powerBitness>"])
p("power2 is the power of two",
  "power2(k) = 2^k for k < bitness and 0 for k >= bitness.", N+", every k; out of range for builds without AESI_UNSAFE", "All indices, all precisions.", [A+": power2", S+": power2"])
p("squareRoot is the floor square root",
  "a.squareRoot() terminates with r such that r^2 <= a < (r+1)^2, for every a including 0 and 2^bitness-1.",
  N+", every a", "Termination of Newton iteration and absence of intermediate overflow for all values.", [A+": squareRoot", S+": squareRoot"])
p("Binary write/read round-trips and reading zero-fills",
  "writeBinary then readBinary with the same endianness flag on an intact stream restores the value; on a short stream the missing bytes read as zero and no byte is read beyond the stream; reading ignores the object's previous value.",
  N+", every a, both flags, every stream content and length", "Every stream length (crash/truncation point) and content.", [A+": readBinary, writeBinary"])
p("bigEndian binary format is big-endian",
  "writeBinary(os, true) emits the bytes of the number most significant first, and writeBinary(os,false) least significant first.",
  N+", every a, both host byte orders", "All values; tests only read back block-wise on the same host.", [A+": writeBinary"])
p("Stream output prints the numeral",
  "os << a prints the canonical numeral in the stream's base (dec, oct, hex; 0o/0x prefix with showbase; letter case per uppercase) and nothing else, for every a.",
  N+", every a, every stream flag state", "The decimal/octal buffer length is a floating-point estimate; truncation happens only at particular precisions and magnitudes.",
  [A+": operator<<(basic_ostream&, const Aeu&)"])
p("Signed addition and subtraction are exact in range",
  "For Aesi a, b with |a +/- b| < 2^bitness: a + b, a += b, a - b, a -= b represent exactly the integer sum/difference, for every sign combination including zero operands and cancellation.",
  N+", every operand pair in range", "Sign case analysis times magnitude comparison; equality/cancellation is measure zero.", [S+": operator+=, operator-="])
p("Signed multiplication is exact in range",
  "For Aesi a, b with |a*b| < 2^bitness, a*b and a*=b represent the product with the right sign; product with zero is zero.",
  N+", every operand pair in range", "All sign combinations and zero.", [S+": operator*="])
p("Signed division truncates toward zero",
  "For b != 0, a / b is the integer quotient truncated toward zero; a / 0 yields 0. (The last is false of the code for a zero that reports a sign.)", N+", every operand pair", "All sign combinations; quotient zero with negative operands.", [S+": operator/=(Aesi&, const Aesi&)"])
p("Signed division identity",
  "For b != 0, (a / b) * b + (a % b) == a and |a % b| < |b|.", N+", every operand pair", "Tests of % only use non-negative moduli (and -1).", [S+": operator%=, operator/="])
p("Signed divide() satisfies the division identity",
  "For b != 0 Aesi::divide(a,b,q,r) gives q*b + r == a, |r| < |b|, and r is zero or has the sign of a; for a = 0 or b = 0 both results are zero. (The last is false of the code for a zero divisor that reports a sign.)",
  N+", every operand pair, any previous content of q and r", "All sign combinations and all previous contents.", [S+": divide"])
p("Signed comparison is the numeric total order",
  "compareTo, ==, <=> between Aesi<bitness> values agree with comparison of the represented integers.",
  N+", every pair of values obtainable through the API", "Quantifies over reachable representations (several representations of zero).", [S+": compareTo(const Aesi&), operator=="])
p("Signed comparison with built-in integers is numeric",
  "a == i and compareTo(i) agree with integer comparison for every signed/unsigned built-in i, without undefined behaviour.",
  N+", every a, every built-in value including the minimum of each signed type", "INT64_MIN is one value in 2^64.", [S+": compareTo(Integral), operator==(Integral)"])
p("isZero characterises zero after any history",
  "After any sequence of API operations, a.isZero() (and a == 0) holds iff the integer it represents is 0.",
  "every finite sequence of API calls", "Quantifies over histories; operations leave a zero magnitude with non-zero sign.", [S+": isZero, operator%=(Integral), Aesi(const Aeu&), precisionCast, operator*="])
p("A zero result shows zero digits",
  "When a value compares equal to 0, getBit/getByte/getBlock/bitCount/isOdd/unsignedCast report the digits of zero.",
  "every history that ends in a zero", "Depends on how zero was reached.", [S+": operator+=, operator-=, operator*=, unsignedCast, getBit, bitCount, isOdd"])
p("Signed increment and decrement are exact",
  "++a/--a change the represented integer by exactly one while the magnitude fits (including crossing zero); postfix forms return the old value. (False of the code for a zero that reports a sign: --Aesi(Aeu(0)) is 2^bitness - 1.)",
  N+", every a in range", "Transitions across zero in both directions.", [S+": operator++, operator--"])
p("Signed string construction",
  "Aesi(text) represents the magnitude given by the unsigned rule, negated iff the text contains an odd number of '-' characters; zero magnitude gives 0 regardless of dashes.",
  N+", every character sequence", "Unbounded strings.", [S+": Aesi(const Char*, size_t), traverseDashes"])
p("Signed integral construction is exact",
  "Aesi(i) represents i for every built-in integral value i, without undefined behaviour.", "every precision >= 64, every built-in value", "The minimum of each signed type is a single value.", [S+": Aesi(Integral), operator=(Integral)"])
p("Signed integralCast is exact in range",
  "If the represented integer fits T, a.integralCast<T>() returns it, without undefined behaviour.", "every precision >= 64, every a, every T", "The minimum of T is a single value.", [S+": integralCast"])
p("Signed arithmetic with built-in operands is exact in range",
  "a *= i, a /= i, a %= i with a built-in i agree with the same operation on Aesi(i) / with integer arithmetic, for all i (i != 0 for / and %).",
  N+", every a, every built-in i", "Minimum values, 64-bit factors and zero remainders are special cases.", [S+": operator*=(Integral), operator/=(Integral), operator%=(Integral)"])
p("Signed precisionCast and cross-precision equality",
  "precisionCast<M>() preserves the integer when its magnitude fits M bits; Aesi<N> a == Aesi<M> b iff the represented integers are equal.",
  "all pairs of precisions, all values", "Truncation in one direction only; pairs of precisions unbounded.", [S+": precisionCast, operator==<otherBitness>, compareTo<otherBitness>"])
p("Signed getString returns the number of characters written",
  "For Aesi, getString writes '-' iff negative, then the unsigned numeral, returns the number of characters written, and never writes outside the buffer.",
  N+", every a, every buffer size", "All sizes and signs.", [S+": getString"])
p("swap, copy, unary plus and inverse",
  "swap exchanges the two values exactly (also self-swap); copies are independent; +a is a; inverse()/unary minus negate and are involutive.",
  N+", every pair of values", "All values.", [A+": swap, operator+", S+": swap, inverse, operator-"])
p("Compound assignment with aliased operands",
  "a op= a has the same effect as a = a op (copy of a), for +=, -=, *=, /=, %=, &=, |=, ^= and for Aeu and Aesi.",
  N+", every a", "Aliasing inside in-place loops depends on all digits.", [A+": addLine, operator+=", S+": operator-="])
p("divide with output aliasing an input",
  "divide(a,b,q,r) gives quotient and remainder also when q or r is the same object as a or b.",
  N+", every a, b and every aliasing pattern", "Aliasing patterns are not tested.", [A+": divide(const Aeu&, const Aeu&, Aeu&, Aeu&)"])
p("Concurrent tryAtomicSet never tears a block",
  "When any number of threads call tryAtomicSet on one object under any schedule, each 32-bit block finally holds the block of the last writer of that block - one of the written values; after all calls complete with the same value the object holds that value.",
  "every number of threads, every interleaving", "All schedules.", [A+": tryAtomicSet"])
p("tryAtomicExchange exchanges the two objects",
  "Run alone, x.tryAtomicExchange(v) leaves x with v's value and v with x's old value; under concurrency no block value is lost or duplicated (each block position's multiset over the object and the threads' private values is preserved).",
  "every number of threads, every interleaving", "All schedules.", [A+": tryAtomicExchange", S+": tryAtomicExchange"])
p("Any program over Aeu refines modular arithmetic",
  "Any finite sequence of Aeu operations (construct, add, subtract, multiply, divide, shift, bitwise, increment, set bit, compare ...) over a set of variables behaves exactly like the same sequence on integers modulo 2^bitness; no step has undefined behaviour.",
  "every program, every initial state, builds without AESI_UNSAFE", "Histories are unbounded.", [A+": all arithmetic operators"])
p("Aeu is a commutative ring",
  "+ and * are associative and commutative, * distributes over +, 0 and 1 are neutral, a + (-a) == 0, a - b == a + (-b), in the sense of the library's own ==.",
  N+", every operand triple", "Universally quantified algebraic laws.", [A+": operator+, operator*, operator-, operator=="])
p("Any program over Aesi refines integer arithmetic until overflow",
  "Any finite sequence of Aesi +,-,*,/,++,--,negate operations whose exact intermediate results stay below 2^bitness in magnitude represents exactly the integer result, and comparisons at the end are the integer ones.",
  "every program, every initial state whose zeros report isZero()", "Histories are unbounded; zero may be reached in different ways.", [S+": all arithmetic operators"])
p("GMP construction",
  "In the default (checked) build Aeu(mpz) represents |z| mod 2^bitness, and Aesi(mpz) represents z when |z| < 2^bitness; the export buffer is never overrun.",
  N+", every integer z", "All magnitudes, all sizes.", [A+": Aeu(const mpz_class&)", S+": Aesi(const mpz_class&)"])
p("operator<< leaves the stream's formatting flags unchanged",
  "os << a leaves the stream's base, showbase, uppercase, adjustment and fill character as they were.",
  N+", every number and every flag state of the stream", "All flag combinations and digit patterns.", [A+": operator<<(std::basic_ostream&, const Aeu&)"])
p("Signed stream output",
  "os << a writes '-' iff a is negative, followed by the prefix (if showbase) and the numeral of |a| in the stream's base, for every stream state.",
  N+", every a, every stream state", "All values, bases and flags.", [S+": operator<<(std::basic_ostream&, const Aesi&)"])
p("Signed squareRoot and power2",
  "For a >= 0, a.squareRoot() is the r with r^2 <= a < (r+1)^2, and 0 for negative a; power2(k) is 2^k for k < bitness and 0 beyond.",
  N+", every a, every k (beyond bitness for builds without AESI_UNSAFE)", "Numeric relation over all values.", [S+": squareRoot, power2"])
p("Extended gcd with outputs that are also inputs",
  "gcd(a,b,x,y) returns the gcd and writes Bezout coefficients for the values a and b had before the call, also when x or y is the same object as a or b (x and y being distinct); for non-zero a, b the coefficients read in two's complement satisfy the identity over the integers. Even when x and y are one object the gcd is right. No other object changes.",
  N+", all values, every sharing pattern of the four arguments", "Aliasing patterns times values.", [A+": gcd(first, second, bezoutX, bezoutY)"])
p("Equality with a GMP expression is numeric equality",
  "a == z for an Aeu or Aesi a and a GMP integer z is true exactly when a and z are the same number.",
  N+", every a, every integer z", "All magnitudes; differing by a multiple of 2^bitness is a rare event for random tests.", [A+": operator==(const Aeu&, const __gmp_expr&)", S+": operator==(const Aesi&, const __gmp_expr&)"])
p("Operators with a built-in unsigned operand on either side",
  "For a built-in unsigned u and an Aeu a: u+a, u-a, u*a are the results modulo 2^bitness; u/a, u%a, u^a, u&a, u|a, and a-u, a/u, a%u, a^u, a&u, a|u are the arithmetic results whenever u < 2^bitness.",
  N+", every unsigned built-in type, every u and a", "Operand order mistakes show only for particular pairs; every type times every operator.", [A+": operator+(Unsigned, const Aeu&), operator-(Unsigned, const Aeu&), operator*, operator/, operator%, operator^, operator&, operator|"])
p("Signed digit access does not affect the sign",
  "setBit, setByte and setBlock of an Aesi change exactly the addressed digit of the magnitude and nothing else (in particular not the sign); getBit, getByte, getBlock, bitCount, byteCount, isOdd, isEven of a non-zero a report |a|. What is stored into an object that is zero is not part of its value, and clearing the last set bit leaves an object that represents 0 and claims to be non-zero.",
  N+", every object, every index and stored value", "All indices times all states of the sign.", [S+": setBit, setByte, setBlock, getBit, getByte, getBlock, bitCount, byteCount, isOdd, isEven"])
p("powm in doubled precision, as the README uses it",
  "With base and modulo cast to a precision at least twice their own, powm(base, power, modulo) is base^power mod modulo for every modulo > 1 and every exponent.",
  N+", every target precision, every base, power, modulo", "The overflow of intermediate products depends on the operands; RSA-like inputs only sample.", [A+": powm, precisionCast", "README.md: powm example"])
p("powm is total and its result is determined for every modulus",
  "powm terminates without undefined behaviour for every base, power and modulo, including modulo 0 (where the result is base^power mod 2^bitness) and powers of two (where it is exact although products overflow); in general it is square-and-multiply with every product truncated to the precision before the reduction. (The overload for an exponent of another precision does the same except that it returns 1 for the bases 0 and 1.)",
  N+", every base, power, modulo (0 included)", "Termination and absence of undefined behaviour over all inputs.", [A+": powm(base, power, modulo), powm(base, Aeu<M> power, modulo)"])
p("Signed arithmetic beyond the precision",
  "When the exact result of +, -, *, ++, --, construction from or multiplication by a built-in value does not fit, the object represents the exact result with its magnitude reduced modulo 2^bitness and its sign kept (so a wrap to magnitude 0 leaves a zero that claims a sign).",
  N+", every pair of objects, every built-in integer type and value (not the type's minimum)", "Overflow combinations of signs and magnitudes.", [S+": operator+=, operator-=, operator*=, operator++, operator--, Aesi(Integral)"])
p("Signed ring programs are right modulo 2^bitness through any overflows",
  "Any straight-line program of construction, copy, +, -, *, negation, ++, --, swap over Aesi variables, whatever overflows on the way, has no undefined behaviour and leaves in every variable an integer congruent modulo 2^bitness to the exact result.",
  N+", every program, every initial state (canonical or not)", "Histories are unbounded.", [S+": operator+=, operator-=, operator*=, operator++, operator--, inverse, swap"])
p("Comparison of an Aeu with a signed built-in value is numeric",
  "a == i, a.compareTo(i) and a <=> i for a built-in signed i compare the numbers a and i.",
  N+", every a, every signed built-in value", "All magnitudes and signs; the conversion of a negative i to uint64_t is silent.", [A+": operator==, compareTo, operator<=> with Integral"])
p("Unsigned stream output reads back",
  "What os << a writes, given to the constructor from text, makes the number a again.",
  N+", every a, every stream state without pending width", "Printer and parser agree only if they do for every digit string.", [A+": operator<<(std::basic_ostream&, const Aeu&)", A+": Aeu(const Char*), Aeu(std::basic_string_view)"])
p("Signed stream output reads back",
  "What os << a writes for a signed a, given to the constructor from text, makes the number a again, sign included.",
  N+", every a, every stream state without pending width", "Printer and parser agree only if they do for every digit string and sign.", [S+": operator<<(std::basic_ostream&, const Aesi&)", S+": Aesi(const Char*), Aesi(std::basic_string_view)"])
p("No program of admissible calls meets undefined behaviour",
  "A client that keeps Aeu and Aesi objects of any precisions and calls the library in any order, choosing each call by all results so far, runs to its end without out-of-bounds access, overlong shift, signed overflow, failed assertion or endless loop, provided every call is admissible: at least one block (two for comparison with or conversion to 64-bit built-ins and for decimal or octal text), byte index not exactly bitness/8, no minimum of int or a wider type as built-in operand or cast result, narrow text in 0..255, text buffers that the text fits, distinct output objects. Values, shift amounts, zero divisors and zero moduli are unrestricted, and so are bit, byte (other than bitness/8) and block indices unless the build is AESI_UNSAFE.",
  "every number of calls, every adaptive choice of calls, every precision of every object, every initial state, every build configuration", "Histories and data-dependent control flow are unbounded.", [A+": public members", S+": public members"])
p("AESI_UNSAFE and NDEBUG change no result of an admissible program",
  "A client program that respects the preconditions (indices in range, GMP integers that fit) runs identically - same objects, results, texts and stream contents - in the checked and the AESI_UNSAFE build, with and without NDEBUG: no internal use of the library ever depends on the checks that the macros remove.",
  "every program of every length, every initial state, every pair of build configurations of one platform", "Two builds would have to be compared on all programs.", [A+": setBit, getBit, setByte, getByte, setBlock, getBlock (#ifndef AESI_UNSAFE, assert)", A+": divide, gcd, powm, squareRoot, precisionCast, compareTo", S+": the functions built on them"])
p("Every client program computes what arithmetic says",
  "A client that keeps Aeu and Aesi objects of any precisions and calls the library (constructors from built-ins, texts and GMP integers, all operators, number-theoretic functions, digit access, casts, comparisons, text and stream output, binary files) in any order, choosing each call by all results it has seen, leaves in every object, returned value, text and stream exactly what the same program over natural numbers modulo 2^bitness and integers yields, as long as each call is one for which a result is promised.",
  "every number of calls, every adaptive choice of calls, every precision of every object, every initial state with truthful sign fields, every build configuration and byte order", "Histories and data-dependent control flow are unbounded; each call's result must be usable by every later call.", [A+": public members", S+": public members"])
p("Modular inverse through the extended gcd",
  "For a coprime to b > 1: after gcd(a, b, x, y), taking x + b when the top bit of x is set and x otherwise gives the r < b with a*r mod b = 1, even when b uses the whole width.",
  N+", every coprime pair (a, b), b > 1", "The sign of the wrapped coefficient depends on the number of division steps; RSA key generation only samples.", [A+": gcd(first, second, bezoutX, bezoutY), getBit, operator+"])
p("Number of rounds of gcd and squareRoot",
  "gcd(a,b), lcm's and the extended gcd's loop evaluate their condition at most 47*n+1 times for n blocks, and squareRoot runs at most ceil(log2(16*n+1))+3 rounds, for every value - not merely finitely many.",
  N+", every pair of values", "A worst case over all values; random inputs are far from it.", [A+": gcd, lcm, squareRoot"])
p("A binary file read in another precision",
  "What writeBinary writes for an Aeu<N>, read by readBinary into an Aeu<M>, is the number modulo 2^M in little-endian order of bytes and, in big-endian order, the number aligned to the most significant byte of the target.",
  "every pair of precisions, every value, both byte orders of the call", "All values times all pairs of precisions.", [A+": writeBinary, readBinary"])
p("Laws between different operators, seen through the library's own ==",
  "a << k == a * power2(k), a >> k == a / power2(k), a & (power2(k)-1) == a % power2(k), ~a == -a - 1, ~~a == a, a ^ b == (a|b) - (a&b), a + b == (a^b) + ((a&b) << 1), ~(a&b) == ~a | ~b, a/b*b + a%b == a (also b = 0), gcd*lcm == a*b, squareRoot(a*a) == a when the square fits.",
  N+", all values, all shift amounts k below bitness", "An identity over all values between separately implemented loops.", [A+": operator<<, >>, &, |, ^, ~, +, -, *, /, %, gcd, lcm, squareRoot, power2, operator=="])
p("The protocols built from the library's calls are right",
  "Diffie-Hellman: powm(powm(g,x,p),y,p) == powm(powm(g,y,p),x,p). RSA: with distinct primes p, q, N = p*q, phi = (p-1)*(q-1), d obtained from gcd(e, phi, x, y), powm(powm(m,e,N),d,N) == m for every m < N. Fermat's test powm(a,p-1,p) is 1 for every prime p not dividing a, and powm(a,p-2,p) equals the inverse from the extended gcd. Each for moduli whose squares fit the precision.",
  N+", every key, exponent and message", "All keys and messages; a wrong carry would show for one message in 2^64.", [A+": powm, gcd(first, second, bezoutX, bezoutY), operator*, operator-, operator+, getBit, operator==", "README.md: powm example"])
p("Laws of the signed operators, seen through the library's own ==",
  "For all Aesi objects, overflowing or with a zero that claims a sign included: a+b == b+a, a*b == b*a, a-b == a+(-b), a-b == -(b-a), -(-a) == a, a-a is zero and isZero() says so. For objects with truthful signs and results that fit: + and * are associative, * distributes over +, a < b iff a+c < b+c, a/b*b + a%b == a for b > 0. Beyond the precision + is not associative.",
  N+", all objects", "An identity over all values and sign states between separately implemented case distinctions.", [S+": operator+, -, *, /, %, unary -, operator==, operator<=>, isZero"])
p("precisionCast commutes with the operators",
  "Computing and then casting equals casting the operands and then computing (by the library's ==): for +, -, *, unary - and << when narrowing; for &, |, ^ in both directions; for /, %, gcd, squareRoot, >> and comparison when widening. Casting via a third precision changes nothing unless it is smaller than both ends.",
  "every pair (triple) of precisions, all values (non-zero divisors), all shift amounts below the smaller precision", "All values times all pairs of precisions.", [A+": precisionCast, operators, gcd, squareRoot, compareTo, operator=="])
p("Equal signed numbers are interchangeable",
  "If a == b is true, replacing a by b anywhere changes no result: every program of library calls returns the same values, prints the same text and ends with numbers that again compare equal.",
  N+", every pair of objects with a == b whatever their history, every adaptive sequence of calls of any length", "Quantifies over all programs and over the hidden state of the objects; a zero produced by a - a is indistinguishable in every test that does not read its digits.", [S+": operator==, isOdd, isEven, getBit, bitCount, byteCount, unsignedCast, operator-="])
p("Exactly these calls have undefined behaviour",
  "A well typed call either returns or is one of: a narrow text whose first characters, up to the first letter or digit, contain one outside unsigned char; construction from, or arithmetic of an Aesi with, the minimum of int or a wider type; an index at or past the end (or power, or GMP integer beyond the precision) in an AESI_UNSAFE build; a byte index equal to bitness/8 in any build; comparison with uint64_t or a signed built-in, integralCast or decimal/octal output of a non-zero 32-bit number; comparison of a negative Aesi with INT64_MIN, or its cast to a type whose minimum it equals modulo the type; text into a buffer of two or more characters that does not hold it (for wide hexadecimal text an exact rule below nine characters); text of a signed zero into a buffer of none. A program of any length runs to its end if and only if it never makes such a call.",
  "every call with every argument, every state of the objects and streams, every precision and build; every adaptive program of any length", "Tests can exhibit single violations; neither the absence of others nor the exactness of the list follows from samples.", [A+": public members", S+": public members"])
p("Output arguments are overwritten: what they held before does not matter",
  "The outputs quotient/remainder of divide, bezoutX/bezoutY of gcd and the object readBinary reads into end with values that depend on the inputs only, for every way in which the references of divide coincide with inputs or each other; for the signed divide the results compare equal whatever the outputs held.",
  N+", all inputs, all previous contents of the outputs, all sharing patterns", "Two runs differing only in hidden previous contents must agree, for all contents; tests construct fresh outputs.", [A+": divide, gcd(first, second, bezoutX, bezoutY), readBinary", S+": divide"])
p("Nothing that was never written is read",
  "Objects declared without initialiser - the library's own locals in ~, /, %, gcd and squareRoot, the object under construction, and the caller's outputs of divide and gcd (Aeu q, r;) - are written completely before any block is read, and the results are those computed with initialised objects. An array declared without initialiser and passed to getString is never read where it has not been written, and outside the text and its terminator it stays unwritten.",
  N+", all operands, outputs in any state including never written", "Reading indeterminate memory usually returns zeros in a test; absence of such reads on every path is a property of all executions.", [A+": operator~, operator/, operator%, divide, gcd, squareRoot, integral constructor", S+": divide"])
p("The factorisation program shipped with the library returns only factors",
  "sanitize/unsigned/main.cpp (Pollard p-1): factorize(number, primes) always finishes; whatever it returns is greater than 1 and divides the number. For an odd number whose square fits the precision, with exponents at least 64 bits wider than the program's limit (4096 and 3072 bits in the program), the result is gcd(2^E - 1, number), E the product of the prime powers used so far; and if p - 1 divides that product for a prime factor p and enough factors follow, a factor is returned. On the program's own two numbers, limit, precisions and primes up to 20000 it returns exactly 0x99cae8879f and 0x2fdd8d6ba69, whatever the rounding of log and pow.",
  "every number, every list of factors, every precision of the number and of the exponent", "All numbers and lists; the program runs on two numbers only.", ["sanitize/unsigned/main.cpp: factorize", A+": operator*=, bitCount, powm, gcd, operator-, operator<=>"])
p("The signed check program passes for every input",
  "sanitize/signed/main.cpp: extendedGcd of nonnegative a, b finishes and returns gcd(a,b) and x, y with a*x + b*y == gcd, |x| <= max(1,b), |y| <= max(1,a), no intermediate overflow; checkBezout passes for all a, b of any sign whose product fits; the divide, squareRoot and increment checks pass for all their arguments; main prints 'All checks passed.' whatever numbers below 2^14 stand in the place of the primes.",
  "every pair of values (objects whose zeros report isZero(), as the program makes them), every list of numbers, every precision (from 384 bits for main)", "The program itself is a test on samples; the claim is about every input.", ["sanitize/signed/main.cpp: extendedGcd, checkBezout, checkSignedOps, primeProduct, main", S+": operators, divide, squareRoot, power2"])
p("The CUDA smoke kernels and the factorial program",
  "ci/cuda/smoke.cu: each kernel leaves (a + b) * b in *out (modulo 2^bitness; the exact integer for the signed kernel when it fits) and changes nothing else, also when pointers a, b, out = a coincide; with out = b it is the square of the sum. ci/integration/presentation.cpp: the loop computes k! modulo 2^bitness.",
  "every precision, value and pointer coincidence, every k < 2^32", "All values and aliasing patterns.", ["ci/cuda/smoke.cu: unsignedKernel, signedKernel", "ci/integration/presentation.cpp: Factorial", A+": operator+, operator*=", S+": operator+, operator*="])
p("For which draws the randomised unsigned arithmetic tests pass",
  "One iteration of the tests in test/arithmetic for Aeu passes for every draw of the sizes the tests use: addition (composite and with built-ins), multiplication, division and modulo (nonzero divisors), increment; subtraction passes exactly when the subtrahend is not greater, decrement exactly when 2*decrements does not exceed the value - for smaller draws the negative mpz is compared by absolute value and the test fails although the library is right.",
  "every precision large enough for the sizes the tests draw (bitness = 32*n, n from 1 to 7 on, depending on the test), every draw of these sizes", "The tests themselves are samples; whether they pass for all draws (no flakiness) is a statement about every draw.", ["test/generation.h: runCompositeTest", "test/arithmetic: addition, subtraction, multiplication, division, modulo", A+": operators, operator==(mpz_class), constructor from mpz_class"])
p("For which draws the randomised signed arithmetic tests pass",
  "One iteration of the tests in test/arithmetic for Aesi passes for every draw: addition, subtraction, multiplication, division, increment, decrement; the built-in operand LONG_MIN is undefined behaviour (signed overflow) in addition and subtraction; the loop of modulo with built-ins passes exactly when the value is 0 or not a multiple of the modulus (the %= of a built-in leaves a zero that claims a sign, compared with GMP's 0).",
  "every precision large enough for the sizes the tests draw (bitness = 32*n, n from 1 to 7 on, depending on the test), every draw of these sizes", "The tests themselves are samples; the failing draws have probability about 2^-64.", ["test/generation.h: runSignedCompositeTest", "test/arithmetic: addition, subtraction, multiplication, division, modulo", S+": operators, operator==(mpz_class), constructor from mpz_class"])
p("For which draws the randomised bit, byte, block and shift tests pass",
  "One iteration of the tests in test/bitwise (and, or, xor, shifts, BitCount, GetSetBit, GetSetByte, GetSetBlock) passes for every draw of the sizes used, except: BitCount, and GetSetBit/GetSetByte for Aesi, fail for the draw 0; GetSetBlock never finishes for a draw whose absolute value is below 2^24 (the test's own byte loop runs past zero), and passes for every other draw.",
  N+", every draw of the sizes used by the tests", "The tests are samples; which draws pass, fail or hang is a statement about every draw.", ["test/bitwise/binary.cpp", "test/bitwise/shift.cpp", "test/bitwise/manipulations/manipulations.cpp", A+": operator&, |, ^, <<, >>, bitCount, getBit, setBit, getByte, setByte, getBlock, setBlock", S+": the same members"])
p("For which draws the comparison, parity, root, cast, powm, gcd and lcm tests pass",
  "One iteration of these tests passes for every draw of the sizes used, except: casts of INT64_MIN and of INT32_MIN through Aesi are undefined behaviour; the powm test fails exactly when power is 0 and modulo 1, and the mixed-precision powm test exactly when base is 0 with a positive power, or modulo is 1 and base <= 1 or power is 0.",
  "every draw of the sizes used by the tests (every precision for comparison, parity, root and cast)", "The tests are samples; the failing draws have negligible probability.", ["test/boolean/boolean.cpp", "test/arithmetic/odd_even.cpp", "test/arithmetic/square-root.cpp", "test/operations/casts/integral_cast.cpp", "test/number-theory.cpp", A+": operator<=>, isOdd, squareRoot, integralCast, powm, gcd, lcm", S+": operator<=>, squareRoot, integralCast"])
p("For which draws the randomised construction, NOT, power2, cast and binary I/O tests pass",
  "One iteration of the initialisation tests (text in bases 2, 8, 10, 16, upper and lower case, and from another precision), power2, precisionCast and readBinary/writeBinary tests passes for every draw of the sizes used; the NOT test passes exactly when the draw is not 0 (its expected text is empty for 0).",
  "every precision bitness = 32*n (casts of two and more blocks, precisionCast from 8 on), every draw of the sizes used by the tests, every locale whose letters and digits include ASCII's", "The tests are samples; which draws pass is a statement about every draw.", ["test/operations/initialization/initialization.cpp", "test/bitwise/not.cpp", "test/arithmetic/power2.cpp", "test/operations/casts/precision_cast.cpp", "test/operations/binary_io.cpp", A+": string constructor, operator~, power2, precisionCast, readBinary, writeBinary", S+": the same members"])
p("For which draws the randomised output tests pass",
  "One iteration of the stream and getString tests passes for every draw, except that 0 with showbase (not decimal) fails for Aesi, and getString at 0 passes only if an earlier iteration left a terminator behind the text (never in binary). A whole FormatAskii/FormatUtf test on its static buffer passes if no draw is 0 and fails if the draw of a binary iteration is 0.",
  "every precision bitness = 32*n (getString n >= 2, streams n >= 3), every sequence of draws of any length, every content of the static buffer", "The tests are samples and share a buffer between iterations; which histories pass is a statement about every sequence.", ["test/operations/display/display.cpp", "test/operations/initialization/gmp-integration.cpp", A+": operator<<, getString", S+": operator<<, getString"])
p("Several numbers in one file, with a crash at any byte",
  "Numbers of any precisions written one after another with writeBinary to a stream that breaks after any number of bytes, then read back into objects of the same precisions: every number written completely is restored, the bytes of the interrupted one that got through are in their places, everything after reads as zero, and both streams are left failed exactly if something did not fit.",
  "every list of numbers of any precisions and byte orders, every crash point, both kinds of host, any previous contents of the objects", "All crash points times all lists.", [A+": readBinary, writeBinary"])
p("Primality tests, perfect squares and Chinese remainders written with library calls are right",
  "root*root == a decides perfect squares; trial division up to squareRoot decides primality for every value; the Miller-Rabin round built from isEven, >>, powm, * and % decides exactly whether the odd number is a strong probable prime to the base and so never rejects a prime; Chinese remaindering by the extended gcd returns the number below the product with both remainders.",
  N+", all values (products fitting the precision where stated)", "All values; a wrong carry or boundary in any call shows for few of them.", [A+": squareRoot, operator*, operator%, isZero, isEven, operator++, operator>>, powm, gcd, comparison"])
p("Signed precisionCast commutes with the operators",
  "Unary minus commutes with precisionCast in both directions and multiplication with narrowing, for every object and through any overflow (compared by the library's ==, sign included); sums and differences computed before or after narrowing are congruent modulo 2^(target bits); widening commutes with + - * when the result fits the smaller precision, with / and % by every nonzero divisor, with squareRoot and comparison; casting through a precision that is not the smallest of the three is the direct cast.",
  "every pair of precisions, every object (canonical ones where stated)", "All pairs of precisions times all values.", [S+": precisionCast, operator+, operator-, operator*, operator/, operator%, squareRoot, operator==, compareTo"])
p("Text output to a stream that breaks at any character",
  "Any sequence of insertions of numbers (Aeu, Aesi, any precisions), text and manipulators on a stream that accepts only k more characters: the stream ends up holding exactly the first k characters of what a healthy stream would hold, is bad exactly if something was lost, and takes nothing more once bad; the operators meet no undefined behaviour they would not meet on a healthy stream. A torn decimal number is silently readable: the constructor reads back the number with the lost digits cut off.",
  "every list of insertions, every state of the stream, every crash point k", "All crash points times all programs.", [A+": operator<<(std::basic_ostream&), string constructor", S+": operator<<(std::basic_ostream&)"])
p("Stream output does not depend on the locale's digit grouping",
  "operator<< writes the same text whatever digit grouping the stream's locale prescribes, in decimal, octal and hexadecimal notation. (False of the code in hexadecimal notation: blocks are inserted as built-in integers, so each 32-bit block is grouped on its own and separators displace padding zeros.)",
  "every number, every state of the stream, every grouping and separator", "All values times all locales.", [A+": operator<<(std::basic_ostream&)", S+": operator<<(std::basic_ostream&)"])
p("128-bit built-in operands count with their value",
  "Where the templates accept unsigned __int128 or __int128 (GNU mode), construction, arithmetic, comparison, shifts and integralCast treat the operand as the number it is. (False of the code for everything but the shifts: operands are cut to their low 64 bits, so 2^64 is constructed as 0, equals 0 and multiplies as 0; a signed number constructed from it is a 'positive' number with all digits 0.)",
  "every number of every precision and every value of the two types", "2^128 operands times all values.", [A+": Aeu(Integral), operator+=(Unsigned), operator*=(Unsigned), operator==, compareTo, operator<<=, operator>>=, integralCast", S+": Aesi(Integral), operator*=(Integral), operator/=(Integral), operator%=(Integral), compareTo(Integral)"])
p("Concurrent sets and exchanges between shared objects",
  "Device threads call tryAtomicSet and tryAtomicExchange on objects they all share, arguments included. Every call ends within 3n+2 of its own steps; every block and sign at every moment is one some object had at the start; objects no other thread writes end as after the calls one by one, and on the way are between two of them, the low blocks first and the sign last, so that an object set before another is complete as soon as the other one changes; a copy of an object under modification is made of blocks it held at some moment; exchanges move values around and lose none. (The last part is false of the code when two threads exchange with the same argument: one value is lost, another is there twice. It holds when each argument belongs to one thread.)",
  "every number of threads, objects and calls, every interleaving of the single memory accesses", "Interleavings cannot be enumerated or forced by a test.", [A+": tryAtomicSet, tryAtomicExchange", S+": tryAtomicSet, tryAtomicExchange"])
p("Streams that throw",
  "With exceptions enabled on a stream, an output statement that does not fit leaves by std::ios_base::failure with exactly the characters that fit in the stream, and returns otherwise; readBinary from a short stream leaves by the exception with the bytes read in the object and zeros in the rest; no failure of the stream ends the program. (The last part is false of the code: writeBinary is noexcept, so a stream that breaks while exceptions are on calls std::terminate.)",
  "every list of insertions, every number, every amount of room or input", "Every possible point of failure of every output.", [A+": operator<<, readBinary, writeBinary", S+": operator<<"])
p("Threads on their own objects",
  "Several threads run programs over the interface, deciding by what their calls return. If no thread uses an object another one writes (objects nobody writes may be shared), then in every interleaving of their calls each thread gets exactly the results, objects and stream contents it would get alone, the whole runs into undefined behaviour only where one thread alone would, and the order of the calls makes no difference: the library has no hidden shared state. There is no data race: at no point of an execution does one thread's next call write an object that another's next call writes or uses.",
  "every number of threads, every program, every starting memory, every schedule", "Every schedule of every set of programs.", [A+": all members", S+": all members"])
p("Signed and GMP operands of the unsigned operators",
  "With GMP integration, a signed built-in value i on the left of an Aeu operator + - * / % ^ & | and a GMP integer on either side count with their value modulo 2^bitness (with their value, if everything fits, for the operators of Aesi), as does i in Aeu(i) (the comment at the constructor says negative values are stored inverted). (False of the code for negative values: they are converted through mpz_class, whose sign is dropped, so -3 + a is a + 3.)",
  "every operator, every signed value and GMP integer, every a, every precision", "Every value of every operand type.", [A+": operator+ - * / % ^ & | (Integral, const Aeu&), Aeu(const mpz_class&)"])
p("Concurrent sets and exchanges under relaxed memory ordering",
  "When device threads call tryAtomicSet or tryAtomicExchange on one object, each with arguments of its own, and accesses to different locations take effect in any order (also across iterations and calls, as relaxed atomics allow): every block is always the initial one or one of some argument; when all calls have taken effect each block (and the sign) comes from the last call of some thread, equal arguments arrive unmixed, exchanges lose and duplicate no block, a lone exchange swaps the digits; every thread completes after a bounded number of its own accesses.",
  "every number of threads and calls, every order of effects that keeps accesses to one location and data dependences in order, every value and precision", "The hardware's order of effects cannot be chosen by a test.", [A+": tryAtomicSet, tryAtomicExchange", S+": tryAtomicSet, tryAtomicExchange"])
p("GMP operands when memory runs out",
  "When the memory for converting a GMP integer is refused, the constructors and the compound assignments of both classes report it by std::bad_alloc and leave the assigned object unchanged; when it is granted the result is the usual one; exactly one request is made, of a size fixed by the bit length of the number; no such statement ends the program.",
  "every pattern of granted and refused requests, every GMP integer, operator, object, precision and build", "Tests do not exhaust memory at every request.", [A+": Aeu(const mpz_class&), operator==(const Aeu&, const __gmp_expr&), operators with an integral left operand", S+": Aesi(const mpz_class&), operator==(const Aesi&, const __gmp_expr&)"])
p("Shared objects under relaxed memory ordering",
  "What holds of concurrent tryAtomicSet and tryAtomicExchange between shared objects in sequentially consistent memory holds when accesses to different locations take effect in any order: every block and sign at every moment is one some object of a closed group had at the start; an object that is only read keeps its value; a thread whose objects nobody else writes gets the sequential result; every block of a copy is one the source held at some moment; a thread whose oldest outstanding accesses take effect finishes; exchanges lose nothing. (The last part is false of the code as in sequentially consistent memory; it holds exactly when no argument is used by another thread, unless both calls exchange the object with itself.) Writing one object after another does not publish the first.",
  "every number of threads, objects and calls, every order of effects that keeps accesses to one location and data dependences in order, every value and precision", "The hardware's order of effects cannot be chosen by a test.", [A+": tryAtomicSet, tryAtomicExchange", S+": tryAtomicSet, tryAtomicExchange"])
p("Sorting and searching numbers, and sets of numbers",
  "Standard algorithms that only use operator< work on the library's numbers: std::sort returns a nondecreasing rearrangement of its input; std::lower_bound and std::binary_search in a sorted sequence find the position of a key and whether a number of its value is there, also for keys that are built-in integers or numbers of another precision, and for signed numbers; a std::set holds each value inserted once, in increasing order. (False of the code for keys of another precision, where < looks at low blocks first and is even circular, for 64-bit keys among numbers of one block, and for signed zeros whose sign field is not zero.)",
  "every sequence of numbers of every length, every key, every precision", "All sequences times all keys.", [A+": operator<, compareTo, operator<=>", S+": operator<, compareTo, operator<=>"])
p("Numbers carried between machines",
  "A number written by writeBinary on one machine and read by readBinary with the same bigEndian flag in the same precision on another one is the same number whatever the byte orders of the two machines; sending it back restores it; bytes taken by getByte and put back by setByte carry it in every case. (The first part is false of the code: the flag only orders the blocks, the bytes of each block follow the machine, so 1 arrives as 2^24.)",
  "every number, precision, flag and pair of machines", "Tests run on one machine.", [A+": readBinary, writeBinary, getByte, setByte"])
p("A number printed into a character array and constructed from it again",
  "A number printed by getString into a character array that is large enough, in decimal or with the prefix of base 2, 8 or 16, and constructed again from that array is the same number (reduced to the precision of the new object), whether the constructor is given the array and the count getString returned, the C string in the array, or the array itself, and whatever the array held before. (The last two are false of the code: the text of zero is not terminated, so 0 printed over 123 reads as 23; the constructor from arrays reads past the terminator, so 7 printed over 12345 reads as 7345, and a dash there turns the sign round.)",
  "every number, sign, base, precision, array and earlier contents", "Tests print into fresh buffers and compare texts; they do not read texts back from used arrays.", [A+": getString, constructors from characters, literals and strings", S+": getString, constructors from characters, literals and strings"])
p("The benchmarks compute what the libraries they are compared with compute",
  "Each of the seven benchmark functions for this library (addition, subtraction, multiplication, division, modulo, gcd, powm) leaves in its result variable the integer that the GMP and Crypto++ functions beside it compute from the same literals: the exact sum, difference, product, quotient, remainder, greatest common divisor and modular power, however often the framework repeats the loop. (False of the code for two: the product of two 3000-bit numbers is cut off at 4192 bits, and the modular power with a 494-bit modulus in 512 bits is a different number.)",
  "every number of rounds, every configuration and every locale in which ASCII letters and digits are alphanumeric", "The benchmarks discard their results and no test looks at them; the framework chooses the number of rounds.", ["benchmark/addition.cpp: addition_Aesi", "benchmark/subtraction.cpp: subtraction_Aesi", "benchmark/multiplication.cpp: multiplication_Aesi", "benchmark/division.cpp: division_Aesi", "benchmark/modulo.cpp: modulo_Aesi", "benchmark/gcd.cpp: gcd_Aesi", "benchmark/powm.cpp: powm_Aesi"])
p("Functions declared constexpr can be evaluated by the compiler, with the same result",
  "README.md announces support for constexpr expressions, and every function of both classes is declared constexpr. A program of any length that calls the library, choosing its calls by what it has seen, can be evaluated in a constant expression whenever it has defined behaviour, and gives the values it gives at run time. (False of the code for texts: constructing a number from any non-empty text calls isalnum, and getString<16> of a number that is not 0 calls snprintf, which are not constexpr; GMP integers and streams never are constants. Everything else is.)",
  "every client program, precision, object contents, build and argument", "Constant expressions are evaluated by the compiler, for the few literals a static_assert would name; the test suite has none.", ["README.md:20", "include/AesiMultiprecision/Aeu.h: every constexpr function", "include/AesiMultiprecision/Aesi.h: every constexpr function"])
p("No value makes a call take more than polynomial work, and sums, differences, bitwise operations and shifts take the same work for all values",
  "Counting single reads and writes of 32-bit blocks, for n blocks: + takes 3n, - takes 5n, unary - and ~ take 2n, ^ & | take 3n, whatever the values; a shift by s takes a number that depends on n and s only; ++, --, comparisons and multiplication by a built-in value are linear, * and / % divide quadratic (8n^2, 547n^2), gcd, lcm, extended gcd and powm cubic, squareRoot O(n^2 log n), with explicit constants, for every value. Reading a text takes at most 4n per character, printing in hexadecimal at most 3n, in the other bases cubic work however large the buffer is. The signed operators have the same orders. The work of comparison, multiplication and powm does depend on the values, that of powm also on the bits of the exponent.",
  "every precision bitness = 32*n, every value, every build", "A worst case over all values; measured times of sampled values (the benchmarks) neither bound it nor show that it is the same for all.", ["include/AesiMultiprecision/Aeu.h: every arithmetic, bitwise, shift and comparison operator, divide, gcd, lcm, powm, squareRoot, character constructor, getString, operator<<", "include/AesiMultiprecision/Aesi.h: operators + - * / % ++ --, compareTo, divide, squareRoot, operator<<"])
p("Which blocks a call touches: independent of the values for the linear operations, of all but the lengths for *, and enough to know the quotient of a division, the exponent of a modular exponentiation, the proportion of the operands of gcd and all but the last digit of a number printed",
  "The sequence of block accesses (index, read or write) of +, -, unary -, ~, ^ & |, <<, >>, getBit, setBit, addition of a built-in value and multiplication by a built-in value up to 32 bits is the same for all values; that of * depends only on how many blocks each factor fills; that of a comparison tells exactly the highest block (above block 0) in which the operands differ; two divisions with two or more blocks that touch the same blocks in the same order have the same quotient, so that the accesses of /, % and divide reveal the quotient; two modular exponentiations (two or more blocks; exponents of the precision of base and modulus, or, for bases other than 0 and 1, of a larger precision) of the same base by the same modulus that touch the same blocks in the same order have the same exponent; two calls of gcd, or of the extended gcd, on nonzero operands (two or more blocks) that touch the same blocks in the same order have operands in the same proportion, larger to smaller, so that a number coprime to a known one is revealed when it is tested or inverted; two numbers (two or more blocks) that getString writes in a base other than 16, or operator<< in decimal or octal, with the same block accesses agree in all digits but the last, while hexadecimal output tells exactly how many blocks the number fills; construction from text tells exactly how many digits were read; of signed numbers other than zero, / % and divide tell the size of the quotient, stream output all digits but the last, and a sum of opposite signs exactly the highest block in which the sizes differ.",
  "every precision bitness = 32*n (division, powm, gcd and output: n >= 2), every pair of operands, every shift and bit index, every build", "Two executions of every pair of values are compared; a test measures single runs.", ["include/AesiMultiprecision/Aeu.h: operator+=, operator-=, operator^=, operator&=, operator|=, operator<<=, operator>>=, operator*=, compareTo, getBit, setBit, divide, powm, gcd, getString, operator<<, Aeu(const Char*, std::size_t)", S+": operator+=, operator/=, operator%=, divide, operator<<"])
if __name__=="__main__":
    with open("/verif/properties.jsonl","w") as f:
        for x in P: f.write(json.dumps(x)+"\n")
    print(len(P))
