# Aesi-Multiprecision: formal model and proofs (Lean 4)

Source modelled: `/repo/include/AesiMultiprecision/Aeu.h` (unsigned) and `Aesi.h` (signed), the
whole library; and the client programs `/repo/sanitize/*/main.cpp`, `/repo/ci/cuda/smoke.cu`,
`/repo/ci/integration/presentation.cpp` (`Model/Programs.lean`), the randomised tests of `/repo/test` (`Model/Tests.lean`) and the benchmarks `/repo/benchmark/*.cpp` (`Model/Benchmarks.lean`).  Line numbers in the comments of the model refer to
the two headers unless another file is named.

Layout of `/verif/lean/Verif`:

* `Basic.lean` - the C++ execution model (undefined behaviour, checked accesses, loops);
* `Spec.lean`, `SpecInt.lean`, `SpecText.lean`, `SpecClient.lean` - the small independent specification: the number a
  block vector stands for, the integer a signed object stands for, numerals and their reading, client programs over
  numbers;
* `Model/` - the code, function by function, every definition with its file and lines;
* `Lemmas/` - loop invariants and auxiliary facts (not part of the claims);
* `Props/` - the claims `Cnn_...`, with a concrete instance (`example`) next to them.

`properties.jsonl` and `MANIFEST.json` are generated by `tools/mkprops.py`, `tools/mkmanifest.py`
(theorem names are collected from `Props/`; notes in `tools/notes.json`).

## 1. How the code is modelled

* `Exec α := Except UB α` is the result of running C++ code.  Undefined behaviour is a distinct
  outcome, never assumed away: `outOfBounds` (array index, buffer write), `shiftTooWide`
  (shift >= width), `signedOverflow`, `ctypeDomain` (`isalnum` of a negative `char`),
  `assertFailed` (a failing `assert` in a build without `NDEBUG`), `diverges` (a loop's fuel ran
  out).  `Sat e P` and `Returns e v` say: no undefined behaviour, termination, and the result.
* `Block = BitVec 32`, `uint64_t = BitVec 64` with wrap-around; casts are `setWidth`.
* `Aeu n = Vector Block n`, `n = blocksNumber`, `bitness = 32*n`; every block access goes through
  the checked `rd`/`wr`.  `n` is a universally quantified variable; nothing is bounded.
* Every `for` loop is one of the combinators `forUp`/`forDown`/`forUpC`/`forDownC` (structural
  recursion on the trip count, `C` = may leave early); data dependent loops (`whileC`) take fuel and
  yield `diverges` when it is exhausted; the theorems show the fuel is always enough, i.e. that the
  loop terminates, and `whileC_mono` that more fuel changes nothing.
* A function that mutates through a reference returns the new value(s).  Calls in which two reference
  arguments are the same object are modelled separately, with objects at addresses (`Model/Alias.lean`).
* `size_t` is `Nat` (indices are bounded by the object size), except where the code relies on wrap
  (`getString`'s `bufferSize - position`), where the wrap is explicit.
* `Cfg` carries the build configuration: `AESI_UNSAFE`, `NDEBUG`, and whether `unsigned long long` is
  `uint64_t` (`u64IsULL`, false on LP64 Linux).
* Built-in types are (`width`, `signed`, `isBool`) with explicit promotion and conversion
  (`Model/Builtin.lean`).
* Streams: an output stream is its flags, fill, width and the characters written (`OStream`); a
  binary input/output stream is a byte list with a fail state and a capacity (`Model/BinIO.lean`).
* CUDA members: any number of threads, each with any number of private objects and any list of calls,
  one memory access per step, any schedule (`Model/Cuda.lean`).

## 2. Properties: model and proof

Exact theorem names and status are in `MANIFEST.json`.  "False" means: refuted for the code as it is
by a theorem with a counterexample (or for a whole class of inputs); what is true is proved under
`_partial`, and where possible an exact theorem says what the code computes for *every* input.

| id | modelled / proof |
|----|----|
| C01-C03, C08 | carry-loop invariants on prefix sums (`psum`) for `addLine`, `makeComplement`, `++`, `--`, schoolbook multiplication (row invariant modulo `B^n`) |
| C04 | false for `unsigned long long` on LP64: `C04_ull_iff` decides for which factors and precisions it is right |
| C05 | false when low block + addend reaches 2^64: `C05_add_builtin_exact`, `_iff` |
| C06, C07 | invariant `remainder = (number >> i) mod d` down the bit loop |
| C09-C14 | `testBit` of `toNat` equals the block bit; extensionality; C13 false at index `bitness/8` |
| C15-C19 | scan loops; C17, C21 false for one block (reads past the object); C19 false, exact theorem |
| C20-C22 | loop invariants |
| C23-C25 | the parser refines a list specification; the printer writes the numeral; C25: exact decision of every `char` buffer, and of wide buffers in the bases other than 16; wide hexadecimal text stays inside every buffer of nine characters, shorter ones are decided too (Props/TextExact) |
| C26-C28 | Euclid's loop; Bezout invariant modulo `2^bitness`; termination measure = remainder; the integers behind the wrapped coefficients are those of `Nat.xgcdAux`, bounded by an invariant on `r'|s| + r|s'|` |
| C78 | from the integer form of C27 |
| C29-C31, C68, C69 | square-and-multiply invariant; totality for every modulus, exact function for every input |
| C32 | Newton iteration: never below the root, strictly decreasing |
| C33, C34 | byte lists; C34 false on little-endian hosts |
| C35, C61, C62 | stream state transformer; exact flag changes; the character buffer's size, computed by the code in `double`, is modelled with IEEE rounding and proved sufficient |
| C36-C51, C63, C67, C70 | `Aesi n = Sign × Aeu n`; case analysis over the unsigned theorems; `Canon` = "a zero magnitude carries the zero sign" |
| C52-C54, C64 | heap of objects at addresses; every sharing pattern |
| C55, C56 | small-step interleaving semantics; invariants over all schedules |
| C57, C59, C71 | register machines, refinement by induction over the program |
| C58 | ring laws through the library's own `==` |
| C60, C65 | `mpz_export`, `mpz_sizeinbase` by their documented contracts |
| C72 | conversion to `uint64_t`, then C17; exact for negative values |
| C73, C74 | composition of the printer's exact text with the parser's theorem |
| C75 | adaptive client programs over every modelled call (`Model/Client.lean`); totality of each call, induction over the program |
| C76 | equality of each function under two configurations (closed forms, loop congruence on in-range indices), induction over the program |
| C77 | `SpecClient.lean` defines the same calls over `Nat`/`Int` without the model; each call refines it by the theorems of C01-C74, then induction over the adaptive program. Calls with a listed defect promise nothing there |
| C79 | fuel of the loops made a parameter of the model (`gcdIn`, `gcdExtIn`, `squareRootIn`); Fibonacci lower bound on the operands (Lamé), quadratic convergence of Newton's step |
| C80 | byte lists of C33/C34 composed for two precisions |
| C81 | numeric value of both sides, `Nat.testBit` extensionality, then `==` |
| C82 | client programs of library calls; C29 and C78 with Fermat's little theorem and the Chinese remainder theorem |
| C83 | sign and value of each result determined for every object (`tmod`), then `==`; fitting results by C36-C41 |
| C84 | `mod 2^(32k)` of both sides |
| C85 | bisimulation: relation "same sign, and same magnitude unless zero" (shown to be `==`) kept by every call, induction over the adaptive program; false for digit access on stale zeros |
| C86 | `Call.Bad` lists the calls without defined behaviour; each is shown equivalent to the failure of the call from the exact theorems (C13, C17, C21, C23-C25, C35, C42, C46-C48, C51, C60), then induction over the program |
| C87 | relational induction over the loop of `divide` on two heaps that agree on the inputs; false for the digits of a signed zero output |
| C88 | second model of the functions with uninitialised locals on storage of optional blocks (`Model/Init.lean`), reading an unwritten block is an outcome; simulation with the first model; `getString` likewise on an array of optional characters (`Model/InitText.lean`) |
| C89 | the loop of sanitize/unsigned/main.cpp written with the modelled calls (`Model/Programs.lean`), the list of prime powers arbitrary (the floating-point `pow`/`log` that computes it is not modelled); loop invariant `base ≡ 2^A`, `power = B`; Fermat's little theorem. `main` itself (`Model/PollardMain.lean`): primesieve by its documentation, the exponents any function with `⌊log_p(2^64-1)⌋ - 1 ≤ e p` and `p^e < 2^64`; the factors of the two numbers certified prime (Lucas) in `Lemmas/Pratt.lean`, the order of 2 modulo each excluding the other three |
| C90 | sanitize/signed/main.cpp in full (`Model/Programs.lean`, the recursion with a depth bound that is proved never reached); induction on the second argument |
| C91 | ci/cuda/smoke.cu's kernels on a heap of objects, the factorial loop of ci/integration/presentation.cpp; from C53, C01, C04 |
| C92 | one iteration of every randomised unsigned test of test/arithmetic as a function of its draws (`Model/Tests.lean`); the exact set of draws that pass, from C01-C08, C65 |
| C93 | the same for the signed tests; from C37-C40, C43, C65 |
| C94 | one iteration of the bitwise, shift, bit, byte and block tests as a function of the draws; exact pass/fail/hang sets, from C09-C16, C41 |
| C95 | the same for comparison, parity, root, cast, powm, gcd and lcm tests; from C17-C22, C34, C42 |
| C96 | one iteration of the text construction, NOT, power2, cast and binary I/O tests (`Model/TestsText.lean`), GMP's text and the tests' own byte loops modelled; from C23, C33, C36, C43, C60 |
| C97 | one iteration of the stream and getString tests on any buffer content, then the whole FormatAskii/FormatUtf loop by an invariant on the static buffer; from C24, C35, C51, C62 |
| C98 | lists of objects written/read in turn (`Model/File.lean`) over the streams of C33; induction on the list |
| C99 | client programs (`Model/Primes.lean`) over the modelled calls; loop invariants, Mathlib's `Nat.Prime`, `ZMod` |
| C100 | as C84, through the `tmod` value of `precisionCast` and the sign field |
| C101 | the insertion operators on a stream with bounded room (`Model/FailingStream.lean`); simulation with the healthy stream of C35/C62, induction on the list of insertions |
| C102 | the insertion operators with `std::num_put`'s grouping (`Model/LocaleStream.lean`); exact text of hexadecimal output, then when it is the numeral |
| C103 | the width-generic definitions at width 128 and the calls that convert to `uint64_t` (`Model/Wide128.lean`); equality with the call on the low 64 bits (simulation of the loops), then the theorems for 64 bits |
| C104 | transition system whose state is one memory of objects and the threads' positions, one step per memory access (`Model/CudaShared.lean`); invariants by induction on the schedule, a permutation carried along for the exchanges |
| C105 | the insertion operators and binary IO on streams that throw (`Model/ThrowingStream.lean`); simulation with the silent stream of C101 and C33 |
| C106 | threads over the calls of `Client.lean` on one memory (`Model/Threads.lean`; a step is one whole call, streams belong to threads); every call depends only on the objects it is given and changes only those it takes as non-const; induction over the schedule; the calls' used objects contain their written ones, so `Separate` excludes data races at every point |
| C107 | the conversions overload resolution picks for signed built-in and GMP operands (`Model/SignedLeft.lean`); exact result from C60 and the operators' theorems, then when it is the value |
| C108 | the members as independent lanes, one per block index and one for the sign (`Model/CudaRelaxed.lean`); each lane simulates a sequentially consistent system of one block, to which C55 and C56 apply; conversely every schedule of C55/C56 is an order of C108 |
| C109 | the conversion with an arbitrary predicate of granted requests, and what `noexcept` makes of the exception (`Model/GmpMemory.lean`); from C60, C65, C107 by cases on the one request |
| C110 | the shared objects as independent lanes with per-thread queues of outstanding calls (`Model/CudaSharedRelaxed.lean`); invariants over one lane (origin of contents; a permutation of the contents and an order of the outstanding calls; completing the outstanding calls commutes with every allowed access), C104's schedules simulated by oldest-first accesses, which carries C104_conserved_iff over |
| C111 | the algorithms of the standard library that only use `<` (`Model/Ordered.lean`: lower_bound by halving, binary_search, insertion sort as the reference sorting algorithm, insertion into a set), calling the modelled comparison operators; correctness by strong induction on the length of the range and from the exactness of `<` on one precision; across precisions under the hypothesis that all values fit the shorter one, with the circular triple as counterexample |
| C112 | write on a machine of one byte order, read on one of another (`Model/Transfer.lean`, over the host-parametric binary I/O of `Model/BinIO.lean`); the exact permutation of the bytes for all machines and flags, from which the cases that restore the number follow; `getByte`/`setByte` loops by invariants |
| C113 | `getString` followed by one of three constructions (`Model/ReadBack.lean`); what `getString` leaves in the array (C24, C51) put into the parsing theorems of C46, with the old contents behind it kept as a variable: exact for the whole array, from which the case of a fresh array follows |
| C114 | the seven `*_Aesi` functions of `benchmark/` with their literals (`Model/Benchmarks.lean`), the number of rounds a variable; the literals are read by the parsing theorems and the operations are those of C01–C06, C26, C69; that the truncated square and multiply differs from the power is a computation on the two recurrences |
| C115 | constant evaluation (`Model/Constexpr.lean`) of the clients of C75: undefined behaviour, storage never written (the functions of C88) and calls of functions that are not `constexpr` stop it; call by call it is compared with the run-time model, then by induction over the program; exact with the list of C86 |
| C116 | the functions of `Model/Aeu.lean` in a monad that counts block accesses (`Model/Work.lean`, text and signed operators in `Model/WorkText.lean`); forgetting the counter gives them back (`Lemmas/WorkRun.lean`, `WorkTextRun.lean`), compositional bounds on the counter, the data dependent loops by C79 |
| C117 | the counting monad of C116 records the accesses (`Model/Work.lean`: `trace`); equal traces by a relation between two executions (`Props/Trace.lean`); the quotient is decoded from the trace of a division (`Props/TraceDivision.lean`), the exponent from that of `powm` (`Props/TracePower.lean`, `Props/TracePowerWide.lean`), the continued fraction of the operands from that of `gcd` (`Props/TraceGcd.lean`), the successive quotients by the base from that of `getString` and `operator<<` (`Props/TracePrint.lean`), the number of digits from that of the character constructor (`Props/TraceParse.lean`); signed numbers in `Props/TraceSigned.lean` |
| C66 | conversion of the built-in operand, then the theorems above |

## 3. Trusted base

* Lean 4.33.0's kernel.  Axioms: every theorem depends on a subset of `propext`, `Classical.choice`,
  `Quot.sound`; `AXIOMS.tsv` (written by `tools/mkaxioms.py`) lists them theorem by theorem; no axioms are added, nothing rests on compiled
  code (concrete examples are evaluated by the kernel with `decide`).
* The reading of the C++ text: nothing was compiled or run.  The comments in `Model/` cite the lines.
* The C++20 semantics encoded in `Basic.lean` and `Model/Builtin.lean` (two's complement, `int` of 32
  bits, `uint32_t` = `unsigned int`; types of up to 64 bits, the 128-bit ones in C103 only).
* External functions by their contracts: `isalnum`/`iswalnum` (an arbitrary locale predicate, undefined
  on negative `char`s other than `EOF`), `snprintf`/`swprintf` with `%x %X %08x %08X`, iostream
  inserters (`num_put`, whose digit grouping is C102's subject; classic locale elsewhere), `istream::read`/`ostream::write`, `mpz_sizeinbase`, `mpz_export`,
  CUDA's `atomicExch` (indivisible); sequential consistency of memory in C55, C56 and C104 only (C108 and C110 assume only that accesses to one location,
  plain loads included, take effect in program order and after what their values depend on, and that there is one order
  of effects on all locations of one lane).

### Model against recorded results

The project records results of the real library: assertions on literals in `test/`, the outputs in
`README.md` and `ci/integration/presentation.cpp`.  All 254 of them that concern modelled calls were run
on the compiled model and agree (`tools/validate_model.py`); a selection is checked by the kernel in
`Verif/Validation.lean`, including the README's factorial, product and both `powm` examples.  None of the
project's randomised assertions contradicts a theorem or counterexample here.

### Not modelled

* `Aeu a;`, `Aesi a;` leave blocks and sign indeterminate; outside `Model/Init.lean` (C88) only
  initialised objects occur.
* Members that cannot be instantiated: binary IO on `wchar_t` streams (a `char*` is passed where
  `wchar_t*` is needed); `Aesi ^ & |` with a built-in operand on the left (Aesi.h:1265-1285 use operators
  `Aesi` does not have); `Aeu::tryAtomicExchange(const Aeu&)` passes a pointer to const to `atomicExch`
  (modelled without the `const`).
* The pre-C++20 `operator!=` of both classes and all pre-C++20 comparison operators of `Aesi`
  (Aeu.h:838, Aesi.h:732-746): they cannot be instantiated (`this->operator==` names a member that does not
  exist; `Aesi::compareTo` is called with an `Aeu`, whose conversion is explicit).
* README.md says numbers of different precision can be mixed in most operations; the code has no such overloads
  except `==`, `<=>`, `compareTo` and the exponent of `powm` (C18, C19, C30, C50), so such statements do not compile.
* Copy/move constructors and assignments (defaulted: memberwise copies, i.e. the identity here).
* `double` outside the normal range (`Model/Double.lean` has what `bitness / 2.95` needs, C35_buffer_size).
* Memory that GMP takes for its own numbers, the limits of compilers on the steps of a constant evaluation, time (C116 counts accesses to blocks, not copies of whole objects and not time).

## 4. Defects of the code found (each one a theorem)

| where | what | theorem |
|---|---|---|
| `a *= unsigned long long` on LP64 | product of a block and the factor truncated to 64 bits | `C04_ull_counterexample`, `C04_ull_iff` |
| `a += uint64_t` | carry of the lowest block lost | `C05_counterexample`, `C05_add_builtin_iff` |
| `getByte/setByte(bitness/8)` | guard lets it through, out of bounds | `C13_boundary_counterexample` |
| one-block numbers: compare with `uint64_t`, `integralCast`, decimal output | read past the object | `C17_one_block_counterexample`, `C21_...`, `C24_one_block_counterexample` |
| `Aeu` compared with a negative built-in | compared as `i + 2^64` | `C72_counterexample`, `C72_negative_exact` |
| `compareTo` across precisions | wrong order | `C19_counterexample`, `C19_order_across_exact` |
| strings with negative `char`s | UB in `isalnum` | `C23_negative_char_counterexample` |
| `getString` | writes the terminator / hex blocks past the buffer | `C25_overrun` |
| `powm` with modulus 1, power 0; template `powm` with base 0 | returns 1 | `C29_...`, `C30_counterexample_...`, `C68_readme_base_zero` |
| `powm` with a modulus above 2^(bitness/2) that is no power of two | products overflow: `powm(2^(bitness/2), 2, m)` is 0 for every such `m` (the documentation says only "be aware of overflow") | `C29_wide_modulus_wrong`, `C29_safe_moduli`, `C30_safe_moduli` |
| `bigEndian` binary | blocks reversed, bytes not | `C34_counterexample` |
| `operator<<` octal for 32/64 bits | buffer one digit short | `C35_...` |
| `operator<<` | leaves `noshowbase`, fill, adjustment changed | `C61_...` |
| signed `%` by a negative | negated remainder | `C39_counterexample`, `C39_mod_exact` |
| signed zeros | `Aesi(Aeu(0))`, `%=` built-in, overflow, `setBit` give zeros that claim a sign; zero results keep stale digits | `C41_`, `C43_`, `C44_`, `C67_`, `C70_...` |
| `/`, `divide`, `--`, `++` on such zeros | `7 / Aesi(Aeu(0))` is 2^32 - 1 instead of 0; `--` on `Aesi(Aeu(0))` gives 2^bitness - 1 instead of -1 | `C38_counterexample`, `C40_counterexample`, `C45_counterexample`, `C70_counterexample` |
| `Aesi(INT_MIN)`, `integralCast` to the minimum, comparison with `INT64_MIN` | signed overflow | `C42_`, `C47_`, `C48_...` |
| `Aesi` `==`/`compareTo` across precisions | truncates the left operand | `C50_counterexample` |
| signed `getString` | count omits the dash, short buffers overrun for zero | `C51_counterexample` |
| signed `divide` with a zero operand | outputs keep their previous digits behind the zero sign | `C87_counterexample`, `C87_stale_exact`, `C88_counterexample` (outputs never initialised) |
| `divide` with shared arguments | outputs cleared before the inputs are read | `C54_...` |
| `Aesi::tryAtomicExchange` | the sign is not given back | `C56_counterexample` |
| `== mpz` | sign and high bits of the operand ignored | `C65_...` |
| tests of unsigned subtraction and decrement | compare a wrapped difference with a negative `mpz`: fail for small draws | `C92_flaky`, `C92_subtraction_exact` |
| test of signed `%=` built-in | fails when the modulus divides the value | `C93_flaky`, `C93_modulo_exact` |
| tests BitCount, GetSetBit/Byte (signed), GetSetBlock | fail for the draw 0; GetSetBlock hangs for draws below 2^24 | `C94_bitCount_exact`, `C94_bits_signed_exact`, `C94_blocks_exact`, `C94_flaky` |
| tests powm, integralCast (signed) | fail for modulo 1 / base 0; minimum of the built-in type is UB | `C95_powm_exact`, `C95_powm_different_exact`, `C95_cast_signed_exact`, `C95_flaky` |
| tests NOT, getString, showbase (signed) | fail for the draw 0 (getString: unless an earlier iteration left a terminator) | `C96_not_exact`, `C96_flaky`, `C97_stream_signed_exact`, `C97_buffer_unsigned_exact`, `C97_buffer_signed_exact`, `C97_flaky` |
| `operator<<` in hexadecimal with a locale that groups digits | blocks grouped one by one, zeros displaced: `10001,000` for 2^32 + 4096 | `C102_counterexample`, `C102_hex_exact`, `C102_hex_iff` |
| `unsigned __int128`, `__int128` operands | cut to 64 bits: `Aeu<128>((unsigned __int128)1 << 64)` is 0, the `Aesi` is positive with all digits 0 | `C103_counterexample`, `C103_signed_counterexample`, `C103_construct_iff` |
| `tryAtomicExchange` with an argument another thread also uses | only the target side is exchanged atomically: `x.tryAtomicExchange(z)` and `y.tryAtomicExchange(z)` in parallel can leave the old `z` in both and the old `x` nowhere | `C104_counterexample`, `C104_full_fails`, `C104_conserved_partial` |
| `writeBinary` is `noexcept` | on a stream with exceptions enabled a full disk ends the program (`std::terminate`) instead of throwing | `C105_counterexample`, `C105_full_fails`, `C105_write_exact` |
| signed built-in on the left of an `Aeu` operator, `Aeu(i)` (GMP builds) | converted through `mpz_class`, the sign is dropped: `-3 + a` is `a + 3` | `C107_counterexample`, `C107_negative_wrong`, `C107_left_exact` |
| `<` between numbers of different precision used for searching | low blocks are compared first: `<` is circular (`7 < 2^64+5 < 6 < 7`), so binary_search misses a key that is there | `C111_circle`, `C111_across_counterexample` |
| zeros that claim a sign in a `std::set<Aesi>` | the set holds several zeros, and searching for 0 may miss them | `C111_set_counterexample`, `C111_signed_counterexample` |
| `writeBinary`/`readBinary` between machines of different byte order | the flag orders the blocks only: 1 is read as 2^24 | `C112_counterexample`, `C112_one_lost`, `C112_other_order_iff` |
| `getString` into a used array, then constructing from it | the text of zero has no terminator; the constructor from arrays reads digits and dashes behind the terminator | `C113_cstring_counterexample`, `C113_array_counterexample`, `C113_signed_array_counterexample` |
| text constructors, `getString<16>` | declared `constexpr`, but never usable in a constant expression: they call `isalnum` / `snprintf` | `C115_text_never`, `C115_hex_never`, `C115_counterexample` |
| `multiplication_Aesi`, `powm_Aesi` (benchmarks) | timed against GMP and Crypto++ on the same literals, but computing other numbers: the precision is too small | `C114_multiplication_counterexample`, `C114_powm_counterexample` |
| `a == z`, `i + a` with a GMP or signed operand | the conversion allocates inside a `noexcept` operator: refused memory ends the program; the request is 8 bytes for each bit of the number (64 times its size) | `C109_counterexample`, `C109_full_fails`, `C109_compare_exact`, `C109_overallocation` |
| `powm`, `/`, `%`, `gcd`, `getString`, `<<` on secrets | the blocks touched, and their order, reveal the exponent, the quotient and a number coprime to a known one; printing in decimal reveals all digits but the last | `C117_exponent`, `C117_exponent_wide`, `C117_quotient`, `C117_gcd_secret`, `C117_text`, `C117_stream` |
| `a * u` with `unsigned long long` | takes `Aeu&`, so a const `a` takes another operator and gives another (the right) result | `C04_const_object` |

## 5. Tests against wrong programs

`seeded/LOG.jsonl`: each line is an edit of one model definition (a realistic bug), the claim it makes
false, and the theorems that then fail to compile (in a scratch copy).  "(equivalent mutant)" marks edits
that do not change the observable behaviour; theorems rightly survive those.
