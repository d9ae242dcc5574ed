{
 "C04": {
  "status": "partial",
  "note": "False as stated for `unsigned long long` on LP64, where the overload for types other than uint64_t is chosen and truncates: proved for every other type; for unsigned long long C04_ull_iff decides exactly which factors and precisions are right."
 },
 "C05": {
  "status": "partial",
  "note": "False as stated: the 64-bit sum of the lowest block and the addend may wrap. C05_add_builtin_exact says what is computed for every input, and C05_add_builtin_iff that it is right exactly when the lowest block plus the addend stays below 2^64 (always so up to 64 bits of precision)."
 },
 "C13": {
  "status": "partial",
  "note": "False at the index bitness/8: the guard lets it through to a block access out of bounds (C13_boundary_counterexample). Proved in range and from the first index the guard rejects. C13_exact decides every index in both modes."
 },
 "C17": {
  "status": "partial",
  "note": "False for one-block numbers compared with 64-bit values (reads past the object), see C17_one_block_counterexample; proved for every precision >= 64 and for the narrow types at all precisions. C17_one_block_exact: all of these do."
 },
 "C19": {
  "status": "partial",
  "note": "False in general: only the blocks common to both precisions decide the order when they differ (C19_counterexample); C19_order_across_exact states what the code computes for all operands."
 },
 "C21": {
  "status": "partial",
  "note": "False for one-block numbers (reads past the object); proved for n >= 2 and every type."
 },
 "C29": {
  "status": "partial",
  "note": "False for power 0 and modulo 1 (returns 1); everything else proved. C29_safe_moduli: the moduli for which no base or exponent overflows are exactly those up to 2^(bitness/2) and the powers of two."
 },
 "C30": {
  "status": "partial",
  "note": "False for base 0 with a positive power (returns 1) and for modulo 1 with base <= 1 or power 0; everything else proved. C30_powm_exact gives the result in every case."
 },
 "C23": {
  "status": "partial",
  "note": "False for char text when a negative char precedes the first alphanumeric character: isalnum of it is undefined (C23_negative_char_counterexample). Proved for every wchar_t text and locale, and for every other char text. C23_narrow_exact decides every char text."
 },
 "C24": {
  "status": "partial",
  "note": "False for one-block numbers in bases other than 16 (a digit extraction reads beyond the object, C24_one_block_counterexample). Proved for all other precisions, every base 2..10 and 16, with the round trip through the string constructor. C24_one_block proves the failure for every non-zero one-block number; C24_other_bases gives the text for the remaining bases up to 80."
 },
 "C25": {
  "status": "partial",
  "note": "False: the terminator (and whole hex blocks) are written past a buffer that is too short. C25_in_bounds_partial and C25_overrun together decide every char buffer of two or more characters. C25_overrun_digits does the same for wchar_t in every base but 16; wide hexadecimal text never leaves a buffer of nine or more wchar_t (C25_wide_hex_in_bounds), and C25_wide_hex_short decides the buffers of two to eight."
 },
 "C34": {
  "status": "partial",
  "note": "False for the big-endian flag on a little-endian host: the blocks are reversed but not the bytes in them (C34_counterexample). C34_exact gives the bytes for both machines and flags, C34_big_endian_iff exactly the numbers written right."
 },
 "C35": {
  "status": "partial",
  "note": "False for octal output of 32/64-bit numbers (buffer too small, digits lost), decimal output of 32-bit numbers (read beyond the object), and with a pending setw. Everything else proved. C35_width_exact and C35_width_iff determine the output with any pending width; C35_one_block the failing case."
 },
 "C61": {
  "status": "partial",
  "note": "False for octal and hexadecimal output: showbase is switched off, and hexadecimal output of two or more blocks leaves fill '0' and right adjustment. C61_octal_flags and C61_hex_flags say exactly what changes."
 },
 "C39": {
  "status": "partial",
  "note": "False for negative divisors: % returns the negated remainder (C39_counterexample). C39_mod_exact says what it returns for every divisor; the identity is proved for positive ones. C39_mod_every covers every pair of objects, divisors that represent 0 included."
 },
 "C41": {
  "status": "partial",
  "note": "False for objects that represent 0 without the zero sign, such as Aesi(Aeu(0)) (C41_counterexample); proved for all canonical objects, which C43/C59 show to be those reached by arithmetic without overflow. C41_compare_exact gives the result for all objects; C41_total_order holds for all objects."
 },
 "C42": {
  "status": "partial",
  "note": "False for the built-in -2^63 (negation overflows), for one-block numbers (reads beyond the object) and non-canonical zeros; each refuted by a theorem, everything else proved. C42_compare_exact gives the outcome for every object, precision and value."
 },
 "C43": {
  "status": "partial",
  "note": "False after %= by a built-in, after Aesi(Aeu(0)) and after an overflowing product (counterexamples). Proved for every program of the C59 language and for the constructors. C43_sign_exact says what the observers show after every operator, overflowing or not; C43_iff and C43_mod_builtin_exact exactly when isZero is wrong."
 },
 "C44": {
  "status": "partial",
  "note": "False: C44_stale shows it for every non-zero a and a-=a, a*=0. Proved for non-zero values and for zeros produced by the listed operations. C44_iff and C44_zero_result_exact say exactly which zero results carry which sign."
 },
 "C46": {
  "status": "partial",
  "note": "As C23: negative chars before the first alphanumeric are undefined behaviour in isalnum; all wchar_t texts and all other char texts proved. C46_narrow_exact decides every char text."
 },
 "C47": {
  "status": "partial",
  "note": "False exactly at the minima of signed types at least as wide as int: C47_min_counterexample proves overflow for all of them; everything else proved. C47_construct_exact says what happens for every value of every type."
 },
 "C48": {
  "status": "partial",
  "note": "False for the minima of int and wider (signed overflow) and for one-block numbers; everything else proved. C48_cast_exact says what happens for every object of at least two blocks and every type. C48_one_block says what happens for one-block numbers."
 },
 "C49": {
  "status": "partial",
  "note": "False at the minimum of the operand's type, for large factors on LP64, and for % by a negative value (C39's defect); everything else proved. C49_wide_min, C49_mul_exact, C49_div_exact and C49_mod_exact say what each operator computes for every operand."
 },
 "C50": {
  "status": "partial",
  "note": "precisionCast is fully proved; == and compareTo across precisions are false when the left operand does not fit the right precision (C50_counterexample), proved otherwise. C50_across_exact says what they return for every pair."
 },
 "C51": {
  "status": "partial",
  "note": "The count omits the dash for negative values, and short buffers are overrun for zero (C51_counterexample); exact contents and counts proved for every value and every sufficient buffer. C51_too_short and C51_overrun decide the remaining char buffers."
 },
 "C62": {
  "status": "partial",
  "note": "False with a pending setw (padding goes between) and in the cases of C35; zero is printed without prefix. Otherwise proved. C62_width_exact gives the output with any pending width. C62_stream_all_partial drops the restriction to canonical objects (stated by the sign field)."
 },
 "C54": {
  "status": "partial",
  "note": "False as stated: divide assigns zero to both outputs before it reads its inputs again (Aeu.h:1090). Proved when no output is an input; for every other sharing pattern the theorems say exactly what is computed (right when the operands are equal or the number is smaller and not an output, wrong otherwise), including one object for both outputs (C54_one_output_*); C54_counterexample. C54_signed_* carry the same patterns to the signed division."
 },
 "C55": {
  "status": "proved",
  "note": "Sequentially consistent interleaving of single memory accesses, arguments private to the calling thread. C55_mixed_example shows that the object as a whole may end as a value nobody wrote, which the header documents."
 },
 "C56": {
  "status": "partial",
  "note": "For Aeu proved (of the function without the const that keeps it from compiling). For Aesi false: the sign is copied to the object but not back to the argument (C56_signed_exact, C56_counterexample)."
 },
 "C60": {
  "status": "proved",
  "note": "GMP functions modelled by their documentation. In the AESI_UNSAFE build only for |z| < 2^bitness (C60_unchecked_overrun)."
 },
 "C65": {
  "status": "partial",
  "note": "False as stated: the operand is first converted, which drops its sign (Aeu) and its bits from 2^bitness on. C65_unsigned_exact says what is computed for all z. C65_signed_exact does the same for Aesi."
 },
 "C67": {
  "status": "proved",
  "note": "C67_zero_stays_zero and C67_negative_zero record the last sentence of the property; they are also counter-examples to the invariant C43 if setters are used."
 },
 "C68": {
  "status": "partial",
  "note": "The README's form calls the overload with the defect of C30, so base 0 with a positive exponent is excluded in C68_powm_readme_partial (it returns 1); with all three arguments cast the other overload is taken and there is no restriction. C68_readme_exact gives the result in every case."
 },
 "C72": {
  "status": "partial",
  "note": "False for negative values (compared as i + 2^64, C72_negative_exact) and for one-block numbers (reads past the object); proved for all others."
 },
 "C73": {
  "status": "partial",
  "note": "False for hexadecimal or octal output without showbase (C73_counterexample) and in the failing cases of C35; proved otherwise. C73_hex_iff and C73_oct_iff say exactly which numbers survive without showbase."
 },
 "C74": {
  "status": "partial",
  "note": "As C73: false for hexadecimal or octal output without showbase (C74_counterexample; C74_hex_iff and C74_oct_iff say exactly which numbers survive) and in the failing cases of C35. Otherwise proved for every object, canonical or not, and for reading in every precision (C74_round_trip_partial)."
 },
 "C85": {
  "status": "partial",
  "note": "False for the members that read the digits: 5 - 5 == 0 but isOdd, getBit, bitCount, byteCount and unsignedCast of the first answer for 5 (C85_counterexample). Proved for every program that does not call these on signed objects; C85_unsigned proves it for Aeu outright. C85_iff says exactly which equal objects the digit members tell apart."
 },
 "C87": {
  "status": "partial",
  "note": "True for Aeu::divide (all sharing patterns), gcd and readBinary. Signed divide with a zero operand keeps the digits the outputs held behind the zero sign (C87_counterexample): the results compare equal but isOdd, getBit, unsignedCast answer by the old contents; C87_stale_exact says exactly which digits remain."
 },
 "C88": {
  "status": "partial",
  "note": "True for everything in Aeu. Aesi::divide with a zero operand writes only the signs of its outputs: after Aesi q, r; divide(0, 5, q, r) copying q or q.isOdd() reads indeterminate memory (C88_counterexample, C88_signed_zero_exact); with two nonzero operands it is proved (C88_divide_signed_partial)."
 },
 "C102": {
  "status": "partial",
  "note": "False in hexadecimal notation (C102_counterexample); C102_hex_exact gives the text printed, C102_hex_iff exactly the numbers printed right. Proved for decimal and octal notation in every state of the stream."
 },
 "C103": {
  "status": "partial",
  "note": "False of the code (C103_counterexample, C103_signed_counterexample). Proved: every operation behaves as with the low 64 bits (C103_low_half, C103_signed_low_half, C103_signed_exact, C103_signed_compare_exact, C103_cast_exact), is right for operands below 2^64 (..._partial), and shifts are right for all counts."
 },
 "C104": {
  "status": "partial",
  "note": "'Exchanges lose nothing' is false of the code for a shared argument (C104_counterexample, C104_full_fails); C104_conserved_partial proves it when each argument belongs to one thread (or is only ever exchanged with itself), and C104_conserved_iff that nothing less will do. The other parts are proved in full; C104_counterexample_copy shows why a copy can only be promised block by block."
 },
 "C105": {
  "status": "partial",
  "note": "'No failure of the stream ends the program' is false of writeBinary, which is noexcept (C105_counterexample, C105_full_fails); C105_write_exact says exactly when, C105_write_partial when not. Text output and readBinary are proved in full."
 },
 "C107": {
  "status": "partial",
  "note": "False for negative operands: the sign is dropped (C107_counterexample, C107_full_fails, C107_negative_wrong). C107_left_exact, C107_right_exact and C107_construct_exact give the result for every operand; C107_operand_partial is the claim for operands that are not negative."
 },
 "C109": {
  "status": "partial",
  "note": "The property fails: `a == z` and `i op a` convert inside operators declared noexcept, so refused memory ends the program (C109_counterexample for every comparison, C109_full_fails; C109_compare_exact, C109_compare_signed_exact and C109_left_exact say exactly when). Proved: constructors and compound assignments of both classes report by bad_alloc and leave the object unchanged, never end the program, and give the usual result when memory is granted; the size of the request is exact (C109_overallocation: 8 bytes per bit)."
 },
 "C110": {
  "status": "partial",
  "note": "'Exchanges lose nothing' is false of the code for a shared argument (C110_full_fails); C110_conserved_partial proves it when each argument belongs to one thread (or is only ever exchanged with itself), C110_conserved_iff that nothing less will do. The other parts are proved in full; C110_generalises shows that every sequentially consistent schedule is one of the orders."
 },
 "C111": {
  "status": "partial",
  "note": "Keys of another precision: false of the code (C111_circle, C111_across_counterexample), proved when all values fit the shorter precision. Signed zeros with a nonzero sign field: false (C111_signed_counterexample), proved for canonical numbers. Sorting is proved in full for both classes, searching in full for unsigned keys of the same type and built-in keys of up to 32 bits (64-bit keys: n = 1 reads out of bounds, C17_one_block_exact, proved for n >= 2). For all signed numbers C111_find_signed_exact and C111_set_signed_exact say what is found and held. std::sort's algorithm is unspecified; it is represented by insertion sort, C111_any_sort shows that every result meeting the contract of std::sort is the same sequence."
 },
 "C112": {
  "status": "partial",
  "note": "Between machines of different byte order false of the code (C112_counterexample, C112_one_lost for every precision); C112_other_order_iff says which numbers arrive, C112_transfer what arrives in every case; C112_same_order_partial is the part that holds. The other parts are proved in full."
 },
 "C113": {
  "status": "partial",
  "note": "With the returned count proved in full (C113_count, C113_signed_count). From the C string it is false for zero in a used array (C113_cstring_counterexample) and proved for all other numbers; from the whole array it is false when the array was used (C113_array_counterexample, C113_signed_array_counterexample; C113_array_exact, C113_zero_exact and C113_signed_array_exact give the number read) and proved for arrays of zeros."
 },
 "C114": {
  "status": "partial",
  "note": "Proved in full for addition, subtraction, division, modulo and gcd. False for multiplication and powm (C114_multiplication_counterexample, C114_powm_counterexample, for every number of rounds); C114_multiplication_partial and C114_powm_partial say which number they compute instead."
 },
 "C38": {
  "status": "partial",
  "note": "False for divisors that represent 0 but report a sign, such as Aesi(Aeu(0)) (C38_counterexample: 7 / Aesi(Aeu(0)) = 2^32 - 1); proved for all others. C38_exact gives the result for every pair of objects."
 },
 "C40": {
  "status": "partial",
  "note": "False for divisors that represent 0 but report a sign (C40_counterexample); proved for all others. C40_exact gives both results for every pair of objects."
 },
 "C45": {
  "status": "partial",
  "note": "False exactly for zeros that report the opposite sign: -- on Aesi(Aeu(0)) gives 2^bitness - 1 (C45_counterexample, C45_exact); proved for all others."
 },
 "C70": {
  "status": "partial",
  "note": "False for ++ and -- on a zero that reports a sign (C70_counterexample; C70_inc_dec_exact covers every object), and for multiplication by a 64-bit value above 2^32 where unsigned long long is not uint64_t (C04); everything else proved."
 },
 "C115": {
  "status": "partial",
  "note": "False for texts: C115_text_never (construction from any non-empty text), C115_hex_never, C115_counterexample. C115_program_partial says exactly which programs are constant expressions; C115_value that their value is the run-time value; C115_call does it call by call."
 }
}