{
 "claims": [
  {
   "property": "C01",
   "status": "proved",
   "theorems": [
    "AesiMP.C01_add"
   ],
   "note": ""
  },
  {
   "property": "C02",
   "status": "proved",
   "theorems": [
    "AesiMP.C02_sub",
    "AesiMP.C02_neg"
   ],
   "note": ""
  },
  {
   "property": "C03",
   "status": "proved",
   "theorems": [
    "AesiMP.C03_mul"
   ],
   "note": ""
  },
  {
   "property": "C04",
   "status": "partial",
   "theorems": [
    "AesiMP.C04_mul_uint64",
    "AesiMP.C04_mul_narrow",
    "AesiMP.C04_mul_ull_partial",
    "AesiMP.C04_ull_counterexample",
    "AesiMP.C04_mul_ull_small",
    "AesiMP.C04_ull_sharp",
    "AesiMP.C04_ull_iff",
    "AesiMP.C04_const_object"
   ],
   "note": "False as stated for `unsigned long long` on LP64, where the overload for types other than uint64_t is chosen and truncates: proved for every other type; for unsigned long long C04_ull_iff decides exactly which factors and precisions are right."
  },
  {
   "property": "C05",
   "status": "partial",
   "theorems": [
    "AesiMP.C05_add_builtin_partial",
    "AesiMP.C05_add_builtin_narrow",
    "AesiMP.C05_counterexample",
    "AesiMP.C05_add_builtin_exact",
    "AesiMP.C05_add_builtin_small",
    "AesiMP.C05_add_builtin_iff"
   ],
   "note": "False as stated: the 64-bit sum of the lowest block and the addend may wrap. C05_add_builtin_exact says what is computed for every input, and C05_add_builtin_iff that it is right exactly when the lowest block plus the addend stays below 2^64 (always so up to 64 bits of precision)."
  },
  {
   "property": "C06",
   "status": "proved",
   "theorems": [
    "AesiMP.C06_divide",
    "AesiMP.C06_div",
    "AesiMP.C06_mod",
    "AesiMP.C06_divide_pair"
   ],
   "note": ""
  },
  {
   "property": "C07",
   "status": "proved",
   "theorems": [
    "AesiMP.C07_divide_by_zero",
    "AesiMP.C07_divide_zero_by_zero"
   ],
   "note": ""
  },
  {
   "property": "C08",
   "status": "proved",
   "theorems": [
    "AesiMP.C08_inc",
    "AesiMP.C08_dec",
    "AesiMP.C08_postInc",
    "AesiMP.C08_postDec"
   ],
   "note": ""
  },
  {
   "property": "C09",
   "status": "proved",
   "theorems": [
    "AesiMP.C09_not",
    "AesiMP.C09_not_value",
    "AesiMP.C09_and",
    "AesiMP.C09_or",
    "AesiMP.C09_xor",
    "AesiMP.C09_bits"
   ],
   "note": ""
  },
  {
   "property": "C10",
   "status": "proved",
   "theorems": [
    "AesiMP.C10_shl",
    "AesiMP.C10_shl_noop"
   ],
   "note": ""
  },
  {
   "property": "C11",
   "status": "proved",
   "theorems": [
    "AesiMP.C11_shr",
    "AesiMP.C11_shr_noop"
   ],
   "note": ""
  },
  {
   "property": "C12",
   "status": "proved",
   "theorems": [
    "AesiMP.C12_getBit",
    "AesiMP.C12_setBit",
    "AesiMP.C12_out_of_range",
    "AesiMP.C12_unsafe_out_of_range"
   ],
   "note": ""
  },
  {
   "property": "C13",
   "status": "partial",
   "theorems": [
    "AesiMP.C13_getByte",
    "AesiMP.C13_setByte",
    "AesiMP.C13_out_of_range_partial",
    "AesiMP.C13_boundary_counterexample",
    "AesiMP.C13_exact"
   ],
   "note": "False at the index bitness/8: the guard lets it through to a block access out of bounds (C13_boundary_counterexample). Proved in range and from the first index the guard rejects. C13_exact decides every index in both modes."
  },
  {
   "property": "C14",
   "status": "proved",
   "theorems": [
    "AesiMP.C14_getBlock",
    "AesiMP.C14_setBlock",
    "AesiMP.C14_out_of_range",
    "AesiMP.C14_unsafe_out_of_range"
   ],
   "note": ""
  },
  {
   "property": "C15",
   "status": "proved",
   "theorems": [
    "AesiMP.C15_bitCount",
    "AesiMP.C15_byteCount",
    "AesiMP.C15_filledBlocksNumber",
    "AesiMP.C15_zero_parity",
    "AesiMP.C15_constants"
   ],
   "note": ""
  },
  {
   "property": "C16",
   "status": "proved",
   "theorems": [
    "AesiMP.C16_compare",
    "AesiMP.C16_compareTo",
    "AesiMP.C16_oldstyle"
   ],
   "note": ""
  },
  {
   "property": "C17",
   "status": "partial",
   "theorems": [
    "AesiMP.C17_compare_narrow",
    "AesiMP.C17_compare_u64_partial",
    "AesiMP.C17_one_block_counterexample",
    "AesiMP.C17_one_block_exact",
    "AesiMP.C17_oldstyle"
   ],
   "note": "False for one-block numbers compared with 64-bit values (reads past the object), see C17_one_block_counterexample; proved for every precision >= 64 and for the narrow types at all precisions. C17_one_block_exact: all of these do."
  },
  {
   "property": "C18",
   "status": "proved",
   "theorems": [
    "AesiMP.C18_eq_across"
   ],
   "note": ""
  },
  {
   "property": "C19",
   "status": "partial",
   "theorems": [
    "AesiMP.C19_order_across_partial",
    "AesiMP.C19_order_across_exact",
    "AesiMP.C19_counterexample"
   ],
   "note": "False in general: only the blocks common to both precisions decide the order when they differ (C19_counterexample); C19_order_across_exact states what the code computes for all operands."
  },
  {
   "property": "C20",
   "status": "proved",
   "theorems": [
    "AesiMP.C20_precisionCast",
    "AesiMP.C20_widen_narrow"
   ],
   "note": ""
  },
  {
   "property": "C21",
   "status": "partial",
   "theorems": [
    "AesiMP.C21_integralCast_partial",
    "AesiMP.C21_unsigned_partial",
    "AesiMP.C21_signed_partial",
    "AesiMP.C21_converted_partial",
    "AesiMP.C21_bool_partial",
    "AesiMP.C21_one_block_counterexample"
   ],
   "note": "False for one-block numbers (reads past the object); proved for n >= 2 and every type."
  },
  {
   "property": "C22",
   "status": "proved",
   "theorems": [
    "AesiMP.C22_construct",
    "AesiMP.C22_construct_exact"
   ],
   "note": ""
  },
  {
   "property": "C23",
   "status": "partial",
   "theorems": [
    "AesiMP.C23_narrow_exact",
    "AesiMP.C23_wide",
    "AesiMP.C23_narrow_partial",
    "AesiMP.C23_negative_char_counterexample",
    "AesiMP.C23_decimal",
    "AesiMP.C23_prefixed"
   ],
   "note": "False for char text when a negative char precedes the first alphanumeric character: isalnum of it is undefined (C23_negative_char_counterexample). Proved for every wchar_t text and locale, and for every other char text. C23_narrow_exact decides every char text."
  },
  {
   "property": "C24",
   "status": "partial",
   "theorems": [
    "AesiMP.C24_get_string_partial",
    "AesiMP.C24_get_string_zero",
    "AesiMP.C24_round_trip_partial",
    "AesiMP.C24_one_block_counterexample",
    "AesiMP.C24_one_block",
    "AesiMP.C24_other_bases"
   ],
   "note": "False for one-block numbers in bases other than 16 (a digit extraction reads beyond the object, C24_one_block_counterexample). Proved for all other precisions, every base 2..10 and 16, with the round trip through the string constructor. C24_one_block proves the failure for every non-zero one-block number; C24_other_bases gives the text for the remaining bases up to 80."
  },
  {
   "property": "C25",
   "status": "partial",
   "theorems": [
    "AesiMP.C25_in_bounds_partial",
    "AesiMP.C25_overrun",
    "AesiMP.C25_counterexample",
    "AesiMP.C25_overrun_digits",
    "AesiMP.C25_wide_hex_in_bounds",
    "AesiMP.C25_wide_hex_short_counterexample",
    "AesiMP.C25_wide_hex_short"
   ],
   "note": "False: the terminator (and whole hex blocks) are written past a buffer that is too short. C25_in_bounds_partial and C25_overrun together decide every char buffer of two or more characters. C25_overrun_digits does the same for wchar_t in every base but 16; wide hexadecimal text never leaves a buffer of nine or more wchar_t (C25_wide_hex_in_bounds), and C25_wide_hex_short decides the buffers of two to eight."
  },
  {
   "property": "C26",
   "status": "proved",
   "theorems": [
    "AesiMP.C26_gcd",
    "AesiMP.C26_gcd_value"
   ],
   "note": ""
  },
  {
   "property": "C27",
   "status": "proved",
   "theorems": [
    "AesiMP.C27_bezout_exact",
    "AesiMP.C27_bezout"
   ],
   "note": ""
  },
  {
   "property": "C28",
   "status": "proved",
   "theorems": [
    "AesiMP.C28_lcm",
    "AesiMP.C28_lcm_mod"
   ],
   "note": ""
  },
  {
   "property": "C29",
   "status": "partial",
   "theorems": [
    "AesiMP.C29_powm_partial",
    "AesiMP.C29_counterexample",
    "AesiMP.C29_caveat",
    "AesiMP.C29_wide_modulus_wrong",
    "AesiMP.C29_safe_moduli"
   ],
   "note": "False for power 0 and modulo 1 (returns 1); everything else proved. C29_safe_moduli: the moduli for which no base or exponent overflows are exactly those up to 2^(bitness/2) and the powers of two."
  },
  {
   "property": "C30",
   "status": "partial",
   "theorems": [
    "AesiMP.C30_powm_exact",
    "AesiMP.C30_powm_partial",
    "AesiMP.C30_counterexample_base_zero",
    "AesiMP.C30_counterexample_modulo_one",
    "AesiMP.C30_wide_modulus_wrong",
    "AesiMP.C30_safe_moduli"
   ],
   "note": "False for base 0 with a positive power (returns 1) and for modulo 1 with base <= 1 or power 0; everything else proved. C30_powm_exact gives the result in every case."
  },
  {
   "property": "C31",
   "status": "proved",
   "theorems": [
    "AesiMP.C31_unsafe_out_of_range",
    "AesiMP.C31_power2",
    "AesiMP.C31_power2_out_of_range"
   ],
   "note": ""
  },
  {
   "property": "C32",
   "status": "proved",
   "theorems": [
    "AesiMP.C32_squareRoot"
   ],
   "note": ""
  },
  {
   "property": "C33",
   "status": "proved",
   "theorems": [
    "AesiMP.C33_read",
    "AesiMP.C33_read_failed",
    "AesiMP.C33_write_prefix",
    "AesiMP.C33_write_failed",
    "AesiMP.C33_round_trip"
   ],
   "note": ""
  },
  {
   "property": "C34",
   "status": "partial",
   "theorems": [
    "AesiMP.C34_little_endian",
    "AesiMP.C34_big_endian_partial",
    "AesiMP.C34_counterexample",
    "AesiMP.C34_exact",
    "AesiMP.C34_big_endian_iff"
   ],
   "note": "False for the big-endian flag on a little-endian host: the blocks are reversed but not the bytes in them (C34_counterexample). C34_exact gives the bytes for both machines and flags, C34_big_endian_iff exactly the numbers written right."
  },
  {
   "property": "C35",
   "status": "partial",
   "theorems": [
    "AesiMP.C35_buffer_size",
    "AesiMP.C35_buffer_size_cases",
    "AesiMP.C35_width_exact",
    "AesiMP.C35_right_adjusted",
    "AesiMP.C35_width_iff",
    "AesiMP.C35_one_block",
    "AesiMP.C35_stream_partial",
    "AesiMP.C35_octal64",
    "AesiMP.C35_octal_counterexample",
    "AesiMP.C35_one_block_counterexample",
    "AesiMP.C35_width_counterexample"
   ],
   "note": "False for octal output of 32/64-bit numbers (buffer too small, digits lost), decimal output of 32-bit numbers (read beyond the object), and with a pending setw. Everything else proved. C35_width_exact and C35_width_iff determine the output with any pending width; C35_one_block the failing case."
  },
  {
   "property": "C36",
   "status": "proved",
   "theorems": [
    "AesiMP.C36_add",
    "AesiMP.C36_sub"
   ],
   "note": ""
  },
  {
   "property": "C37",
   "status": "proved",
   "theorems": [
    "AesiMP.C37_mul"
   ],
   "note": ""
  },
  {
   "property": "C38",
   "status": "partial",
   "theorems": [
    "AesiMP.Aesi.C38_exact",
    "AesiMP.Aesi.C38_counterexample",
    "AesiMP.C38_div",
    "AesiMP.C38_div_truncates",
    "AesiMP.C38_div_zero_partial",
    "AesiMP.C38_div_total"
   ],
   "note": "False for divisors that represent 0 but report a sign, such as Aesi(Aeu(0)) (C38_counterexample: 7 / Aesi(Aeu(0)) = 2^32 - 1); proved for all others. C38_exact gives the result for every pair of objects."
  },
  {
   "property": "C39",
   "status": "partial",
   "theorems": [
    "AesiMP.C39_identity_partial",
    "AesiMP.C39_mod_exact",
    "AesiMP.C39_counterexample",
    "AesiMP.C39_mod_zero",
    "AesiMP.C39_mod_every"
   ],
   "note": "False for negative divisors: % returns the negated remainder (C39_counterexample). C39_mod_exact says what it returns for every divisor; the identity is proved for positive ones. C39_mod_every covers every pair of objects, divisors that represent 0 included."
  },
  {
   "property": "C40",
   "status": "partial",
   "theorems": [
    "AesiMP.Aesi.C40_exact",
    "AesiMP.Aesi.C40_counterexample",
    "AesiMP.C40_divide",
    "AesiMP.C40_divide_zero_partial",
    "AesiMP.C40_divide_every"
   ],
   "note": "False for divisors that represent 0 but report a sign (C40_counterexample); proved for all others. C40_exact gives both results for every pair of objects."
  },
  {
   "property": "C41",
   "status": "partial",
   "theorems": [
    "AesiMP.C41_compare_exact",
    "AesiMP.C41_eq_iff",
    "AesiMP.C41_operators_partial",
    "AesiMP.C41_total_order",
    "AesiMP.C41_compare_partial",
    "AesiMP.C41_counterexample"
   ],
   "note": "False for objects that represent 0 without the zero sign, such as Aesi(Aeu(0)) (C41_counterexample); proved for all canonical objects, which C43/C59 show to be those reached by arithmetic without overflow. C41_compare_exact gives the result for all objects; C41_total_order holds for all objects."
  },
  {
   "property": "C42",
   "status": "partial",
   "theorems": [
    "AesiMP.C42_compare_exact",
    "AesiMP.C42_operators_partial",
    "AesiMP.C42_compare_builtin_partial",
    "AesiMP.C42_compare_zero",
    "AesiMP.C42_min_counterexample",
    "AesiMP.C42_one_block_counterexample"
   ],
   "note": "False for the built-in -2^63 (negation overflows), for one-block numbers (reads beyond the object) and non-canonical zeros; each refuted by a theorem, everything else proved. C42_compare_exact gives the outcome for every object, precision and value."
  },
  {
   "property": "C43",
   "status": "partial",
   "theorems": [
    "AesiMP.C43_sign_exact",
    "AesiMP.C43_iff",
    "AesiMP.C43_mod_builtin_exact",
    "AesiMP.C43_is_zero_partial",
    "AesiMP.C43_constructors",
    "AesiMP.C43_mod_counterexample",
    "AesiMP.C43_from_unsigned_counterexample"
   ],
   "note": "False after %= by a built-in, after Aesi(Aeu(0)) and after an overflowing product (counterexamples). Proved for every program of the C59 language and for the constructors. C43_sign_exact says what the observers show after every operator, overflowing or not; C43_iff and C43_mod_builtin_exact exactly when isZero is wrong."
  },
  {
   "property": "C44",
   "status": "partial",
   "theorems": [
    "AesiMP.C44_zero_result_exact",
    "AesiMP.C44_iff",
    "AesiMP.C44_digits_nonzero",
    "AesiMP.C44_clean_partial",
    "AesiMP.C44_stale",
    "AesiMP.C44_counterexample"
   ],
   "note": "False: C44_stale shows it for every non-zero a and a-=a, a*=0. Proved for non-zero values and for zeros produced by the listed operations. C44_iff and C44_zero_result_exact say exactly which zero results carry which sign."
  },
  {
   "property": "C45",
   "status": "partial",
   "theorems": [
    "AesiMP.Aesi.C45_exact",
    "AesiMP.Aesi.C45_counterexample",
    "AesiMP.C45_inc_dec_partial",
    "AesiMP.C45_postfix_partial"
   ],
   "note": "False exactly for zeros that report the opposite sign: -- on Aesi(Aeu(0)) gives 2^bitness - 1 (C45_counterexample, C45_exact); proved for all others."
  },
  {
   "property": "C46",
   "status": "partial",
   "theorems": [
    "AesiMP.C46_narrow_exact",
    "AesiMP.C46_wide",
    "AesiMP.C46_narrow_partial",
    "AesiMP.C46_decimal"
   ],
   "note": "As C23: negative chars before the first alphanumeric are undefined behaviour in isalnum; all wchar_t texts and all other char texts proved. C46_narrow_exact decides every char text."
  },
  {
   "property": "C47",
   "status": "partial",
   "theorems": [
    "AesiMP.C47_construct_partial",
    "AesiMP.C47_min_counterexample",
    "AesiMP.C47_construct_exact"
   ],
   "note": "False exactly at the minima of signed types at least as wide as int: C47_min_counterexample proves overflow for all of them; everything else proved. C47_construct_exact says what happens for every value of every type."
  },
  {
   "property": "C48",
   "status": "partial",
   "theorems": [
    "AesiMP.C48_one_block",
    "AesiMP.C48_cast_partial",
    "AesiMP.C48_counterexample",
    "AesiMP.C48_cast_exact",
    "AesiMP.C48_cast_converted"
   ],
   "note": "False for the minima of int and wider (signed overflow) and for one-block numbers; everything else proved. C48_cast_exact says what happens for every object of at least two blocks and every type. C48_one_block says what happens for one-block numbers."
  },
  {
   "property": "C49",
   "status": "partial",
   "theorems": [
    "AesiMP.C49_mul_partial",
    "AesiMP.C49_div_partial",
    "AesiMP.C49_mod_partial",
    "AesiMP.C49_agrees_partial",
    "AesiMP.C49_add_partial",
    "AesiMP.C49_sub_partial",
    "AesiMP.C49_left_partial",
    "AesiMP.C49_min_counterexample",
    "AesiMP.C49_factor_counterexample",
    "AesiMP.C49_wide_min",
    "AesiMP.C49_mod_exact",
    "AesiMP.C49_div_exact",
    "AesiMP.C49_div_total",
    "AesiMP.C49_mul_exact",
    "AesiMP.C49_mul_total"
   ],
   "note": "False at the minimum of the operand's type, for large factors on LP64, and for % by a negative value (C39's defect); everything else proved. C49_wide_min, C49_mul_exact, C49_div_exact and C49_mod_exact say what each operator computes for every operand."
  },
  {
   "property": "C50",
   "status": "partial",
   "theorems": [
    "AesiMP.C50_precision_cast",
    "AesiMP.C50_across_partial",
    "AesiMP.C50_counterexample",
    "AesiMP.C50_across_exact"
   ],
   "note": "precisionCast is fully proved; == and compareTo across precisions are false when the left operand does not fit the right precision (C50_counterexample), proved otherwise. C50_across_exact says what they return for every pair."
  },
  {
   "property": "C51",
   "status": "partial",
   "theorems": [
    "AesiMP.C51_too_short",
    "AesiMP.C51_overrun",
    "AesiMP.C51_positive_partial",
    "AesiMP.C51_negative",
    "AesiMP.C51_zero",
    "AesiMP.C51_zero_short",
    "AesiMP.C51_counterexample",
    "AesiMP.C51_hidden_zero"
   ],
   "note": "The count omits the dash for negative values, and short buffers are overrun for zero (C51_counterexample); exact contents and counts proved for every value and every sufficient buffer. C51_too_short and C51_overrun decide the remaining char buffers."
  },
  {
   "property": "C52",
   "status": "proved",
   "theorems": [
    "AesiMP.C52_swap_any",
    "AesiMP.C52_swap_plus_minus",
    "AesiMP.C52_swap_unsigned",
    "AesiMP.C52_plus_unsigned"
   ],
   "note": ""
  },
  {
   "property": "C53",
   "status": "proved",
   "theorems": [
    "AesiMP.C53_add",
    "AesiMP.C53_sub",
    "AesiMP.C53_mul",
    "AesiMP.C53_div",
    "AesiMP.C53_mod",
    "AesiMP.C53_and",
    "AesiMP.C53_or",
    "AesiMP.C53_xor",
    "AesiMP.C53_self_is_copy",
    "AesiMP.C53_signed_add",
    "AesiMP.C53_signed_sub",
    "AesiMP.C53_signed_mul",
    "AesiMP.C53_signed_div",
    "AesiMP.C53_signed_mod",
    "AesiMP.C53_signed_self_is_copy"
   ],
   "note": ""
  },
  {
   "property": "C54",
   "status": "partial",
   "theorems": [
    "AesiMP.C54_divide_partial",
    "AesiMP.C54_equal",
    "AesiMP.C54_smaller",
    "AesiMP.C54_number_shared",
    "AesiMP.C54_divisor_is_remainder",
    "AesiMP.C54_divisor_is_quotient",
    "AesiMP.C54_signed_partial",
    "AesiMP.C54_counterexample",
    "AesiMP.C54_any_sharing",
    "AesiMP.C54_signed_reduces",
    "AesiMP.C54_signed_equal",
    "AesiMP.C54_signed_number_shared",
    "AesiMP.C54_signed_smaller",
    "AesiMP.C54_one_output_equal",
    "AesiMP.C54_one_output_smaller",
    "AesiMP.C54_one_output_number",
    "AesiMP.C54_one_output_divisor",
    "AesiMP.C54_one_output_greater",
    "AesiMP.C54_signed_one_output"
   ],
   "note": "False as stated: divide assigns zero to both outputs before it reads its inputs again (Aeu.h:1090). Proved when no output is an input; for every other sharing pattern the theorems say exactly what is computed (right when the operands are equal or the number is smaller and not an output, wrong otherwise), including one object for both outputs (C54_one_output_*); C54_counterexample. C54_signed_* carry the same patterns to the signed division."
  },
  {
   "property": "C55",
   "status": "proved",
   "theorems": [
    "AesiMP.C55_never_torn",
    "AesiMP.C55_completed",
    "AesiMP.C55_same_value",
    "AesiMP.C55_last_writer",
    "AesiMP.C55_wait_free",
    "AesiMP.C55_mixed_example",
    "AesiMP.C55_alone"
   ],
   "note": "Sequentially consistent interleaving of single memory accesses, arguments private to the calling thread. C55_mixed_example shows that the object as a whole may end as a value nobody wrote, which the header documents."
  },
  {
   "property": "C56",
   "status": "partial",
   "theorems": [
    "AesiMP.C56_conserved",
    "AesiMP.C56_completed",
    "AesiMP.C56_alone",
    "AesiMP.C56_signed_exact",
    "AesiMP.C56_signed_partial",
    "AesiMP.C56_counterexample"
   ],
   "note": "For Aeu proved (of the function without the const that keeps it from compiling). For Aesi false: the sign is copied to the object but not back to the argument (C56_signed_exact, C56_counterexample)."
  },
  {
   "property": "C57",
   "status": "proved",
   "theorems": [
    "AesiMP.C57_program_refinement"
   ],
   "note": ""
  },
  {
   "property": "C58",
   "status": "proved",
   "theorems": [
    "AesiMP.C58_add_comm",
    "AesiMP.C58_add_assoc",
    "AesiMP.C58_mul_comm",
    "AesiMP.C58_mul_assoc",
    "AesiMP.C58_distrib",
    "AesiMP.C58_add_zero",
    "AesiMP.C58_mul_one",
    "AesiMP.C58_add_neg",
    "AesiMP.C58_sub_eq",
    "AesiMP.C58_sub_add_cancel",
    "AesiMP.C58_eq_discriminates"
   ],
   "note": ""
  },
  {
   "property": "C59",
   "status": "proved",
   "theorems": [
    "AesiMP.C59_program_refinement"
   ],
   "note": ""
  },
  {
   "property": "C60",
   "status": "proved",
   "theorems": [
    "AesiMP.C60_unsigned",
    "AesiMP.C60_signed",
    "AesiMP.C60_signed_truncates",
    "AesiMP.C60_unchecked_overrun"
   ],
   "note": "GMP functions modelled by their documentation. In the AESI_UNSAFE build only for |z| < 2^bitness (C60_unchecked_overrun)."
  },
  {
   "property": "C61",
   "status": "partial",
   "theorems": [
    "AesiMP.C61_decimal_flags_partial",
    "AesiMP.C61_octal_flags",
    "AesiMP.C61_hex_flags",
    "AesiMP.C61_counterexample"
   ],
   "note": "False for octal and hexadecimal output: showbase is switched off, and hexadecimal output of two or more blocks leaves fill '0' and right adjustment. C61_octal_flags and C61_hex_flags say exactly what changes."
  },
  {
   "property": "C62",
   "status": "partial",
   "theorems": [
    "AesiMP.C62_stream_all_partial",
    "AesiMP.C62_stream_partial",
    "AesiMP.C62_width_counterexample",
    "AesiMP.C62_width_exact"
   ],
   "note": "False with a pending setw (padding goes between) and in the cases of C35; zero is printed without prefix. Otherwise proved. C62_width_exact gives the output with any pending width. C62_stream_all_partial drops the restriction to canonical objects (stated by the sign field)."
  },
  {
   "property": "C63",
   "status": "proved",
   "theorems": [
    "AesiMP.C63_squareRoot",
    "AesiMP.C63_power2",
    "AesiMP.C63_power2_out_of_range"
   ],
   "note": ""
  },
  {
   "property": "C64",
   "status": "proved",
   "theorems": [
    "AesiMP.C64_bezout_shared",
    "AesiMP.C64_bezout_shared_exact",
    "AesiMP.C64_gcd_any_sharing"
   ],
   "note": ""
  },
  {
   "property": "C65",
   "status": "partial",
   "theorems": [
    "AesiMP.C65_unsigned_partial",
    "AesiMP.C65_unsigned_exact",
    "AesiMP.C65_counterexample",
    "AesiMP.C65_signed_partial",
    "AesiMP.C65_signed_exact"
   ],
   "note": "False as stated: the operand is first converted, which drops its sign (Aeu) and its bits from 2^bitness on. C65_unsigned_exact says what is computed for all z. C65_signed_exact does the same for Aesi."
  },
  {
   "property": "C66",
   "status": "proved",
   "theorems": [
    "AesiMP.C66_left_ring",
    "AesiMP.C66_left_rest",
    "AesiMP.C66_right"
   ],
   "note": ""
  },
  {
   "property": "C67",
   "status": "proved",
   "theorems": [
    "AesiMP.C67_setters",
    "AesiMP.C67_observers",
    "AesiMP.C67_filledBlocks",
    "AesiMP.C67_zero_stays_zero",
    "AesiMP.C67_negative_zero"
   ],
   "note": "C67_zero_stays_zero and C67_negative_zero record the last sentence of the property; they are also counter-examples to the invariant C43 if setters are used."
  },
  {
   "property": "C68",
   "status": "partial",
   "theorems": [
    "AesiMP.C68_readme_exact",
    "AesiMP.C68_powm_widened",
    "AesiMP.C68_powm_readme_partial",
    "AesiMP.C68_readme_base_zero"
   ],
   "note": "The README's form calls the overload with the defect of C30, so base 0 with a positive exponent is excluded in C68_powm_readme_partial (it returns 1); with all three arguments cast the other overload is taken and there is no restriction. C68_readme_exact gives the result in every case."
  },
  {
   "property": "C69",
   "status": "proved",
   "theorems": [
    "AesiMP.C69_powmT_exact",
    "AesiMP.C69_powmT_modulus_zero",
    "AesiMP.C69_powmT_power_of_two",
    "AesiMP.C69_powm_total",
    "AesiMP.C69_powmT_total",
    "AesiMP.C69_powm_modulus_zero",
    "AesiMP.C69_powm_power_of_two",
    "AesiMP.C69_powm_exact"
   ],
   "note": ""
  },
  {
   "property": "C70",
   "status": "partial",
   "theorems": [
    "AesiMP.Aesi.C70_inc_dec_exact",
    "AesiMP.Aesi.C70_counterexample",
    "AesiMP.C70_ring_wrap",
    "AesiMP.C70_inc_dec_wrap_partial",
    "AesiMP.C70_builtin_wrap",
    "AesiMP.C70_false_sign"
   ],
   "note": "False for ++ and -- on a zero that reports a sign (C70_counterexample; C70_inc_dec_exact covers every object), and for multiplication by a 64-bit value above 2^32 where unsigned long long is not uint64_t (C04); everything else proved."
  },
  {
   "property": "C71",
   "status": "proved",
   "theorems": [
    "AesiMP.C71_ring_programs"
   ],
   "note": ""
  },
  {
   "property": "C72",
   "status": "partial",
   "theorems": [
    "AesiMP.C72_signed_partial",
    "AesiMP.C72_negative_exact",
    "AesiMP.C72_counterexample",
    "AesiMP.C72_one_block_counterexample"
   ],
   "note": "False for negative values (compared as i + 2^64, C72_negative_exact) and for one-block numbers (reads past the object); proved for all others."
  },
  {
   "property": "C73",
   "status": "partial",
   "theorems": [
    "AesiMP.C73_read",
    "AesiMP.C73_hex_iff",
    "AesiMP.C73_oct_iff",
    "AesiMP.C73_stream_round_trip_partial",
    "AesiMP.C73_same_precision_partial",
    "AesiMP.C73_counterexample"
   ],
   "note": "False for hexadecimal or octal output without showbase (C73_counterexample) and in the failing cases of C35; proved otherwise. C73_hex_iff and C73_oct_iff say exactly which numbers survive without showbase."
  },
  {
   "property": "C74",
   "status": "partial",
   "theorems": [
    "AesiMP.C74_round_trip_partial",
    "AesiMP.C74_hex_iff",
    "AesiMP.C74_oct_iff",
    "AesiMP.C74_counterexample",
    "AesiMP.C74_signed_round_trip_partial"
   ],
   "note": "As C73: false for hexadecimal or octal output without showbase (C74_counterexample; C74_hex_iff and C74_oct_iff say exactly which numbers survive) and in the failing cases of C35. Otherwise proved for every object, canonical or not, and for reading in every precision (C74_round_trip_partial)."
  },
  {
   "property": "C75",
   "status": "proved",
   "theorems": [
    "AesiMP.C75_no_undefined_behaviour"
   ],
   "note": ""
  },
  {
   "property": "C76",
   "status": "proved",
   "theorems": [
    "AesiMP.C76_flags_irrelevant",
    "AesiMP.C76_unsafe_to_checked",
    "AesiMP.C76_sharp"
   ],
   "note": ""
  },
  {
   "property": "C77",
   "status": "proved",
   "theorems": [
    "AesiMP.C77_client_refinement"
   ],
   "note": ""
  },
  {
   "property": "C78",
   "status": "proved",
   "theorems": [
    "AesiMP.C78_modular_inverse"
   ],
   "note": ""
  },
  {
   "property": "C79",
   "status": "proved",
   "theorems": [
    "AesiMP.C79_gcd",
    "AesiMP.C79_gcdExt",
    "AesiMP.C79_squareRoot"
   ],
   "note": ""
  },
  {
   "property": "C80",
   "status": "proved",
   "theorems": [
    "AesiMP.C80_cross",
    "AesiMP.C80_big_endian_one"
   ],
   "note": ""
  },
  {
   "property": "C81",
   "status": "proved",
   "theorems": [
    "AesiMP.C81_shl_mul",
    "AesiMP.C81_shr_div",
    "AesiMP.C81_mask_mod",
    "AesiMP.C81_not_neg",
    "AesiMP.C81_not_not",
    "AesiMP.C81_xor",
    "AesiMP.C81_half_adder",
    "AesiMP.C81_de_morgan",
    "AesiMP.C81_div_mod",
    "AesiMP.C81_gcd_lcm",
    "AesiMP.C81_sqrt_square",
    "AesiMP.C81_shl_shr",
    "AesiMP.C81_shr_bit"
   ],
   "note": ""
  },
  {
   "property": "C82",
   "status": "proved",
   "theorems": [
    "AesiMP.C82_diffie_hellman",
    "AesiMP.C82_rsa",
    "AesiMP.C82_fermat",
    "AesiMP.C82_inverse_prime"
   ],
   "note": ""
  },
  {
   "property": "C83",
   "status": "proved",
   "theorems": [
    "AesiMP.C83_add_comm",
    "AesiMP.C83_mul_comm",
    "AesiMP.C83_sub_eq",
    "AesiMP.C83_neg_neg",
    "AesiMP.C83_sub_self",
    "AesiMP.C83_sub_anticomm",
    "AesiMP.C83_add_assoc",
    "AesiMP.C83_mul_assoc",
    "AesiMP.C83_distrib",
    "AesiMP.C83_add_order",
    "AesiMP.C83_div_mod",
    "AesiMP.C83_assoc_overflow"
   ],
   "note": ""
  },
  {
   "property": "C84",
   "status": "proved",
   "theorems": [
    "AesiMP.C84_add",
    "AesiMP.C84_mul",
    "AesiMP.C84_sub",
    "AesiMP.C84_neg",
    "AesiMP.C84_shl",
    "AesiMP.C84_and",
    "AesiMP.C84_or",
    "AesiMP.C84_xor",
    "AesiMP.C84_div",
    "AesiMP.C84_mod",
    "AesiMP.C84_gcd",
    "AesiMP.C84_squareRoot",
    "AesiMP.C84_shr",
    "AesiMP.C84_compare",
    "AesiMP.C84_cast_cast",
    "AesiMP.C84_conditions"
   ],
   "note": ""
  },
  {
   "property": "C85",
   "status": "partial",
   "theorems": [
    "AesiMP.C85_iff",
    "AesiMP.C85_unsigned",
    "AesiMP.C85_interchangeable_partial",
    "AesiMP.C85_counterexample"
   ],
   "note": "False for the members that read the digits: 5 - 5 == 0 but isOdd, getBit, bitCount, byteCount and unsignedCast of the first answer for 5 (C85_counterexample). Proved for every program that does not call these on signed objects; C85_unsigned proves it for Aeu outright. C85_iff says exactly which equal objects the digit members tell apart."
  },
  {
   "property": "C86",
   "status": "proved",
   "theorems": [
    "AesiMP.C86_call",
    "AesiMP.C86_program",
    "AesiMP.C86_checked_build"
   ],
   "note": ""
  },
  {
   "property": "C87",
   "status": "partial",
   "theorems": [
    "AesiMP.C87_divide",
    "AesiMP.C87_gcd",
    "AesiMP.C87_read",
    "AesiMP.C87_divide_signed_partial",
    "AesiMP.C87_counterexample",
    "AesiMP.C87_stale_exact"
   ],
   "note": "True for Aeu::divide (all sharing patterns), gcd and readBinary. Signed divide with a zero operand keeps the digits the outputs held behind the zero sign (C87_counterexample): the results compare equal but isOdd, getBit, unsignedCast answer by the old contents; C87_stale_exact says exactly which digits remain."
  },
  {
   "property": "C88",
   "status": "partial",
   "theorems": [
    "AesiMP.C88_constructor",
    "AesiMP.C88_complement",
    "AesiMP.C88_divide",
    "AesiMP.C88_quotient_remainder",
    "AesiMP.C88_gcd",
    "AesiMP.C88_gcd_extended",
    "AesiMP.C88_square_root",
    "AesiMP.C88_divide_signed_partial",
    "AesiMP.C88_signed_zero_exact",
    "AesiMP.C88_declared",
    "AesiMP.C88_written",
    "AesiMP.C88_counterexample",
    "AesiMP.C88_text",
    "AesiMP.C88_text_signed",
    "AesiMP.C88_text_fresh",
    "AesiMP.C88_text_fresh_negative",
    "AesiMP.C88_text_fresh_zero",
    "AesiMP.C88_text_read"
   ],
   "note": "True for everything in Aeu. Aesi::divide with a zero operand writes only the signs of its outputs: after Aesi q, r; divide(0, 5, q, r) copying q or q.isOdd() reads indeterminate memory (C88_counterexample, C88_signed_zero_exact); with two nonzero operands it is proved (C88_divide_signed_partial)."
  },
  {
   "property": "C89",
   "status": "proved",
   "theorems": [
    "AesiMP.C89_divisor",
    "AesiMP.C89_method",
    "AesiMP.C89_finds",
    "AesiMP.C89_shipped_first",
    "AesiMP.C89_shipped_second"
   ],
   "note": ""
  },
  {
   "property": "C90",
   "status": "proved",
   "theorems": [
    "AesiMP.C90_extendedGcd",
    "AesiMP.C90_checkBezout",
    "AesiMP.C90_checkRoot",
    "AesiMP.C90_checkDivide",
    "AesiMP.C90_checkIncDec",
    "AesiMP.C90_checkSignedOps",
    "AesiMP.C90_program"
   ],
   "note": ""
  },
  {
   "property": "C91",
   "status": "proved",
   "theorems": [
    "AesiMP.C91_unsigned_kernel",
    "AesiMP.C91_unsigned_kernel_alias",
    "AesiMP.C91_factorial",
    "AesiMP.C91_factorial_50",
    "AesiMP.C91_signed_kernel",
    "AesiMP.C91_signed_kernel_alias"
   ],
   "note": ""
  },
  {
   "property": "C92",
   "status": "proved",
   "theorems": [
    "AesiMP.C92_addition",
    "AesiMP.C92_subtraction_exact",
    "AesiMP.C92_multiplication",
    "AesiMP.C92_division",
    "AesiMP.C92_modulo",
    "AesiMP.C92_increment",
    "AesiMP.C92_decrement_exact",
    "AesiMP.C92_flaky"
   ],
   "note": ""
  },
  {
   "property": "C93",
   "status": "proved",
   "theorems": [
    "AesiMP.C93_addition",
    "AesiMP.C93_subtraction",
    "AesiMP.C93_multiplication",
    "AesiMP.C93_division",
    "AesiMP.C93_modulo_exact",
    "AesiMP.C93_increment",
    "AesiMP.C93_decrement",
    "AesiMP.C93_flaky"
   ],
   "note": ""
  },
  {
   "property": "C94",
   "status": "proved",
   "theorems": [
    "AesiMP.C94_bitwise",
    "AesiMP.C94_shifts",
    "AesiMP.C94_bitCount_exact",
    "AesiMP.C94_bits_unsigned",
    "AesiMP.C94_bits_signed_exact",
    "AesiMP.C94_blocks_exact",
    "AesiMP.C94_flaky"
   ],
   "note": ""
  },
  {
   "property": "C95",
   "status": "proved",
   "theorems": [
    "AesiMP.C95_comparisons",
    "AesiMP.C95_parity",
    "AesiMP.C95_squareRoot",
    "AesiMP.C95_cast_unsigned",
    "AesiMP.C95_cast_signed_exact",
    "AesiMP.C95_powm_exact",
    "AesiMP.C95_powm_different_exact",
    "AesiMP.C95_lcm_gcd",
    "AesiMP.C95_flaky"
   ],
   "note": ""
  },
  {
   "property": "C96",
   "status": "proved",
   "theorems": [
    "AesiMP.C96_init_unsigned",
    "AesiMP.C96_init_signed",
    "AesiMP.C96_not_exact",
    "AesiMP.C96_power2",
    "AesiMP.C96_casts",
    "AesiMP.C96_binary",
    "AesiMP.C96_different_precisions",
    "AesiMP.C96_flaky"
   ],
   "note": ""
  },
  {
   "property": "C97",
   "status": "proved",
   "theorems": [
    "AesiMP.C97_stream_unsigned",
    "AesiMP.C97_stream_signed_exact",
    "AesiMP.C97_buffer_unsigned_exact",
    "AesiMP.C97_buffer_signed_exact",
    "AesiMP.C97_format_unsigned",
    "AesiMP.C97_format_signed",
    "AesiMP.C97_flaky"
   ],
   "note": ""
  },
  {
   "property": "C98",
   "status": "proved",
   "theorems": [
    "AesiMP.C98_write",
    "AesiMP.C98_read",
    "AesiMP.C98_round_trip"
   ],
   "note": ""
  },
  {
   "property": "C99",
   "status": "proved",
   "theorems": [
    "AesiMP.C99_square",
    "AesiMP.C99_trial_division",
    "AesiMP.C99_miller_rabin",
    "AesiMP.C99_miller_rabin_prime",
    "AesiMP.C99_chinese_remainder"
   ],
   "note": ""
  },
  {
   "property": "C100",
   "status": "proved",
   "theorems": [
    "AesiMP.C100_neg",
    "AesiMP.C100_mul_narrow",
    "AesiMP.C100_ring_narrow",
    "AesiMP.C100_ring_widen",
    "AesiMP.C100_div_mod_widen",
    "AesiMP.C100_compare_widen",
    "AesiMP.C100_squareRoot_widen",
    "AesiMP.C100_cast_cast",
    "AesiMP.C100_conditions"
   ],
   "note": ""
  },
  {
   "property": "C101",
   "status": "proved",
   "theorems": [
    "AesiMP.C101_prefix",
    "AesiMP.C101_bad_stays",
    "AesiMP.C101_number",
    "AesiMP.C101_signed_number",
    "AesiMP.C101_torn_decimal"
   ],
   "note": ""
  },
  {
   "property": "C102",
   "status": "partial",
   "theorems": [
    "AesiMP.C102_decimal_octal_partial",
    "AesiMP.C102_classic",
    "AesiMP.C102_hex_exact",
    "AesiMP.C102_hex_iff",
    "AesiMP.C102_counterexample",
    "AesiMP.C102_grouping",
    "AesiMP.C102_grouping_digits"
   ],
   "note": "False in hexadecimal notation (C102_counterexample); C102_hex_exact gives the text printed, C102_hex_iff exactly the numbers printed right. Proved for decimal and octal notation in every state of the stream."
  },
  {
   "property": "C103",
   "status": "partial",
   "theorems": [
    "AesiMP.C103_low_half",
    "AesiMP.C103_unsigned_exact",
    "AesiMP.C103_construct_iff",
    "AesiMP.C103_unsigned_partial",
    "AesiMP.C103_counterexample",
    "AesiMP.C103_shifts",
    "AesiMP.C103_cast_exact",
    "AesiMP.C103_signed_exact",
    "AesiMP.C103_signed_partial",
    "AesiMP.C103_signed_counterexample",
    "AesiMP.C103_signed_low_half",
    "AesiMP.C103_signed_compare_exact"
   ],
   "note": "False of the code (C103_counterexample, C103_signed_counterexample). Proved: every operation behaves as with the low 64 bits (C103_low_half, C103_signed_low_half, C103_signed_exact, C103_signed_compare_exact, C103_cast_exact), is right for operands below 2^64 (..._partial), and shifts are right for all counts."
  },
  {
   "property": "C104",
   "status": "partial",
   "theorems": [
    "AesiMP.C104_never_torn",
    "AesiMP.C104_read_only",
    "AesiMP.C104_wait_free",
    "AesiMP.C104_undisturbed",
    "AesiMP.C104_in_progress",
    "AesiMP.C104_publish",
    "AesiMP.C104_copy",
    "AesiMP.C104_conserved_partial",
    "AesiMP.C104_counterexample",
    "AesiMP.C104_full_fails",
    "AesiMP.C104_counterexample_copy",
    "AesiMP.C104_conserved_iff"
   ],
   "note": "'Exchanges lose nothing' is false of the code for a shared argument (C104_counterexample, C104_full_fails); C104_conserved_partial proves it when each argument belongs to one thread (or is only ever exchanged with itself), and C104_conserved_iff that nothing less will do. The other parts are proved in full; C104_counterexample_copy shows why a copy can only be promised block by block."
  },
  {
   "property": "C105",
   "status": "partial",
   "theorems": [
    "AesiMP.C105_text",
    "AesiMP.C105_read",
    "AesiMP.C105_write_exact",
    "AesiMP.C105_write_partial",
    "AesiMP.C105_counterexample",
    "AesiMP.C105_full_fails"
   ],
   "note": "'No failure of the stream ends the program' is false of writeBinary, which is noexcept (C105_counterexample, C105_full_fails); C105_write_exact says exactly when, C105_write_partial when not. Text output and readBinary are proved in full."
  },
  {
   "property": "C106",
   "status": "proved",
   "theorems": [
    "AesiMP.C106_isolated",
    "AesiMP.C106_errors",
    "AesiMP.C106_any_order",
    "AesiMP.C106_constants",
    "AesiMP.C106_uses",
    "AesiMP.C106_no_race"
   ],
   "note": ""
  },
  {
   "property": "C107",
   "status": "partial",
   "theorems": [
    "AesiMP.C107_construct_exact",
    "AesiMP.C107_left_exact",
    "AesiMP.C107_right_exact",
    "AesiMP.C107_operand_partial",
    "AesiMP.C107_negative_wrong",
    "AesiMP.C107_counterexample",
    "AesiMP.C107_full_fails",
    "AesiMP.C107_signed_operand"
   ],
   "note": "False for negative operands: the sign is dropped (C107_counterexample, C107_full_fails, C107_negative_wrong). C107_left_exact, C107_right_exact and C107_construct_exact give the result for every operand; C107_operand_partial is the claim for operands that are not negative."
  },
  {
   "property": "C108",
   "status": "proved",
   "theorems": [
    "AesiMP.C108_never_torn",
    "AesiMP.C108_signs",
    "AesiMP.C108_arguments",
    "AesiMP.C108_completed",
    "AesiMP.C108_same_value",
    "AesiMP.C108_conserved",
    "AesiMP.C108_exchange_alone",
    "AesiMP.C108_generalises",
    "AesiMP.C108_wait_free",
    "AesiMP.C108_crossed_example"
   ],
   "note": ""
  },
  {
   "property": "C109",
   "status": "partial",
   "theorems": [
    "AesiMP.C109_construct",
    "AesiMP.C109_construct_signed",
    "AesiMP.C109_assign_refused",
    "AesiMP.C109_assign",
    "AesiMP.C109_assign_signed",
    "AesiMP.C109_compare_exact",
    "AesiMP.C109_compare_signed_exact",
    "AesiMP.C109_left_exact",
    "AesiMP.C109_counterexample",
    "AesiMP.C109_full_fails",
    "AesiMP.C109_reported_partial",
    "AesiMP.C109_overallocation"
   ],
   "note": "The property fails: `a == z` and `i op a` convert inside operators declared noexcept, so refused memory ends the program (C109_counterexample for every comparison, C109_full_fails; C109_compare_exact, C109_compare_signed_exact and C109_left_exact say exactly when). Proved: constructors and compound assignments of both classes report by bad_alloc and leave the object unchanged, never end the program, and give the usual result when memory is granted; the size of the request is exact (C109_overallocation: 8 bytes per bit)."
  },
  {
   "property": "C110",
   "status": "partial",
   "theorems": [
    "AesiMP.C110_never_torn",
    "AesiMP.C110_read_only",
    "AesiMP.C110_wait_free",
    "AesiMP.C110_conserved_partial",
    "AesiMP.C110_undisturbed",
    "AesiMP.C110_copy",
    "AesiMP.C110_generalises",
    "AesiMP.C110_conserved_iff",
    "AesiMP.C110_full_fails",
    "AesiMP.C110_counterexample_publish"
   ],
   "note": "'Exchanges lose nothing' is false of the code for a shared argument (C110_full_fails); C110_conserved_partial proves it when each argument belongs to one thread (or is only ever exchanged with itself), C110_conserved_iff that nothing less will do. The other parts are proved in full; C110_generalises shows that every sequentially consistent schedule is one of the orders."
  },
  {
   "property": "C111",
   "status": "partial",
   "theorems": [
    "AesiMP.C111_sort",
    "AesiMP.C111_any_sort",
    "AesiMP.C111_lower_bound",
    "AesiMP.C111_find",
    "AesiMP.C111_sort_then_find",
    "AesiMP.C111_find_builtin",
    "AesiMP.C111_find_across_partial",
    "AesiMP.C111_across_counterexample",
    "AesiMP.C111_circle",
    "AesiMP.C111_sort_signed",
    "AesiMP.C111_any_sort_signed",
    "AesiMP.C111_find_signed_partial",
    "AesiMP.C111_signed_counterexample",
    "AesiMP.C111_find_signed_exact",
    "AesiMP.C111_find_u64_partial",
    "AesiMP.C111_find_signed_builtin_partial",
    "AesiMP.C111_set",
    "AesiMP.C111_set_signed_exact",
    "AesiMP.C111_set_signed_partial",
    "AesiMP.C111_set_counterexample"
   ],
   "note": "Keys of another precision: false of the code (C111_circle, C111_across_counterexample), proved when all values fit the shorter precision. Signed zeros with a nonzero sign field: false (C111_signed_counterexample), proved for canonical numbers. Sorting is proved in full for both classes, searching in full for unsigned keys of the same type and built-in keys of up to 32 bits (64-bit keys: n = 1 reads out of bounds, C17_one_block_exact, proved for n >= 2). For all signed numbers C111_find_signed_exact and C111_set_signed_exact say what is found and held. std::sort's algorithm is unspecified; it is represented by insertion sort, C111_any_sort shows that every result meeting the contract of std::sort is the same sequence."
  },
  {
   "property": "C112",
   "status": "partial",
   "theorems": [
    "AesiMP.C112_transfer",
    "AesiMP.C112_same_order_partial",
    "AesiMP.C112_other_order_iff",
    "AesiMP.C112_one_lost",
    "AesiMP.C112_counterexample",
    "AesiMP.C112_reversed",
    "AesiMP.C112_there_and_back",
    "AesiMP.C112_portable"
   ],
   "note": "Between machines of different byte order false of the code (C112_counterexample, C112_one_lost for every precision); C112_other_order_iff says which numbers arrive, C112_transfer what arrives in every case; C112_same_order_partial is the part that holds. The other parts are proved in full."
  },
  {
   "property": "C113",
   "status": "partial",
   "theorems": [
    "AesiMP.C113_count",
    "AesiMP.C113_cstring_partial",
    "AesiMP.C113_cstring_counterexample",
    "AesiMP.C113_fresh_partial",
    "AesiMP.C113_array_exact",
    "AesiMP.C113_zero_exact",
    "AesiMP.C113_array_counterexample",
    "AesiMP.C113_signed_count",
    "AesiMP.C113_signed_cstring_partial",
    "AesiMP.C113_signed_fresh_partial",
    "AesiMP.C113_signed_array_exact",
    "AesiMP.C113_signed_array_counterexample"
   ],
   "note": "With the returned count proved in full (C113_count, C113_signed_count). From the C string it is false for zero in a used array (C113_cstring_counterexample) and proved for all other numbers; from the whole array it is false when the array was used (C113_array_counterexample, C113_signed_array_counterexample; C113_array_exact, C113_zero_exact and C113_signed_array_exact give the number read) and proved for arrays of zeros."
  },
  {
   "property": "C114",
   "status": "partial",
   "theorems": [
    "AesiMP.C114_literal",
    "AesiMP.C114_binary",
    "AesiMP.C114_addition",
    "AesiMP.C114_subtraction",
    "AesiMP.C114_division",
    "AesiMP.C114_modulo",
    "AesiMP.C114_gcd",
    "AesiMP.C114_multiplication_partial",
    "AesiMP.C114_multiplication_counterexample",
    "AesiMP.C114_powm_partial",
    "AesiMP.C114_powm_counterexample"
   ],
   "note": "Proved in full for addition, subtraction, division, modulo and gcd. False for multiplication and powm (C114_multiplication_counterexample, C114_powm_counterexample, for every number of rounds); C114_multiplication_partial and C114_powm_partial say which number they compute instead."
  },
  {
   "property": "C115",
   "status": "partial",
   "theorems": [
    "AesiMP.C115_call",
    "AesiMP.C115_program_partial",
    "AesiMP.C115_value",
    "AesiMP.C115_text_never",
    "AesiMP.C115_hex_never",
    "AesiMP.C115_counterexample"
   ],
   "note": "False for texts: C115_text_never (construction from any non-empty text), C115_hex_never, C115_counterexample. C115_program_partial says exactly which programs are constant expressions; C115_value that their value is the run-time value; C115_call does it call by call."
  },
  {
   "property": "C116",
   "status": "proved",
   "theorems": [
    "AesiMP.C116_fixed",
    "AesiMP.C116_shift",
    "AesiMP.C116_linear",
    "AesiMP.C116_quadratic",
    "AesiMP.C116_gcd",
    "AesiMP.C116_powm",
    "AesiMP.C116_squareRoot",
    "AesiMP.C116_varies",
    "AesiMP.C116_parse",
    "AesiMP.C116_print",
    "AesiMP.C116_signed_linear",
    "AesiMP.C116_signed",
    "AesiMP.C116_bits"
   ],
   "note": ""
  },
  {
   "property": "C117",
   "status": "proved",
   "theorems": [
    "AesiMP.C117_same",
    "AesiMP.C117_product",
    "AesiMP.C117_comparison",
    "AesiMP.C117_division",
    "AesiMP.C117_quotient",
    "AesiMP.C117_varies",
    "AesiMP.C117_gcd",
    "AesiMP.C117_gcd_extended",
    "AesiMP.C117_gcd_secret",
    "AesiMP.C117_parse",
    "AesiMP.C117_exponent",
    "AesiMP.C117_exponent_wide",
    "AesiMP.C117_exponent_hidden",
    "AesiMP.C117_text",
    "AesiMP.C117_stream",
    "AesiMP.C117_hex",
    "AesiMP.C117_signed_quotient",
    "AesiMP.C117_signed_stream",
    "AesiMP.C117_signed_sum"
   ],
   "note": ""
  }
 ]
}