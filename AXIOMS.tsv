AesiMP.C01_add	Classical.choice Quot.sound propext
AesiMP.C02_sub	Classical.choice Quot.sound propext
AesiMP.C02_neg	Classical.choice Quot.sound propext
AesiMP.C03_mul	Classical.choice Quot.sound propext
AesiMP.C04_mul_uint64	Classical.choice Quot.sound propext
AesiMP.C04_mul_narrow	Classical.choice Quot.sound propext
AesiMP.C04_mul_ull_partial	Classical.choice Quot.sound propext
AesiMP.C04_ull_counterexample	Classical.choice Quot.sound propext
AesiMP.C04_mul_ull_small	Classical.choice Quot.sound propext
AesiMP.C04_ull_sharp	Classical.choice Quot.sound propext
AesiMP.C04_ull_iff	Classical.choice Quot.sound propext
AesiMP.C04_const_object	Classical.choice Quot.sound propext
AesiMP.C05_add_builtin_partial	Classical.choice Quot.sound propext
AesiMP.C05_add_builtin_narrow	Classical.choice Quot.sound propext
AesiMP.C05_counterexample	Quot.sound propext
AesiMP.C05_add_builtin_exact	Classical.choice Quot.sound propext
AesiMP.C05_add_builtin_small	Classical.choice Quot.sound propext
AesiMP.C05_add_builtin_iff	Classical.choice Quot.sound propext
AesiMP.C06_divide	Classical.choice Quot.sound propext
AesiMP.C06_div	Classical.choice Quot.sound propext
AesiMP.C06_mod	Classical.choice Quot.sound propext
AesiMP.C06_divide_pair	Classical.choice Quot.sound propext
AesiMP.C07_divide_by_zero	Classical.choice Quot.sound propext
AesiMP.C07_divide_zero_by_zero	Classical.choice Quot.sound propext
AesiMP.C08_inc	Classical.choice Quot.sound propext
AesiMP.C08_dec	Classical.choice Quot.sound propext
AesiMP.C08_postInc	Classical.choice Quot.sound propext
AesiMP.C08_postDec	Classical.choice Quot.sound propext
AesiMP.C09_not	Classical.choice Quot.sound propext
AesiMP.C09_not_value	Classical.choice Quot.sound propext
AesiMP.C09_and	Classical.choice Quot.sound propext
AesiMP.C09_or	Classical.choice Quot.sound propext
AesiMP.C09_xor	Classical.choice Quot.sound propext
AesiMP.C09_bits	Classical.choice Quot.sound propext
AesiMP.C10_shl	Classical.choice Quot.sound propext
AesiMP.C10_shl_noop	Quot.sound propext
AesiMP.C11_shr	Classical.choice Quot.sound propext
AesiMP.C11_shr_noop	Quot.sound propext
AesiMP.C12_getBit	Classical.choice Quot.sound propext
AesiMP.C12_setBit	Classical.choice Quot.sound propext
AesiMP.C12_out_of_range	Quot.sound propext
AesiMP.C12_unsafe_out_of_range	Classical.choice Quot.sound propext
AesiMP.C13_getByte	Classical.choice Quot.sound propext
AesiMP.C13_setByte	Classical.choice Quot.sound propext
AesiMP.C13_out_of_range_partial	Quot.sound propext
AesiMP.C13_boundary_counterexample	Classical.choice Quot.sound propext
AesiMP.C13_exact	Classical.choice Quot.sound propext
AesiMP.C14_getBlock	Classical.choice Quot.sound propext
AesiMP.C14_setBlock	Quot.sound propext
AesiMP.C14_out_of_range	propext
AesiMP.C14_unsafe_out_of_range	Quot.sound propext
AesiMP.C15_bitCount	Classical.choice Quot.sound propext
AesiMP.C15_byteCount	Classical.choice Quot.sound propext
AesiMP.C15_filledBlocksNumber	Classical.choice Quot.sound propext
AesiMP.C15_zero_parity	Classical.choice Quot.sound propext
AesiMP.C15_constants	Classical.choice Quot.sound propext
AesiMP.C16_compare	Classical.choice Quot.sound propext
AesiMP.C16_compareTo	Classical.choice Quot.sound propext
AesiMP.C16_oldstyle	Classical.choice Quot.sound propext
AesiMP.C17_compare_narrow	Classical.choice Quot.sound propext
AesiMP.C17_compare_u64_partial	Classical.choice Quot.sound propext
AesiMP.C17_one_block_counterexample	Classical.choice Quot.sound propext
AesiMP.C17_one_block_exact	Classical.choice Quot.sound propext
AesiMP.C17_oldstyle	Classical.choice Quot.sound propext
AesiMP.C18_eq_across	Classical.choice Quot.sound propext
AesiMP.C19_order_across_partial	Classical.choice Quot.sound propext
AesiMP.C19_order_across_exact	Classical.choice Quot.sound propext
AesiMP.C19_counterexample	Classical.choice Quot.sound propext
AesiMP.C20_precisionCast	Classical.choice Quot.sound propext
AesiMP.C20_widen_narrow	Classical.choice Quot.sound propext
AesiMP.C21_integralCast_partial	Classical.choice Quot.sound propext
AesiMP.C21_unsigned_partial	Classical.choice Quot.sound propext
AesiMP.C21_signed_partial	Classical.choice Quot.sound propext
AesiMP.C21_converted_partial	Classical.choice Quot.sound propext
AesiMP.C21_bool_partial	Classical.choice Quot.sound propext
AesiMP.C21_one_block_counterexample	Quot.sound propext
AesiMP.C22_construct	Classical.choice Quot.sound propext
AesiMP.C22_construct_exact	Classical.choice Quot.sound propext
AesiMP.C23_narrow_exact	Classical.choice Quot.sound propext
AesiMP.C23_wide	Classical.choice Quot.sound propext
AesiMP.C23_narrow_partial	Classical.choice Quot.sound propext
AesiMP.C23_negative_char_counterexample	Quot.sound propext
AesiMP.C23_decimal	Classical.choice Quot.sound propext
AesiMP.C23_prefixed	Classical.choice Quot.sound propext
AesiMP.C24_get_string_partial	Classical.choice Quot.sound propext
AesiMP.C24_get_string_zero	Classical.choice Quot.sound propext
AesiMP.C24_round_trip_partial	Classical.choice Quot.sound propext
AesiMP.C24_one_block_counterexample	Classical.choice Quot.sound propext
AesiMP.C24_one_block	Classical.choice Quot.sound propext
AesiMP.C24_other_bases	Classical.choice Quot.sound propext
AesiMP.C25_in_bounds_partial	Classical.choice Quot.sound propext
AesiMP.C25_overrun	Classical.choice Quot.sound propext
AesiMP.C25_counterexample	Classical.choice Quot.sound propext
AesiMP.C25_overrun_digits	Classical.choice Quot.sound propext
AesiMP.C25_wide_hex_in_bounds	Classical.choice Quot.sound propext
AesiMP.C25_wide_hex_short_counterexample	Classical.choice Quot.sound propext
AesiMP.C25_wide_hex_short	Classical.choice Quot.sound propext
AesiMP.C26_gcd	Classical.choice Quot.sound propext
AesiMP.C26_gcd_value	Classical.choice Quot.sound propext
AesiMP.C27_bezout_exact	Classical.choice Quot.sound propext
AesiMP.C27_bezout	Classical.choice Quot.sound propext
AesiMP.C28_lcm	Classical.choice Quot.sound propext
AesiMP.C28_lcm_mod	Classical.choice Quot.sound propext
AesiMP.C29_powm_partial	Classical.choice Quot.sound propext
AesiMP.C29_counterexample	Classical.choice Quot.sound propext
AesiMP.C29_caveat	Quot.sound propext
AesiMP.C29_wide_modulus_wrong	Classical.choice Quot.sound propext
AesiMP.C29_safe_moduli	Classical.choice Quot.sound propext
AesiMP.C30_powm_exact	Classical.choice Quot.sound propext
AesiMP.C30_powm_partial	Classical.choice Quot.sound propext
AesiMP.C30_counterexample_base_zero	Classical.choice Quot.sound propext
AesiMP.C30_counterexample_modulo_one	Classical.choice Quot.sound propext
AesiMP.C30_wide_modulus_wrong	Classical.choice Quot.sound propext
AesiMP.C30_safe_moduli	Classical.choice Quot.sound propext
AesiMP.C31_unsafe_out_of_range	Classical.choice Quot.sound propext
AesiMP.C31_power2	Classical.choice Quot.sound propext
AesiMP.C31_power2_out_of_range	Quot.sound propext
AesiMP.C32_squareRoot	Classical.choice Quot.sound propext
AesiMP.C33_read	Classical.choice Quot.sound propext
AesiMP.C33_read_failed	Quot.sound propext
AesiMP.C33_write_prefix	Classical.choice Quot.sound propext
AesiMP.C33_write_failed	Quot.sound propext
AesiMP.C33_round_trip	Classical.choice Quot.sound propext
AesiMP.C34_little_endian	Classical.choice Quot.sound propext
AesiMP.C34_big_endian_partial	Classical.choice Quot.sound propext
AesiMP.C34_counterexample	propext
AesiMP.C34_exact	Classical.choice Quot.sound propext
AesiMP.C34_big_endian_iff	Classical.choice Quot.sound propext
AesiMP.C35_buffer_size	Classical.choice Quot.sound propext
AesiMP.C35_buffer_size_cases	Classical.choice Quot.sound propext
AesiMP.C35_width_exact	Classical.choice Quot.sound propext
AesiMP.C35_right_adjusted	Classical.choice Quot.sound propext
AesiMP.C35_width_iff	Classical.choice Quot.sound propext
AesiMP.C35_one_block	Classical.choice Quot.sound propext
AesiMP.C35_stream_partial	Classical.choice Quot.sound propext
AesiMP.C35_octal64	Classical.choice Quot.sound propext
AesiMP.C35_octal_counterexample	Classical.choice Quot.sound propext
AesiMP.C35_one_block_counterexample	Classical.choice Quot.sound propext
AesiMP.C35_width_counterexample	Classical.choice Quot.sound propext
AesiMP.C36_add	Classical.choice Quot.sound propext
AesiMP.C36_sub	Classical.choice Quot.sound propext
AesiMP.C37_mul	Classical.choice Quot.sound propext
AesiMP.Aesi.C38_exact	Classical.choice Quot.sound propext
AesiMP.Aesi.C38_counterexample	Quot.sound propext
AesiMP.C38_div	Classical.choice Quot.sound propext
AesiMP.C38_div_truncates	Classical.choice Quot.sound propext
AesiMP.C38_div_zero_partial	Classical.choice Quot.sound propext
AesiMP.C38_div_total	Classical.choice Quot.sound propext
AesiMP.C39_identity_partial	Classical.choice Quot.sound propext
AesiMP.C39_mod_exact	Classical.choice Quot.sound propext
AesiMP.C39_counterexample	Quot.sound propext
AesiMP.C39_mod_zero	Classical.choice Quot.sound propext
AesiMP.C39_mod_every	Classical.choice Quot.sound propext
AesiMP.Aesi.C40_exact	Classical.choice Quot.sound propext
AesiMP.Aesi.C40_counterexample	Quot.sound propext
AesiMP.C40_divide	Classical.choice Quot.sound propext
AesiMP.C40_divide_zero_partial	Classical.choice Quot.sound propext
AesiMP.C40_divide_every	Classical.choice Quot.sound propext
AesiMP.C41_compare_exact	Classical.choice Quot.sound propext
AesiMP.C41_eq_iff	Classical.choice Quot.sound propext
AesiMP.C41_operators_partial	Classical.choice Quot.sound propext
AesiMP.C41_total_order	Classical.choice Quot.sound propext
AesiMP.C41_compare_partial	Classical.choice Quot.sound propext
AesiMP.C41_counterexample	propext
AesiMP.C42_compare_exact	Classical.choice Quot.sound propext
AesiMP.C42_operators_partial	Classical.choice Quot.sound propext
AesiMP.C42_compare_builtin_partial	Classical.choice Quot.sound propext
AesiMP.C42_compare_zero	Classical.choice Quot.sound propext
AesiMP.C42_min_counterexample	Quot.sound propext
AesiMP.C42_one_block_counterexample	Quot.sound propext
AesiMP.C43_sign_exact	Classical.choice Quot.sound propext
AesiMP.C43_iff	Classical.choice Quot.sound propext
AesiMP.C43_mod_builtin_exact	Classical.choice Quot.sound propext
AesiMP.C43_is_zero_partial	Classical.choice Quot.sound propext
AesiMP.C43_constructors	Classical.choice Quot.sound propext
AesiMP.C43_mod_counterexample	Quot.sound propext
AesiMP.C43_from_unsigned_counterexample	propext
AesiMP.C44_zero_result_exact	Classical.choice Quot.sound propext
AesiMP.C44_iff	Classical.choice Quot.sound propext
AesiMP.C44_digits_nonzero	Classical.choice Quot.sound propext
AesiMP.C44_clean_partial	Classical.choice Quot.sound propext
AesiMP.C44_stale	Classical.choice Quot.sound propext
AesiMP.C44_counterexample	Quot.sound propext
AesiMP.Aesi.C45_exact	Classical.choice Quot.sound propext
AesiMP.Aesi.C45_counterexample	propext
AesiMP.C45_inc_dec_partial	Classical.choice Quot.sound propext
AesiMP.C45_postfix_partial	Classical.choice Quot.sound propext
AesiMP.C46_narrow_exact	Classical.choice Quot.sound propext
AesiMP.C46_wide	Classical.choice Quot.sound propext
AesiMP.C46_narrow_partial	Classical.choice Quot.sound propext
AesiMP.C46_decimal	Classical.choice Quot.sound propext
AesiMP.C47_construct_partial	Classical.choice Quot.sound propext
AesiMP.C47_min_counterexample	Quot.sound propext
AesiMP.C47_construct_exact	Classical.choice Quot.sound propext
AesiMP.C48_one_block	Quot.sound propext
AesiMP.C48_cast_partial	Classical.choice Quot.sound propext
AesiMP.C48_counterexample	Quot.sound propext
AesiMP.C48_cast_exact	Classical.choice Quot.sound propext
AesiMP.C48_cast_converted	Classical.choice Quot.sound propext
AesiMP.C49_mul_partial	Classical.choice Quot.sound propext
AesiMP.C49_div_partial	Classical.choice Quot.sound propext
AesiMP.C49_mod_partial	Classical.choice Quot.sound propext
AesiMP.C49_agrees_partial	Classical.choice Quot.sound propext
AesiMP.C49_add_partial	Classical.choice Quot.sound propext
AesiMP.C49_sub_partial	Classical.choice Quot.sound propext
AesiMP.C49_left_partial	Classical.choice Quot.sound propext
AesiMP.C49_min_counterexample	Quot.sound propext
AesiMP.C49_factor_counterexample	Quot.sound propext
AesiMP.C49_wide_min	Classical.choice Quot.sound propext
AesiMP.C49_mod_exact	Classical.choice Quot.sound propext
AesiMP.C49_div_exact	Classical.choice Quot.sound propext
AesiMP.C49_div_total	Classical.choice Quot.sound propext
AesiMP.C49_mul_exact	Classical.choice Quot.sound propext
AesiMP.C49_mul_total	Classical.choice Quot.sound propext
AesiMP.C50_precision_cast	Classical.choice Quot.sound propext
AesiMP.C50_across_partial	Classical.choice Quot.sound propext
AesiMP.C50_counterexample	propext
AesiMP.C50_across_exact	Classical.choice Quot.sound propext
AesiMP.C51_too_short	Classical.choice Quot.sound propext
AesiMP.C51_overrun	Classical.choice Quot.sound propext
AesiMP.C51_positive_partial	Classical.choice Quot.sound propext
AesiMP.C51_negative	Classical.choice Quot.sound propext
AesiMP.C51_zero	Classical.choice Quot.sound propext
AesiMP.C51_zero_short	Classical.choice Quot.sound propext
AesiMP.C51_counterexample	Classical.choice Quot.sound propext
AesiMP.C51_hidden_zero	Classical.choice Quot.sound propext
AesiMP.C52_swap_any	propext
AesiMP.C52_swap_plus_minus	propext
AesiMP.C52_swap_unsigned	
AesiMP.C52_plus_unsigned	
AesiMP.C53_add	Classical.choice Quot.sound propext
AesiMP.C53_sub	Classical.choice Quot.sound propext
AesiMP.C53_mul	Classical.choice Quot.sound propext
AesiMP.C53_div	Classical.choice Quot.sound propext
AesiMP.C53_mod	Classical.choice Quot.sound propext
AesiMP.C53_and	Classical.choice Quot.sound propext
AesiMP.C53_or	Classical.choice Quot.sound propext
AesiMP.C53_xor	Classical.choice Quot.sound propext
AesiMP.C53_self_is_copy	Quot.sound propext
AesiMP.C53_signed_add	Classical.choice Quot.sound propext
AesiMP.C53_signed_sub	Classical.choice Quot.sound propext
AesiMP.C53_signed_mul	Classical.choice Quot.sound propext
AesiMP.C53_signed_div	Classical.choice Quot.sound propext
AesiMP.C53_signed_mod	Classical.choice Quot.sound propext
AesiMP.C53_signed_self_is_copy	Quot.sound propext
AesiMP.C54_divide_partial	Classical.choice Quot.sound propext
AesiMP.C54_equal	Classical.choice Quot.sound propext
AesiMP.C54_smaller	Classical.choice Quot.sound propext
AesiMP.C54_number_shared	Classical.choice Quot.sound propext
AesiMP.C54_divisor_is_remainder	Classical.choice Quot.sound propext
AesiMP.C54_divisor_is_quotient	Classical.choice Quot.sound propext
AesiMP.C54_signed_partial	Classical.choice Quot.sound propext
AesiMP.C54_counterexample	Quot.sound propext
AesiMP.C54_any_sharing	Classical.choice Quot.sound propext
AesiMP.C54_signed_reduces	Classical.choice Quot.sound propext
AesiMP.C54_signed_equal	Classical.choice Quot.sound propext
AesiMP.C54_signed_number_shared	Classical.choice Quot.sound propext
AesiMP.C54_signed_smaller	Classical.choice Quot.sound propext
AesiMP.C54_one_output_equal	Classical.choice Quot.sound propext
AesiMP.C54_one_output_smaller	Classical.choice Quot.sound propext
AesiMP.C54_one_output_number	Classical.choice Quot.sound propext
AesiMP.C54_one_output_divisor	Classical.choice Quot.sound propext
AesiMP.C54_one_output_greater	Classical.choice Quot.sound propext
AesiMP.C54_signed_one_output	Classical.choice Quot.sound propext
AesiMP.C55_never_torn	Classical.choice Quot.sound propext
AesiMP.C55_completed	Classical.choice Quot.sound propext
AesiMP.C55_same_value	Classical.choice Quot.sound propext
AesiMP.C55_last_writer	Classical.choice Quot.sound propext
AesiMP.C55_wait_free	Classical.choice Quot.sound propext
AesiMP.C55_mixed_example	Classical.choice Quot.sound propext
AesiMP.C55_alone	Classical.choice Quot.sound propext
AesiMP.C56_conserved	Classical.choice Quot.sound propext
AesiMP.C56_completed	Classical.choice Quot.sound propext
AesiMP.C56_alone	Classical.choice Quot.sound propext
AesiMP.C56_signed_exact	Classical.choice Quot.sound propext
AesiMP.C56_signed_partial	Classical.choice Quot.sound propext
AesiMP.C56_counterexample	propext
AesiMP.C57_program_refinement	Classical.choice Quot.sound propext
AesiMP.C58_add_comm	Classical.choice Quot.sound propext
AesiMP.C58_add_assoc	Classical.choice Quot.sound propext
AesiMP.C58_mul_comm	Classical.choice Quot.sound propext
AesiMP.C58_mul_assoc	Classical.choice Quot.sound propext
AesiMP.C58_distrib	Classical.choice Quot.sound propext
AesiMP.C58_add_zero	Classical.choice Quot.sound propext
AesiMP.C58_mul_one	Classical.choice Quot.sound propext
AesiMP.C58_add_neg	Classical.choice Quot.sound propext
AesiMP.C58_sub_eq	Classical.choice Quot.sound propext
AesiMP.C58_sub_add_cancel	Classical.choice Quot.sound propext
AesiMP.C58_eq_discriminates	Classical.choice Quot.sound propext
AesiMP.C59_program_refinement	Classical.choice Quot.sound propext
AesiMP.C60_unsigned	Classical.choice Quot.sound propext
AesiMP.C60_signed	Classical.choice Quot.sound propext
AesiMP.C60_signed_truncates	Classical.choice Quot.sound propext
AesiMP.C60_unchecked_overrun	Quot.sound propext
AesiMP.C61_decimal_flags_partial	Classical.choice Quot.sound propext
AesiMP.C61_octal_flags	Classical.choice Quot.sound propext
AesiMP.C61_hex_flags	Classical.choice Quot.sound propext
AesiMP.C61_counterexample	Classical.choice Quot.sound propext
AesiMP.C62_stream_all_partial	Classical.choice Quot.sound propext
AesiMP.C62_stream_partial	Classical.choice Quot.sound propext
AesiMP.C62_width_counterexample	Classical.choice Quot.sound propext
AesiMP.C62_width_exact	Classical.choice Quot.sound propext
AesiMP.C63_squareRoot	Classical.choice Quot.sound propext
AesiMP.C63_power2	Classical.choice Quot.sound propext
AesiMP.C63_power2_out_of_range	Classical.choice Quot.sound propext
AesiMP.C64_bezout_shared	Classical.choice Quot.sound propext
AesiMP.C64_bezout_shared_exact	Classical.choice Quot.sound propext
AesiMP.C64_gcd_any_sharing	Classical.choice Quot.sound propext
AesiMP.C65_unsigned_partial	Classical.choice Quot.sound propext
AesiMP.C65_unsigned_exact	Classical.choice Quot.sound propext
AesiMP.C65_counterexample	propext
AesiMP.C65_signed_partial	Classical.choice Quot.sound propext
AesiMP.C65_signed_exact	Classical.choice Quot.sound propext
AesiMP.C66_left_ring	Classical.choice Quot.sound propext
AesiMP.C66_left_rest	Classical.choice Quot.sound propext
AesiMP.C66_right	Classical.choice Quot.sound propext
AesiMP.C67_setters	Classical.choice Quot.sound propext
AesiMP.C67_observers	Classical.choice Quot.sound propext
AesiMP.C67_filledBlocks	Classical.choice Quot.sound propext
AesiMP.C67_zero_stays_zero	Classical.choice Quot.sound propext
AesiMP.C67_negative_zero	Quot.sound propext
AesiMP.C68_readme_exact	Classical.choice Quot.sound propext
AesiMP.C68_powm_widened	Classical.choice Quot.sound propext
AesiMP.C68_powm_readme_partial	Classical.choice Quot.sound propext
AesiMP.C68_readme_base_zero	Classical.choice Quot.sound propext
AesiMP.C69_powmT_exact	Classical.choice Quot.sound propext
AesiMP.C69_powmT_modulus_zero	Classical.choice Quot.sound propext
AesiMP.C69_powmT_power_of_two	Classical.choice Quot.sound propext
AesiMP.C69_powm_total	Classical.choice Quot.sound propext
AesiMP.C69_powmT_total	Classical.choice Quot.sound propext
AesiMP.C69_powm_modulus_zero	Classical.choice Quot.sound propext
AesiMP.C69_powm_power_of_two	Classical.choice Quot.sound propext
AesiMP.C69_powm_exact	Classical.choice Quot.sound propext
AesiMP.Aesi.C70_inc_dec_exact	Classical.choice Quot.sound propext
AesiMP.Aesi.C70_counterexample	Quot.sound propext
AesiMP.C70_ring_wrap	Classical.choice Quot.sound propext
AesiMP.C70_inc_dec_wrap_partial	Classical.choice Quot.sound propext
AesiMP.C70_builtin_wrap	Classical.choice Quot.sound propext
AesiMP.C70_false_sign	Quot.sound propext
AesiMP.C71_ring_programs	Classical.choice Quot.sound propext
AesiMP.C72_signed_partial	Classical.choice Quot.sound propext
AesiMP.C72_negative_exact	Classical.choice Quot.sound propext
AesiMP.C72_counterexample	Classical.choice Quot.sound propext
AesiMP.C72_one_block_counterexample	Classical.choice Quot.sound propext
AesiMP.C73_read	Classical.choice Quot.sound propext
AesiMP.C73_hex_iff	Classical.choice Quot.sound propext
AesiMP.C73_oct_iff	Classical.choice Quot.sound propext
AesiMP.C73_stream_round_trip_partial	Classical.choice Quot.sound propext
AesiMP.C73_same_precision_partial	Classical.choice Quot.sound propext
AesiMP.C73_counterexample	Classical.choice Quot.sound propext
AesiMP.C74_round_trip_partial	Classical.choice Quot.sound propext
AesiMP.C74_hex_iff	Classical.choice Quot.sound propext
AesiMP.C74_oct_iff	Classical.choice Quot.sound propext
AesiMP.C74_counterexample	Classical.choice Quot.sound propext
AesiMP.C74_signed_round_trip_partial	Classical.choice Quot.sound propext
AesiMP.C75_no_undefined_behaviour	Classical.choice Quot.sound propext
AesiMP.C76_flags_irrelevant	Classical.choice Quot.sound propext
AesiMP.C76_unsafe_to_checked	Classical.choice Quot.sound propext
AesiMP.C76_sharp	Classical.choice Quot.sound propext
AesiMP.C77_client_refinement	Classical.choice Quot.sound propext
AesiMP.C78_modular_inverse	Classical.choice Quot.sound propext
AesiMP.C79_gcd	Classical.choice Quot.sound propext
AesiMP.C79_gcdExt	Classical.choice Quot.sound propext
AesiMP.C79_squareRoot	Classical.choice Quot.sound propext
AesiMP.C80_cross	Classical.choice Quot.sound propext
AesiMP.C80_big_endian_one	Classical.choice Quot.sound propext
AesiMP.C81_shl_mul	Classical.choice Quot.sound propext
AesiMP.C81_shr_div	Classical.choice Quot.sound propext
AesiMP.C81_mask_mod	Classical.choice Quot.sound propext
AesiMP.C81_not_neg	Classical.choice Quot.sound propext
AesiMP.C81_not_not	Classical.choice Quot.sound propext
AesiMP.C81_xor	Classical.choice Quot.sound propext
AesiMP.C81_half_adder	Classical.choice Quot.sound propext
AesiMP.C81_de_morgan	Classical.choice Quot.sound propext
AesiMP.C81_div_mod	Classical.choice Quot.sound propext
AesiMP.C81_gcd_lcm	Classical.choice Quot.sound propext
AesiMP.C81_sqrt_square	Classical.choice Quot.sound propext
AesiMP.C81_shl_shr	Classical.choice Quot.sound propext
AesiMP.C81_shr_bit	Classical.choice Quot.sound propext
AesiMP.C82_diffie_hellman	Classical.choice Quot.sound propext
AesiMP.C82_rsa	Classical.choice Quot.sound propext
AesiMP.C82_fermat	Classical.choice Quot.sound propext
AesiMP.C82_inverse_prime	Classical.choice Quot.sound propext
AesiMP.C83_add_comm	Classical.choice Quot.sound propext
AesiMP.C83_mul_comm	Classical.choice Quot.sound propext
AesiMP.C83_sub_eq	Classical.choice Quot.sound propext
AesiMP.C83_neg_neg	Classical.choice Quot.sound propext
AesiMP.C83_sub_self	Classical.choice Quot.sound propext
AesiMP.C83_sub_anticomm	Classical.choice Quot.sound propext
AesiMP.C83_add_assoc	Classical.choice Quot.sound propext
AesiMP.C83_mul_assoc	Classical.choice Quot.sound propext
AesiMP.C83_distrib	Classical.choice Quot.sound propext
AesiMP.C83_add_order	Classical.choice Quot.sound propext
AesiMP.C83_div_mod	Classical.choice Quot.sound propext
AesiMP.C83_assoc_overflow	propext
AesiMP.C84_add	Classical.choice Quot.sound propext
AesiMP.C84_mul	Classical.choice Quot.sound propext
AesiMP.C84_sub	Classical.choice Quot.sound propext
AesiMP.C84_neg	Classical.choice Quot.sound propext
AesiMP.C84_shl	Classical.choice Quot.sound propext
AesiMP.C84_and	Classical.choice Quot.sound propext
AesiMP.C84_or	Classical.choice Quot.sound propext
AesiMP.C84_xor	Classical.choice Quot.sound propext
AesiMP.C84_div	Classical.choice Quot.sound propext
AesiMP.C84_mod	Classical.choice Quot.sound propext
AesiMP.C84_gcd	Classical.choice Quot.sound propext
AesiMP.C84_squareRoot	Classical.choice Quot.sound propext
AesiMP.C84_shr	Classical.choice Quot.sound propext
AesiMP.C84_compare	Classical.choice Quot.sound propext
AesiMP.C84_cast_cast	Classical.choice Quot.sound propext
AesiMP.C84_conditions	Quot.sound propext
AesiMP.C85_iff	Classical.choice Quot.sound propext
AesiMP.C85_unsigned	Classical.choice Quot.sound propext
AesiMP.C85_interchangeable_partial	Classical.choice Quot.sound propext
AesiMP.C85_counterexample	Quot.sound propext
AesiMP.C86_call	Classical.choice Quot.sound propext
AesiMP.C86_program	Classical.choice Quot.sound propext
AesiMP.C86_checked_build	propext
AesiMP.C87_divide	Classical.choice Quot.sound propext
AesiMP.C87_gcd	Classical.choice Quot.sound propext
AesiMP.C87_read	Quot.sound propext
AesiMP.C87_divide_signed_partial	Classical.choice Quot.sound propext
AesiMP.C87_counterexample	Quot.sound propext
AesiMP.C87_stale_exact	Classical.choice Quot.sound propext
AesiMP.C88_constructor	Quot.sound propext
AesiMP.C88_complement	Quot.sound propext
AesiMP.C88_divide	Classical.choice Quot.sound propext
AesiMP.C88_quotient_remainder	Quot.sound propext
AesiMP.C88_gcd	Quot.sound propext
AesiMP.C88_gcd_extended	Classical.choice Quot.sound propext
AesiMP.C88_square_root	Quot.sound propext
AesiMP.C88_divide_signed_partial	Classical.choice Quot.sound propext
AesiMP.C88_signed_zero_exact	Classical.choice Quot.sound propext
AesiMP.C88_declared	Classical.choice Quot.sound propext
AesiMP.C88_written	Quot.sound propext
AesiMP.C88_counterexample	Quot.sound propext
AesiMP.C88_text	Classical.choice Quot.sound propext
AesiMP.C88_text_signed	Classical.choice Quot.sound propext
AesiMP.C88_text_fresh	Classical.choice Quot.sound propext
AesiMP.C88_text_fresh_negative	Classical.choice Quot.sound propext
AesiMP.C88_text_fresh_zero	Classical.choice Quot.sound propext
AesiMP.C88_text_read	Quot.sound propext
AesiMP.C89_divisor	Classical.choice Quot.sound propext
AesiMP.C89_method	Classical.choice Quot.sound propext
AesiMP.C89_finds	Classical.choice Quot.sound propext
AesiMP.C89_shipped_first	Classical.choice Quot.sound propext
AesiMP.C89_shipped_second	Classical.choice Quot.sound propext
AesiMP.C90_extendedGcd	Classical.choice Quot.sound propext
AesiMP.C90_checkBezout	Classical.choice Quot.sound propext
AesiMP.C90_checkRoot	Classical.choice Quot.sound propext
AesiMP.C90_checkDivide	Classical.choice Quot.sound propext
AesiMP.C90_checkIncDec	Classical.choice Quot.sound propext
AesiMP.C90_checkSignedOps	Classical.choice Quot.sound propext
AesiMP.C90_program	Classical.choice Quot.sound propext
AesiMP.C91_unsigned_kernel	Classical.choice Quot.sound propext
AesiMP.C91_unsigned_kernel_alias	Classical.choice Quot.sound propext
AesiMP.C91_factorial	Classical.choice Quot.sound propext
AesiMP.C91_factorial_50	Classical.choice Quot.sound propext
AesiMP.C91_signed_kernel	Classical.choice Quot.sound propext
AesiMP.C91_signed_kernel_alias	Classical.choice Quot.sound propext
AesiMP.C92_addition	Classical.choice Quot.sound propext
AesiMP.C92_subtraction_exact	Classical.choice Quot.sound propext
AesiMP.C92_multiplication	Classical.choice Quot.sound propext
AesiMP.C92_division	Classical.choice Quot.sound propext
AesiMP.C92_modulo	Classical.choice Quot.sound propext
AesiMP.C92_increment	Classical.choice Quot.sound propext
AesiMP.C92_decrement_exact	Classical.choice Quot.sound propext
AesiMP.C92_flaky	Classical.choice Quot.sound propext
AesiMP.C93_addition	Classical.choice Quot.sound propext
AesiMP.C93_subtraction	Classical.choice Quot.sound propext
AesiMP.C93_multiplication	Classical.choice Quot.sound propext
AesiMP.C93_division	Classical.choice Quot.sound propext
AesiMP.C93_modulo_exact	Classical.choice Quot.sound propext
AesiMP.C93_increment	Classical.choice Quot.sound propext
AesiMP.C93_decrement	Classical.choice Quot.sound propext
AesiMP.C93_flaky	Classical.choice Quot.sound propext
AesiMP.C94_bitwise	Classical.choice Quot.sound propext
AesiMP.C94_shifts	Classical.choice Quot.sound propext
AesiMP.C94_bitCount_exact	Classical.choice Quot.sound propext
AesiMP.C94_bits_unsigned	Classical.choice Quot.sound propext
AesiMP.C94_bits_signed_exact	Classical.choice Quot.sound propext
AesiMP.C94_blocks_exact	Classical.choice Quot.sound propext
AesiMP.C94_flaky	Classical.choice Quot.sound propext
AesiMP.C95_comparisons	Classical.choice Quot.sound propext
AesiMP.C95_parity	Classical.choice Quot.sound propext
AesiMP.C95_squareRoot	Classical.choice Quot.sound propext
AesiMP.C95_cast_unsigned	Classical.choice Quot.sound propext
AesiMP.C95_cast_signed_exact	Classical.choice Quot.sound propext
AesiMP.C95_powm_exact	Classical.choice Quot.sound propext
AesiMP.C95_powm_different_exact	Classical.choice Quot.sound propext
AesiMP.C95_lcm_gcd	Classical.choice Quot.sound propext
AesiMP.C95_flaky	Classical.choice Quot.sound propext
AesiMP.C96_init_unsigned	Classical.choice Quot.sound propext
AesiMP.C96_init_signed	Classical.choice Quot.sound propext
AesiMP.C96_not_exact	Classical.choice Quot.sound propext
AesiMP.C96_power2	Classical.choice Quot.sound propext
AesiMP.C96_casts	Classical.choice Quot.sound propext
AesiMP.C96_binary	Classical.choice Quot.sound propext
AesiMP.C96_different_precisions	Classical.choice Quot.sound propext
AesiMP.C96_flaky	Quot.sound propext
AesiMP.C97_stream_unsigned	Classical.choice Quot.sound propext
AesiMP.C97_stream_signed_exact	Classical.choice Quot.sound propext
AesiMP.C97_buffer_unsigned_exact	Classical.choice Quot.sound propext
AesiMP.C97_buffer_signed_exact	Classical.choice Quot.sound propext
AesiMP.C97_format_unsigned	Classical.choice Quot.sound propext
AesiMP.C97_format_signed	Classical.choice Quot.sound propext
AesiMP.C97_flaky	Classical.choice Quot.sound propext
AesiMP.C98_write	Classical.choice Quot.sound propext
AesiMP.C98_read	Classical.choice Quot.sound propext
AesiMP.C98_round_trip	Classical.choice Quot.sound propext
AesiMP.C99_square	Classical.choice Quot.sound propext
AesiMP.C99_trial_division	Classical.choice Quot.sound propext
AesiMP.C99_miller_rabin	Classical.choice Quot.sound propext
AesiMP.C99_miller_rabin_prime	Classical.choice Quot.sound propext
AesiMP.C99_chinese_remainder	Classical.choice Quot.sound propext
AesiMP.C100_neg	Classical.choice Quot.sound propext
AesiMP.C100_mul_narrow	Classical.choice Quot.sound propext
AesiMP.C100_ring_narrow	Classical.choice Quot.sound propext
AesiMP.C100_ring_widen	Classical.choice Quot.sound propext
AesiMP.C100_div_mod_widen	Classical.choice Quot.sound propext
AesiMP.C100_compare_widen	Classical.choice Quot.sound propext
AesiMP.C100_squareRoot_widen	Classical.choice Quot.sound propext
AesiMP.C100_cast_cast	Classical.choice Quot.sound propext
AesiMP.C100_conditions	Quot.sound propext
AesiMP.C101_prefix	Classical.choice Quot.sound propext
AesiMP.C101_bad_stays	Classical.choice Quot.sound propext
AesiMP.C101_number	Classical.choice Quot.sound propext
AesiMP.C101_signed_number	Classical.choice Quot.sound propext
AesiMP.C101_torn_decimal	Classical.choice Quot.sound propext
AesiMP.C102_decimal_octal_partial	Classical.choice Quot.sound propext
AesiMP.C102_classic	Classical.choice Quot.sound propext
AesiMP.C102_hex_exact	Classical.choice Quot.sound propext
AesiMP.C102_hex_iff	Classical.choice Quot.sound propext
AesiMP.C102_counterexample	Classical.choice Quot.sound propext
AesiMP.C102_grouping	Classical.choice Quot.sound propext
AesiMP.C102_grouping_digits	Quot.sound propext
AesiMP.C103_low_half	Classical.choice Quot.sound propext
AesiMP.C103_unsigned_exact	Classical.choice Quot.sound propext
AesiMP.C103_construct_iff	Classical.choice Quot.sound propext
AesiMP.C103_unsigned_partial	Classical.choice Quot.sound propext
AesiMP.C103_counterexample	Quot.sound propext
AesiMP.C103_shifts	Classical.choice Quot.sound propext
AesiMP.C103_cast_exact	Classical.choice Quot.sound propext
AesiMP.C103_signed_exact	Classical.choice Quot.sound propext
AesiMP.C103_signed_partial	Classical.choice Quot.sound propext
AesiMP.C103_signed_counterexample	Quot.sound propext
AesiMP.C103_signed_low_half	Classical.choice Quot.sound propext
AesiMP.C103_signed_compare_exact	Classical.choice Quot.sound propext
AesiMP.C104_never_torn	Quot.sound propext
AesiMP.C104_read_only	Quot.sound propext
AesiMP.C104_wait_free	Quot.sound propext
AesiMP.C104_undisturbed	Classical.choice Quot.sound propext
AesiMP.C104_in_progress	Classical.choice Quot.sound propext
AesiMP.C104_publish	Classical.choice Quot.sound propext
AesiMP.C104_copy	Quot.sound propext
AesiMP.C104_conserved_partial	Classical.choice Quot.sound propext
AesiMP.C104_counterexample	Quot.sound propext
AesiMP.C104_full_fails	Quot.sound propext
AesiMP.C104_counterexample_copy	Quot.sound propext
AesiMP.C104_conserved_iff	Classical.choice Quot.sound propext
AesiMP.C105_text	Classical.choice Quot.sound propext
AesiMP.C105_read	Classical.choice Quot.sound propext
AesiMP.C105_write_exact	Classical.choice Quot.sound propext
AesiMP.C105_write_partial	Classical.choice Quot.sound propext
AesiMP.C105_counterexample	propext
AesiMP.C105_full_fails	propext
AesiMP.C106_isolated	Classical.choice Quot.sound propext
AesiMP.C106_errors	Classical.choice Quot.sound propext
AesiMP.C106_any_order	Classical.choice Quot.sound propext
AesiMP.C106_constants	Classical.choice Quot.sound propext
AesiMP.C106_uses	Quot.sound propext
AesiMP.C106_no_race	Classical.choice Quot.sound propext
AesiMP.C107_construct_exact	Classical.choice Quot.sound propext
AesiMP.C107_left_exact	Classical.choice Quot.sound propext
AesiMP.C107_right_exact	Classical.choice Quot.sound propext
AesiMP.C107_operand_partial	Classical.choice Quot.sound propext
AesiMP.C107_negative_wrong	Classical.choice Quot.sound propext
AesiMP.C107_counterexample	Classical.choice Quot.sound propext
AesiMP.C107_full_fails	Classical.choice Quot.sound propext
AesiMP.C107_signed_operand	Classical.choice Quot.sound propext
AesiMP.C108_never_torn	Classical.choice Quot.sound propext
AesiMP.C108_signs	Quot.sound propext
AesiMP.C108_arguments	Quot.sound propext
AesiMP.C108_completed	Classical.choice Quot.sound propext
AesiMP.C108_same_value	Classical.choice Quot.sound propext
AesiMP.C108_conserved	Classical.choice Quot.sound propext
AesiMP.C108_exchange_alone	Quot.sound propext
AesiMP.C108_generalises	Classical.choice Quot.sound propext
AesiMP.C108_wait_free	Classical.choice Quot.sound propext
AesiMP.C108_crossed_example	Quot.sound propext
AesiMP.C109_construct	Classical.choice Quot.sound propext
AesiMP.C109_construct_signed	Classical.choice Quot.sound propext
AesiMP.C109_assign_refused	Classical.choice Quot.sound propext
AesiMP.C109_assign	Classical.choice Quot.sound propext
AesiMP.C109_assign_signed	Classical.choice Quot.sound propext
AesiMP.C109_compare_exact	Classical.choice Quot.sound propext
AesiMP.C109_compare_signed_exact	Classical.choice Quot.sound propext
AesiMP.C109_left_exact	Classical.choice Quot.sound propext
AesiMP.C109_counterexample	Classical.choice Quot.sound propext
AesiMP.C109_full_fails	Classical.choice Quot.sound propext
AesiMP.C109_reported_partial	Classical.choice Quot.sound propext
AesiMP.C109_overallocation	Classical.choice Quot.sound propext
AesiMP.C110_never_torn	Classical.choice Quot.sound propext
AesiMP.C110_read_only	Classical.choice Quot.sound propext
AesiMP.C110_wait_free	Classical.choice Quot.sound propext
AesiMP.C110_conserved_partial	Classical.choice Quot.sound propext
AesiMP.C110_undisturbed	Classical.choice Quot.sound propext
AesiMP.C110_copy	Classical.choice Quot.sound propext
AesiMP.C110_generalises	Classical.choice Quot.sound propext
AesiMP.C110_conserved_iff	Classical.choice Quot.sound propext
AesiMP.C110_full_fails	Classical.choice Quot.sound propext
AesiMP.C110_counterexample_publish	Quot.sound propext
AesiMP.C111_sort	Classical.choice Quot.sound propext
AesiMP.C111_any_sort	Classical.choice Quot.sound propext
AesiMP.C111_lower_bound	Classical.choice Quot.sound propext
AesiMP.C111_find	Classical.choice Quot.sound propext
AesiMP.C111_sort_then_find	Classical.choice Quot.sound propext
AesiMP.C111_find_builtin	Classical.choice Quot.sound propext
AesiMP.C111_find_across_partial	Classical.choice Quot.sound propext
AesiMP.C111_across_counterexample	propext
AesiMP.C111_circle	propext
AesiMP.C111_sort_signed	Classical.choice Quot.sound propext
AesiMP.C111_any_sort_signed	Classical.choice Quot.sound propext
AesiMP.C111_find_signed_partial	Classical.choice Quot.sound propext
AesiMP.C111_signed_counterexample	propext
AesiMP.C111_find_signed_exact	Classical.choice Quot.sound propext
AesiMP.C111_find_u64_partial	Classical.choice Quot.sound propext
AesiMP.C111_find_signed_builtin_partial	Classical.choice Quot.sound propext
AesiMP.C111_set	Classical.choice Quot.sound propext
AesiMP.C111_set_signed_exact	Classical.choice Quot.sound propext
AesiMP.C111_set_signed_partial	Classical.choice Quot.sound propext
AesiMP.C111_set_counterexample	Quot.sound propext
AesiMP.C112_transfer	Classical.choice Quot.sound propext
AesiMP.C112_same_order_partial	Classical.choice Quot.sound propext
AesiMP.C112_other_order_iff	Classical.choice Quot.sound propext
AesiMP.C112_one_lost	Classical.choice Quot.sound propext
AesiMP.C112_counterexample	Quot.sound propext
AesiMP.C112_reversed	Classical.choice Quot.sound propext
AesiMP.C112_there_and_back	Classical.choice Quot.sound propext
AesiMP.C112_portable	Classical.choice Quot.sound propext
AesiMP.C113_count	Classical.choice Quot.sound propext
AesiMP.C113_cstring_partial	Classical.choice Quot.sound propext
AesiMP.C113_cstring_counterexample	Classical.choice Quot.sound propext
AesiMP.C113_fresh_partial	Classical.choice Quot.sound propext
AesiMP.C113_array_exact	Classical.choice Quot.sound propext
AesiMP.C113_zero_exact	Classical.choice Quot.sound propext
AesiMP.C113_array_counterexample	Classical.choice Quot.sound propext
AesiMP.C113_signed_count	Classical.choice Quot.sound propext
AesiMP.C113_signed_cstring_partial	Classical.choice Quot.sound propext
AesiMP.C113_signed_fresh_partial	Classical.choice Quot.sound propext
AesiMP.C113_signed_array_exact	Classical.choice Quot.sound propext
AesiMP.C113_signed_array_counterexample	Classical.choice Quot.sound propext
AesiMP.C114_literal	Classical.choice Quot.sound propext
AesiMP.C114_binary	Classical.choice Quot.sound propext
AesiMP.C114_addition	Classical.choice Quot.sound propext
AesiMP.C114_subtraction	Classical.choice Quot.sound propext
AesiMP.C114_division	Classical.choice Quot.sound propext
AesiMP.C114_modulo	Classical.choice Quot.sound propext
AesiMP.C114_gcd	Classical.choice Quot.sound propext
AesiMP.C114_multiplication_partial	Classical.choice Quot.sound propext
AesiMP.C114_multiplication_counterexample	Classical.choice Quot.sound propext
AesiMP.C114_powm_partial	Classical.choice Quot.sound propext
AesiMP.C114_powm_counterexample	Classical.choice Quot.sound propext
AesiMP.C115_call	Classical.choice Quot.sound propext
AesiMP.C115_program_partial	Classical.choice Quot.sound propext
AesiMP.C115_value	Classical.choice Quot.sound propext
AesiMP.C115_text_never	Quot.sound propext
AesiMP.C115_hex_never	Classical.choice Quot.sound propext
AesiMP.C115_counterexample	Quot.sound propext
AesiMP.C116_fixed	Quot.sound propext
AesiMP.C116_shift	Classical.choice Quot.sound propext
AesiMP.C116_linear	Classical.choice Quot.sound propext
AesiMP.C116_quadratic	Classical.choice Quot.sound propext
AesiMP.C116_gcd	Classical.choice Quot.sound propext
AesiMP.C116_powm	Classical.choice Quot.sound propext
AesiMP.C116_squareRoot	Classical.choice Quot.sound propext
AesiMP.C116_varies	Quot.sound propext
AesiMP.C116_parse	Quot.sound propext
AesiMP.C116_print	Classical.choice Quot.sound propext
AesiMP.C116_signed_linear	Classical.choice Quot.sound propext
AesiMP.C116_signed	Classical.choice Quot.sound propext
AesiMP.C116_bits	Classical.choice Quot.sound propext
AesiMP.C117_same	Classical.choice Quot.sound propext
AesiMP.C117_product	Classical.choice Quot.sound propext
AesiMP.C117_comparison	Classical.choice Quot.sound propext
AesiMP.C117_division	Classical.choice Quot.sound propext
AesiMP.C117_quotient	Classical.choice Quot.sound propext
AesiMP.C117_varies	Quot.sound propext
AesiMP.C117_gcd	Classical.choice Quot.sound propext
AesiMP.C117_gcd_extended	Classical.choice Quot.sound propext
AesiMP.C117_gcd_secret	Classical.choice Quot.sound propext
AesiMP.C117_parse	Classical.choice Quot.sound propext
AesiMP.C117_exponent	Classical.choice Quot.sound propext
AesiMP.C117_exponent_wide	Classical.choice Quot.sound propext
AesiMP.C117_exponent_hidden	Classical.choice Quot.sound propext
AesiMP.C117_text	Classical.choice Quot.sound propext
AesiMP.C117_stream	Classical.choice Quot.sound propext
AesiMP.C117_hex	Classical.choice Quot.sound propext
AesiMP.C117_signed_quotient	Classical.choice Quot.sound propext
AesiMP.C117_signed_stream	Classical.choice Quot.sound propext
AesiMP.C117_signed_sum	Classical.choice Quot.sound propext
