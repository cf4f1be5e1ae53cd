{
 "claims": [
  {
   "property": "C01",
   "status": "proved",
   "theorems": [
    "H2.C01_context_only_adds"
   ],
   "note": "All public Context operations."
  },
  {
   "property": "C02",
   "status": "proved",
   "theorems": [
    "H2.C02_region",
    "H2.C02_region_complete"
   ],
   "note": "Region binding (soundness) and honest completeness."
  },
  {
   "property": "C03",
   "status": "proved",
   "theorems": [
    "H2.C03_context",
    "H2.C03_gate_arith",
    "H2.C03_gate_lists",
    "H2.C03_range",
    "H2.C03_poseidon",
    "H2.C03_safe_types"
   ],
   "note": ""
  },
  {
   "property": "C04",
   "status": "proved",
   "theorems": [
    "H2.C04_add",
    "H2.C04_inc",
    "H2.C04_sub",
    "H2.C04_dec",
    "H2.C04_sub_mul",
    "H2.C04_neg",
    "H2.C04_mul",
    "H2.C04_mul_add",
    "H2.C04_mul_not",
    "H2.C04_div_unsafe",
    "H2.C04_and",
    "H2.C04_or",
    "H2.C04_xor",
    "H2.C04_not",
    "H2.C04_select",
    "H2.C04_or_and"
   ],
   "note": "Soundness of 16 gate routines, all keygen contexts, all satisfying assignments."
  },
  {
   "property": "C05",
   "status": "proved",
   "theorems": [
    "H2.C05_add",
    "H2.C05_inc",
    "H2.C05_sub",
    "H2.C05_dec",
    "H2.C05_sub_mul",
    "H2.C05_neg",
    "H2.C05_mul",
    "H2.C05_mul_add",
    "H2.C05_mul_not",
    "H2.C05_div_unsafe",
    "H2.C05_and",
    "H2.C05_or",
    "H2.C05_xor",
    "H2.C05_not",
    "H2.C05_select",
    "H2.C05_or_and"
   ],
   "note": "Completeness of the same routines."
  },
  {
   "property": "C06",
   "status": "proved",
   "theorems": [
    "H2.C06_is_zero",
    "H2.C06_is_equal",
    "H2.C06_is_zero_complete",
    "H2.C06_is_equal_complete"
   ],
   "note": ""
  },
  {
   "property": "C07",
   "status": "proved",
   "theorems": [
    "H2.C07_assert_bit",
    "H2.C07_assert_bit_complete",
    "H2.C07_assert_is_const",
    "H2.C07_assert_is_const_complete"
   ],
   "note": ""
  },
  {
   "property": "C08",
   "status": "proved",
   "theorems": [
    "H2.C08_sum",
    "H2.C08_partial_sums",
    "H2.C08_accumulated_product",
    "H2.C08_inner_product",
    "H2.C08_inner_product_left",
    "H2.C08_inner_product_left_last",
    "H2.C08_inner_product_with_sums",
    "H2.C08_sum_products_with_coeff_and_var"
   ],
   "note": ""
  },
  {
   "property": "C09",
   "status": "proved",
   "theorems": [
    "H2.C09_sum",
    "H2.C09_partial_sums",
    "H2.C09_accumulated_product",
    "H2.C09_inner_product",
    "H2.C09_inner_product_left",
    "H2.C09_inner_product_left_last",
    "H2.C09_inner_product_with_sums",
    "H2.C09_sum_products_with_coeff_and_var"
   ],
   "note": ""
  },
  {
   "property": "C10",
   "status": "proved",
   "theorems": [
    "H2.C10_num_to_bits",
    "H2.C10_num_to_bits_complete"
   ],
   "note": "Uniqueness under 2^n <= p; a counterexample to uniqueness for 2^n > p is given as an example."
  },
  {
   "property": "C11",
   "status": "proved",
   "theorems": [
    "H2.C11_bits_to_num",
    "H2.C11_bits_to_num_linear",
    "H2.C11_roundtrip",
    "H2.C11_bits_to_num_complete"
   ],
   "note": ""
  },
  {
   "property": "C12",
   "status": "proved",
   "theorems": [
    "H2.C12_bits_to_indicator",
    "H2.C12_bits_to_indicator_complete"
   ],
   "note": ""
  },
  {
   "property": "C13",
   "status": "proved",
   "theorems": [
    "H2.C13_idx_to_indicator",
    "H2.C13_idx_to_indicator_complete",
    "H2.C13_select_from_idx",
    "H2.C13_select_from_idx_complete",
    "H2.C13_select_by_indicator",
    "H2.C13_select_array",
    "H2.C13_select_array_complete"
   ],
   "note": ""
  },
  {
   "property": "C14",
   "status": "proved",
   "theorems": [
    "H2.C14_pow_var",
    "H2.C14_pow_var_complete"
   ],
   "note": ""
  },
  {
   "property": "C15",
   "status": "proved",
   "theorems": [
    "H2.C15_lagrange_and_eval",
    "H2.C15_lagrange_and_eval_complete"
   ],
   "note": ""
  },
  {
   "property": "C16",
   "status": "proved",
   "theorems": [
    "H2.C16_range_check",
    "H2.C16_range_check_complete",
    "H2.C16_range_check_exact"
   ],
   "note": ""
  },
  {
   "property": "C17",
   "status": "proved",
   "theorems": [
    "H2.C17_check_less_than",
    "H2.C17_check_less_than_complete"
   ],
   "note": ""
  },
  {
   "property": "C18",
   "status": "proved",
   "theorems": [
    "H2.C18_check_less_than_safe",
    "H2.C18_check_big_less_than_safe",
    "H2.C18_check_less_than_safe_complete",
    "H2.C18_check_big_less_than_safe_complete",
    "H2.C18_unsound_when_tight",
    "H2.C18_unsound_bn254"
   ],
   "note": ""
  },
  {
   "property": "C19",
   "status": "proved",
   "theorems": [
    "H2.C19_is_less_than",
    "H2.C19_is_less_than_complete",
    "H2.C19_is_less_than_safe",
    "H2.C19_is_big_less_than_safe",
    "H2.C19_is_less_than_safe_complete"
   ],
   "note": ""
  },
  {
   "property": "C20",
   "status": "proved",
   "theorems": [
    "H2.C20_div_mod",
    "H2.C20_div_mod_complete",
    "H2.C20_unsound_bn254"
   ],
   "note": ""
  },
  {
   "property": "C21",
   "status": "proved",
   "theorems": [
    "H2.C21_div_mod_var",
    "H2.C21_div_mod_var_complete",
    "H2.C21_unsound_bn254"
   ],
   "note": ""
  },
  {
   "property": "C22",
   "status": "proved",
   "theorems": [
    "H2.C22_get_last_bit",
    "H2.C22_get_last_bit_complete"
   ],
   "note": ""
  },
  {
   "property": "C23",
   "status": "proved",
   "theorems": [
    "H2.C23_decompose_le",
    "H2.C23_decompose_le_complete",
    "H2.C23_limbs_to_num",
    "H2.C23_roundtrip"
   ],
   "note": ""
  },
  {
   "property": "C24",
   "status": "proved",
   "theorems": [
    "H2.C24_const_right_rotate",
    "H2.C24_const_left_rotate",
    "H2.C24_rotate_zero"
   ],
   "note": ""
  },
  {
   "property": "C25",
   "status": "proved",
   "theorems": [
    "H2.C25_right_rotate_witness",
    "H2.C25_right_rotate_incomplete",
    "H2.C25_right_rotate_complete_when_symmetric"
   ],
   "note": ""
  },
  {
   "property": "C26",
   "status": "proved",
   "theorems": [
    "H2.Utils.C26_decompose_u64_digits",
    "H2.Utils.C26_decompose_fe"
   ],
   "note": ""
  },
  {
   "property": "C27",
   "status": "proved",
   "theorems": [
    "H2.Utils.C27_decompose_biguint",
    "H2.Utils.C27_decompose_bigint",
    "H2.Utils.C27_decompose",
    "H2.Utils.C27_decompose_64_wrong",
    "H2.Utils.C27_decompose_biguint_zero"
   ],
   "note": ""
  },
  {
   "property": "C28",
   "status": "proved",
   "theorems": [
    "H2.Utils.C28_compose_decompose",
    "H2.Utils.C28_compose",
    "H2.Utils.C28_bit_length",
    "H2.Utils.C28_log2_ceil",
    "H2.Utils.C28_fe_to_biguint",
    "H2.Utils.C28_biguint_to_fe",
    "H2.Utils.C28_roundtrip_biguint",
    "H2.Utils.C28_roundtrip_fe",
    "H2.Utils.C28_modulus",
    "H2.Utils.C28_power_of_two",
    "H2.Utils.C28_fe_to_bigint",
    "H2.Utils.C28_roundtrip_bigint",
    "H2.Utils.C28_bigint_to_fe",
    "H2.Utils.C28_get_lower"
   ],
   "note": ""
  },
  {
   "property": "C29",
   "status": "proved",
   "theorems": [
    "H2.Phys.C29_layout_sound",
    "H2.Phys.C29_circuit_sound",
    "H2.Phys.C29_threads_sat",
    "H2.Phys.C29_overlap_at_top_unsound"
   ],
   "note": ""
  },
  {
   "property": "C30",
   "status": "proved",
   "theorems": [
    "H2.Phys.C30_replay",
    "H2.Phys.C30_prover_replay",
    "H2.Phys.C30_circuit_complete"
   ],
   "note": ""
  },
  {
   "property": "C31",
   "status": "proved",
   "theorems": [
    "H2.Phys.C31_layout_bounds"
   ],
   "note": ""
  },
  {
   "property": "C32",
   "status": "proved",
   "theorems": [
    "H2.Phys.C32_copy_manager"
   ],
   "note": ""
  },
  {
   "property": "C33",
   "status": "proved",
   "theorems": [
    "H2.Phys.C33_schedule_independent",
    "H2.Phys.C33_parallelize_order"
   ],
   "note": ""
  },
  {
   "property": "C34",
   "status": "proved",
   "theorems": [
    "H2.Phys.C34_lookup_assign",
    "H2.Phys.C34_lookups_hold",
    "H2.Phys.C34_dropped_without_columns"
   ],
   "note": ""
  },
  {
   "property": "C35",
   "status": "proved",
   "theorems": [
    "H2.C35_assert_bool",
    "H2.C35_load_bool",
    "H2.C35_assert_byte",
    "H2.C35_load_byte",
    "H2.C35_var_len_bytes",
    "H2.C35_fix_len_bytes",
    "H2.C35_bool_complete",
    "H2.C35_byte_complete",
    "H2.C35_var_len_bytes_complete",
    "H2.C35_fix_len_bytes_complete"
   ],
   "note": ""
  },
  {
   "property": "C36",
   "status": "proved",
   "theorems": [
    "H2.C36_raw_bytes_to",
    "H2.C36_raw_bytes_to_complete",
    "H2.C36_raw_bytes_to_bytes_complete",
    "H2.C36_packing_unsound",
    "H2.C36_uint16_bn254_unsound"
   ],
   "note": ""
  },
  {
   "property": "C37",
   "status": "proved",
   "theorems": [
    "H2.C37_left_pad",
    "H2.C37_left_pad_complete",
    "H2.C37_left_pad_to_fixed",
    "H2.C37_left_pad_to_fixed_complete"
   ],
   "note": ""
  },
  {
   "property": "C38",
   "status": "proved",
   "theorems": [
    "H2.C38_ensure_0_padding",
    "H2.C38_ensure_0_padding_complete",
    "H2.C38_var_len_ensure_0_padding",
    "H2.C38_var_len_ensure_0_padding_complete"
   ],
   "note": ""
  },
  {
   "property": "C39",
   "status": "proved",
   "theorems": [
    "H2.C39_permutation",
    "H2.C39_permutation_var_len",
    "H2.C39_permutation_complete",
    "H2.C39_permutation_var_len_complete"
   ],
   "note": ""
  },
  {
   "property": "C40",
   "status": "proved",
   "theorems": [
    "H2.C40_optimised_eq_textbook",
    "H2.C40_determinant",
    "H2.C40_factorise",
    "H2.C40_factorise_panics_iff",
    "H2.C40_factorise_finding"
   ],
   "note": ""
  },
  {
   "property": "C41",
   "status": "proved",
   "theorems": [
    "H2.C41_init",
    "H2.C41_fix_len",
    "H2.C41_var_len",
    "H2.C41_padding_ignored",
    "H2.C41_var_eq_fix",
    "H2.C41_sponge_squeeze",
    "H2.C41_sponge_new",
    "H2.C41_init_complete",
    "H2.C41_fix_len_complete",
    "H2.C41_var_len_complete"
   ],
   "note": ""
  },
  {
   "property": "C42",
   "status": "proved",
   "theorems": [
    "H2.C42_add_no_carry",
    "H2.C42_sub_no_carry",
    "H2.C42_mul_no_carry",
    "H2.C42_scalar_mul_no_carry",
    "H2.C42_scalar_mul_and_add_no_carry",
    "H2.C42_negative",
    "H2.C42_select",
    "H2.C42_select_proper",
    "H2.C42_select_by_indicator",
    "H2.C42_assign_constant",
    "H2.C42_select_by_indicator_finding"
   ],
   "note": ""
  },
  {
   "property": "C43",
   "status": "proved",
   "theorems": [
    "H2.C43_check_carry_to_zero"
   ],
   "note": ""
  },
  {
   "property": "C44",
   "status": "proved",
   "theorems": [
    "H2.C44_carry_mod"
   ],
   "note": ""
  },
  {
   "property": "C45",
   "status": "proved",
   "theorems": [
    "H2.C45_check_carry_mod_to_zero"
   ],
   "note": ""
  },
  {
   "property": "C46",
   "status": "proved",
   "theorems": [
    "H2.C46_big_is_zero",
    "H2.C46_big_is_zero_limbs",
    "H2.C46_big_is_equal",
    "H2.C46_big_less_than",
    "H2.C46_sub",
    "H2.C46_big_is_even"
   ],
   "note": ""
  },
  {
   "property": "C47",
   "status": "proved",
   "theorems": [
    "H2.C47_new",
    "H2.C47_load_private",
    "H2.C47_load_constant",
    "H2.C47_add",
    "H2.C47_sub",
    "H2.C47_mul_no_carry",
    "H2.C47_add_constant",
    "H2.C47_scalar_mul",
    "H2.C47_carry_mod",
    "H2.C47_check_carry_mod_to_zero",
    "H2.C47_mul",
    "H2.C47_divide_unsafe",
    "H2.C47_divide",
    "H2.C47_neg_divide",
    "H2.C47_negate",
    "H2.C47_enforce_less_than",
    "H2.C47_is_zero",
    "H2.C47_is_equal",
    "H2.C47_assert_equal",
    "H2.C47_is_soft_nonzero",
    "H2.C47_select",
    "H2.C47_is_less_than_p",
    "H2.C47_is_even",
    "H2.C47_unique"
   ],
   "note": ""
  },
  {
   "property": "C48",
   "status": "proved",
   "theorems": [
    "H2.C48_fp2_mul",
    "H2.C48_fp2_divide",
    "H2.C48_fp2_divide_unsafe",
    "H2.C48_fp2_is_zero",
    "H2.C48_fp2_is_equal",
    "H2.C48_fp2_assert_equal",
    "H2.C48_fp2_negate",
    "H2.C48_fp2_load_private",
    "H2.C48_fp2_unique",
    "H2.C48_fp2_select",
    "H2.C48_fp2_conjugate",
    "H2.C48_fp2_neg_conjugate",
    "H2.C48_mul_no_carry_w6",
    "H2.C48_fp_mul_no_carry",
    "H2.C48_fp12_mul",
    "H2.C48_fp12_divide",
    "H2.C48_fp12_is_equal",
    "H2.C48_fp12_is_zero",
    "H2.C48_fp12_unique",
    "H2.C48_fp12_conjugate",
    "H2.C48_fp12_fp2_mul_no_carry",
    "H2.C48_bn254_fp2_mul",
    "H2.C48_bn254_fp2_divide",
    "H2.C48_bn254_fp12_mul",
    "H2.C48_bn254_fp12_divide",
    "H2.C48_g2_add",
    "H2.C48_g2_scalar_multiply",
    "H2.C48_native_fits",
    "H2.C48_native_mul",
    "H2.C48_native_divide",
    "H2.C48_native_is_soft_nonzero",
    "H2.C48_native_not_softNonzero",
    "H2.C48_native_ec_add"
   ],
   "note": ""
  },
  {
   "property": "C49",
   "status": "proved",
   "theorems": [
    "H2.C49_add_unequal",
    "H2.C49_sub_unequal",
    "H2.C49_add_unequal_not_strict",
    "H2.C49_double",
    "H2.C49_double_ne",
    "H2.C49_double_and_add_unequal",
    "H2.C49_sub_strict",
    "H2.C49_negate",
    "H2.C49_select",
    "H2.C49_select_from_bits",
    "H2.C49_load_private",
    "H2.C49_assign_point",
    "H2.C49_is_on_curve_or_infinity",
    "H2.C49_is_equal",
    "H2.C49_assert_equal",
    "H2.C49_sum",
    "H2.C49_unique"
   ],
   "note": ""
  },
  {
   "property": "C50",
   "status": "proved",
   "theorems": [
    "H2.C50_scalar_multiply",
    "H2.C50_scalar_multiply_full",
    "H2.C50_fixed_base",
    "H2.C50_scalar_multiply_secp256k1"
   ],
   "note": ""
  },
  {
   "property": "C51",
   "status": "proved",
   "theorems": [
    "H2.C51_multi_scalar_multiply",
    "H2.C51_variable_base_msm",
    "H2.C51_multi_exp_par",
    "H2.C51_fixed_base_msm",
    "H2.C51_variable_base_msm_secp256k1"
   ],
   "note": ""
  },
  {
   "property": "C52",
   "status": "proved",
   "theorems": [
    "H2.C52_ecdsa_accept",
    "H2.C52_ecdsa_reject",
    "H2.C52_ecdsa_small_x",
    "H2.C52_schnorr",
    "H2.C52_ecdsa_accept_secp256k1",
    "H2.C52_schnorr_secp256k1"
   ],
   "note": ""
  },
  {
   "property": "C53",
   "status": "proved",
   "theorems": [
    "H2.KC.C53_native",
    "H2.KC.C53_small_field",
    "H2.KC.C53_fix_len",
    "H2.KC.C53_var_len",
    "H2.KC.C53_encoders_agree",
    "H2.KC.C53_key_collision",
    "H2.KC.C53_fix_len_complete",
    "H2.KC.C53_var_len_complete"
   ],
   "note": ""
  },
  {
   "property": "C54",
   "status": "proved",
   "theorems": [
    "H2.KC.C54_table_sound",
    "H2.KC.C54_lookup",
    "H2.KC.C54_publish_raw",
    "H2.KC.C54_publish_commit",
    "H2.KC.C54_native",
    "H2.KC.C54_complete",
    "H2.KC.C54_rows_fit",
    "H2.KC.C54_base_complete",
    "H2.KC.C54_ingest_one",
    "H2.KC.C54_ingest",
    "H2.KC.C54_ingest_truncates",
    "H2.KC.C54_table_forged"
   ],
   "note": ""
  },
  {
   "property": "C55",
   "status": "proved",
   "theorems": [
    "H2.Sha.C55_sha256_is_final",
    "H2.Sha.C55_sha256_sound",
    "H2.Sha.C55_words_inj",
    "H2.Sha.C55_sha256_unused",
    "H2.Sha.C55_sha256_unassigned",
    "H2.Sha.C55_sha256_complete",
    "H2.Sha.C55_sha256_capacity"
   ],
   "note": ""
  },
  {
   "property": "C56",
   "status": "proved",
   "theorems": [
    "H2.C56_gate_arith",
    "H2.C56_gate_lists",
    "H2.C56_range",
    "H2.C56_keygen_fits_proof",
    "H2.C56_poseidon",
    "H2.C56_safe_types"
   ],
   "note": ""
  },
  {
   "property": "C57",
   "status": "proved",
   "theorems": [
    "H2.Phys.C57_columns_suffice",
    "H2.Phys.C57_copy_manager_iff",
    "H2.Phys.C57_synthesize_succeeds",
    "H2.Phys.C57_synthesize_succeeds_q",
    "H2.Phys.C57_auto_lookup_suffices",
    "H2.Phys.C57_auto_advice_insufficient",
    "H2.Phys.C57_auto_fixed_insufficient",
    "H2.EqO.C57_main_circuit_keygen",
    "H2.Phys.C57_synthesize_succeeds_ext"
   ],
   "note": ""
  },
  {
   "property": "C58",
   "status": "proved",
   "theorems": [
    "H2.C58_compact",
    "H2.C58_chunks",
    "H2.C58_validator_rejects_valid",
    "H2.C58_validator_accepts_invalid"
   ],
   "note": ""
  },
  {
   "property": "C59",
   "status": "proved",
   "theorems": [
    "H2.C59_no_carry",
    "H2.C59_carry_mod",
    "H2.C59_check_carry_mod_to_zero",
    "H2.C59_predicates"
   ],
   "note": ""
  },
  {
   "property": "C60",
   "status": "proved",
   "theorems": [
    "H2.Naf.C60_get_naf",
    "H2.Naf.C60_get_naf_returns",
    "H2.Naf.C60_get_naf_nonadjacent",
    "H2.Naf.C60_get_naf_carry_out_panics",
    "H2.Naf.C60_get_naf_max_panics",
    "H2.Naf.C60_get_naf_adjacent"
   ],
   "note": ""
  },
  {
   "property": "C61",
   "status": "proved",
   "theorems": [
    "H2.Kec.C61_keccak_is_final",
    "H2.Kec.C61_keccak_sound",
    "H2.Kec.C61_keccak_unassigned",
    "H2.Kec.C61_keccak_capacity",
    "H2.Kec.C61_keccak_bytes_left_forged",
    "H2.Kec.C61_keccak_hash_forged",
    "H2.Kec.C61_keccak_hash_forged_params",
    "H2.Kec.C61_keccak_split_ambiguous",
    "H2.Kec.C61_hash_forged_large"
   ],
   "note": ""
  },
  {
   "property": "C62",
   "status": "proved",
   "theorems": [
    "H2.Kec.C62_capacity",
    "H2.Kec.C62_complete",
    "H2.Kec.C62_fixed",
    "H2.Kec.C62_cells",
    "H2.Kec.C62_clean",
    "H2.Kec.C62_hash_forged",
    "H2.Kec.C62_hash_forged_params",
    "H2.Kec.C62_length_forged",
    "H2.KC.C62_component",
    "H2.KC.C62_table",
    "H2.KC.C62_table_forged"
   ],
   "note": ""
  },
  {
   "property": "C63",
   "status": "proved",
   "theorems": [
    "H2.C63_generators",
    "H2.C63_frobenius_map",
    "H2.C63_pow",
    "H2.C63_cyclotomic_pow",
    "H2.C63_easy_part",
    "H2.C63_final_exp",
    "H2.C63_final_exp_one",
    "H2.C63_final_exp_eq_one",
    "H2.C63_final_exp_wf"
   ],
   "note": ""
  },
  {
   "property": "C64",
   "status": "proved",
   "theorems": [
    "H2.C64_generators",
    "H2.C64_miller_loop",
    "H2.C64_multi_miller_loop",
    "H2.C64_pairing",
    "H2.C64_pairing_eq_one",
    "H2.C64_pairing_wf",
    "H2.C64_pairing_check",
    "H2.C64_spec",
    "H2.C64_example"
   ],
   "note": ""
  },
  {
   "property": "C65",
   "status": "proved",
   "theorems": [
    "H2.C65_bls_points",
    "H2.C65_bls_accept",
    "H2.C65_bls_reject",
    "H2.C65_bls_complete",
    "H2.C65_bls_returns",
    "H2.C65_bls_panics"
   ],
   "note": ""
  },
  {
   "property": "C66",
   "status": "proved",
   "theorems": [
    "H2.C66_load",
    "H2.C66_no_carry",
    "H2.C66_carry_mod",
    "H2.C66_check_carry_mod_to_zero",
    "H2.C66_mul",
    "H2.C66_divide",
    "H2.C66_neg_divide",
    "H2.C66_negate",
    "H2.C66_enforce_less_than",
    "H2.C66_predicates",
    "H2.C66_assert_equal",
    "H2.C66_select",
    "H2.C66_range_check",
    "H2.C66_is_less_than_p"
   ],
   "note": ""
  },
  {
   "property": "C67",
   "status": "proved",
   "theorems": [
    "H2.C67_add_sub_unequal",
    "H2.C67_double",
    "H2.C67_double_and_add_unequal",
    "H2.C67_sub_strict",
    "H2.C67_negate",
    "H2.C67_select",
    "H2.C67_load",
    "H2.C67_is_on_curve_or_infinity",
    "H2.C67_is_equal",
    "H2.C67_sum",
    "H2.C67_unique"
   ],
   "note": ""
  },
  {
   "property": "C68",
   "status": "proved",
   "theorems": [
    "H2.C68_multi_scalar_multiply",
    "H2.C68_scalar_multiply",
    "H2.C68_fixed_base",
    "H2.C68_scalar_multiply_secp256k1"
   ],
   "note": ""
  },
  {
   "property": "C69",
   "status": "proved",
   "theorems": [
    "H2.C69_orders"
   ],
   "note": ""
  },
  {
   "property": "C70",
   "status": "proved",
   "theorems": [
    "H2.C70_ecdsa",
    "H2.C70_schnorr",
    "H2.C70_ecdsa_secp256k1",
    "H2.C70_schnorr_secp256k1"
   ],
   "note": ""
  },
  {
   "property": "C71",
   "status": "proved",
   "theorems": [
    "H2.Phys.C71_sound",
    "H2.Phys.C71_complete",
    "H2.Phys.C71_succeeds",
    "H2.Phys.C71_table_panics"
   ],
   "note": ""
  },
  {
   "property": "C72",
   "status": "proved",
   "theorems": [
    "H2.C72_field_shape",
    "H2.C72_field_prover",
    "H2.C72_ecc_shape",
    "H2.C72_ecc_prover",
    "H2.C72_sig_shape",
    "H2.C72_sig_prover",
    "H2.C72_concrete",
    "H2.C72_msm_par_shape",
    "H2.C72_msm_par_prover",
    "H2.C72_pools_meet",
    "H2.PairCfg.C72_pairing_shape",
    "H2.PairCfg.C72_pairing_prover",
    "H2.PairCfg.C72_bls",
    "H2.PairCfg.C72_bn254_deg"
   ],
   "note": ""
  },
  {
   "property": "C73",
   "status": "proved",
   "theorems": [
    "H2.C73_multi_exp_par",
    "H2.C73_variable_base_msm",
    "H2.C73_fixed_base_msm_par",
    "H2.C73_variable_base_msm_secp256k1"
   ],
   "note": ""
  },
  {
   "property": "C74",
   "status": "proved",
   "theorems": [
    "H2.C74_fp2_load",
    "H2.C74_fp2_mul",
    "H2.C74_fp2_no_carry",
    "H2.C74_fp2_divide",
    "H2.C74_fp2_predicates",
    "H2.C74_fp2_select",
    "H2.C74_fp2_conjugate",
    "H2.C74_fp12_load",
    "H2.C74_fp12_mul",
    "H2.C74_fp12_divide",
    "H2.C74_fp12_predicates",
    "H2.C74_fp12_select",
    "H2.C74_g2"
   ],
   "note": ""
  },
  {
   "property": "C75",
   "status": "proved",
   "theorems": [
    "H2.C75_frobenius_map",
    "H2.C75_pow",
    "H2.C75_cyclotomic_pow",
    "H2.C75_decompress",
    "H2.C75_decompress_only",
    "H2.C75_easy_part",
    "H2.C75_final_exp",
    "H2.C75_miller_loop",
    "H2.C75_multi_miller_loop",
    "H2.C75_pairing",
    "H2.C75_pairing_check",
    "H2.C75_pairing_check_self",
    "H2.C75_bls",
    "H2.C75_example",
    "H2.C75_bls_example",
    "H2.C75_generators",
    "H2.C75_pairing_generators"
   ],
   "note": ""
  },
  {
   "property": "C76",
   "status": "proved",
   "theorems": [
    "H2.C76_program",
    "H2.C76_new",
    "H2.C76_context",
    "H2.C76_gate_arith",
    "H2.C76_gate_lists",
    "H2.C76_range",
    "H2.C76_safe_types",
    "H2.C76_poseidon",
    "H2.C76_field",
    "H2.C76_ecc",
    "H2.C76_msm_par",
    "H2.C76_sig",
    "H2.PairCfg.C76_pairing",
    "H2.C76_circuit_sound",
    "H2.C76_columns_suffice",
    "H2.C76_pool_program",
    "H2.C76_select_dangling",
    "H2.C76_demo"
   ],
   "note": ""
  },
  {
   "property": "C77",
   "status": "proved",
   "theorems": [
    "H2.C77_proof_accepted",
    "H2.C77_accepted_sound",
    "H2.C77_square_circuit"
   ],
   "note": ""
  },
  {
   "property": "C78",
   "status": "proved",
   "theorems": [
    "H2.Bld.C78_tags_distinct",
    "H2.Bld.C78_context_identity",
    "H2.Bld.C78_constraints_kept",
    "H2.Bld.C78_lookups_kept",
    "H2.Bld.C78_columns_match",
    "H2.Bld.C78_circuit_determined",
    "H2.Bld.C78_synthesis_sound",
    "H2.Bld.C78_unknown_not_passed_on",
    "H2.Bld.C78_later_phases_dropped",
    "H2.Bld.C78_setters_panic"
   ],
   "note": ""
  },
  {
   "property": "C79",
   "status": "proved",
   "theorems": [
    "H2.Bld.C79_synthesize_again",
    "H2.Bld.C79_synthesize_again_exact",
    "H2.Bld.C79_same_satisfaction"
   ],
   "note": ""
  },
  {
   "property": "C80",
   "status": "proved",
   "theorems": [
    "H2.Bld.C80_clear_then_rebuild",
    "H2.Bld.C80_clear_same_circuit",
    "H2.Bld.C80_stale_break_points"
   ],
   "note": ""
  },
  {
   "property": "C81",
   "status": "proved",
   "theorems": [
    "H2.Bld.C81_builder_proof_accepted",
    "H2.Bld.C81_builder_accepted_sound",
    "H2.Bld.C81_keygen_succeeds",
    "H2.Bld.C81_square_circuit"
   ],
   "note": ""
  },
  {
   "property": "C82",
   "status": "proved",
   "theorems": [
    "H2.Bld.C82_public_columns",
    "H2.Bld.C82_parameters",
    "H2.Bld.C82_break_points",
    "H2.Bld.C82_prover_records_nothing",
    "H2.Bld.C82_calculate_params"
   ],
   "note": ""
  },
  {
   "property": "C83",
   "status": "proved",
   "theorems": [
    "H2.Ext.C83_external_cells",
    "H2.Ext.C83_external_value",
    "H2.Ext.C83_external_sound",
    "H2.Ext.C83_external_complete",
    "H2.Ext.C83_mock_panics",
    "H2.Ext.C83_mock_not_detected",
    "H2.Ext.C83_clear_reuses",
    "H2.Ext.C83_schedule_dependent"
   ],
   "note": ""
  },
  {
   "property": "C84",
   "status": "proved",
   "theorems": [
    "H2.KC.C84_sound",
    "H2.KC.C84_proof_accepted",
    "H2.KC.C84_mock",
    "H2.KC.C84_keygen_succeeds",
    "H2.KC.C84_pipeline"
   ],
   "note": ""
  },
  {
   "property": "C85",
   "status": "proved",
   "theorems": [
    "H2.Zk.C85_from_bytes_value",
    "H2.Zk.C85_from_bytes_expr",
    "H2.Zk.C85_expr_value",
    "H2.Zk.C85_logic",
    "H2.Zk.C85_word_conversions",
    "H2.Zk.C85_word_injective",
    "H2.Zk.C85_eth_types",
    "H2.Zk.C85_to_scalar",
    "H2.Zk.C85_to_word",
    "H2.Zk.C85_to_word_four",
    "H2.Zk.C85_word_ops",
    "H2.Zk.C85_mul_unchecked",
    "H2.Zk.C85_word_eq"
   ],
   "note": ""
  },
  {
   "property": "C86",
   "status": "proved",
   "theorems": [
    "H2.Zk.C86_gate_iff",
    "H2.Zk.C86_gate_total",
    "H2.Zk.C86_nested"
   ],
   "note": ""
  },
  {
   "property": "C87",
   "status": "proved",
   "theorems": [
    "H2.C87_ecdsa_sound",
    "H2.C87_ecdsa_proof_accepted",
    "H2.C87_keygen_succeeds",
    "H2.C87_pipeline"
   ],
   "note": ""
  },
  {
   "property": "C88",
   "status": "proved",
   "theorems": [
    "H2.C88_schnorr_sound",
    "H2.C88_schnorr_proof_accepted",
    "H2.C88_keygen_succeeds",
    "H2.C88_pipeline"
   ],
   "note": ""
  },
  {
   "property": "C89",
   "status": "proved",
   "theorems": [
    "H2.C89_pairing_sound",
    "H2.C89_pairing_proof_accepted",
    "H2.C89_keygen_succeeds",
    "H2.C89_pipeline"
   ],
   "note": ""
  },
  {
   "property": "C90",
   "status": "proved",
   "theorems": [
    "H2.C90_bls_valid_reported_invalid",
    "H2.C90_bls_valid_reported_invalid_instance",
    "H2.C90_fp_divide_unsafe",
    "H2.C90_fp2_divide_unsafe",
    "H2.C90_fp12_divide_unsafe",
    "H2.C90_easy_part_of_zero",
    "H2.C90_decompress_of_one",
    "H2.C90_decompress_of_one_injective",
    "H2.C90_final_exp_not_determined"
   ],
   "note": ""
  },
  {
   "property": "C91",
   "status": "proved",
   "theorems": [
    "H2.Bld.C91_independent",
    "H2.Bld.C91_deep_clone",
    "H2.Bld.C91_new",
    "H2.Bld.C91_lineage",
    "H2.Bld.C91_clone_shares",
    "H2.Bld.C91_set_copy_manager",
    "H2.Bld.C91_fresh_copy_manager",
    "H2.Bld.C91_foreign_range_chip",
    "H2.Bld.C91_set_copy_manager_drops",
    "H2.Bld.C91_foreign_range_chip_unchecked",
    "H2.Bld.C91_clone_panics"
   ],
   "note": ""
  },
  {
   "property": "C92",
   "status": "proved",
   "theorems": [
    "H2.Sha.C92_chain_sound",
    "H2.Sha.C92_chain_complete",
    "H2.Sha.C92_alone_sound",
    "H2.Sha.C92_alone_window",
    "H2.Sha.C92_alone_forged",
    "H2.Sha.C92_alone_not_determined",
    "H2.Sha.C92_straddle",
    "H2.Sha.C92_misaligned",
    "H2.Sha.C92_alone_complete"
   ],
   "note": ""
  },
  {
   "property": "C93",
   "status": "proved",
   "theorems": [
    "H2.C93_load_constant_uint",
    "H2.C93_proper_iff",
    "H2.C93_completes",
    "H2.C93_is_zero_wrong",
    "H2.C93_instance"
   ],
   "note": ""
  },
  {
   "property": "C94",
   "status": "proved",
   "theorems": [
    "H2.C94_is_soft_zero",
    "H2.C94_is_soft_nonzero",
    "H2.C94_is_zero",
    "H2.C94_assert_equal",
    "H2.C94_assert_equal_zip",
    "H2.C94_zip_eq_panics",
    "H2.C94_empty",
    "H2.C94_soft_completes",
    "H2.C94_instance"
   ],
   "note": ""
  },
  {
   "property": "C95",
   "status": "proved",
   "theorems": [
    "H2.Kec.C95_layout_large",
    "H2.Kec.C95_free_large",
    "H2.Kec.C95_words_forged_large",
    "H2.Kec.C95_words_forged",
    "H2.Kec.C95_message_forged",
    "H2.Kec.C95_any_message",
    "H2.Kec.C95_params",
    "H2.KC.C95_table_forged"
   ],
   "note": ""
  }
 ]
}