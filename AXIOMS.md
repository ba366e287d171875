# Axioms of each theorem in MANIFEST.json

Output of `#print axioms`.

| theorem | axioms |
|---|---|
| `Abe.C01_share_recover_inverse` | propext, Classical.choice, Quot.sound |
| `Abe.C01_text_share_recover` | propext, Classical.choice, Quot.sound |
| `Abe.C02_recover_iff_satisfied` | propext, Classical.choice, Quot.sound |
| `Abe.C02_text_recover_refused` | propext, Classical.choice, Quot.sound |
| `Abe.C03_check_decides_formula` | propext, Classical.choice, Quot.sound |
| `Abe.C04_check_leaves_no_trace` | propext, Classical.choice, Quot.sound |
| `Abe.C05_later_calls_repeat_first_violated` | propext, Classical.choice, Quot.sound |
| `Abe.C05_single_attribute_partial` | propext, Classical.choice, Quot.sound |
| `Abe.C06_unsatisfying_views_hide_secret` | propext, Classical.choice, Quot.sound |
| `Abe.C07_one_row_per_leaf_partial` | propext, Classical.choice, Quot.sound |
| `Abe.C07_one_row_per_leaf_text_partial` | propext, Classical.choice, Quot.sound |
| `Abe.C07_lost_share_violated` | propext, Classical.choice, Quot.sound |
| `Abe.C08_reuse_share_partial` | propext, Quot.sound |
| `Abe.C08_reuse_recover_partial` | propext, Quot.sound |
| `Abe.C08_no_repeats_stays_clean_partial` | propext, Classical.choice, Quot.sound |
| `Abe.C08_reuse_violated` | propext, Classical.choice, Quot.sound |
| `Abe.C09_narrow_and_partial` | propext, Classical.choice, Quot.sound |
| `Abe.C09_three_input_and_violated` | propext, Classical.choice, Quot.sound |
| `Abe.C09_wide_and_factor` | propext, Classical.choice, Quot.sound |
| `Abe.C09_wide_and_violated` | propext, Classical.choice, Quot.sound |
| `Abe.C09_exact_width` | propext, Classical.choice, Quot.sound |
| `Abe.C10_access_is_monotone` | propext, Classical.choice, Quot.sound |
| `Abe.C10_formula_monotone` | propext, Classical.choice, Quot.sound |
| `Abe.C11_only_held_attributes` | propext, Classical.choice, Quot.sound |
| `Abe.C12_copy_same_formula` | propext, Quot.sound |
| `Abe.C12_copy_shares_alike_partial` | propext, Classical.choice, Quot.sound |
| `Abe.C12_copy_repeats_violated` | propext, Classical.choice, Quot.sound |
| `Abe.C13_accepts_iff_derivable` | propext, Classical.choice, Quot.sound |
| `Abe.C13_meaning` | propext, Classical.choice, Quot.sound |
| `Abe.C13_every_formula_has_a_text` | propext, Classical.choice, Quot.sound |
| `Abe.C14_malformed_never_a_policy` | propext, Classical.choice, Quot.sound |
| `Abe.C14_malformed_gives_null` | propext, Classical.choice, Quot.sound |
| `Abe.C14_empty` | propext, Quot.sound |
| `Abe.C14_trailing_operator` | propext, Classical.choice, Quot.sound |
| `Abe.C15_whole_text_partial` | propext, Classical.choice, Quot.sound |
| `Abe.C15_nul_hides_the_rest_violated` | propext, Classical.choice, Quot.sound |
| `Abe.C16_print_parse_partial` | propext, Classical.choice, Quot.sound |
| `Abe.C16_bracket_violated` | propext, Classical.choice, Quot.sound |
| `Abe.C16_numeric_violated` | propext, Classical.choice, Quot.sound |
| `Abe.C17_add_to_root_partial` | propext, Classical.choice, Quot.sound |
| `Abe.C17_nul_violated` | propext, Classical.choice, Quot.sound |
| `Abe.C17_attribute_text_violated` | propext, Classical.choice, Quot.sound |
| `Abe.C18_distinct_labels_partial` | propext, Classical.choice, Quot.sound |
| `Abe.C18_percent_violated` | propext, Classical.choice, Quot.sound |
| `Abe.C18_colon_violated` | propext, Classical.choice, Quot.sound |
| `Abe.C19_less_than` | propext, Classical.choice, Quot.sound |
| `Abe.C20_greater_than` | propext, Classical.choice, Quot.sound |
| `Abe.C21_at_most` | propext, Classical.choice, Quot.sound |
| `Abe.C21_at_least` | propext, Classical.choice, Quot.sound |
| `Abe.C22_equal` | propext, Quot.sound |
| `Abe.C23_open_range` | propext, Classical.choice, Quot.sound |
| `Abe.C23_closed_range` | propext, Classical.choice, Quot.sound |
| `Abe.C24_width_mismatch` | propext, Quot.sound |
| `Abe.C24_mixed_range` | propext, Quot.sound |
| `Abe.C25_comparisons_defined` | propext, Classical.choice, Quot.sound |
| `Abe.C25_undefined_iff` | propext, Classical.choice, Quot.sound |
| `Abe.C25_date_violated` | propext, Classical.choice, Quot.sound |
| `Abe.C26_date_condition_partial` | propext, Classical.choice, Quot.sound |
| `Abe.C26_date_range_partial` | propext, Classical.choice, Quot.sound |
| `Abe.C26_date_text_partial` | propext, Classical.choice, Quot.sound |
| `Abe.C26_prefix_time_violated` | propext, Classical.choice, Quot.sound |
| `Abe.C26_unknown_month_violated` | propext, Classical.choice, Quot.sound |
| `Abe.C27_one_value_partial` | propext, Classical.choice, Quot.sound |
| `Abe.C27_two_values_violated` | propext, Classical.choice, Quot.sound |
| `Abe.C28_self_match_partial` | propext, Classical.choice, Quot.sound |
| `Abe.C28_colon_violated` | propext, Classical.choice, Quot.sound |
| `Abe.C29_compact_round_trip` | propext, Classical.choice, Quot.sound |
| `Abe.C29_added_attribute_violated` | propext, Quot.sound |
| `Abe.C30_hex_roundtrip` | propext, Quot.sound |
| `Abe.C30_hex_rejects` | propext, Quot.sound |
| `Abe.C30_hex_accepts` | propext, Quot.sound |
| `Abe.C31_base64_roundtrip` | propext, Classical.choice, Quot.sound |
| `Abe.C32_pack_roundtrip` | propext, Quot.sound |
| `Abe.C32_pack_roundtrip_into` | propext, Quot.sound |
| `Abe.C32_ints_roundtrip` | propext, Quot.sound |
| `Abe.C33_smartPack_roundtrip_partial` | propext, Quot.sound |
| `Abe.C33_smartPack_violated` | propext, Quot.sound |
| `Abe.C34_serialize_roundtrip_partial` | propext, Quot.sound |
| `Abe.C34_serialize_violated` | propext |
| `Abe.C34_deserialize_malformed` | propext, Quot.sound |
| `Abe.C35_xor_involution` | propext, Classical.choice, Quot.sound |
| `Abe.C35_xor_spec` | propext, Classical.choice, Quot.sound |
| `Abe.C35_xor_empty_mask_ub` | propext, Quot.sound |
| `Abe.C36_eq_iff` | propext, Classical.choice, Quot.sound |
| `Abe.C37_decoders_in_bounds` | propext, Classical.choice, Quot.sound |
| `Abe.C37_smartUnpack_in_bounds` | propext, Classical.choice, Quot.sound |
| `Abe.C37_ints_in_bounds` | propext, Classical.choice, Quot.sound |
| `Abe.C38_plus_string_violated` | propext |
| `Abe.C38_plus_string_partial` | propext |
| `Abe.C38_plus` | propext, Quot.sound |
| `Abe.C39_container_round_trip_partial` | propext, Classical.choice, Quot.sound |
| `Abe.C39_read_into_existing_partial` | propext, Classical.choice, Quot.sound |
| `Abe.C39_empty_violated` | propext, Quot.sound |
| `Abe.C39_empty_name_violated` | propext, Quot.sound |
| `Abe.C39_policy_violated` | propext, Quot.sound |
| `Abe.C39_reader_terminates` | propext, Classical.choice, Quot.sound |
| `Abe.C40_lookup_present_partial` | propext |
| `Abe.C40_delete_repairs_partial` | propext, Classical.choice, Quot.sound |
| `Abe.C40_failed_lookup_violated` | propext, Quot.sound |
| `Abe.C41_ciphertext_round_trip_partial` | propext, Classical.choice, Quot.sound |
| `Abe.C41_long_uid_violated` | propext, Classical.choice, Quot.sound |
| `Abe.C41_no_components_violated` | propext, Quot.sound |
| `Abe.C42_key_round_trip_partial` | propext, Classical.choice, Quot.sound |
| `Abe.C42_empty_list_violated` | propext, Quot.sound |
| `Abe.C43_container_equality_partial` | propext, Classical.choice, Quot.sound |
| `Abe.C43_same_names_partial` | propext, Classical.choice, Quot.sound |
| `Abe.C43_extra_names_violated` | propext, Quot.sound |
| `Abe.C43_bytes_violated` | propext, Classical.choice, Quot.sound |
| `Abe.C43_empty_right_violated` | propext |
| `Abe.C43_missing_name_violated` | propext, Quot.sound |
| `Abe.Scheme.C44_cp_decapsulation` | propext, Classical.choice, Quot.sound |
| `Abe.Scheme.C45_kp_decapsulation` | propext, Classical.choice, Quot.sound |
| `Abe.Scheme.C46_cp_round_trip` | propext, Classical.choice, Quot.sound |
| `Abe.Scheme.C46_kp_round_trip` | propext, Classical.choice, Quot.sound |
| `Abe.Scheme.C46_cp_texts` | propext, Classical.choice, Quot.sound |
| `Abe.Scheme.C46_kp_texts` | propext, Classical.choice, Quot.sound |
| `Abe.Scheme.C47_error_means_empty` | propext, Classical.choice, Quot.sound |
| `Abe.Scheme.C47_cp_unsatisfied` | propext, Classical.choice, Quot.sound |
| `Abe.Scheme.C47_kp_unsatisfied` | propext, Classical.choice, Quot.sound |
| `Abe.Scheme.C47_cp_end_to_end` | propext, Classical.choice, Quot.sound |
| `Abe.Scheme.C47_kp_end_to_end` | propext, Classical.choice, Quot.sound |
| `Abe.Scheme.C48_mask_repeats_violated` | propext, Quot.sound |
| `Abe.Scheme.C48_ciphertext_leaks_violated` | propext, Classical.choice, Quot.sound |
| `Abe.Scheme.C48_mask_partial` | propext, Quot.sound |
| `Abe.Scheme.C49_labels_collide_violated` | propext, Quot.sound |
| `Abe.Scheme.C49_component_lost_violated` | propext, Classical.choice, Quot.sound |
| `Abe.Scheme.C49_labels_partial` | propext, Quot.sound |
| `Abe.Sym.C50_key_data_violated` | propext, Classical.choice, Quot.sound |
| `Abe.Sym.C50_headers_partial` | propext, Classical.choice, Quot.sound |
| `Abe.Sym.C51_round_trip_partial` | propext, Classical.choice, Quot.sound |
| `Abe.Sym.C51_empty_violated` | propext, Classical.choice, Quot.sound |
| `Abe.Sym.C51_authentic` | propext, Classical.choice, Quot.sound |
| `Abe.Sym.C51_key_length` | propext |
| `Abe.Sym.C52_round_trip_partial` | propext, Classical.choice, Quot.sound |
| `Abe.Sym.C52_empty_violated` | propext, Classical.choice, Quot.sound |
| `Abe.Sym.C52_other_auth_data` | propext, Classical.choice, Quot.sound |
| `Abe.Sym.C52_authentic` | propext, Classical.choice, Quot.sound |
| `Abe.Stream.C53_chunks_partial` | propext, Quot.sound |
| `Abe.Stream.C53_round_trip_partial` | propext, Quot.sound |
| `Abe.Stream.C53_tag_checked` | propext, Classical.choice, Quot.sound |
| `Abe.Stream.C53_long_violated` | propext, Quot.sound |
| `Abe.StreamCtx.C53_context_round_trip_partial` | propext, Classical.choice, Quot.sound |
| `Abe.Stream.C54_any_order_defined_partial` | propext, Quot.sound |
| `Abe.Stream.C54_misplaced_partial` | propext, Quot.sound |
| `Abe.Stream.C54_silent_violated` | propext, Quot.sound |
| `Abe.StreamCtx.C55_any_tag_violated` | propext, Classical.choice, Quot.sound |
| `Abe.StreamCtx.C55_stream_reports_partial` | propext, Classical.choice, Quot.sound |
| `Abe.Sym.C56_plain_round_trip_partial` | propext, Quot.sound |
| `Abe.Sym.C56_named_round_trip_partial` | propext, Classical.choice, Quot.sound |
| `Abe.Sym.C56_no_data_violated` | propext |
| `Abe.StreamCtx.C57_reload_violated` | propext, Classical.choice, Quot.sound |
| `Abe.StreamCtx.C57_direct_export_partial` | propext, Quot.sound |
| `Abe.Kdf.C58_bytes_partial` | propext, Classical.choice, Quot.sound |
| `Abe.Kdf.C58_short_keys_partial` | propext, Classical.choice, Quot.sound |
| `Abe.Kdf.C58_zero_bytes_violated` | propext, Classical.choice, Quot.sound |
| `Abe.Kdf.C58_huge_keys_violated` | propext, Quot.sound |
| `Abe.Kdf.C58_only_error` | propext, Classical.choice, Quot.sound |
| `Abe.Kdf.C59_kdf2` | propext |
| `Abe.Kdf.C59_hkdf_output` | propext, Quot.sound |
| `Abe.Kdf.C59_hkdf_length` | propext, Quot.sound |
| `Abe.Kdf.C59_hkdf_prefix` | propext, Quot.sound |
| `Abe.Kdf.C59_hkdf_salt` | propext, Quot.sound |
| `Abe.Kdf.C59_rfc5869_violated` | propext, Quot.sound |
| `Abe.Kdf.C59_counter_violated` | propext, Quot.sound |
| `Abe.Kdf.C59_export_key` | propext, Quot.sound |
| `Abe.KeyStore.C60_check_without_lookups_partial` | propext |
| `Abe.KeyStore.C60_lookup_creates_violated` | propext |
| `Abe.KeyStore.C60_validate_creates_violated` | propext |
| `Abe.KeyStore.C61_keystore_is_a_map` | propext |
| `Abe.KeyMgr.C62_delete_violated` | propext, Classical.choice, Quot.sound |
| `Abe.KeyMgr.C62_reported_partial` | propext, Classical.choice, Quot.sound |
| `Abe.KeyMgr.C63_get_latest` | propext, Classical.choice, Quot.sound |
| `Abe.KeyMgr.C63_search_own` | propext, Classical.choice, Quot.sound |
| `Abe.KeyMgr.C64_other_ids_partial` | propext, Classical.choice, Quot.sound |
| `Abe.KeyMgr.C64_other_user_violated` | propext, Classical.choice, Quot.sound |
| `Abe.KeyMgr.C64_prefix_violated` | propext, Classical.choice, Quot.sound |
| `Abe.KeyMgr.C65_search_sound` | propext, Classical.choice, Quot.sound |
| `Abe.KeyMgr.C65_search_complete_partial` | propext, Classical.choice, Quot.sound |
| `Abe.KeyMgr.C65_empty_id_violated` | propext, Classical.choice, Quot.sound |
| `Abe.KeyMgr.C65_search_keeps_keys` | propext, Classical.choice, Quot.sound |
| `Abe.KeyMgr.C66_cheapest` | propext, Classical.choice, Quot.sound |
| `Abe.KeyMgr.C67_failed_store_violated` | propext, Quot.sound |
| `Abe.KeyMgr.C67_failed_store_partial` | propext, Classical.choice, Quot.sound |
| `Abe.C68_hash_partial` | propext, Classical.choice, Quot.sound |
| `Abe.C68_substring_violated` | propext, Classical.choice, Quot.sound |
| `Abe.C68_keyword_violated` | propext, Classical.choice, Quot.sound |
| `Abe.C68_null_violated` | propext, Quot.sound |
| `Abe.C68_terminates` | propext, Classical.choice, Quot.sound |
| `Abe.C68_replace_loop` | propext, Classical.choice, Quot.sound |
| `Abe.Lib.C69_double_init` | propext, Quot.sound |
| `Abe.Lib.C69_pairing` | propext, Quot.sound |
| `Abe.Lib.C69_failed_math_violated` | propext, Classical.choice, Quot.sound |
| `Abe.Lib.C69_partial` | propext, Classical.choice, Quot.sound |
| `Abe.Lib.C69_thread_shutdown_violated` | none |
| `Abe.C70_accepted` | propext |
| `Abe.C70_names` | propext |
| `Abe.C70_round_trip_partial` | propext |
| `Abe.C70_round_trip_violated` | propext, Classical.choice, Quot.sound |
| `Abe.C70_key_types` | propext, Quot.sound |
| `Abe.C70_inputs` | propext, Quot.sound |
| `Abe.C71_valid_bits` | propext, Quot.sound |
| `Abe.C72_single_attribute_partial` | propext, Quot.sound |
| `Abe.C72_release_build_violated` | propext, Classical.choice, Quot.sound |
| `Abe.C73_value_partial` | propext, Quot.sound |
| `Abe.C73_tag_checked_partial` | propext, Classical.choice, Quot.sound |
| `Abe.C73_width_violated` | propext, Classical.choice, Quot.sound |
| `Abe.C73_tag_unchecked_violated` | propext, Quot.sound |
| `Abe.C74_accepts_iff_derivable_partial` | propext, Classical.choice, Quot.sound |
| `Abe.C74_list_contents` | propext, Classical.choice, Quot.sound |
| `Abe.C74_double_bar_violated` | propext, Quot.sound |
| `Abe.C75_always_equal_violated` | propext, Classical.choice, Quot.sound |
| `Abe.C75_witness_violated` | propext |
| `Abe.C75_answer_partial` | propext, Classical.choice, Quot.sound |
| `Abe.C76_scanner_rules` | propext, Quot.sound |
| `Abe.C76_scanner_inverse` | propext, Classical.choice, Quot.sound |
| `Abe.KeyMgr.C77_prefix_ids_violated` | propext, Classical.choice, Quot.sound |
| `Abe.KeyMgr.C77_prefix_ids_partial` | propext, Classical.choice, Quot.sound |
| `Abe.KeyMgr.C78_other_schemes_violated` | propext, Classical.choice, Quot.sound |
| `Abe.KeyMgr.C78_held_partial` | propext, Classical.choice, Quot.sound |
| `Abe.KeyMgr.C78_undefined_iff` | propext, Classical.choice, Quot.sound |
| `Abe.KeyMgr.C79_unique_inputs` | propext, Classical.choice, Quot.sound |
| `Abe.KeyMgr.C79_no_scheme` | propext, Quot.sound |
| `Abe.KeyMgr.C79_accepted_iff` | propext, Classical.choice, Quot.sound |
| `Abe.Sym.C80_short_key_violated` | propext, Quot.sound |
| `Abe.Sym.C80_encrypt_defined_partial` | propext, Classical.choice, Quot.sound |
| `Abe.Sym.C80_accepted_iff` | propext, Classical.choice, Quot.sound |
| `Abe.Sym.C80_no_key_violated` | propext, Quot.sound |
| `Abe.StreamCtx.C81_empty_blob_violated` | propext |
| `Abe.StreamCtx.C81_histories_defined_partial` | propext, Quot.sound |
| `Abe.Stream.C82_short_tag_violated` | propext, Classical.choice, Quot.sound |
| `Abe.Stream.C82_prefix_partial` | propext, Quot.sound |
| `Abe.Stream.C83_reuse_violated` | propext, Quot.sound |
| `Abe.Stream.C83_default_partial` | propext, Quot.sound |
| `Abe.Sym.C84_silent_failure_violated` | propext, Classical.choice, Quot.sound |
| `Abe.Sym.C84_nonempty_partial` | propext, Quot.sound |
| `Abe.Sym.C85_empty_iv_violated` | propext, Quot.sound |
| `Abe.Sym.C85_handle_defined_partial` | propext, Classical.choice, Quot.sound |
| `Abe.Sym.C85_handler_defined_partial` | propext, Classical.choice, Quot.sound |
| `Abe.Flex.C86_less_than_partial` | propext, Classical.choice, Quot.sound |
| `Abe.Flex.C86_greater_than_partial` | propext, Classical.choice, Quot.sound |
| `Abe.Flex.C86_low_bits_violated` | propext, Classical.choice, Quot.sound |
| `Abe.Flex.C86_fitting_values_partial` | propext, Classical.choice, Quot.sound |
| `Abe.Flex.C86_equal` | propext, Quot.sound |
| `Abe.Flex.C86_not_from_texts` | propext, Quot.sound |
| `Abe.RNode.C87_defined` | propext, Quot.sound |
| `Abe.RNode.C87_violated` | propext, Quot.sound |
| `Abe.RNode.C87_policy_partial` | propext, Quot.sound |
| `Abe.Scheme.C88_encapsulated_length` | propext, Classical.choice, Quot.sound |
| `Abe.Scheme.C88_decapsulated_length` | propext, Classical.choice, Quot.sound |
| `Abe.Cpa.C89_generateParams` | propext, Classical.choice, Quot.sound |
| `Abe.Cpa.C89_generateKey_input` | propext, Classical.choice, Quot.sound |
| `Abe.Cpa.C89_generateKey_missing` | propext, Classical.choice, Quot.sound |
| `Abe.Cpa.C89_encrypt` | propext, Classical.choice, Quot.sound |
| `Abe.Cpa.C89_decrypt` | propext, Classical.choice, Quot.sound |
| `Abe.Cpa.C89_exportKey` | propext, Quot.sound |
| `Abe.Cpa.C90_transparent_partial` | propext, Classical.choice, Quot.sound |
| `Abe.Cpa.C90_master_partial` | propext, Classical.choice, Quot.sound |
| `Abe.Cpa.C90_cp_texts_partial` | propext, Classical.choice, Quot.sound |
| `Abe.Cpa.C90_kp_texts_partial` | propext, Classical.choice, Quot.sound |
| `Abe.Cpa.C90_empty_list_violated` | propext, Classical.choice, Quot.sound |
| `Abe.Cpa.C91_keygen_partial` | propext, Classical.choice, Quot.sound |
| `Abe.Cpa.C91_load_partial` | propext, Quot.sound |
| `Abe.Cpa.C91_keygen_violated` | propext, Classical.choice, Quot.sound |
| `Abe.Cpa.C91_keygen_reachable_violated` | propext, Classical.choice, Quot.sound |
| `Abe.Cpa.C91_export_violated` | propext, Classical.choice, Quot.sound |
| `Abe.Cpa.C92_codes_partial` | propext, Quot.sound |
| `Abe.Cpa.C92_short_violated` | propext, Quot.sound |
| `Abe.Cpa.C92_null_header_violated` | propext, Quot.sound |
| `Abe.C93_stack_is_recursion` | propext, Classical.choice, Quot.sound |
| `Abe.C93_stack_decides_formula` | propext, Classical.choice, Quot.sound |
| `Abe.C93_other_gate_undefined` | propext, Classical.choice, Quot.sound |
| `Abe.Pke.C94_round_trip` | propext, Classical.choice, Quot.sound |
| `Abe.Pke.C94_across_bytes` | propext, Classical.choice, Quot.sound |
| `Abe.Pke.C95_accepts_iff` | propext, Classical.choice, Quot.sound |
| `Abe.Pke.C95_tampering_reported` | propext, Classical.choice, Quot.sound |
| `Abe.Pke.C95_no_output_on_error` | propext, Quot.sound |
| `Abe.Pke.C95_empty_iv_violated` | propext, Quot.sound |
| `Abe.Pke.C96_encrypt_codes` | propext, Quot.sound |
| `Abe.Pke.C96_decrypt_codes` | propext, Quot.sound |
| `Abe.Pke.C96_load_codes` | propext, Quot.sound |
| `Abe.Pke.C96_load_before_params_violated` | propext, Quot.sound |
| `Abe.Pke.C96_short_key_violated` | propext, Quot.sound |
| `Abe.C97_share_is_field_computation` | propext, Classical.choice, Quot.sound |
| `Abe.C97_recover_is_field_computation` | propext, Classical.choice, Quot.sound |
| `Abe.C97_share_recover` | propext, Classical.choice, Quot.sound |
| `Abe.C97_shares_are_members` | propext, Classical.choice, Quot.sound |
| `Abe.C97_views_hide_secret` | propext, Classical.choice, Quot.sound |
| `Abe.C97_unreduced_secret_violated` | propext |
| `Abe.C98_ring_operations` | propext, Classical.choice, Quot.sound |
| `Abe.C98_division` | propext, Classical.choice, Quot.sound |
| `Abe.C98_equality_partial` | propext, Classical.choice, Quot.sound |
| `Abe.C98_unary` | propext, Classical.choice, Quot.sound |
| `Abe.C98_inverse_no_order_violated` | none |
| `Abe.C98_mixed_orders_violated` | none |
| `Abe.C98_no_order_violated` | propext |
| `Abe.C98_setFrom_new_object_violated` | none |
| `Abe.C98_value_equal_to_order_violated` | propext, Classical.choice, Quot.sound |
| `Abe.C98_deserialize_order_violated` | propext, Quot.sound |
| `Abe.C98_shift_violated` | propext |
| `Abe.C98_order_set_once` | propext |
| `Abe.C98_random_is_member` | propext |
| `Abe.C98_random_below_zp_partial` | propext |
| `Abe.C98_random_bound_with_order_violated` | none |
| `Abe.C98_random_other_order_violated` | propext, Quot.sound |
| `Abe.C98_prime` | propext |
| `Abe.C98_comparisons` | propext, Quot.sound |
| `Abe.C98_shift_right` | propext, Classical.choice, Quot.sound |
| `Abe.C98_compound_assignment` | propext, Classical.choice, Quot.sound |
| `Abe.C99_same_flag_partial` | propext, Quot.sound |
| `Abe.C99_other_flag_violated` | propext, Quot.sound |
| `Abe.C99_gt_any_flag` | propext, Quot.sound |
| `Abe.C99_gt_hash_depends_on_flag_violated` | propext, Quot.sound |
| `Abe.C99_flag_is_binary` | none |
| `Abe.C99_subtraction_violated` | propext |
| `Abe.C99_self_difference_violated` | propext |
| `Abe.C99_group_operators` | propext |
| `Abe.C100_nonzero_draws_violated` | propext, Quot.sound |
| `Abe.C100_bounded_leak_partial` | propext, Classical.choice, Quot.sound |
| `Abe.Cpa.C101_ciphertext` | propext, Classical.choice, Quot.sound |
| `Abe.Cpa.C101_key` | propext, Classical.choice, Quot.sound |
| `Abe.Cpa.C101_loaded_partial` | propext, Classical.choice, Quot.sound |
| `Abe.Cpa.C101_cast_violated` | propext, Classical.choice, Quot.sound |
| `Abe.Cpa.C102_cp` | propext, Classical.choice, Quot.sound |
| `Abe.Cpa.C102_kp` | propext, Classical.choice, Quot.sound |
| `Abe.Cpa.C102_cp_texts` | propext, Classical.choice, Quot.sound |
| `Abe.Cpa.C102_kp_texts` | propext, Classical.choice, Quot.sound |
| `Abe.C103_created_iff` | propext |
| `Abe.C103_other_ids` | propext |
| `Abe.C104_distinct` | propext, Classical.choice, Quot.sound |
| `Abe.C104_codes_distinct` | propext |
| `Abe.C104_texts_partial` | propext, Classical.choice, Quot.sound |
| `Abe.C104_violated` | none |
| `Abe.C105_lists_partial` | none |
| `Abe.C105_violated` | propext |
| `Abe.C106_delete_partial` | propext, Classical.choice, Quot.sound |
| `Abe.C106_zeroize_violated` | none |
| `Abe.C107_active` | propext, Quot.sound |
| `Abe.C107_no_protection_violated` | propext, Quot.sound |
| `Abe.C107_pass_kept_violated` | propext |
| `Abe.C108_hash_key` | propext, Classical.choice, Quot.sound |
| `Abe.C108_hash_key_loaded_partial` | propext, Classical.choice, Quot.sound |
| `Abe.C108_hash_key_missing` | propext, Quot.sound |
| `Abe.C108_present_partial` | none |
| `Abe.C108_deleted_partial` | propext |
| `Abe.C108_delete_absent_violated` | propext |
| `Abe.C108_failed_decrypt_violated` | propext, Classical.choice, Quot.sound |
| `Abe.StreamCtx.C109_in_use` | propext |
| `Abe.StreamCtx.C109_fresh_partial` | propext |
| `Abe.StreamCtx.C109_delete` | propext |
| `Abe.StreamCtx.C109_failed_init_violated` | propext |
| `Abe.Pke.C110_round_trip` | propext, Classical.choice, Quot.sound |
| `Abe.Pke.C110_delete` | propext, Quot.sound |
| `Abe.C111_split` | propext, Quot.sound |
| `Abe.C111_round_trip_partial` | propext, Classical.choice, Quot.sound |
| `Abe.C111_empty_violated` | propext, Quot.sound |
| `Abe.C111_accepted_body` | propext, Classical.choice, Quot.sound |
| `Abe.C112_match` | propext, Classical.choice, Quot.sound |
| `Abe.C112_no_bar` | propext, Classical.choice, Quot.sound |
| `Abe.C112_str_partial` | propext, Classical.choice, Quot.sound |
| `Abe.C112_str_violated` | propext, Quot.sound |
| `Abe.C112_sync` | propext, Quot.sound |
| `Abe.C112_sync_violated` | propext, Quot.sound |
| `Abe.C112_constructor` | propext, Quot.sound |
| `Abe.C112_add_violated` | propext, Quot.sound |
| `Abe.Scheme.C113_cp_collusion` | propext, Classical.choice, Quot.sound |
| `Abe.Scheme.C113_kp_collusion` | propext, Classical.choice, Quot.sound |
| `Abe.Scheme.C113_cp_authorised` | propext, Classical.choice, Quot.sound |
| `Abe.Scheme.C113_kp_authorised` | propext, Classical.choice, Quot.sound |
| `Abe.KeyMgr.C114_programs` | propext, Classical.choice, Quot.sound |
| `Abe.KeyMgr.C114_linearizable` | propext, Quot.sound |
| `Abe.KeyMgr.C114_progress` | propext, Classical.choice, Quot.sound |
| `Abe.KeyMgr.C114_history` | propext, Classical.choice, Quot.sound |
| `Abe.KeyMgr.C114_store_races_violated` | propext, Quot.sound |
| `Abe.KeyMgr.C114_accessors_race_violated` | propext, Classical.choice, Quot.sound |
| `Abe.KeyMgr.C114_stores_not_linearizable_violated` | propext, Classical.choice, Quot.sound |
| `Abe.Scheme.C115_cp_indistinguishable` | propext, Classical.choice, Quot.sound |
| `Abe.Scheme.C115_kp_indistinguishable` | propext, Classical.choice, Quot.sound |
| `Abe.Scheme.C115_cp_authorised` | propext, Classical.choice, Quot.sound |
| `Abe.Scheme.C115_kp_authorised` | propext, Classical.choice, Quot.sound |
| `Abe.C116_buffering_transparent_partial` | propext, Classical.choice, Quot.sound |
| `Abe.C116_calls_deterministic` | propext, Quot.sound |
| `Abe.C116_sizes_irrelevant_partial` | propext, Classical.choice, Quot.sound |
| `Abe.C116_pieces_cover` | propext, Classical.choice, Quot.sound |
| `Abe.C116_short_texts_partial` | propext, Classical.choice, Quot.sound |
| `Abe.C116_long_piece_violated` | propext, Classical.choice, Quot.sound |
| `Abe.C117_values` | propext, Classical.choice, Quot.sound |
| `Abe.C117_null_export` | propext, Classical.choice, Quot.sound |
| `Abe.C117_exports_partial` | propext, Classical.choice, Quot.sound |
| `Abe.C117_master_key_violated` | propext, Classical.choice, Quot.sound |
| `Abe.C117_user_key_violated` | propext, Classical.choice, Quot.sound |
| `Abe.C117_ciphertext_violated` | propext, Classical.choice, Quot.sound |
| `Abe.C118_histories_defined_partial` | propext, Classical.choice, Quot.sound |
| `Abe.C118_codes_partial` | propext, Classical.choice, Quot.sound |
| `Abe.C118_exported_keys_partial` | propext, Classical.choice, Quot.sound |
| `Abe.C118_exported_ciphertexts_partial` | propext, Classical.choice, Quot.sound |
| `Abe.C118_hostile_params_violated` | propext, Classical.choice, Quot.sound |
| `Abe.C118_hostile_ciphertext_violated` | propext, Classical.choice, Quot.sound |
| `Abe.PH.C119_same_answers` | propext, Classical.choice, Quot.sound |
| `Abe.PH.C119_defined` | propext, Classical.choice, Quot.sound |
| `Abe.PH.C119_accepted_policy` | propext, Classical.choice, Quot.sound |
| `Abe.PH.C119_accepted_attributes` | propext, Classical.choice, Quot.sound |
| `Abe.PH.C119_rejected_partial` | propext, Classical.choice, Quot.sound |
| `Abe.PH.C119_rejected_attributes_partial` | propext, Classical.choice, Quot.sound |
| `Abe.PH.C119_dropped_policy_violated` | propext, Classical.choice, Quot.sound |
| `Abe.PH.C119_rejected_policy_violated` | propext, Quot.sound |
| `Abe.PH.C119_reserved_name_violated` | propext, Quot.sound |
| `Abe.Mem.C120_history` | propext, Classical.choice, Quot.sound |
| `Abe.Mem.C120_leak` | propext, Classical.choice, Quot.sound |
| `Abe.Mem.C120_nothing_left_partial` | propext, Classical.choice, Quot.sound |
| `Abe.Mem.C120_overwrite_violated` | propext, Classical.choice, Quot.sound |
| `Abe.Mem.C120_delete_violated` | propext, Classical.choice, Quot.sound |
| `Abe.Mem.C120_duplicate_violated` | propext, Quot.sound |
| `Abe.Mem.C120_buffers_violated` | propext, Classical.choice, Quot.sound |
| `Abe.Mem.C120_copy_violated` | propext, Classical.choice, Quot.sound |
| `Abe.Mem.C121_cp_key` | propext, Classical.choice, Quot.sound |
| `Abe.Mem.C121_repeated_violated` | propext, Classical.choice, Quot.sound |
| `Abe.Mem.C121_kp_key` | propext, Classical.choice, Quot.sound |
| `Abe.Mem.C121_encrypt` | propext, Classical.choice, Quot.sound |
| `Abe.Mem.C121_encrypt_leaks_violated` | propext, Classical.choice, Quot.sound |
| `Abe.Mem.C121_reuse_violated` | propext, Classical.choice, Quot.sound |
| `Abe.Evp.C122_stream` | propext, Classical.choice, Quot.sound |
| `Abe.Evp.C122_phase_partial` | propext, Classical.choice, Quot.sound |
| `Abe.Evp.C122_copy_violated` | propext, Quot.sound |
| `Abe.Evp.C122_context` | propext, Classical.choice, Quot.sound |
| `Abe.Evp.C122_context_partial` | propext, Classical.choice, Quot.sound |
| `Abe.Evp.C122_copied_context_violated` | propext, Quot.sound |
| `Abe.Evp.C122_messages` | propext, Quot.sound |
| `Abe.Evp.C122_tag_violated` | propext, Classical.choice, Quot.sound |
| `Abe.C123_history` | propext, Classical.choice, Quot.sound |
| `Abe.C123_decrypt_leaks_violated` | propext, Classical.choice, Quot.sound |
| `Abe.C123_hash_key_violated` | propext, Classical.choice, Quot.sound |
| `Abe.C123_careful_partial` | propext, Classical.choice, Quot.sound |
| `Abe.C124_programs` | propext, Classical.choice, Quot.sound |
| `Abe.C124_isolated` | propext, Quot.sound |
| `Abe.C124_documented_partial` | propext, Classical.choice, Quot.sound |
| `Abe.C124_missing_context_violated` | propext, Quot.sound |
| `Abe.C124_failed_thread_violated` | propext, Classical.choice, Quot.sound |
| `Abe.C124_init_violated` | propext |
| `Abe.C124_shutdown_violated` | propext |
| `Abe.C124_one_relic_violated` | propext |
| `Abe.C125_places` | propext, Classical.choice, Quot.sound |
| `Abe.C125_behind_tag` | propext, Classical.choice, Quot.sound |
| `Abe.C125_places_violated` | propext |
| `Abe.C125_overflow_violated` | propext, Classical.choice, Quot.sound |
| `Abe.C126_report` | propext, Classical.choice, Quot.sound |
| `Abe.C126_accepted` | propext, Classical.choice, Quot.sound |
| `Abe.C126_rejected_partial` | propext, Classical.choice, Quot.sound |
| `Abe.C126_silent_violated` | propext, Quot.sound |
| `Abe.C126_expected_violated` | propext, Quot.sound |
| `Abe.C127_size` | propext, Classical.choice, Quot.sound |
| `Abe.C127_copy_frames` | propext, Classical.choice, Quot.sound |
| `Abe.C127_print_frames` | propext, Classical.choice, Quot.sound |
| `Abe.C127_print_other` | propext |
| `Abe.C127_no_tree` | propext |
| `Abe.C127_enough_stack_partial` | propext, Classical.choice, Quot.sound |
| `Abe.C127_deep_policy_violated` | propext, Classical.choice, Quot.sound |
| `Abe.C127_delete_frames` | propext, Classical.choice, Quot.sound |
| `Abe.Cpa.C128_params` | propext, Classical.choice, Quot.sound |
| `Abe.Cpa.C128_cp_key` | propext, Classical.choice, Quot.sound |
| `Abe.Cpa.C128_kp_key` | propext, Classical.choice, Quot.sound |
| `Abe.Cpa.C128_ciphertext` | propext, Classical.choice, Quot.sound |
| `Abe.Cpa.C128_cp_texts` | propext, Classical.choice, Quot.sound |
| `Abe.Cpa.C128_kp_texts` | propext, Classical.choice, Quot.sound |
| `Abe.DateAll.C129_before_1970_violated` | propext, Classical.choice, Quot.sound |
| `Abe.C129_test` | propext, Classical.choice, Quot.sound |
| `Abe.C129_day_number_partial` | propext, Quot.sound |
| `Abe.C129_same_day_partial` | propext, Classical.choice, Quot.sound |
| `Abe.C129_condition_partial` | propext, Classical.choice, Quot.sound |
| `Abe.C129_range_partial` | propext, Classical.choice, Quot.sound |
| `Abe.C129_impossible_violated` | propext, Classical.choice, Quot.sound |
| `Abe.C129_range_violated` | propext, Classical.choice, Quot.sound |
| `Abe.Residue.C130_zeroize` | propext, Quot.sound |
| `Abe.Residue.C130_symkey_partial` | propext, Classical.choice, Quot.sound |
| `Abe.Residue.C130_longer_violated` | propext, Quot.sound |
| `Abe.Residue.C130_shorter_violated` | propext, Quot.sound |
| `Abe.Residue.C130_generated_violated` | propext, Quot.sound |
| `Abe.Residue.C130_wrapper_partial` | propext, Classical.choice, Quot.sound |
| `Abe.Residue.C130_encrypt_violated` | propext, Classical.choice, Quot.sound |
| `Abe.Residue.C130_decrypt_violated` | propext, Classical.choice, Quot.sound |
| `Abe.Residue.C130_aad_partial` | propext, Quot.sound |
| `Abe.Residue.C130_cipher_key_violated` | propext |
| `Abe.Residue.C130_unauthentic_violated` | propext, Quot.sound |
| `Abe.Authentic.C131_unaltered_partial` | propext, Classical.choice, Quot.sound |
| `Abe.Authentic.C131_header_violated` | propext, Classical.choice, Quot.sound |
| `Abe.Authentic.C131_forgery_violated` | propext, Classical.choice, Quot.sound |
| `Abe.Authentic.C131_attributes_violated` | propext, Classical.choice, Quot.sound |
| `Abe.Authentic.C131_cp_other_authority_violated` | propext, Classical.choice, Quot.sound |
| `Abe.Authentic.C131_kp_other_authority_violated` | propext, Classical.choice, Quot.sound |
| `Abe.Hiding.C132_hidden_partial` | propext, Classical.choice, Quot.sound |
| `Abe.Hiding.C132_every_ciphertext` | propext, Classical.choice, Quot.sound |
| `Abe.Hiding.C132_long_violated` | propext, Classical.choice, Quot.sound |
| `Abe.Leak.C133_results` | propext, Classical.choice, Quot.sound |
| `Abe.Leak.C133_comparison` | propext, Classical.choice, Quot.sound |
| `Abe.Leak.C133_reads_everything` | propext, Quot.sound |
| `Abe.Leak.C133_masking` | propext, Quot.sound |
| `Abe.Leak.C133_wiping` | propext |
| `Abe.Leak.C133_derivation` | propext, Quot.sound |
| `Abe.Leak.C133_exported_length_violated` | propext, Classical.choice, Quot.sound |
| `Abe.MaskSize.C134_quotient` | propext, Classical.choice, Quot.sound |
| `Abe.MaskSize.C134_derived_keys` | propext, Classical.choice, Quot.sound |
| `Abe.MaskSize.C134_mask_partial` | propext, Classical.choice, Quot.sound |
| `Abe.MaskSize.C134_defined_iff` | propext, Classical.choice, Quot.sound |
| `Abe.MaskSize.C134_stack_violated` | propext, Classical.choice, Quot.sound |
| `Abe.MaskSize.C134_repeated_mask_violated` | propext, Classical.choice, Quot.sound |
| `Abe.MaskSize.C134_single_byte_violated` | propext, Classical.choice, Quot.sound |
| `Abe.MaskSize.C134_empty_mask_violated` | propext, Classical.choice, Quot.sound |
| `Abe.MaskSize.C134_twice` | propext, Classical.choice, Quot.sound |
| `Abe.Cca.C135_decapsulation_violated` | propext, Classical.choice, Quot.sound |
| `Abe.Cca.C135_decryption_violated` | propext, Classical.choice, Quot.sound |
| `Abe.Cca.C135_cp_inner_partial` | propext, Classical.choice, Quot.sound |
| `Abe.Cca.C135_kp_inner_partial` | propext, Classical.choice, Quot.sound |
| `Abe.Cca.C135_refusals` | propext, Classical.choice, Quot.sound |
| `Abe.CtxThreads.C136_programs` | propext, Classical.choice, Quot.sound |
| `Abe.CtxThreads.C136_readers_partial` | propext, Classical.choice, Quot.sound |
| `Abe.CtxThreads.C136_mutex` | propext, Classical.choice, Quot.sound |
| `Abe.CtxThreads.C136_standard_violated` | propext, Classical.choice, Quot.sound |
| `Abe.CtxThreads.C136_unknown_id_violated` | propext, Classical.choice, Quot.sound |
| `Abe.CtxThreads.C136_unknown_key_violated` | propext, Classical.choice, Quot.sound |
| `Abe.CtxThreads.C136_setup_violated` | propext, Classical.choice, Quot.sound |
| `Abe.CtxThreads.C136_keygen_violated` | propext, Classical.choice, Quot.sound |
| `Abe.CtxThreads.C136_mixed_params_violated` | propext, Classical.choice, Quot.sound |
| `Abe.AeadSize.C137_encrypt_low` | propext, Quot.sound |
| `Abe.AeadSize.C137_decrypt_low` | propext, Quot.sound |
| `Abe.AeadSize.C137_fits_partial` | propext, Quot.sound |
| `Abe.AeadSize.C137_round_trip_partial` | propext, Classical.choice, Quot.sound |
| `Abe.AeadSize.C137_prefix_violated` | propext, Classical.choice, Quot.sound |
| `Abe.AeadSize.C137_lost_violated` | propext, Classical.choice, Quot.sound |
| `Abe.AeadSize.C137_decrypt_high` | propext, Quot.sound |
| `Abe.AeadSize.C137_iv_violated` | propext, Quot.sound |
| `Abe.AeadSize.C137_undefined_violated` | propext, Quot.sound |
| `Abe.AeadSize.C137_aad_violated` | propext, Classical.choice, Quot.sound |
| `Abe.AeadSize.C137_stream_partial` | propext, Quot.sound |
| `Abe.AeadSize.C137_stack_violated` | propext, Quot.sound |
| `Abe.AeadSize.C137_stream_prefix_violated` | propext, Quot.sound |
| `Abe.C138_rows_are_a_way` | propext, Classical.choice, Quot.sound |
| `Abe.C138_fewest_partial` | propext, Classical.choice, Quot.sound |
| `Abe.C138_exact` | propext, Classical.choice, Quot.sound |
| `Abe.C138_reported_partial` | propext, Classical.choice, Quot.sound |
| `Abe.C138_rows_violated` | propext, Classical.choice, Quot.sound |
| `Abe.C138_reported_violated` | propext, Classical.choice, Quot.sound |
| `Abe.C138_too_large_violated` | propext, Classical.choice, Quot.sound |
| `Abe.C138_order_violated` | propext, Classical.choice, Quot.sound |
| `Abe.KeyRing.C139_get_exact` | propext, Quot.sound |
| `Abe.KeyRing.C139_undefined_exact` | propext, Classical.choice, Quot.sound |
| `Abe.KeyRing.C139_defined_partial` | propext, Classical.choice, Quot.sound |
| `Abe.KeyRing.C139_load_partial` | propext, Quot.sound |
| `Abe.KeyRing.C139_kind_violated` | propext |
| `Abe.KeyRing.C139_delete_violated` | propext, Quot.sound |
| `Abe.KeyRing.C139_export_violated` | propext, Quot.sound |
| `Abe.KeyRing.C139_empty_blob_violated` | propext |
| `Abe.C140_again_partial` | propext, Classical.choice, Quot.sound |
| `Abe.C140_exact` | propext, Classical.choice, Quot.sound |
| `Abe.C140_injective` | propext, Classical.choice, Quot.sound |
| `Abe.C140_ciphertext_partial` | propext, Classical.choice, Quot.sound |
| `Abe.C140_key_partial` | propext, Classical.choice, Quot.sound |
| `Abe.C140_trailing_violated` | propext, Quot.sound |
| `Abe.C140_trailing_key_violated` | propext, Quot.sound |
| `Abe.C140_null_violated` | propext, Classical.choice, Quot.sound |
| `Abe.C140_nameless_violated` | propext, Quot.sound |
| `Abe.C140_skipped_violated` | propext, Quot.sound |
| `Abe.Persist.C141_cp_key_first` | propext, Classical.choice, Quot.sound |
| `Abe.Persist.C141_cp_ciphertext_first` | propext, Classical.choice, Quot.sound |
| `Abe.Persist.C141_kp_key_first` | propext, Classical.choice, Quot.sound |
| `Abe.Persist.C141_kp_ciphertext_first` | propext, Classical.choice, Quot.sound |
| `Abe.Persist.C141_guard_needed` | propext, Classical.choice, Quot.sound |
| `Abe.PairStack.C142_only_rows` | propext, Classical.choice, Quot.sound |
| `Abe.PairStack.C142_exact` | propext, Classical.choice, Quot.sound |
| `Abe.PairStack.C142_eleven_per_byte` | propext, Classical.choice, Quot.sound |
| `Abe.PairStack.C142_rows_are_a_way` | propext, Classical.choice, Quot.sound |
| `Abe.PairStack.C142_cp_round_trip` | propext, Classical.choice, Quot.sound |
| `Abe.PairStack.C142_kp_round_trip` | propext, Classical.choice, Quot.sound |
| `Abe.PairStack.C142_no_stack_is_enough` | propext, Classical.choice, Quot.sound |
| `Abe.C143_labels` | propext, Classical.choice, Quot.sound |
| `Abe.C143_rows` | propext, Classical.choice, Quot.sound |
| `Abe.C143_copies` | propext, Classical.choice, Quot.sound |
| `Abe.C143_names` | propext, Classical.choice, Quot.sound |
| `Abe.C144_pack` | propext, Classical.choice, Quot.sound |
| `Abe.C144_smart_pack` | propext, Classical.choice, Quot.sound |
| `Abe.C144_serialize` | propext, Classical.choice, Quot.sound |
| `Abe.C144_plus_string` | propext, Classical.choice, Quot.sound |
| `Abe.C144_integer` | propext, Quot.sound |
| `Abe.C144_scheme_names` | propext, Classical.choice, Quot.sound |
| `Abe.C144_copied_input` | propext, Quot.sound |
| `Abe.C145_share` | propext, Classical.choice, Quot.sound |
| `Abe.C145_recover` | propext, Classical.choice, Quot.sound |
| `Abe.C145_policy` | propext, Classical.choice, Quot.sound |
| `Abe.KeyStore.C145_check` | propext, Classical.choice, Quot.sound |
| `Abe.C145_lookup` | propext |
| `Abe.C146_undefined` | propext, Quot.sound |
| `Abe.C146_formula` | propext, Classical.choice, Quot.sound |
| `Abe.C146_accepted_iff` | propext, Classical.choice, Quot.sound |
| `Abe.C146_only_dates` | propext, Classical.choice, Quot.sound |
| `Abe.C146_other` | propext, Classical.choice, Quot.sound |
| `Abe.C146_list` | propext, Classical.choice, Quot.sound |
| `Abe.C146_bars` | propext, Classical.choice, Quot.sound |
| `Abe.SymExact.C147_handle` | propext, Classical.choice, Quot.sound |
| `Abe.SymExact.C147_handle_tail` | propext, Classical.choice, Quot.sound |
| `Abe.SymExact.C147_object` | propext, Classical.choice, Quot.sound |
| `Abe.Accepted.C148_value` | propext, Classical.choice, Quot.sound |
| `Abe.Accepted.C148_container` | propext, Classical.choice, Quot.sound |
| `Abe.Accepted.C148_container_undefined` | propext, Classical.choice, Quot.sound |
| `Abe.Accepted.C148_ciphertext` | propext, Classical.choice, Quot.sound |
| `Abe.Accepted.C148_key` | propext, Classical.choice, Quot.sound |
| `Abe.Accepted.C148_key_refused` | propext, Classical.choice, Quot.sound |
| `Abe.Accepted.C148_last` | propext, Classical.choice, Quot.sound |
| `Abe.Accepted.C148_kept` | propext, Classical.choice, Quot.sound |
| `Abe.KeyStore.C149_keystore` | propext, Classical.choice, Quot.sound |
| `Abe.KeyStore.C149_reported` | propext, Classical.choice, Quot.sound |
| `Abe.KeyMgr.C149_search` | propext, Classical.choice, Quot.sound |
| `Abe.KeyMgr.C149_search_empty` | propext, Classical.choice, Quot.sound |
| `Abe.KeyMgr.C149_store` | propext, Classical.choice, Quot.sound |
| `Abe.KeyMgr.C149_failed_store` | propext, Classical.choice, Quot.sound |
| `Abe.KeyMgr.C149_prefix` | propext, Classical.choice, Quot.sound |
| `Abe.Compare.C150_container` | propext, Classical.choice, Quot.sound |
| `Abe.Compare.C150_container_all` | propext, Classical.choice, Quot.sound |
| `Abe.Compare.C150_container_self` | propext, Classical.choice, Quot.sound |
| `Abe.Compare.C150_lists` | propext, Classical.choice, Quot.sound |
| `Abe.Compare.C150_symmetric` | propext, Classical.choice, Quot.sound |
| `Abe.Session.C151_answers` | propext, Quot.sound |
| `Abe.Session.C151_undefined` | propext, Quot.sound |
| `Abe.Session.C151_tag` | propext, Quot.sound |
| `Abe.Session.C151_accepted` | propext, Quot.sound |
| `Abe.StreamUse.C152_answers` | propext, Classical.choice, Quot.sound |
| `Abe.StreamUse.C152_tags_ignored` | propext, Classical.choice, Quot.sound |
| `Abe.StreamUse.C152_undefined` | propext, Classical.choice, Quot.sound |
| `Abe.StreamUse.C152_load` | propext, Classical.choice, Quot.sound |
| `Abe.ContUse.C153_answers` | propext, Classical.choice, Quot.sound |
| `Abe.ContUse.C153_typed` | propext, Classical.choice, Quot.sound |
| `Abe.ContUse.C153_write` | propext, Classical.choice, Quot.sound |
| `Abe.ContUse.C153_held` | propext, Classical.choice, Quot.sound |
| `Abe.ContUse.C153_damaged` | propext, Classical.choice, Quot.sound |
| `Abe.ZExpr.C154_defined` | propext, Classical.choice, Quot.sound |
| `Abe.ZExpr.C154_value` | propext, Classical.choice, Quot.sound |
| `Abe.ZExpr.C154_equal` | propext, Classical.choice, Quot.sound |
| `Abe.DateAll.C155_value` | propext, Quot.sound |
| `Abe.DateAll.C155_number` | propext, Classical.choice, Quot.sound |
| `Abe.DateAll.C155_unknown_month` | propext, Classical.choice, Quot.sound |
| `Abe.DateAll.C155_late` | propext, Quot.sound |
| `Abe.DateAll.C155_early` | propext, Quot.sound |
| `Abe.DateAll.C155_early_after_late` | propext, Classical.choice, Quot.sound |
| `Abe.DateAll.C155_condition` | propext, Quot.sound |
| `Abe.C156_policy_iff` | propext, Classical.choice, Quot.sound |
| `Abe.C156_or` | propext, Classical.choice, Quot.sound |
| `Abe.C156_and` | propext, Classical.choice, Quot.sound |
| `Abe.C156_and_exact` | propext, Classical.choice, Quot.sound |
| `Abe.C156_sequence` | propext, Classical.choice, Quot.sound |
| `Abe.C157_tokens` | propext, Classical.choice, Quot.sound |
| `Abe.C157_stop` | propext, Classical.choice, Quot.sound |
| `Abe.C157_outer_blanks` | propext, Classical.choice, Quot.sound |
| `Abe.C157_inner_blanks` | propext, Classical.choice, Quot.sound |
| `Abe.C157_blanks_before` | propext, Classical.choice, Quot.sound |
| `Abe.C157_blanks_behind` | propext, Classical.choice, Quot.sound |
| `Abe.C157_needed` | propext |
| `Abe.C157_line_end` | propext, Classical.choice, Quot.sound |
| `Abe.C158_exact` | propext, Classical.choice, Quot.sound |
| `Abe.C158_otherwise` | propext, Classical.choice, Quot.sound |
| `Abe.C158_same` | propext, Classical.choice, Quot.sound |
| `Abe.C158_stable` | propext, Classical.choice, Quot.sound |
| `Abe.C159_exact` | propext, Classical.choice, Quot.sound |
| `Abe.C159_only_names` | propext, Classical.choice, Quot.sound |
| `Abe.C159_text` | propext, Quot.sound |
| `Abe.C160_meaning` | propext, Classical.choice, Quot.sound |
| `Abe.C160_one_value` | propext, Classical.choice, Quot.sound |
| `Abe.C160_no_value` | propext, Quot.sound |
| `Abe.C160_more_values` | propext, Classical.choice, Quot.sound |
| `Abe.C160_two_values` | propext, Classical.choice, Quot.sound |
| `Abe.Scheme.C161_cp_any_list` | propext, Classical.choice, Quot.sound |
| `Abe.Scheme.C161_kp_any_list` | propext, Classical.choice, Quot.sound |
| `Abe.Scheme.C161_two_values` | propext, Classical.choice, Quot.sound |
| `Abe.Kdf.C162_error` | propext, Classical.choice, Quot.sound |
| `Abe.Kdf.C162_key` | propext, Classical.choice, Quot.sound |
| `Abe.Kdf.C162_undefined` | propext, Classical.choice, Quot.sound |
| `Abe.AeadSize.C163_encrypt` | propext, Classical.choice, Quot.sound |
| `Abe.AeadSize.C163_round_trip` | propext, Classical.choice, Quot.sound |
| `Abe.AeadSize.C163_returned` | propext, Classical.choice, Quot.sound |
| `Abe.KeyMgr.C164_count` | propext, Classical.choice, Quot.sound |
| `Abe.KeyMgr.C164_ids` | propext, Classical.choice, Quot.sound |
| `Abe.KeyMgr.C164_equal` | propext, Classical.choice, Quot.sound |
| `Abe.KeyMgr.C164_twenty` | propext, Classical.choice, Quot.sound |
| `Abe.C165_decrypt` | propext, Classical.choice, Quot.sound |
| `Abe.C165_encapsulate` | propext, Classical.choice, Quot.sound |
| `Abe.C165_key` | propext, Classical.choice, Quot.sound |
| `Abe.C165_made` | propext, Classical.choice, Quot.sound |
| `Abe.C165_lost` | propext, Classical.choice, Quot.sound |
| `Abe.C165_whole` | propext, Classical.choice, Quot.sound |
| `Abe.Lib.C166_pairing` | propext, Classical.choice, Quot.sound |
| `Abe.Lib.C166_calls` | propext, Classical.choice, Quot.sound |
| `Abe.Lib.C166_no_failures` | propext, Classical.choice, Quot.sound |
| `Abe.Lib.C166_revived` | propext, Classical.choice, Quot.sound |
| `Abe.C167_unchecked` | propext, Classical.choice, Quot.sound |
| `Abe.C167_checked` | propext, Classical.choice, Quot.sound |
| `Abe.C167_round_trip` | propext, Classical.choice, Quot.sound |
| `Abe.C167_written` | propext, Quot.sound |
| `Abe.C167_same` | propext, Classical.choice, Quot.sound |
| `Abe.Flex.C168_strict` | propext, Classical.choice, Quot.sound |
| `Abe.Flex.C168_weak` | propext, Classical.choice, Quot.sound |
| `Abe.Flex.C168_right` | propext, Classical.choice, Quot.sound |
| `Abe.Flex.C168_ranges` | propext, Classical.choice, Quot.sound |
| `Abe.KeyMgr.C169_search` | propext, Quot.sound |
| `Abe.KeyMgr.C169_histories` | propext, Quot.sound |
| `Abe.KeyMgr.C169_checked` | propext, Quot.sound |
| `Abe.KeyMgr.C169_released` | propext, Quot.sound |
