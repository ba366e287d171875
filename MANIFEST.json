{
 "claims": [
  {
   "property": "C01",
   "status": "proved",
   "theorems": [
    "Abe.C01_share_recover_inverse",
    "Abe.C01_text_share_recover"
   ],
   "note": ""
  },
  {
   "property": "C02",
   "status": "proved",
   "theorems": [
    "Abe.C02_recover_iff_satisfied",
    "Abe.C02_text_recover_refused"
   ],
   "note": ""
  },
  {
   "property": "C03",
   "status": "proved",
   "theorems": [
    "Abe.C03_check_decides_formula"
   ],
   "note": ""
  },
  {
   "property": "C04",
   "status": "proved",
   "theorems": [
    "Abe.C04_check_leaves_no_trace"
   ],
   "note": ""
  },
  {
   "property": "C05",
   "status": "partial",
   "theorems": [
    "Abe.C05_later_calls_repeat_first_violated",
    "Abe.C05_single_attribute_partial"
   ],
   "note": "Violated: on a gate-rooted policy every later call repeats the first answer (C05_later_calls_repeat_first_violated, for every history). Holds for single-attribute policies."
  },
  {
   "property": "C06",
   "status": "proved",
   "theorems": [
    "Abe.C06_unsatisfying_views_hide_secret"
   ],
   "note": ""
  },
  {
   "property": "C07",
   "status": "partial",
   "theorems": [
    "Abe.C07_one_row_per_leaf_partial",
    "Abe.C07_one_row_per_leaf_text_partial",
    "Abe.C07_lost_share_violated"
   ],
   "note": "Proved for parsed policies in which no name is another one followed by '%' and a number; the exact condition is C143 (C07_one_row_per_leaf_text_partial); violated by names containing '%' (C07_lost_share_violated)."
  },
  {
   "property": "C08",
   "status": "partial",
   "theorems": [
    "Abe.C08_reuse_share_partial",
    "Abe.C08_reuse_recover_partial",
    "Abe.C08_no_repeats_stays_clean_partial",
    "Abe.C08_reuse_violated"
   ],
   "note": "Violated (stale repeat counter); proved when the policy has repeats or the object never saw any."
  },
  {
   "property": "C09",
   "status": "partial",
   "theorems": [
    "Abe.C09_narrow_and_partial",
    "Abe.C09_three_input_and_violated",
    "Abe.C09_wide_and_factor",
    "Abe.C09_wide_and_violated",
    "Abe.C09_exact_width"
   ],
   "note": "Exact: an AND gate is recovered correctly for all secrets and random values iff it has at most two inputs; with n inputs the secret comes out multiplied by a factor (2, 12, 576, ... for n = 3, 4, 5) for some random values. Fields in which that factor is not one."
  },
  {
   "property": "C10",
   "status": "proved",
   "theorems": [
    "Abe.C10_access_is_monotone",
    "Abe.C10_formula_monotone"
   ],
   "note": ""
  },
  {
   "property": "C11",
   "status": "proved",
   "theorems": [
    "Abe.C11_only_held_attributes"
   ],
   "note": ""
  },
  {
   "property": "C12",
   "status": "partial",
   "theorems": [
    "Abe.C12_copy_same_formula",
    "Abe.C12_copy_shares_alike_partial",
    "Abe.C12_copy_repeats_violated"
   ],
   "note": "Satisfaction is preserved always; labels violated for repeated attributes, proved without repeats."
  },
  {
   "property": "C13",
   "status": "proved",
   "theorems": [
    "Abe.C13_accepts_iff_derivable",
    "Abe.C13_meaning",
    "Abe.C13_every_formula_has_a_text"
   ],
   "note": ""
  },
  {
   "property": "C14",
   "status": "proved",
   "theorems": [
    "Abe.C14_malformed_never_a_policy",
    "Abe.C14_malformed_gives_null",
    "Abe.C14_empty",
    "Abe.C14_trailing_operator"
   ],
   "note": ""
  },
  {
   "property": "C15",
   "status": "partial",
   "theorems": [
    "Abe.C15_whole_text_partial",
    "Abe.C15_nul_hides_the_rest_violated"
   ],
   "note": "Violated: everything after a NUL byte (or a byte the parser maps to end of input) is ignored; proved for texts whose tokens are all effective."
  },
  {
   "property": "C16",
   "status": "partial",
   "theorems": [
    "Abe.C16_print_parse_partial",
    "Abe.C16_bracket_violated",
    "Abe.C16_numeric_violated"
   ],
   "note": "Proved for policies of plain attributes; violated for numeric comparisons and for the attribute [0]::."
  },
  {
   "property": "C17",
   "status": "partial",
   "theorems": [
    "Abe.C17_add_to_root_partial",
    "Abe.C17_nul_violated",
    "Abe.C17_attribute_text_violated"
   ],
   "note": "Proved for attributes that scan as one name; violated for attribute text containing operators and for policies with NUL."
  },
  {
   "property": "C18",
   "status": "partial",
   "theorems": [
    "Abe.C18_distinct_labels_partial",
    "Abe.C18_percent_violated",
    "Abe.C18_colon_violated"
   ],
   "note": "Proved for names that are not another one followed by '%' and a number, without empty parts; violated for names with '%' and for names that differ only in empty colon parts."
  },
  {
   "property": "C19",
   "status": "proved",
   "theorems": [
    "Abe.C19_less_than"
   ],
   "note": ""
  },
  {
   "property": "C20",
   "status": "proved",
   "theorems": [
    "Abe.C20_greater_than"
   ],
   "note": ""
  },
  {
   "property": "C21",
   "status": "proved",
   "theorems": [
    "Abe.C21_at_most",
    "Abe.C21_at_least"
   ],
   "note": ""
  },
  {
   "property": "C22",
   "status": "proved",
   "theorems": [
    "Abe.C22_equal"
   ],
   "note": ""
  },
  {
   "property": "C23",
   "status": "proved",
   "theorems": [
    "Abe.C23_open_range",
    "Abe.C23_closed_range"
   ],
   "note": ""
  },
  {
   "property": "C24",
   "status": "proved",
   "theorems": [
    "Abe.C24_width_mismatch",
    "Abe.C24_mixed_range"
   ],
   "note": ""
  },
  {
   "property": "C25",
   "status": "partial",
   "theorems": [
    "Abe.C25_comparisons_defined",
    "Abe.C25_undefined_iff",
    "Abe.C25_date_violated"
   ],
   "note": "Comparison syntax: always defined (C25_comparisons_defined); exact condition for undefined behaviour in C25_undefined_iff. Violated for dates whose day number is 0."
  },
  {
   "property": "C26",
   "status": "partial",
   "theorems": [
    "Abe.C26_date_condition_partial",
    "Abe.C26_date_range_partial",
    "Abe.C26_date_text_partial",
    "Abe.C26_prefix_time_violated",
    "Abe.C26_unknown_month_violated"
   ],
   "note": "Proved for fixed-offset time zones, existing dates in range and prefixes other than 'time'; violated for prefix 'time' and for unknown month names."
  },
  {
   "property": "C27",
   "status": "partial",
   "theorems": [
    "Abe.C27_one_value_partial",
    "Abe.C27_two_values_violated"
   ],
   "note": "Violated by lists that set a numeric attribute twice through different spellings; proved under ItemsOk."
  },
  {
   "property": "C28",
   "status": "partial",
   "theorems": [
    "Abe.C28_self_match_partial",
    "Abe.C28_colon_violated"
   ],
   "note": "Proved for lists without empty name parts; violated for a trailing colon."
  },
  {
   "property": "C29",
   "status": "partial",
   "theorems": [
    "Abe.C29_compact_round_trip",
    "Abe.C29_added_attribute_violated"
   ],
   "note": "Proved for every parsed list (C29_compact_round_trip); violated after addAttribute."
  },
  {
   "property": "C30",
   "status": "proved",
   "theorems": [
    "Abe.C30_hex_roundtrip",
    "Abe.C30_hex_rejects",
    "Abe.C30_hex_accepts"
   ],
   "note": ""
  },
  {
   "property": "C31",
   "status": "proved",
   "theorems": [
    "Abe.C31_base64_roundtrip"
   ],
   "note": ""
  },
  {
   "property": "C32",
   "status": "proved",
   "theorems": [
    "Abe.C32_pack_roundtrip",
    "Abe.C32_pack_roundtrip_into",
    "Abe.C32_ints_roundtrip"
   ],
   "note": ""
  },
  {
   "property": "C33",
   "status": "partial",
   "theorems": [
    "Abe.C33_smartPack_roundtrip_partial",
    "Abe.C33_smartPack_violated"
   ],
   "note": "Violated for the empty string (C33_smartPack_violated); proved for all non-empty strings."
  },
  {
   "property": "C34",
   "status": "partial",
   "theorems": [
    "Abe.C34_serialize_roundtrip_partial",
    "Abe.C34_serialize_violated",
    "Abe.C34_deserialize_malformed"
   ],
   "note": "Violated for an empty value into a non-empty target; proved otherwise, malformed inputs covered."
  },
  {
   "property": "C35",
   "status": "proved",
   "theorems": [
    "Abe.C35_xor_involution",
    "Abe.C35_xor_spec",
    "Abe.C35_xor_empty_mask_ub"
   ],
   "note": ""
  },
  {
   "property": "C36",
   "status": "proved",
   "theorems": [
    "Abe.C36_eq_iff"
   ],
   "note": ""
  },
  {
   "property": "C37",
   "status": "proved",
   "theorems": [
    "Abe.C37_decoders_in_bounds",
    "Abe.C37_smartUnpack_in_bounds",
    "Abe.C37_ints_in_bounds"
   ],
   "note": ""
  },
  {
   "property": "C38",
   "status": "partial",
   "theorems": [
    "Abe.C38_plus_string_violated",
    "Abe.C38_plus_string_partial",
    "Abe.C38_plus"
   ],
   "note": "Violated for every non-empty text (C38_plus_string_violated)."
  },
  {
   "property": "C39",
   "status": "partial",
   "theorems": [
    "Abe.C39_container_round_trip_partial",
    "Abe.C39_read_into_existing_partial",
    "Abe.C39_empty_violated",
    "Abe.C39_empty_name_violated",
    "Abe.C39_policy_violated",
    "Abe.C39_reader_terminates"
   ],
   "note": "Proved for non-empty containers of storable components with non-empty names (up to integer width and list order); violated for the empty container, an empty name and a stored policy."
  },
  {
   "property": "C40",
   "status": "partial",
   "theorems": [
    "Abe.C40_lookup_present_partial",
    "Abe.C40_delete_repairs_partial",
    "Abe.C40_failed_lookup_violated"
   ],
   "note": "Violated: a failed lookup inserts a null entry, after which writing the container is undefined. Successful lookups change nothing; deleting the missed name restores the container."
  },
  {
   "property": "C41",
   "status": "partial",
   "theorems": [
    "Abe.C41_ciphertext_round_trip_partial",
    "Abe.C41_long_uid_violated",
    "Abe.C41_no_components_violated"
   ],
   "note": "Proved for 16-byte uids, known scheme ids and at least one component; violated for longer uids and for ciphertexts without components."
  },
  {
   "property": "C42",
   "status": "partial",
   "theorems": [
    "Abe.C42_key_round_trip_partial",
    "Abe.C42_empty_list_violated"
   ],
   "note": "Proved for 16-byte uids, known scheme ids and at least one component; violated for a key that holds an attribute list without attributes."
  },
  {
   "property": "C43",
   "status": "partial",
   "theorems": [
    "Abe.C43_container_equality_partial",
    "Abe.C43_same_names_partial",
    "Abe.C43_extra_names_violated",
    "Abe.C43_bytes_violated",
    "Abe.C43_empty_right_violated",
    "Abe.C43_missing_name_violated"
   ],
   "note": "Violated: extra names on the right are not noticed, byte strings never compare equal, an empty right side is undefined, a missing name raises. Proved for numbers and group elements when the right side has all names of the left."
  },
  {
   "property": "C44",
   "status": "proved",
   "theorems": [
    "Abe.Scheme.C44_cp_decapsulation"
   ],
   "note": "For every accepted policy, all randomness and contexts; hypotheses: bilinear pairing, assertions compiled in, component labels do not clash (C49 shows when they do)."
  },
  {
   "property": "C45",
   "status": "proved",
   "theorems": [
    "Abe.Scheme.C45_kp_decapsulation"
   ],
   "note": "As C44 for the key-policy scheme."
  },
  {
   "property": "C46",
   "status": "proved",
   "theorems": [
    "Abe.Scheme.C46_cp_round_trip",
    "Abe.Scheme.C46_kp_round_trip",
    "Abe.Scheme.C46_cp_texts",
    "Abe.Scheme.C46_kp_texts"
   ],
   "note": "For every message; also from policy and list texts (C46_cp_texts, C46_kp_texts), with both outcomes."
  },
  {
   "property": "C47",
   "status": "proved",
   "theorems": [
    "Abe.Scheme.C47_error_means_empty",
    "Abe.Scheme.C47_cp_unsatisfied",
    "Abe.Scheme.C47_kp_unsatisfied",
    "Abe.Scheme.C47_cp_end_to_end",
    "Abe.Scheme.C47_kp_end_to_end"
   ],
   "note": "For arbitrary keys and ciphertexts carrying the list and the policy, and end to end from parameter generation; any returned error goes with an empty output."
  },
  {
   "property": "C48",
   "status": "partial",
   "theorems": [
    "Abe.Scheme.C48_mask_repeats_violated",
    "Abe.Scheme.C48_ciphertext_leaks_violated",
    "Abe.Scheme.C48_mask_partial"
   ],
   "note": "Violated: the 8 bit block counter makes the mask repeat every 8192 bytes, and the ciphertext reveals the xor of message bytes. Partial: up to 8192 bytes all block inputs differ."
  },
  {
   "property": "C49",
   "status": "partial",
   "theorems": [
    "Abe.Scheme.C49_labels_collide_violated",
    "Abe.Scheme.C49_component_lost_violated",
    "Abe.Scheme.C49_labels_partial"
   ],
   "note": "Violated without any hash collision: the hex form of a truncated digest is itself a valid short name. The partial theorem says exactly which names share a label."
  },
  {
   "property": "C50",
   "status": "partial",
   "theorems": [
    "Abe.Sym.C50_key_data_violated",
    "Abe.Sym.C50_headers_partial"
   ],
   "note": "Violated: operator== compares the key bytes of the left side with themselves. Partial: equal exactly when the headers are equal."
  },
  {
   "property": "C51",
   "status": "partial",
   "theorems": [
    "Abe.Sym.C51_round_trip_partial",
    "Abe.Sym.C51_empty_violated",
    "Abe.Sym.C51_authentic",
    "Abe.Sym.C51_key_length"
   ],
   "note": "Violated for the empty message (its ciphertext cannot be unpacked). Proved for non-empty messages, any authentication data, with and without base64; only authentic ciphertexts are accepted."
  },
  {
   "property": "C52",
   "status": "partial",
   "theorems": [
    "Abe.Sym.C52_round_trip_partial",
    "Abe.Sym.C52_empty_violated",
    "Abe.Sym.C52_other_auth_data",
    "Abe.Sym.C52_authentic"
   ],
   "note": "Violated for the empty message. Proved for non-empty messages and 32 byte keys; with other authentication data decryption fails."
  },
  {
   "property": "C53",
   "status": "partial",
   "theorems": [
    "Abe.Stream.C53_chunks_partial",
    "Abe.Stream.C53_round_trip_partial",
    "Abe.Stream.C53_tag_checked",
    "Abe.Stream.C53_long_violated",
    "Abe.StreamCtx.C53_context_round_trip_partial"
   ],
   "note": "Proved for non-empty chunks and less than 4 GiB in total, for the stream object and the stream context; from 4 GiB on finalizing raises an error (C53_long_violated)."
  },
  {
   "property": "C54",
   "status": "partial",
   "theorems": [
    "Abe.Stream.C54_any_order_defined_partial",
    "Abe.Stream.C54_misplaced_partial",
    "Abe.Stream.C54_silent_violated"
   ],
   "note": "Violated: updates and finishing out of order and a second decryptInit return no error. Proved: they change nothing and no order of calls is undefined."
  },
  {
   "property": "C55",
   "status": "partial",
   "theorems": [
    "Abe.StreamCtx.C55_any_tag_violated",
    "Abe.StreamCtx.C55_stream_reports_partial"
   ],
   "note": "Violated: the context ignores the code of the stream object, so every tag is accepted. Partial: the stream object itself reports the failure."
  },
  {
   "property": "C56",
   "status": "partial",
   "theorems": [
    "Abe.Sym.C56_plain_round_trip_partial",
    "Abe.Sym.C56_named_round_trip_partial",
    "Abe.Sym.C56_no_data_violated"
   ],
   "note": "Proved for keys with 16 or 32 bytes of data, with and without ID; violated for a key object without data."
  },
  {
   "property": "C57",
   "status": "partial",
   "theorems": [
    "Abe.StreamCtx.C57_reload_violated",
    "Abe.StreamCtx.C57_direct_export_partial"
   ],
   "note": "Violated: the keystore calls the base class export (the overload of OpenABESymKey is not const), which writes no key bytes and in a format loadPrivateKey rejects. Partial: direct export of the key object can be loaded."
  },
  {
   "property": "C58",
   "status": "partial",
   "theorems": [
    "Abe.Kdf.C58_bytes_partial",
    "Abe.Kdf.C58_short_keys_partial",
    "Abe.Kdf.C58_zero_bytes_violated",
    "Abe.Kdf.C58_huge_keys_violated",
    "Abe.Kdf.C58_only_error"
   ],
   "note": "Violated: every byte of a 512-bit key after the first 32 is zero for any hash; lengths near 2^31 are undefined. Partial: every byte of the result described exactly; keys up to 256 bits are a prefix of the first hash block."
  },
  {
   "property": "C59",
   "status": "partial",
   "theorems": [
    "Abe.Kdf.C59_kdf2",
    "Abe.Kdf.C59_hkdf_output",
    "Abe.Kdf.C59_hkdf_length",
    "Abe.Kdf.C59_hkdf_prefix",
    "Abe.Kdf.C59_hkdf_salt",
    "Abe.Kdf.C59_rfc5869_violated",
    "Abe.Kdf.C59_counter_violated",
    "Abe.Kdf.C59_export_key"
   ],
   "note": "KDF2 and HKDF return the requested number of bytes; HKDF outputs are prefixes of longer ones. Violated: HKDF is not RFC 5869 and its one-byte counter wraps."
  },
  {
   "property": "C60",
   "status": "partial",
   "theorems": [
    "Abe.KeyStore.C60_check_without_lookups_partial",
    "Abe.KeyStore.C60_lookup_creates_violated",
    "Abe.KeyStore.C60_validate_creates_violated"
   ],
   "note": "Violated: a failed lookup (getKey, getPublicKey, getSecretKey, validateNewParamsID) stores a null entry and checkSecretKey then answers true. Proved for stores built by addKey and deleteKey only."
  },
  {
   "property": "C61",
   "status": "proved",
   "theorems": [
    "Abe.KeyStore.C61_keystore_is_a_map"
   ],
   "note": ""
  },
  {
   "property": "C62",
   "status": "partial",
   "theorems": [
    "Abe.KeyMgr.C62_delete_violated",
    "Abe.KeyMgr.C62_reported_partial"
   ],
   "note": "Violated: the command deletes from the base class keystore, which is always empty, so every reported key stays readable and searchable. Partial: which ids are reported."
  },
  {
   "property": "C63",
   "status": "proved",
   "theorems": [
    "Abe.KeyMgr.C63_get_latest",
    "Abe.KeyMgr.C63_search_own"
   ],
   "note": "getKey is characterised completely by the history: last store under the id."
  },
  {
   "property": "C64",
   "status": "partial",
   "theorems": [
    "Abe.KeyMgr.C64_other_ids_partial",
    "Abe.KeyMgr.C64_other_user_violated",
    "Abe.KeyMgr.C64_prefix_violated"
   ],
   "note": "Violated for every store under another user's id and for equal prefixes. Partial: all other ids are untouched."
  },
  {
   "property": "C65",
   "status": "partial",
   "theorems": [
    "Abe.KeyMgr.C65_search_sound",
    "Abe.KeyMgr.C65_search_complete_partial",
    "Abe.KeyMgr.C65_empty_id_violated",
    "Abe.KeyMgr.C65_search_keeps_keys"
   ],
   "note": "Sound for all reachable states. Complete if no key is stored under the empty id; violated otherwise (the empty id also means not found)."
  },
  {
   "property": "C66",
   "status": "proved",
   "theorems": [
    "Abe.KeyMgr.C66_cheapest"
   ],
   "note": "For every permitted result of std::sort and every reachable state."
  },
  {
   "property": "C67",
   "status": "partial",
   "theorems": [
    "Abe.KeyMgr.C67_failed_store_violated",
    "Abe.KeyMgr.C67_failed_store_partial"
   ],
   "note": "Violated: the old key is erased before the new one is checked. Partial: other ids, and an absent id, are untouched."
  },
  {
   "property": "C68",
   "status": "partial",
   "theorems": [
    "Abe.C68_hash_partial",
    "Abe.C68_substring_violated",
    "Abe.C68_keyword_violated",
    "Abe.C68_null_violated",
    "Abe.C68_terminates",
    "Abe.C68_replace_loop"
   ],
   "note": "Proved for texts in which no attribute is part of another word, of a keyword or of a hash, for every hash without collisions on them. Violated otherwise: 'abc or ab' loses access after hashing, 'a and b' becomes malformed, malformed texts dereference a null pointer. Hashing terminates and is defined for all accepted texts."
  },
  {
   "property": "C69",
   "status": "partial",
   "theorems": [
    "Abe.Lib.C69_double_init",
    "Abe.Lib.C69_pairing",
    "Abe.Lib.C69_failed_math_violated",
    "Abe.Lib.C69_partial",
    "Abe.Lib.C69_thread_shutdown_violated"
   ],
   "note": "Violated: failing initialisation of the math library is not reported and pairing objects are then undefined; threads are not shut down. Double initialisation and pairing creation are proved over all histories."
  },
  {
   "property": "C70",
   "status": "partial",
   "theorems": [
    "Abe.C70_accepted",
    "Abe.C70_names",
    "Abe.C70_round_trip_partial",
    "Abe.C70_round_trip_violated",
    "Abe.C70_key_types",
    "Abe.C70_inputs"
   ],
   "note": "Violated: 70, 72, 201, 202 do not round trip. Everything else is proved for all bytes and strings."
  },
  {
   "property": "C71",
   "status": "proved",
   "theorems": [
    "Abe.C71_valid_bits"
   ],
   "note": ""
  },
  {
   "property": "C72",
   "status": "partial",
   "theorems": [
    "Abe.C72_single_attribute_partial",
    "Abe.C72_release_build_violated"
   ],
   "note": "Violated: undefined behaviour for every gate-rooted policy with NDEBUG; unaffected for a single attribute."
  },
  {
   "property": "C73",
   "status": "partial",
   "theorems": [
    "Abe.C73_value_partial",
    "Abe.C73_tag_checked_partial",
    "Abe.C73_width_violated",
    "Abe.C73_tag_unchecked_violated"
   ],
   "note": "The value is preserved and the include/abe reader checks the tag; violated: the width is lost, the include/lsss reader accepts every tag."
  },
  {
   "property": "C74",
   "status": "partial",
   "theorems": [
    "Abe.C74_accepts_iff_derivable_partial",
    "Abe.C74_list_contents",
    "Abe.C74_double_bar_violated"
   ],
   "note": "The parser rejects some texts the ambiguous grammar derives (C74_double_bar_violated); exact characterisation through canonical derivations in C74_accepts_iff_derivable_partial."
  },
  {
   "property": "C75",
   "status": "partial",
   "theorems": [
    "Abe.C75_always_equal_violated",
    "Abe.C75_witness_violated",
    "Abe.C75_answer_partial"
   ],
   "note": "Violated: isEqual answers true for lists that differ. What it does on every input is in C75_answer_partial."
  },
  {
   "property": "C76",
   "status": "proved",
   "theorems": [
    "Abe.C76_scanner_rules",
    "Abe.C76_scanner_inverse"
   ],
   "note": ""
  },
  {
   "property": "C77",
   "status": "partial",
   "theorems": [
    "Abe.KeyMgr.C77_prefix_ids_violated",
    "Abe.KeyMgr.C77_prefix_ids_partial"
   ],
   "note": "Violated: the counter is taken modulo 20. Partial: up to 20 keys."
  },
  {
   "property": "C78",
   "status": "partial",
   "theorems": [
    "Abe.KeyMgr.C78_other_schemes_violated",
    "Abe.KeyMgr.C78_held_partial",
    "Abe.KeyMgr.C78_undefined_iff"
   ],
   "note": "Violated: the null function input is dereferenced. The exact condition is in C78_undefined_iff."
  },
  {
   "property": "C79",
   "status": "proved",
   "theorems": [
    "Abe.KeyMgr.C79_unique_inputs",
    "Abe.KeyMgr.C79_no_scheme",
    "Abe.KeyMgr.C79_accepted_iff"
   ],
   "note": "Both directions, for all reachable states."
  },
  {
   "property": "C80",
   "status": "partial",
   "theorems": [
    "Abe.Sym.C80_short_key_violated",
    "Abe.Sym.C80_encrypt_defined_partial",
    "Abe.Sym.C80_accepted_iff",
    "Abe.Sym.C80_no_key_violated"
   ],
   "note": "Violated: 16 byte keys are accepted and 32 bytes are read; a handler without key dereferences null. Partial: defined for 32 byte keys."
  },
  {
   "property": "C81",
   "status": "partial",
   "theorems": [
    "Abe.StreamCtx.C81_empty_blob_violated",
    "Abe.StreamCtx.C81_histories_defined_partial"
   ],
   "note": "Violated: loading an empty blob succeeds and stores a key without bytes. Partial: all histories in which loaded blobs contain 32 byte keys and IVs are not empty."
  },
  {
   "property": "C82",
   "status": "partial",
   "theorems": [
    "Abe.Stream.C82_short_tag_violated",
    "Abe.Stream.C82_prefix_partial"
   ],
   "note": "Violated: any non-empty prefix of the tag is accepted. Partial: only prefixes are."
  },
  {
   "property": "C83",
   "status": "partial",
   "theorems": [
    "Abe.Stream.C83_reuse_violated",
    "Abe.Stream.C83_default_partial"
   ],
   "note": "Violated: the zeroed old authentication data stays in front of the new. Partial: default authentication data."
  },
  {
   "property": "C84",
   "status": "partial",
   "theorems": [
    "Abe.Sym.C84_silent_failure_violated",
    "Abe.Sym.C84_nonempty_partial"
   ],
   "note": "Violated: failure gives the empty string and no error. Partial: a non-empty result is a decrypted message."
  },
  {
   "property": "C85",
   "status": "partial",
   "theorems": [
    "Abe.Sym.C85_empty_iv_violated",
    "Abe.Sym.C85_handle_defined_partial",
    "Abe.Sym.C85_handler_defined_partial"
   ],
   "note": "Violated: an empty IV field makes OpenSSL read 12 bytes of an empty buffer. Partial: defined otherwise."
  },
  {
   "property": "C86",
   "status": "partial",
   "theorems": [
    "Abe.Flex.C86_less_than_partial",
    "Abe.Flex.C86_greater_than_partial",
    "Abe.Flex.C86_low_bits_violated",
    "Abe.Flex.C86_fitting_values_partial",
    "Abe.Flex.C86_equal",
    "Abe.Flex.C86_not_from_texts"
   ],
   "note": "Violated: only the low 4, 8, 16 or 32 bits are compared, so 20 counts as below 5. Partial: values that fit the compared bits. Such numbers cannot come from texts, only from direct calls."
  },
  {
   "property": "C87",
   "status": "partial",
   "theorems": [
    "Abe.RNode.C87_defined",
    "Abe.RNode.C87_violated",
    "Abe.RNode.C87_policy_partial"
   ],
   "note": "Violated: deleting a policy tree releases only its root. No use after release, for all reference counts."
  },
  {
   "property": "C88",
   "status": "proved",
   "theorems": [
    "Abe.Scheme.C88_encapsulated_length",
    "Abe.Scheme.C88_decapsulated_length"
   ],
   "note": ""
  },
  {
   "property": "C89",
   "status": "proved",
   "theorems": [
    "Abe.Cpa.C89_generateParams",
    "Abe.Cpa.C89_generateKey_input",
    "Abe.Cpa.C89_generateKey_missing",
    "Abe.Cpa.C89_encrypt",
    "Abe.Cpa.C89_decrypt",
    "Abe.Cpa.C89_exportKey"
   ],
   "note": "Proved for both schemes and every context."
  },
  {
   "property": "C90",
   "status": "partial",
   "theorems": [
    "Abe.Cpa.C90_transparent_partial",
    "Abe.Cpa.C90_master_partial",
    "Abe.Cpa.C90_cp_texts_partial",
    "Abe.Cpa.C90_kp_texts_partial",
    "Abe.Cpa.C90_empty_list_violated"
   ],
   "note": "Transparent transport of master keys, user keys and ciphertexts, and end to end from texts through bytes, for values that fit the length fields and inputs from the parsers. Violated: a key for an empty attribute list is exported and cannot be loaded."
  },
  {
   "property": "C91",
   "status": "partial",
   "theorems": [
    "Abe.Cpa.C91_keygen_partial",
    "Abe.Cpa.C91_load_partial",
    "Abe.Cpa.C91_keygen_violated",
    "Abe.Cpa.C91_keygen_reachable_violated",
    "Abe.Cpa.C91_export_violated"
   ],
   "note": "Violated: key generation under the id of the master secret key replaces it and no later key generation succeeds; an id used twice exports the public key. Partial: every other lookup is unchanged."
  },
  {
   "property": "C92",
   "status": "partial",
   "theorems": [
    "Abe.Cpa.C92_codes_partial",
    "Abe.Cpa.C92_short_violated",
    "Abe.Cpa.C92_null_header_violated"
   ],
   "note": "Violated: bytes with a malformed or short header raise. Partial: when a code is returned it is the right one."
  },
  {
   "property": "C93",
   "status": "proved",
   "theorems": [
    "Abe.C93_stack_is_recursion",
    "Abe.C93_stack_decides_formula",
    "Abe.C93_other_gate_undefined"
   ],
   "note": "For AND/OR trees with any flags. A gate of another type reads an uninitialised local (C93_other_gate_undefined); the parser builds no such gate."
  },
  {
   "property": "C94",
   "status": "proved",
   "theorems": [
    "Abe.Pke.C94_round_trip",
    "Abe.Pke.C94_across_bytes"
   ],
   "note": "For every mechanism; the repository compiles none."
  },
  {
   "property": "C95",
   "status": "partial",
   "theorems": [
    "Abe.Pke.C95_accepts_iff",
    "Abe.Pke.C95_tampering_reported",
    "Abe.Pke.C95_no_output_on_error",
    "Abe.Pke.C95_empty_iv_violated"
   ],
   "note": "Violated for an empty IV component: undefined. Otherwise an exact characterisation."
  },
  {
   "property": "C96",
   "status": "partial",
   "theorems": [
    "Abe.Pke.C96_encrypt_codes",
    "Abe.Pke.C96_decrypt_codes",
    "Abe.Pke.C96_load_codes",
    "Abe.Pke.C96_load_before_params_violated",
    "Abe.Pke.C96_short_key_violated"
   ],
   "note": "Violated: loading a key before the mechanism has a pairing object is undefined, as is a mechanism key shorter than 32 bytes."
  },
  {
   "property": "C97",
   "status": "partial",
   "theorems": [
    "Abe.C97_share_is_field_computation",
    "Abe.C97_recover_is_field_computation",
    "Abe.C97_share_recover",
    "Abe.C97_shares_are_members",
    "Abe.C97_views_hide_secret",
    "Abe.C97_unreduced_secret_violated"
   ],
   "note": "Proved for every secret with any integer value; violated only in that a secret that is not reduced is not found equal (operator==) to the recovered value."
  },
  {
   "property": "C98",
   "status": "partial",
   "theorems": [
    "Abe.C98_ring_operations",
    "Abe.C98_division",
    "Abe.C98_equality_partial",
    "Abe.C98_unary",
    "Abe.C98_inverse_no_order_violated",
    "Abe.C98_mixed_orders_violated",
    "Abe.C98_no_order_violated",
    "Abe.C98_setFrom_new_object_violated",
    "Abe.C98_value_equal_to_order_violated",
    "Abe.C98_deserialize_order_violated",
    "Abe.C98_shift_violated",
    "Abe.C98_order_set_once",
    "Abe.C98_random_is_member",
    "Abe.C98_random_below_zp_partial",
    "Abe.C98_random_bound_with_order_violated",
    "Abe.C98_random_other_order_violated",
    "Abe.C98_prime",
    "Abe.C98_comparisons",
    "Abe.C98_shift_right",
    "Abe.C98_compound_assignment"
   ],
   "note": "Proved: results of the operators, division. Violated: operands with different orders, operands without order, setFrom on a new object, a value equal to the order (also out of deserialize), left shifts, setRandom with a ZP as bound. Equality only for reduced operands."
  },
  {
   "property": "C99",
   "status": "partial",
   "theorems": [
    "Abe.C99_same_flag_partial",
    "Abe.C99_other_flag_violated",
    "Abe.C99_gt_any_flag",
    "Abe.C99_gt_hash_depends_on_flag_violated",
    "Abe.C99_flag_is_binary",
    "Abe.C99_subtraction_violated",
    "Abe.C99_self_difference_violated",
    "Abe.C99_group_operators"
   ],
   "note": "Violated: binary minus ignores its left operand; elements of G1 and G2 written under one setting of the flag end the process when read under the other; the digest of a GT element depends on the flag. Proved: same setting, GT elements, the other operators."
  },
  {
   "property": "C100",
   "status": "partial",
   "theorems": [
    "Abe.C100_nonzero_draws_violated",
    "Abe.C100_bounded_leak_partial"
   ],
   "note": "Violated with a witness for 'a and b'; the bound on the leak is proved for every policy and test. Whether RELIC's bn_rand_mod excludes zero depends on its version."
  },
  {
   "property": "C101",
   "status": "partial",
   "theorems": [
    "Abe.Cpa.C101_ciphertext",
    "Abe.Cpa.C101_key",
    "Abe.Cpa.C101_loaded_partial",
    "Abe.Cpa.C101_cast_violated"
   ],
   "note": "Proved for what the library makes itself. Violated for bytes from elsewhere: a wrong component type makes the cast undefined."
  },
  {
   "property": "C102",
   "status": "proved",
   "theorems": [
    "Abe.Cpa.C102_cp",
    "Abe.Cpa.C102_kp",
    "Abe.Cpa.C102_cp_texts",
    "Abe.Cpa.C102_kp_texts"
   ],
   "note": "For texts of up to 64 KiB with no assumption about sizes (C102_*_texts). The statement was narrowed to what is proved: names that are not another one with % and a number, no hash collisions among the names used, no key stored under the empty id."
  },
  {
   "property": "C103",
   "status": "proved",
   "theorems": [
    "Abe.C103_created_iff",
    "Abe.C103_other_ids"
   ],
   "note": ""
  },
  {
   "property": "C104",
   "status": "partial",
   "theorems": [
    "Abe.C104_distinct",
    "Abe.C104_codes_distinct",
    "Abe.C104_texts_partial",
    "Abe.C104_violated"
   ],
   "note": "Violated: three codes of the enumeration (21, 58, 100) have no text. Proved for all others."
  },
  {
   "property": "C105",
   "status": "partial",
   "theorems": [
    "Abe.C105_lists_partial",
    "Abe.C105_violated"
   ],
   "note": "Violated: the copy of a policy is a null pointer."
  },
  {
   "property": "C106",
   "status": "partial",
   "theorems": [
    "Abe.C106_delete_partial",
    "Abe.C106_zeroize_violated"
   ],
   "note": "Violated: zeroize is a stub that reports 'not implemented', so the object keeps its components. The rest is proved."
  },
  {
   "property": "C107",
   "status": "partial",
   "theorems": [
    "Abe.C107_active",
    "Abe.C107_no_protection_violated",
    "Abe.C107_pass_kept_violated"
   ],
   "note": "Violated: the passphrase is stored but never used, and it is kept when the user is removed. The list of active users is proved correct."
  },
  {
   "property": "C108",
   "status": "partial",
   "theorems": [
    "Abe.C108_hash_key",
    "Abe.C108_hash_key_loaded_partial",
    "Abe.C108_hash_key_missing",
    "Abe.C108_present_partial",
    "Abe.C108_deleted_partial",
    "Abe.C108_delete_absent_violated",
    "Abe.C108_failed_decrypt_violated"
   ],
   "note": "Violated: a failed lookup leaves a null entry that checkSecretKey counts, so that deleting or using a missing key makes it reported as present. Proved: the hash key, and the presence of keys that exist."
  },
  {
   "property": "C109",
   "status": "partial",
   "theorems": [
    "Abe.StreamCtx.C109_in_use",
    "Abe.StreamCtx.C109_fresh_partial",
    "Abe.StreamCtx.C109_delete",
    "Abe.StreamCtx.C109_failed_init_violated"
   ],
   "note": "Violated: an id under which a stream was asked for without a key, or which was deleted without existing, can never be given a key."
  },
  {
   "property": "C110",
   "status": "proved",
   "theorems": [
    "Abe.Pke.C110_round_trip",
    "Abe.Pke.C110_delete"
   ],
   "note": "Guarded by the sizes of the length fields, by readiness of the receiving context, and by what the key validation of the mechanism accepts (a parameter)."
  },
  {
   "property": "C111",
   "status": "partial",
   "theorems": [
    "Abe.C111_split",
    "Abe.C111_round_trip_partial",
    "Abe.C111_empty_violated",
    "Abe.C111_accepted_body"
   ],
   "note": "Violated for objects without components: they are written, but reading them back raises. Round trip for all others, within the 32-bit length fields."
  },
  {
   "property": "C112",
   "status": "partial",
   "theorems": [
    "Abe.C112_match",
    "Abe.C112_no_bar",
    "Abe.C112_str_partial",
    "Abe.C112_str_violated",
    "Abe.C112_sync",
    "Abe.C112_sync_violated",
    "Abe.C112_constructor",
    "Abe.C112_add_violated"
   ],
   "note": "Violated: addAttribute takes texts with bars, so two different lists print the same; syncOrigAttributes looks for the prefix anywhere. matchAttribute and parsed lists are proved."
  },
  {
   "property": "C113",
   "status": "proved",
   "theorems": [
    "Abe.Scheme.C113_cp_collusion",
    "Abe.Scheme.C113_kp_collusion",
    "Abe.Scheme.C113_cp_authorised",
    "Abe.Scheme.C113_kp_authorised"
   ],
   "note": "Attackers of the generic bilinear group model with coefficients chosen before the random values; the map to the curve is a random oracle. Assumes that the names involved have different digests and that the field is larger than the policy tree."
  },
  {
   "property": "C114",
   "status": "partial",
   "theorems": [
    "Abe.KeyMgr.C114_programs",
    "Abe.KeyMgr.C114_linearizable",
    "Abe.KeyMgr.C114_progress",
    "Abe.KeyMgr.C114_history",
    "Abe.KeyMgr.C114_store_races_violated",
    "Abe.KeyMgr.C114_accessors_race_violated",
    "Abe.KeyMgr.C114_stores_not_linearizable_violated"
   ],
   "note": "Linearizable, free of races and of deadlock for the four commands that take the mutex. Violated: storeWithKeyIDCommand, setPassphrase, getActiveUsers and getUserKeyCount do not take it; they race, and two concurrent stores have results that no order explains."
  },
  {
   "property": "C115",
   "status": "proved",
   "theorems": [
    "Abe.Scheme.C115_cp_indistinguishable",
    "Abe.Scheme.C115_kp_indistinguishable",
    "Abe.Scheme.C115_cp_authorised",
    "Abe.Scheme.C115_kp_authorised"
   ],
   "note": "Adaptive attackers of the generic bilinear group model: decision trees that ask for keys and the ciphertext and test linear relations in all three groups; the map to the curve is a random oracle on the names of the supply. Attackers whose names have clashing digests are excluded."
  },
  {
   "property": "C116",
   "status": "partial",
   "theorems": [
    "Abe.C116_buffering_transparent_partial",
    "Abe.C116_calls_deterministic",
    "Abe.C116_sizes_irrelevant_partial",
    "Abe.C116_pieces_cover",
    "Abe.C116_short_texts_partial",
    "Abe.C116_long_piece_violated"
   ],
   "note": "Proved for all texts whose pieces have fewer than 2^30 - 1 bytes and all buffer sizes. Violated for longer pieces: doubling the size of the buffer overflows an int."
  },
  {
   "property": "C117",
   "status": "partial",
   "theorems": [
    "Abe.C117_values",
    "Abe.C117_null_export",
    "Abe.C117_exports_partial",
    "Abe.C117_master_key_violated",
    "Abe.C117_user_key_violated",
    "Abe.C117_ciphertext_violated"
   ],
   "note": "Proved: null entries left by failed lookups change no later result except exports, for every history of calls. Exports are proved for histories without failed lookups. Violated: decrypting with the id of the master secret key, or generating a key with a user's key as master secret key, is refused but makes the export of that key undefined; the same for ciphertexts without a policy."
  },
  {
   "property": "C118",
   "status": "partial",
   "theorems": [
    "Abe.C118_histories_defined_partial",
    "Abe.C118_codes_partial",
    "Abe.C118_exported_keys_partial",
    "Abe.C118_exported_ciphertexts_partial",
    "Abe.C118_hostile_params_violated",
    "Abe.C118_hostile_ciphertext_violated"
   ],
   "note": "Proved for policies from the parser and for loaded objects whose components have the expected types. Violated: bytes that load without error as parameters or as a ciphertext and make later calls follow a null pointer."
  },
  {
   "property": "C119",
   "status": "partial",
   "theorems": [
    "Abe.PH.C119_same_answers",
    "Abe.PH.C119_defined",
    "Abe.PH.C119_accepted_policy",
    "Abe.PH.C119_accepted_attributes",
    "Abe.PH.C119_rejected_partial",
    "Abe.PH.C119_rejected_attributes_partial",
    "Abe.PH.C119_dropped_policy_violated",
    "Abe.PH.C119_rejected_policy_violated",
    "Abe.PH.C119_reserved_name_violated"
   ],
   "note": "Proved for all texts: same answers as the parser on values, no memory errors, and exactly what accepted texts leave in memory. Partial: for rejected texts only that nothing is released twice and what is lost. Violated: dropped policies, rejected policies and reserved names leak."
  },
  {
   "property": "C120",
   "status": "partial",
   "theorems": [
    "Abe.Mem.C120_history",
    "Abe.Mem.C120_leak",
    "Abe.Mem.C120_nothing_left_partial",
    "Abe.Mem.C120_overwrite_violated",
    "Abe.Mem.C120_delete_violated",
    "Abe.Mem.C120_duplicate_violated",
    "Abe.Mem.C120_buffers_violated",
    "Abe.Mem.C120_copy_violated"
   ],
   "note": "Proved for all histories: no memory errors without copies, and exactly what is left behind. Violated: overwriting, deleting, loading a repeated name and writing group elements leak; destroying a copy is undefined."
  },
  {
   "property": "C121",
   "status": "partial",
   "theorems": [
    "Abe.Mem.C121_cp_key",
    "Abe.Mem.C121_repeated_violated",
    "Abe.Mem.C121_kp_key",
    "Abe.Mem.C121_encrypt",
    "Abe.Mem.C121_encrypt_leaks_violated",
    "Abe.Mem.C121_reuse_violated"
   ],
   "note": "Proved for all inputs: what keys and ciphertexts take and leave. Violated: repeated attributes, encryption and reuse of a ciphertext object leak."
  },
  {
   "property": "C122",
   "status": "partial",
   "theorems": [
    "Abe.Evp.C122_stream",
    "Abe.Evp.C122_phase_partial",
    "Abe.Evp.C122_copy_violated",
    "Abe.Evp.C122_context",
    "Abe.Evp.C122_context_partial",
    "Abe.Evp.C122_copied_context_violated",
    "Abe.Evp.C122_messages",
    "Abe.Evp.C122_tag_violated"
   ],
   "note": "Proved for all histories of stream objects, contexts and messages without copies. Violated: copies are released twice; a tag of the wrong length leaks a cipher context."
  },
  {
   "property": "C123",
   "status": "partial",
   "theorems": [
    "Abe.C123_history",
    "Abe.C123_decrypt_leaks_violated",
    "Abe.C123_hash_key_violated",
    "Abe.C123_careful_partial"
   ],
   "note": "Proved: no memory errors beyond calls that are undefined on values, exactly the objects of stored keys and ciphertexts in memory, and the exact number of objects left behind when hashed names do not clash. Violated: every returned plaintext leaves a buffer behind, and the pointer of getHashKey dangles after deleteKey."
  },
  {
   "property": "C124",
   "status": "partial",
   "theorems": [
    "Abe.C124_programs",
    "Abe.C124_isolated",
    "Abe.C124_documented_partial",
    "Abe.C124_missing_context_violated",
    "Abe.C124_failed_thread_violated",
    "Abe.C124_init_violated",
    "Abe.C124_shutdown_violated",
    "Abe.C124_one_relic_violated"
   ],
   "note": "Proved for all interleavings: isolation of threads with their own context of RELIC, success of threads that follow the documentation. Violated: threads without OpenABEStateContext, failures of RELIC, concurrent initialisation, shutdown while others work, RELIC without threads."
  },
  {
   "property": "C125",
   "status": "partial",
   "theorems": [
    "Abe.C125_places",
    "Abe.C125_behind_tag",
    "Abe.C125_places_violated",
    "Abe.C125_overflow_violated"
   ],
   "note": "Proved for all texts below 2^31 - 1 bytes: every token gets the place it has in the scanned text. Violated: the tag of the driver shifts the first line by five columns, a newline token is placed on the next line, and the column counter overflows for longer texts."
  },
  {
   "property": "C126",
   "status": "partial",
   "theorems": [
    "Abe.C126_report",
    "Abe.C126_accepted",
    "Abe.C126_rejected_partial",
    "Abe.C126_silent_violated",
    "Abe.C126_expected_violated"
   ],
   "note": "Proved for all texts below 2^31 - 6 bytes: the reported token is the first that no policy or list can have there, its place is right, everything expected can follow, accepted texts give no message. Violated: numbers that do not fit their width are rejected silently, and the list of expected tokens is incomplete."
  },
  {
   "property": "C127",
   "status": "partial",
   "theorems": [
    "Abe.C127_size",
    "Abe.C127_copy_frames",
    "Abe.C127_print_frames",
    "Abe.C127_print_other",
    "Abe.C127_no_tree",
    "Abe.C127_enough_stack_partial",
    "Abe.C127_deep_policy_violated",
    "Abe.C127_delete_frames"
   ],
   "note": "Proved for all texts: at most 11 leaves per byte, at most as many levels as bytes plus 30, one frame per level to print and copy, one frame to delete. Violated: for every size of the call stack some short text gives a policy that cannot be printed or copied."
  },
  {
   "property": "C128",
   "status": "proved",
   "theorems": [
    "Abe.Cpa.C128_params",
    "Abe.Cpa.C128_cp_key",
    "Abe.Cpa.C128_kp_key",
    "Abe.Cpa.C128_ciphertext",
    "Abe.Cpa.C128_cp_texts",
    "Abe.Cpa.C128_kp_texts"
   ],
   "note": "Bounds proved for all texts, groups and encodings; the end-to-end theorems of C90 without assumptions about sizes on the wire. The statement was narrowed to what is proved: no labels that collide (NoClash), texts up to 64 KiB."
  },
  {
   "property": "C129",
   "status": "partial",
   "theorems": [
    "Abe.DateAll.C129_before_1970_violated",
    "Abe.C129_test",
    "Abe.C129_day_number_partial",
    "Abe.C129_same_day_partial",
    "Abe.C129_condition_partial",
    "Abe.C129_range_partial",
    "Abe.C129_impossible_violated",
    "Abe.C129_range_violated"
   ],
   "note": "The test is exact for all integers, but its answer has no effect. The meaning of written dates is proved for mktime as POSIX describes it in zones with a fixed offset; zones with daylight saving time and days below 1 are missing; dates before 1970 count as later than all ordinary dates."
  },
  {
   "property": "C130",
   "status": "partial",
   "theorems": [
    "Abe.Residue.C130_zeroize",
    "Abe.Residue.C130_symkey_partial",
    "Abe.Residue.C130_longer_violated",
    "Abe.Residue.C130_shorter_violated",
    "Abe.Residue.C130_generated_violated",
    "Abe.Residue.C130_wrapper_partial",
    "Abe.Residue.C130_encrypt_violated",
    "Abe.Residue.C130_decrypt_violated",
    "Abe.Residue.C130_aad_partial",
    "Abe.Residue.C130_cipher_key_violated",
    "Abe.Residue.C130_unauthentic_violated"
   ],
   "note": "What vectors leave in the heap is followed exactly, with any growth rule; that compilers may drop writes to memory that is released next, the stack, memory inside RELIC and OpenSSL and the buffers of string streams are missing."
  },
  {
   "property": "C131",
   "status": "partial",
   "theorems": [
    "Abe.Authentic.C131_unaltered_partial",
    "Abe.Authentic.C131_header_violated",
    "Abe.Authentic.C131_forgery_violated",
    "Abe.Authentic.C131_attributes_violated",
    "Abe.Authentic.C131_cp_other_authority_violated",
    "Abe.Authentic.C131_kp_other_authority_violated"
   ],
   "note": "What is true is that decryption depends on the scheme components and the masked message only; that alterations of these are reported is refuted four times."
  },
  {
   "property": "C132",
   "status": "partial",
   "theorems": [
    "Abe.Hiding.C132_hidden_partial",
    "Abe.Hiding.C132_every_ciphertext",
    "Abe.Hiding.C132_long_violated"
   ],
   "note": "Hiding is counted over the answers of the hash function to the inputs of the mask, with the session key fixed; it is refuted for every length above 8192. That the session key is unknown to others is the subject of C115."
  },
  {
   "property": "C133",
   "status": "partial",
   "theorems": [
    "Abe.Leak.C133_results",
    "Abe.Leak.C133_comparison",
    "Abe.Leak.C133_reads_everything",
    "Abe.Leak.C133_masking",
    "Abe.Leak.C133_wiping",
    "Abe.Leak.C133_derivation",
    "Abe.Leak.C133_exported_length_violated"
   ],
   "note": "Branches, addresses and lengths of the code of the library; the inside of RELIC and OpenSSL and the time of single instructions are not modelled. Exported sizes depend on secrets (violated)."
  },
  {
   "property": "C134",
   "status": "partial",
   "theorems": [
    "Abe.MaskSize.C134_quotient",
    "Abe.MaskSize.C134_derived_keys",
    "Abe.MaskSize.C134_mask_partial",
    "Abe.MaskSize.C134_defined_iff",
    "Abe.MaskSize.C134_stack_violated",
    "Abe.MaskSize.C134_repeated_mask_violated",
    "Abe.MaskSize.C134_single_byte_violated",
    "Abe.MaskSize.C134_empty_mask_violated",
    "Abe.MaskSize.C134_twice"
   ],
   "note": "Exact for all operands of 32 bits; masks are right for messages that fit on the stack; C134_defined_iff says when masking is defined at all. Violated for messages beyond the stack and beyond 4 GiB."
  },
  {
   "property": "C135",
   "status": "partial",
   "theorems": [
    "Abe.Cca.C135_decapsulation_violated",
    "Abe.Cca.C135_decryption_violated",
    "Abe.Cca.C135_cp_inner_partial",
    "Abe.Cca.C135_kp_inner_partial",
    "Abe.Cca.C135_refusals"
   ],
   "note": "About disabled code (#if 0). The inner ciphertext opens for authorised keys; the check after it rejects every ciphertext."
  },
  {
   "property": "C136",
   "status": "partial",
   "theorems": [
    "Abe.CtxThreads.C136_programs",
    "Abe.CtxThreads.C136_readers_partial",
    "Abe.CtxThreads.C136_mutex",
    "Abe.CtxThreads.C136_standard_violated",
    "Abe.CtxThreads.C136_unknown_id_violated",
    "Abe.CtxThreads.C136_unknown_key_violated",
    "Abe.CtxThreads.C136_setup_violated",
    "Abe.CtxThreads.C136_keygen_violated",
    "Abe.CtxThreads.C136_mixed_params_violated"
   ],
   "note": "Encryption and decryption with keys that have entries are race free where operator[] only reads; lookups of unknown ids, lookups by the letter of the standard, key generation and parameter generation race, and two parameter generations can mix master keys. One mutex around calls repairs all of it."
  },
  {
   "property": "C137",
   "status": "partial",
   "theorems": [
    "Abe.AeadSize.C137_encrypt_low",
    "Abe.AeadSize.C137_decrypt_low",
    "Abe.AeadSize.C137_fits_partial",
    "Abe.AeadSize.C137_round_trip_partial",
    "Abe.AeadSize.C137_prefix_violated",
    "Abe.AeadSize.C137_lost_violated",
    "Abe.AeadSize.C137_decrypt_high",
    "Abe.AeadSize.C137_iv_violated",
    "Abe.AeadSize.C137_undefined_violated",
    "Abe.AeadSize.C137_aad_violated",
    "Abe.AeadSize.C137_stream_partial",
    "Abe.AeadSize.C137_stack_violated",
    "Abe.AeadSize.C137_stream_prefix_violated"
   ],
   "note": "Exact for messages below 2^31 - 1 bytes and associated data below 2^31 bytes, and for stream blocks that fit on the stack; C137_encrypt_low and C137_decrypt_low say what happens for all lengths with a small remainder modulo 2^32."
  },
  {
   "property": "C138",
   "status": "partial",
   "theorems": [
    "Abe.C138_rows_are_a_way",
    "Abe.C138_fewest_partial",
    "Abe.C138_exact",
    "Abe.C138_reported_partial",
    "Abe.C138_rows_violated",
    "Abe.C138_reported_violated",
    "Abe.C138_too_large_violated",
    "Abe.C138_order_violated"
   ],
   "note": "C138_exact characterises the policies for which the number of rows is least; the reported number is that of the rows for policies whose OR gates stand over attributes and conjunctions of attributes."
  },
  {
   "property": "C139",
   "status": "partial",
   "theorems": [
    "Abe.KeyRing.C139_get_exact",
    "Abe.KeyRing.C139_undefined_exact",
    "Abe.KeyRing.C139_defined_partial",
    "Abe.KeyRing.C139_load_partial",
    "Abe.KeyRing.C139_kind_violated",
    "Abe.KeyRing.C139_delete_violated",
    "Abe.KeyRing.C139_export_violated",
    "Abe.KeyRing.C139_empty_blob_violated"
   ],
   "note": "C139_get_exact and C139_undefined_exact describe lookups after all histories; deletion, export and the empty blob are refuted."
  },
  {
   "property": "C140",
   "status": "partial",
   "theorems": [
    "Abe.C140_again_partial",
    "Abe.C140_exact",
    "Abe.C140_injective",
    "Abe.C140_ciphertext_partial",
    "Abe.C140_key_partial",
    "Abe.C140_trailing_violated",
    "Abe.C140_trailing_key_violated",
    "Abe.C140_null_violated",
    "Abe.C140_nameless_violated",
    "Abe.C140_skipped_violated"
   ],
   "note": ""
  },
  {
   "property": "C141",
   "status": "proved",
   "theorems": [
    "Abe.Persist.C141_cp_key_first",
    "Abe.Persist.C141_cp_ciphertext_first",
    "Abe.Persist.C141_kp_key_first",
    "Abe.Persist.C141_kp_ciphertext_first",
    "Abe.Persist.C141_guard_needed"
   ],
   "note": ""
  },
  {
   "property": "C142",
   "status": "proved",
   "theorems": [
    "Abe.PairStack.C142_only_rows",
    "Abe.PairStack.C142_exact",
    "Abe.PairStack.C142_eleven_per_byte",
    "Abe.PairStack.C142_rows_are_a_way",
    "Abe.PairStack.C142_cp_round_trip",
    "Abe.PairStack.C142_kp_round_trip",
    "Abe.PairStack.C142_no_stack_is_enough"
   ],
   "note": ""
  },
  {
   "property": "C143",
   "status": "proved",
   "theorems": [
    "Abe.C143_labels",
    "Abe.C143_rows",
    "Abe.C143_copies",
    "Abe.C143_names"
   ],
   "note": ""
  },
  {
   "property": "C144",
   "status": "proved",
   "theorems": [
    "Abe.C144_pack",
    "Abe.C144_smart_pack",
    "Abe.C144_serialize",
    "Abe.C144_plus_string",
    "Abe.C144_integer",
    "Abe.C144_scheme_names",
    "Abe.C144_copied_input"
   ],
   "note": ""
  },
  {
   "property": "C145",
   "status": "proved",
   "theorems": [
    "Abe.C145_share",
    "Abe.C145_recover",
    "Abe.C145_policy",
    "Abe.KeyStore.C145_check",
    "Abe.C145_lookup"
   ],
   "note": ""
  },
  {
   "property": "C146",
   "status": "proved",
   "theorems": [
    "Abe.C146_undefined",
    "Abe.C146_formula",
    "Abe.C146_accepted_iff",
    "Abe.C146_only_dates",
    "Abe.C146_other",
    "Abe.C146_list",
    "Abe.C146_bars"
   ],
   "note": ""
  },
  {
   "property": "C147",
   "status": "proved",
   "theorems": [
    "Abe.SymExact.C147_handle",
    "Abe.SymExact.C147_handle_tail",
    "Abe.SymExact.C147_object"
   ],
   "note": ""
  },
  {
   "property": "C148",
   "status": "proved",
   "theorems": [
    "Abe.Accepted.C148_value",
    "Abe.Accepted.C148_container",
    "Abe.Accepted.C148_container_undefined",
    "Abe.Accepted.C148_ciphertext",
    "Abe.Accepted.C148_key",
    "Abe.Accepted.C148_key_refused",
    "Abe.Accepted.C148_last",
    "Abe.Accepted.C148_kept"
   ],
   "note": ""
  },
  {
   "property": "C149",
   "status": "proved",
   "theorems": [
    "Abe.KeyStore.C149_keystore",
    "Abe.KeyStore.C149_reported",
    "Abe.KeyMgr.C149_search",
    "Abe.KeyMgr.C149_search_empty",
    "Abe.KeyMgr.C149_store",
    "Abe.KeyMgr.C149_failed_store",
    "Abe.KeyMgr.C149_prefix"
   ],
   "note": ""
  },
  {
   "property": "C150",
   "status": "proved",
   "theorems": [
    "Abe.Compare.C150_container",
    "Abe.Compare.C150_container_all",
    "Abe.Compare.C150_container_self",
    "Abe.Compare.C150_lists",
    "Abe.Compare.C150_symmetric"
   ],
   "note": ""
  },
  {
   "property": "C151",
   "status": "proved",
   "theorems": [
    "Abe.Session.C151_answers",
    "Abe.Session.C151_undefined",
    "Abe.Session.C151_tag",
    "Abe.Session.C151_accepted"
   ],
   "note": ""
  },
  {
   "property": "C152",
   "status": "proved",
   "theorems": [
    "Abe.StreamUse.C152_answers",
    "Abe.StreamUse.C152_tags_ignored",
    "Abe.StreamUse.C152_undefined",
    "Abe.StreamUse.C152_load"
   ],
   "note": ""
  },
  {
   "property": "C153",
   "status": "proved",
   "theorems": [
    "Abe.ContUse.C153_answers",
    "Abe.ContUse.C153_typed",
    "Abe.ContUse.C153_write",
    "Abe.ContUse.C153_held",
    "Abe.ContUse.C153_damaged"
   ],
   "note": ""
  },
  {
   "property": "C154",
   "status": "proved",
   "theorems": [
    "Abe.ZExpr.C154_defined",
    "Abe.ZExpr.C154_value",
    "Abe.ZExpr.C154_equal"
   ],
   "note": ""
  },
  {
   "property": "C155",
   "status": "proved",
   "theorems": [
    "Abe.DateAll.C155_value",
    "Abe.DateAll.C155_number",
    "Abe.DateAll.C155_unknown_month",
    "Abe.DateAll.C155_late",
    "Abe.DateAll.C155_early",
    "Abe.DateAll.C155_early_after_late",
    "Abe.DateAll.C155_condition"
   ],
   "note": ""
  },
  {
   "property": "C156",
   "status": "proved",
   "theorems": [
    "Abe.C156_policy_iff",
    "Abe.C156_or",
    "Abe.C156_and",
    "Abe.C156_and_exact",
    "Abe.C156_sequence"
   ],
   "note": ""
  },
  {
   "property": "C157",
   "status": "proved",
   "theorems": [
    "Abe.C157_tokens",
    "Abe.C157_stop",
    "Abe.C157_outer_blanks",
    "Abe.C157_inner_blanks",
    "Abe.C157_blanks_before",
    "Abe.C157_blanks_behind",
    "Abe.C157_needed",
    "Abe.C157_line_end"
   ],
   "note": ""
  },
  {
   "property": "C158",
   "status": "proved",
   "theorems": [
    "Abe.C158_exact",
    "Abe.C158_otherwise",
    "Abe.C158_same",
    "Abe.C158_stable"
   ],
   "note": ""
  },
  {
   "property": "C159",
   "status": "proved",
   "theorems": [
    "Abe.C159_exact",
    "Abe.C159_only_names",
    "Abe.C159_text"
   ],
   "note": ""
  },
  {
   "property": "C160",
   "status": "proved",
   "theorems": [
    "Abe.C160_meaning",
    "Abe.C160_one_value",
    "Abe.C160_no_value",
    "Abe.C160_more_values",
    "Abe.C160_two_values"
   ],
   "note": ""
  },
  {
   "property": "C161",
   "status": "proved",
   "theorems": [
    "Abe.Scheme.C161_cp_any_list",
    "Abe.Scheme.C161_kp_any_list",
    "Abe.Scheme.C161_two_values"
   ],
   "note": ""
  },
  {
   "property": "C162",
   "status": "proved",
   "theorems": [
    "Abe.Kdf.C162_error",
    "Abe.Kdf.C162_key",
    "Abe.Kdf.C162_undefined"
   ],
   "note": ""
  },
  {
   "property": "C163",
   "status": "proved",
   "theorems": [
    "Abe.AeadSize.C163_encrypt",
    "Abe.AeadSize.C163_round_trip",
    "Abe.AeadSize.C163_returned"
   ],
   "note": ""
  },
  {
   "property": "C164",
   "status": "proved",
   "theorems": [
    "Abe.KeyMgr.C164_count",
    "Abe.KeyMgr.C164_ids",
    "Abe.KeyMgr.C164_equal",
    "Abe.KeyMgr.C164_twenty"
   ],
   "note": ""
  },
  {
   "property": "C165",
   "status": "proved",
   "theorems": [
    "Abe.C165_decrypt",
    "Abe.C165_encapsulate",
    "Abe.C165_key",
    "Abe.C165_made",
    "Abe.C165_lost",
    "Abe.C165_whole"
   ],
   "note": ""
  },
  {
   "property": "C166",
   "status": "proved",
   "theorems": [
    "Abe.Lib.C166_pairing",
    "Abe.Lib.C166_calls",
    "Abe.Lib.C166_no_failures",
    "Abe.Lib.C166_revived"
   ],
   "note": ""
  },
  {
   "property": "C167",
   "status": "proved",
   "theorems": [
    "Abe.C167_unchecked",
    "Abe.C167_checked",
    "Abe.C167_round_trip",
    "Abe.C167_written",
    "Abe.C167_same"
   ],
   "note": ""
  },
  {
   "property": "C168",
   "status": "proved",
   "theorems": [
    "Abe.Flex.C168_strict",
    "Abe.Flex.C168_weak",
    "Abe.Flex.C168_right",
    "Abe.Flex.C168_ranges"
   ],
   "note": ""
  },
  {
   "property": "C169",
   "status": "proved",
   "theorems": [
    "Abe.KeyMgr.C169_search",
    "Abe.KeyMgr.C169_histories",
    "Abe.KeyMgr.C169_checked",
    "Abe.KeyMgr.C169_released"
   ],
   "note": ""
  }
 ]
}