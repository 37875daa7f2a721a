Apk.C01_eocd_located_iff depends on axioms: [propext, Classical.choice, Quot.sound]
Apk.C01_eocd_unique depends on axioms: [propext, Quot.sound]
Apk.C02_unlocatable_not_found depends on axioms: [propext, Classical.choice, Quot.sound]
Apk.C02_extract_not_found depends on axioms: [propext, Classical.choice, Quot.sound]
Apk.C02_zip64_unlocatable depends on axioms: [propext, Quot.sound]
Apk.C02_short_file depends on axioms: [propext]
Apk.C03_block_layout depends on axioms: [propext, Classical.choice, Quot.sound]
Apk.C03_layout_found depends on axioms: [propext, Classical.choice, Quot.sound]
Apk.C03_layout_unique depends on axioms: [propext, Classical.choice, Quot.sound]
Apk.C04_pairs_roundtrip depends on axioms: [propext, Classical.choice, Quot.sound]
Apk.C04_pairs_sound depends on axioms: [propext, Classical.choice, Quot.sound]
Apk.C04_nonempty_pairs depends on axioms: [propext]
Apk.C04_reported_extra_blocks depends on axioms: [propext, Classical.choice, Quot.sound]
Apk.C05_malformed_rejected depends on axioms: [propext, Classical.choice, Quot.sound]
Apk.C05_malformed_not_found depends on axioms: [propext, Classical.choice, Quot.sound]
Apk.C06_strongest_scheme depends on axioms: [propext, Classical.choice, Quot.sound]
Apk.C06_strongest_spec depends on axioms: [propext]
Apk.C07_old_platforms_ignore_block depends on axioms: [propext, Classical.choice, Quot.sound]
Apk.C08_read_is_slice_of_concat depends on axioms: [propext, Classical.choice, Quot.sound]
Apk.C08_read_refused_iff depends on axioms: [propext, Classical.choice, Quot.sound]
Apk.C09_chunked_digest_spec depends on axioms: [propext, Classical.choice, Quot.sound]
Apk.C09_hash_functions does not depend on any axioms
Apk.C10_chunked_digest_binding depends on axioms: [propext, Classical.choice, Quot.sound]
Apk.C11_verity_spec depends on axioms: [propext, Classical.choice, Quot.sound]
Apk.C11_verity_spec_64GiB depends on axioms: [propext, Classical.choice, Quot.sound]
Apk.C11_verity_unaligned depends on axioms: [propext, Quot.sound]
Apk.C11_verity_level_overflow depends on axioms: [propext, Quot.sound]
Apk.C11_verity_sum_overflow_panics depends on axioms: [propext, Quot.sound]
Apk.C12_verity_binding depends on axioms: [propext, Classical.choice, Quot.sound]
Apk.C13_v2_digests_match depends on axioms: [propext, Classical.choice, Quot.sound]
Apk.C13_v3_digests_match depends on axioms: [propext, Classical.choice, Quot.sound]
Apk.C13_v31_base_digests_match depends on axioms: [propext, Classical.choice, Quot.sound]
Apk.C14_tamper_evidence_partial depends on axioms: [propext, Classical.choice, Quot.sound]
Apk.C14_tamper_evidence_small_partial depends on axioms: [propext, Classical.choice, Quot.sound]
Apk.C14_verity_split depends on axioms: [propext, Classical.choice, Quot.sound]
Apk.C14_verity_split_example depends on axioms: [propext, Classical.choice, Quot.sound]
Apk.C15_compare_total_preorder depends on axioms: [propext, Classical.choice, Quot.sound]
Apk.C15_strength_table depends on axioms: [propext, Classical.choice, Quot.sound]
Apk.C15_selects_strongest depends on axioms: [propext, Classical.choice, Quot.sound]
Apk.C15_no_supported_is_error depends on axioms: [propext, Classical.choice, Quot.sound]
Apk.C15_selection_total depends on axioms: [propext, Classical.choice, Quot.sound]
Apk.C15_v2_strongest_verified depends on axioms: [propext, Classical.choice, Quot.sound]
Apk.C16_v2_signer_iff_spec depends on axioms: [propext, Classical.choice, Quot.sound]
Apk.C16_v2_signer_effect depends on axioms: [propext, Classical.choice, Quot.sound]
Apk.C17_all_v2_signers depends on axioms: [propext, Classical.choice, Quot.sound]
Apk.C17_conforming_v2_accepted depends on axioms: [propext, Classical.choice, Quot.sound]
Apk.C18_declared_schemes_present depends on axioms: [propext, Classical.choice, Quot.sound]
Apk.C18_stripped_v3_rejected depends on axioms: [propext, Classical.choice, Quot.sound]
Apk.C18_ignored_before_28 depends on axioms: [propext, Classical.choice, Quot.sound]
Apk.C19_v3_signer_iff_spec_partial depends on axioms: [propext, Classical.choice, Quot.sound]
Apk.C19_signed_max_sdk_not_checked depends on axioms: [propext, Classical.choice, Quot.sound]
Apk.C20_v3_range_covered depends on axioms: [propext, Classical.choice, Quot.sound]
Apk.C20_v31_range_covered depends on axioms: [propext, Classical.choice, Quot.sound]
Apk.C20_rotation_is_minimum depends on axioms: [propext, Quot.sound]
Apk.C20_order_independent depends on axioms: [propext, Classical.choice, Quot.sound]
Apk.C21_lineage_is_chain_of_trust depends on axioms: [propext, Classical.choice, Quot.sound]
Apk.C21_lineage_read_iff depends on axioms: [propext, Classical.choice, Quot.sound]
Apk.C22_lineage_extends_all depends on axioms: [propext, Classical.choice, Quot.sound]
Apk.C23_v31_digests_not_checked depends on axioms: [propext, Classical.choice, Quot.sound]
Apk.C23_v31_bound_to_file_partial depends on axioms: [propext, Classical.choice, Quot.sound]
Apk.C23_v31_needs_v3 depends on axioms: [propext, Classical.choice, Quot.sound]
Apk.C24_fallback_conditions depends on axioms: [propext, Classical.choice, Quot.sound]
Apk.C24_stale_certificates_reported depends on axioms: [propext, Classical.choice, Quot.sound]
Apk.C24_fallback_certificates_partial depends on axioms: [propext, Classical.choice, Quot.sound]
Apk.C25_error_is_last depends on axioms: [propext, Classical.choice, Quot.sound]
Apk.C26_check_panics_iff depends on axioms: [propext, Quot.sound]
Apk.C26_panic_needs_misfit_partial depends on axioms: [propext, Classical.choice, Quot.sound]
Apk.C26_extract_panic_needs_misfit_partial depends on axioms: [propext, Classical.choice, Quot.sound]
Apk.C26_no_panic_partial depends on axioms: [propext, Classical.choice, Quot.sound]
Apk.C26_witnesses depends on axioms: [propext]
Apk.C26_package_panic_causes_partial depends on axioms: [propext, Classical.choice, Quot.sound]
Apk.C26_package_extract_panic_causes_partial depends on axioms: [propext, Classical.choice, Quot.sound]
Apk.C27_other_blocks_do_not_matter depends on axioms: [propext, Classical.choice, Quot.sound]
Apk.C27_stripping_other_blocks depends on axioms: [propext, Classical.choice, Quot.sound]
Apk.C27_extract_certs_independent depends on axioms: [propext, Classical.choice, Quot.sound]
Apk.C28_integrity_errors_order_independent depends on axioms: [propext, Classical.choice, Quot.sound]
Apk.C28_verdict_order_independent depends on axioms: [propext, Classical.choice, Quot.sound]
Apk.C29_roundtrip depends on axioms: [propext, Classical.choice, Quot.sound]
Apk.C29_sound depends on axioms: [propext, Classical.choice, Quot.sound]
Apk.C29_fails_iff depends on axioms: [propext, Classical.choice, Quot.sound]
Apk.C30_stamp_sound depends on axioms: [propext, Classical.choice, Quot.sound]
Apk.C30_stamp_complete depends on axioms: [propext, Classical.choice, Quot.sound]
Apk.C30_stamp_end_to_end depends on axioms: [propext, Classical.choice, Quot.sound]
Apk.C30_missing_entry_only_warns depends on axioms: [propext, Classical.choice, Quot.sound]
Apk.C30_missing_block_is_an_error depends on axioms: [propext]
Apk.C31_order_independent depends on axioms: [propext, Quot.sound]
Apk.C31_canonical depends on axioms: [propext, Quot.sound]
Apk.C31_injective depends on axioms: [propext, Classical.choice, Quot.sound]
Apk.C31_binds_digests depends on axioms: [propext, Classical.choice, Quot.sound]
Apk.C32_strongest_verified_partial depends on axioms: [propext, Classical.choice, Quot.sound]
Apk.C32_minimum_covered depends on axioms: [propext, Classical.choice, Quot.sound]
Apk.C32_complete depends on axioms: [propext, Classical.choice, Quot.sound]
Apk.C32_order_independent_without_ties depends on axioms: [propext, Classical.choice, Quot.sound]
Apk.C32_tie_witness depends on axioms: [propext]
Apk.C33_varint_roundtrip depends on axioms: [propext, Classical.choice, Quot.sound]
Apk.C33_varint_iff depends on axioms: [propext, Classical.choice, Quot.sound]
Apk.C33_too_long depends on axioms: [propext, Classical.choice, Quot.sound]
Apk.C33_truncated depends on axioms: [propext, Classical.choice, Quot.sound]
Apk.C33_array_item_iff depends on axioms: [propext, Classical.choice, Quot.sound]
Apk.C33_array_roundtrip depends on axioms: [propext, Classical.choice, Quot.sound]
Apk.C33_negative_value does not depend on any axioms
Apk.C34_parse_iff depends on axioms: [propext, Classical.choice, Quot.sound]
Apk.C34_frosting_sound depends on axioms: [propext, Classical.choice, Quot.sound]
Apk.C34_frosting_complete depends on axioms: [propext, Classical.choice, Quot.sound]
Apk.C35_accepted_iff depends on axioms: [propext, Classical.choice, Quot.sound]
Apk.C35_reported depends on axioms: [propext, Classical.choice, Quot.sound]
Apk.C35_block_not_bypassed depends on axioms: [propext, Classical.choice, Quot.sound]
Apk.C35_new_platforms_need_v2 depends on axioms: [propext, Classical.choice, Quot.sound]
Apk.C35_empty_range_refused depends on axioms: [propext, Quot.sound]
Apk.C35_old_platforms_need_v1 depends on axioms: [propext, Classical.choice, Quot.sound]
Apk.C35_verify_default depends on axioms: [propext, Classical.choice, Quot.sound]
Apk.C35_accepted_means_verified depends on axioms: [propext, Classical.choice, Quot.sound]
Apk.C35_examples depends on axioms: [propext, Quot.sound]
Apk.C35_unreadable_manifest_witness depends on axioms: [propext, Quot.sound]
Apk.C35_broken_block_counts_as_absent depends on axioms: [propext, Quot.sound]
Apk.C36_dex_needs_block depends on axioms: [propext, Classical.choice, Quot.sound]
Apk.C36_dex_never_v1 depends on axioms: [propext, Classical.choice, Quot.sound]
Apk.C36_mixed_means_otherwise_valid depends on axioms: [propext, Classical.choice, Quot.sound]
Apk.C36_example depends on axioms: [propext, Quot.sound]
Apk.C36_dex_with_block depends on axioms: [propext, Quot.sound]
Apk.C37_downgrade_rejected depends on axioms: [propext, Classical.choice, Quot.sound]
Apk.C37_loaded_signatures depends on axioms: [propext, Classical.choice, Quot.sound]
Apk.C37_examples depends on axioms: [propext, Quot.sound]
Apk.C38_accepted_covers_files_partial depends on axioms: [propext, Classical.choice, Quot.sound]
Apk.C38_example depends on axioms: [propext, Quot.sound]
Apk.C38_android_manifest_witness depends on axioms: [propext, Quot.sound]
Apk.C39_order_independent depends on axioms: [propext, Classical.choice, Quot.sound]
Apk.C39_failure_order_independent depends on axioms: [propext, Classical.choice, Quot.sound]
Apk.C39_panic_or_error_witness depends on axioms: [propext, Quot.sound]
Apk.C39_example depends on axioms: [propext, Quot.sound]
Apk.C40_roundtrip depends on axioms: [propext, Classical.choice, Quot.sound]
Apk.C40_duplicate_rejected depends on axioms: [propext, Classical.choice, Quot.sound]
Apk.C40_canonical_writer depends on axioms: [propext, Quot.sound]
Apk.C40_partition depends on axioms: [propext, Classical.choice, Quot.sound]
Apk.C40_names_lower_case depends on axioms: [propext, Classical.choice, Quot.sound]
Apk.C41_flattened_to_the_same_tree_partial depends on axioms: [propext, Classical.choice, Quot.sound]
Apk.C41_identity_on_der depends on axioms: [propext, Classical.choice, Quot.sound]
Apk.C41_output_is_der depends on axioms: [propext, Classical.choice, Quot.sound]
Apk.C41_idempotent depends on axioms: [propext, Classical.choice, Quot.sound]
Apk.C41_der_determines_the_tree depends on axioms: [propext, Classical.choice, Quot.sound]
Apk.C41_converted_iff depends on axioms: [propext, Quot.sound]
Apk.C41_panics_iff depends on axioms: [propext, Classical.choice, Quot.sound]
Apk.C41_empty_indefinite_misread does not depend on any axioms
Apk.C41_panics does not depend on any axioms
Apk.C41_child_overruns_parent does not depend on any axioms
Apk.C41_exponential_output depends on axioms: [propext, Classical.choice, Quot.sound]
Apk.C42_parse_int64 depends on axioms: [propext, Quot.sound]
Apk.C42_parse_big_int depends on axioms: [propext, Classical.choice, Quot.sound]
Apk.C42_parse_int32 depends on axioms: [propext, Classical.choice, Quot.sound]
Apk.C42_int64_roundtrip depends on axioms: [propext, Classical.choice, Quot.sound]
Apk.C42_int64_canonical depends on axioms: [propext, Classical.choice, Quot.sound]
Apk.C42_int64_range depends on axioms: [propext, Classical.choice, Quot.sound]
Apk.C42_big_int_roundtrip depends on axioms: [propext, Classical.choice, Quot.sound]
Apk.C42_big_int_canonical depends on axioms: [propext, Classical.choice, Quot.sound]
Apk.C42_base128_roundtrip depends on axioms: [propext, Classical.choice, Quot.sound]
Apk.C42_base128_sound depends on axioms: [propext, Quot.sound]
Apk.C42_oid_roundtrip depends on axioms: [propext, Classical.choice, Quot.sound]
Apk.C42_oid_encodable_iff depends on axioms: [propext, Classical.choice, Quot.sound]
Apk.C42_oid_sound depends on axioms: [propext, Quot.sound]
Apk.C42_oid_injective depends on axioms: [propext, Classical.choice, Quot.sound]
Apk.C42_noncanonical_oid_accepted does not depend on any axioms
Apk.C42_header_roundtrip depends on axioms: [propext, Classical.choice, Quot.sound]
Apk.C42_header_sound depends on axioms: [propext, Quot.sound]
Apk.C42_length_value depends on axioms: [propext, Quot.sound]
Apk.C42_length_is_der depends on axioms: [propext, Classical.choice, Quot.sound]
Apk.C42_bool depends on axioms: [propext]
Apk.C42_bit_string depends on axioms: [propext, Classical.choice, Quot.sound]
Apk.C42_set_order_independent depends on axioms: [propext, Quot.sound]
Apk.C42_set_content does not depend on any axioms
Apk.C43_roundtrip depends on axioms: [propext, Quot.sound]
Apk.C43_padded_length depends on axioms: [propext, Quot.sound]
Apk.C43_unpad_sound_partial depends on axioms: [propext, Classical.choice, Quot.sound]
Apk.C43_unpad_inverse depends on axioms: [propext, Classical.choice, Quot.sound]
Apk.C43_malformed_padding_witnesses does not depend on any axioms
Apk.C43_unpad_iff depends on axioms: [propext, Classical.choice, Quot.sound]
Apk.C43_unpad_panics_iff depends on axioms: [propext, Classical.choice, Quot.sound]
Apk.C44_picks_a_leaf depends on axioms: [propext, Quot.sound]
Apk.C44_single_chain depends on axioms: [propext, Quot.sound]
Apk.C44_never_panics depends on axioms: [propext, Quot.sound]
Apk.C44_strongest_algorithm depends on axioms: [propext, Quot.sound]
Apk.C44_inverted_validity depends on axioms: [propext, Classical.choice, Quot.sound]
Apk.C44_first_strongest depends on axioms: [propext, Quot.sound]
Apk.C44_expired_can_win depends on axioms: [propext]
Apk.C44_order_matters depends on axioms: [propext]
Apk.C44_empty_chain_panics depends on axioms: [propext]
Apk.C44_after_verify depends on axioms: [propext, Classical.choice, Quot.sound]
Apk.C44_after_extract depends on axioms: [propext, Classical.choice, Quot.sound]
Apk.C44_name_text depends on axioms: [propext, Quot.sound]
Apk.C44_description depends on axioms: [propext, Quot.sound]
Apk.C45_extract_agrees depends on axioms: [propext, Classical.choice, Quot.sound]
Apk.C45_extract_checks_no_digest depends on axioms: [propext, Classical.choice, Quot.sound]
Apk.C45_extract_nil_error depends on axioms: [propext, Classical.choice, Quot.sound]
Apk.C45_package_extract depends on axioms: [propext, Quot.sound]
Apk.C45_package_agrees depends on axioms: [propext, Classical.choice, Quot.sound]
Apk.C45_package_examples depends on axioms: [propext, Quot.sound]
Apk.C46_reported_chains depends on axioms: [propext, Classical.choice, Quot.sound]
Apk.C46_extracted_chains depends on axioms: [propext, Classical.choice, Quot.sound]
Apk.C46_signature_chain depends on axioms: [propext, Classical.choice, Quot.sound]
Apk.C46_examples depends on axioms: [propext]
Apk.C47_names_ambiguous does not depend on any axioms
Apk.C47_block_id_text depends on axioms: [propext, Quot.sound]
Apk.C47_algorithm_text depends on axioms: [propext, Quot.sound]
Apk.C47_level_text depends on axioms: [propext, Classical.choice, Quot.sound]
Apk.C47_numerals_denote depends on axioms: [propext, Quot.sound]
Apk.C47_caps_unknown_never_returns depends on axioms: [propext, Quot.sound]
Apk.C47_caps_text_partial depends on axioms: [propext, Classical.choice, Quot.sound]
Apk.C47_caps_injective depends on axioms: [propext, Classical.choice, Quot.sound]
Apk.C47_block_id_injective depends on axioms: [propext, Quot.sound]
Apk.C47_algorithm_injective depends on axioms: [propext, Quot.sound]
Apk.C47_level_injective depends on axioms: [propext, Quot.sound]
Apk.C47_accepted_lineage_cannot_be_rendered depends on axioms: [propext, Quot.sound]
Apk.C48_section_determines_entry depends on axioms: [propext, Classical.choice, Quot.sound]
Apk.C48_entry_has_section depends on axioms: [propext, Classical.choice, Quot.sound]
Apk.C48_main_section_determines_attributes depends on axioms: [propext, Classical.choice, Quot.sound]
Apk.C49_panic_causes_partial depends on axioms: [propext, Classical.choice, Quot.sound]
Apk.C49_panic_witnesses does not depend on any axioms
Apk.C49_panic_iff depends on axioms: [propext, Classical.choice, Quot.sound]
Apk.C49_panic_examples depends on axioms: [propext, Quot.sound]
Apk.C50_authentic_files depends on axioms: [propext, Classical.choice, Quot.sound]
Apk.C50_example depends on axioms: [propext, Classical.choice, Quot.sound]
Apk.C50_signtool_witness depends on axioms: [propext]
Apk.C51_panic_causes_partial depends on axioms: [propext, Quot.sound]
Apk.C51_extract_panic_causes_partial depends on axioms: [propext, Quot.sound]
Apk.C51_panic_witnesses depends on axioms: [propext, Quot.sound]
Apk.C52_manifest_meaning depends on axioms: [propext, Quot.sound]
Apk.C52_manifest_unique depends on axioms: [propext, Quot.sound]
Apk.C52_rest_ignored depends on axioms: [propext]
Apk.C52_any_min_is_manifest_min depends on axioms: [propext, Quot.sound]
Apk.C52_examples depends on axioms: [propext, Quot.sound]
Apk.C53_lineage_min_sdk_partial depends on axioms: [propext, Classical.choice, Quot.sound]
Apk.C53_min_sdk_wrong_for_pss_sha256 depends on axioms: [propext]
Apk.C54_absent_is_blank depends on axioms: [propext, Classical.choice, Quot.sound]
Apk.C54_absent_example depends on axioms: [propext, Classical.choice, Quot.sound]
Apk.C54_unmarshal_total depends on axioms: [propext, Quot.sound]
Apk.C54_accepts_exactly_the_grammar depends on axioms: [propext, Classical.choice, Quot.sound]
Apk.C54_tag_strings depends on axioms: [propext, Classical.choice, Quot.sound]
Apk.C54_fields depends on axioms: [propext, Classical.choice, Quot.sound]
Apk.C54_tag_string_examples depends on axioms: [propext, Classical.choice, Quot.sound]
Apk.C54_prefix_only depends on axioms: [propext, Classical.choice, Quot.sound]
Apk.C54_unambiguous depends on axioms: [propext, Classical.choice, Quot.sound]
Apk.C54_explicit_length_unchecked depends on axioms: [propext, Classical.choice, Quot.sound]
Apk.C55_message_example depends on axioms: [propext, Classical.choice, Quot.sound]
Apk.C55_message_read_back depends on axioms: [propext, Classical.choice, Quot.sound]
Apk.C55_any_ber_form depends on axioms: [propext, Classical.choice, Quot.sound]
Apk.C56_archive_example depends on axioms: [propext, Quot.sound]
Apk.C56_signers_from_well_formed_message depends on axioms: [propext, Classical.choice, Quot.sound]
Apk.C56_accepted_signature_well_formed depends on axioms: [propext, Classical.choice, Quot.sound]
Apk.C57_signature_integers depends on axioms: [propext, Classical.choice, Quot.sound]
Apk.C57_malleable depends on axioms: [propext, Classical.choice, Quot.sound]
Apk.C58_attributes_example depends on axioms: [propext, Classical.choice, Quot.sound]
Apk.C58_attributes_encode depends on axioms: [propext, Classical.choice, Quot.sound]
Apk.C58_read_back depends on axioms: [propext, Classical.choice, Quot.sound]
Apk.C58_bytes_determine_attributes depends on axioms: [propext, Classical.choice, Quot.sound]
Apk.C58_der_attributes_unchanged depends on axioms: [propext, Classical.choice, Quot.sound]
Apk.C59_certificate_example depends on axioms: [propext, Classical.choice, Quot.sound]
Apk.C59_certificate_is_its_input depends on axioms: [propext, Classical.choice, Quot.sound]
Apk.C59_key_info_gives_certificate_key depends on axioms: [propext, Classical.choice, Quot.sound]
Apk.C59_v2_signed_by_certificate_key depends on axioms: [propext, Classical.choice, Quot.sound]
Apk.C59_v3_signed_by_certificate_key depends on axioms: [propext, Classical.choice, Quot.sound]
Apk.C60_repair_partial depends on axioms: [propext, Classical.choice, Quot.sound]
Apk.C60_repair_drops_ff depends on axioms: [propext, Classical.choice, Quot.sound]
Apk.C60_repair_exact depends on axioms: [propext, Classical.choice, Quot.sound]
Apk.C60_zero_modulus does not depend on any axioms
Apk.C60_repaired_positive depends on axioms: [propext, Classical.choice, Quot.sound]
Apk.C60_positive_unchanged depends on axioms: [propext, Quot.sound]
Apk.C60_wrong_modulus depends on axioms: [propext]
Apk.C61_parsers_never_panic depends on axioms: [propext, Classical.choice, Quot.sound]
Apk.C62_accepted_iff depends on axioms: [propext, Classical.choice, Quot.sound]
Apk.C62_reported_chains depends on axioms: [propext, Classical.choice, Quot.sound]
Apk.C62_example depends on axioms: [propext, Classical.choice, Quot.sound]
Apk.C63_extracted_iff depends on axioms: [propext, Classical.choice, Quot.sound]
Apk.C63_extracted_chains depends on axioms: [propext, Classical.choice, Quot.sound]
Apk.C63_verify_then_extract depends on axioms: [propext, Classical.choice, Quot.sound]
Apk.C64_type_text depends on axioms: [propext, Quot.sound]
Apk.C64_type_text_example depends on axioms: [propext]
Apk.C64_same_name_iff depends on axioms: [propext, Quot.sound]
Apk.C64_parsed_names_iff depends on axioms: [propext, Quot.sound]
Apk.C64_equivalence depends on axioms: [propext]
Apk.C64_not_told_apart depends on axioms: [propext, Quot.sound]
Apk.C64_type_order depends on axioms: [propext, Quot.sound]
Apk.C65_certificate_iff depends on axioms: [propext, Classical.choice, Quot.sound]
Apk.C65_certificate_refused depends on axioms: [propext, Classical.choice, Quot.sound]
Apk.C65_public_key_iff depends on axioms: [propext, Classical.choice, Quot.sound]
Apk.C65_certificates_iff depends on axioms: [propext, Classical.choice, Quot.sound]
Apk.C65_certificate_unique depends on axioms: [propext, Classical.choice, Quot.sound]
Apk.C65_keys_told_apart depends on axioms: [propext, Classical.choice, Quot.sound]
Apk.C65_key_strength depends on axioms: [propext, Classical.choice, Quot.sound]
Apk.C65_unknown_critical depends on axioms: [propext, Classical.choice, Quot.sound]
Apk.C65_ecdsa_example depends on axioms: [propext, Classical.choice, Quot.sound]
Apk.C65_dsa_example depends on axioms: [propext, Classical.choice, Quot.sound]
Apk.C65_refused_example depends on axioms: [propext, Classical.choice, Quot.sound]
Apk.C66_signature_block_iff depends on axioms: [propext, Classical.choice, Quot.sound]
Apk.C66_file_iff depends on axioms: [propext, Classical.choice, Quot.sound]
Apk.C66_enveloped_iff depends on axioms: [propext, Classical.choice, Quot.sound]
Apk.C66_other_types depends on axioms: [propext, Classical.choice, Quot.sound]
Apk.C66_unique depends on axioms: [propext, Classical.choice, Quot.sound]
Apk.C66_rfc_messages depends on axioms: [propext, Classical.choice, Quot.sound]
Apk.C66_attribute_values depends on axioms: [propext, Classical.choice, Quot.sound]
Apk.C66_message_example depends on axioms: [propext, Classical.choice, Quot.sound]
Apk.C66_enveloped_examples depends on axioms: [propext, Classical.choice, Quot.sound]
Apk.C66_lenient_examples depends on axioms: [propext, Classical.choice, Quot.sound]
Apk.C67_time_field_iff depends on axioms: [propext, Classical.choice, Quot.sound]
Apk.C67_certificate_layout depends on axioms: [propext, Classical.choice, Quot.sound]
Apk.C67_utc_accepted_iff depends on axioms: [propext, Classical.choice, Quot.sound]
Apk.C67_generalized_iff depends on axioms: [propext, Classical.choice, Quot.sound]
Apk.C67_utc_instant_partial depends on axioms: [propext, Classical.choice, Quot.sound]
Apk.C67_utc_early_numeric depends on axioms: [propext, Classical.choice, Quot.sound]
Apk.C67_utc_depends_on_local_zone depends on axioms: [propext]
Apk.C67_one_reading depends on axioms: [propext, Classical.choice, Quot.sound]
Apk.C67_instants_told_apart depends on axioms: [propext, Quot.sound]
Apk.C67_written_as depends on axioms: [propext, Classical.choice, Quot.sound]
Apk.C67_written_text depends on axioms: [propext, Classical.choice, Quot.sound]
Apk.C67_read_back_partial depends on axioms: [propext, Classical.choice, Quot.sound]
Apk.C68_utf8_iff depends on axioms: [propext, Classical.choice, Quot.sound]
Apk.C68_bmp_iff depends on axioms: [propext, Classical.choice, Quot.sound]
Apk.C68_bmp_accepted_iff depends on axioms: [propext, Classical.choice, Quot.sound]
Apk.C68_bmp_read_back depends on axioms: [propext, Classical.choice, Quot.sound]
Apk.C68_one_reading depends on axioms: [propext, Classical.choice, Quot.sound]
Apk.C68_accepted_text depends on axioms: [propext, Classical.choice, Quot.sound]
Apk.C69_point_iff depends on axioms: [propext, Classical.choice, Quot.sound]
Apk.C69_one_encoding depends on axioms: [propext, Classical.choice, Quot.sound]
Apk.C69_key_accepted depends on axioms: [propext, Classical.choice, Quot.sound]
Apk.C69_keys_are_points depends on axioms: [propext, Classical.choice, Quot.sound]
Apk.C70_warnings depends on axioms: [propext, Classical.choice, Quot.sound]
Apk.C70_base_block depends on axioms: [propext, Classical.choice, Quot.sound]
Apk.C70_signer_unique depends on axioms: [propext, Classical.choice, Quot.sound]
Apk.C70_block_unique depends on axioms: [propext, Classical.choice, Quot.sound]
Apk.Toy.C70_example depends on axioms: [propext]
Apk.C71_signed_v2_accepted depends on axioms: [propext, Classical.choice, Quot.sound]
Apk.C71_signed_v2_v3_accepted depends on axioms: [propext, Classical.choice, Quot.sound]
Apk.C71_signed_rotated_accepted_before depends on axioms: [propext, Classical.choice, Quot.sound]
Apk.C71_signed_rotated_accepted_after depends on axioms: [propext, Classical.choice, Quot.sound]
Apk.C71_rotated_rejected_between depends on axioms: [propext, Classical.choice, Quot.sound]
Apk.C71_v2_example depends on axioms: [propext, Classical.choice, Quot.sound]
Apk.C71_v3_example depends on axioms: [propext, Classical.choice, Quot.sound]
Apk.C71_rotated_example depends on axioms: [propext, Classical.choice, Quot.sound]
Apk.C72_manifest_iff depends on axioms: [propext, Classical.choice, Quot.sound]
Apk.C72_value_unique depends on axioms: [propext, Quot.sound]
Apk.C72_line_feed_in_value does not depend on any axioms
Apk.C72_line_feed_by_grammar depends on axioms: [propext, Quot.sound]
Apk.Jar.C73_signed_jar_accepted depends on axioms: [propext, Classical.choice, Quot.sound]
Apk.Toy.C73_example depends on axioms: [propext, Classical.choice, Quot.sound]
Apk.C74_signed_v1_accepted depends on axioms: [propext, Classical.choice, Quot.sound]
Apk.C74_signed_v2_accepted depends on axioms: [propext, Classical.choice, Quot.sound]
Apk.C74_signed_v2_v3_accepted depends on axioms: [propext, Classical.choice, Quot.sound]
Apk.C74_signed_rotated_accepted depends on axioms: [propext, Classical.choice, Quot.sound]
Apk.Toy.C74_v1_example depends on axioms: [propext, Classical.choice, Quot.sound]
Apk.Toy.C74_v2_example depends on axioms: [propext, Classical.choice, Quot.sound]
Apk.Toy.C74_v3_example depends on axioms: [propext, Classical.choice, Quot.sound]
Apk.Toy.C74_rotated_example depends on axioms: [propext, Classical.choice, Quot.sound]
Apk.C75_unix_times depends on axioms: [propext, Classical.choice, Quot.sound]
Apk.C75_read_back depends on axioms: [propext, Classical.choice, Quot.sound]
Apk.C75_read_back_before depends on axioms: [propext, Classical.choice, Quot.sound]
Apk.C75_told_apart depends on axioms: [propext, Classical.choice, Quot.sound]
Apk.C75_utc_times depends on axioms: [propext, Classical.choice, Quot.sound]
Apk.C75_explicit_private_lost depends on axioms: [propext, Quot.sound]
Apk.C75_application_private_lost depends on axioms: [propext, Quot.sound]
Apk.C75_invalid_utf8_written depends on axioms: [propext, Quot.sound]
Apk.C75_large_enumerated_written depends on axioms: [propext, Quot.sound]
Apk.C75_flag_turns_true depends on axioms: [propext, Quot.sound]
Apk.C75_explicit_before_empty_lost depends on axioms: [propext, Quot.sound]
Apk.C75_raw_value_ignores_tag depends on axioms: [propext, Quot.sound]
Apk.C75_attributes_in_order depends on axioms: [propext, Quot.sound]
Apk.C75_writes_der depends on axioms: [propext, Classical.choice, Quot.sound]
Apk.C75_stable_under_ber2der depends on axioms: [propext, Classical.choice, Quot.sound]
Apk.C75_negative_tag_not_der depends on axioms: [propext, Quot.sound]
Apk.C75_strings depends on axioms: [propext, Classical.choice, Quot.sound]
Apk.C75_times depends on axioms: [propext, Classical.choice, Quot.sound]
Apk.C75_omitempty depends on axioms: [propext, Classical.choice, Quot.sound]
Apk.C75_strings_example depends on axioms: [propext, Classical.choice, Quot.sound]
Apk.C76_message_iff depends on axioms: [propext, Classical.choice, Quot.sound]
Apk.C76_message_read depends on axioms: [propext, Classical.choice, Quot.sound]
Apk.C76_file_iff depends on axioms: [propext, Classical.choice, Quot.sound]
Apk.C76_message_unique depends on axioms: [propext, Classical.choice, Quot.sound]
Apk.C76_what_v1_sees depends on axioms: [propext, Classical.choice, Quot.sound]
Apk.C76_verify_iff depends on axioms: [propext, Classical.choice, Quot.sound]
Apk.C76_verify_never_panics depends on axioms: [propext, Quot.sound]
Apk.C76_serial_numbers depends on axioms: [propext, Classical.choice, Quot.sound]
Apk.C76_attributes_bind_contents depends on axioms: [propext, Classical.choice, Quot.sound]
Apk.C76_signed_bytes_determine_attributes depends on axioms: [propext, Classical.choice, Quot.sound]
Apk.C76_content_type_not_checked depends on axioms: [propext, Quot.sound]
Apk.C76_attributes_as_contents depends on axioms: [propext, Quot.sound]
Apk.C76_only_signer_iff depends on axioms: [propext, Classical.choice, Quot.sound]
Apk.C76_only_signer_signed depends on axioms: [propext, Classical.choice, Quot.sound]
Apk.C76_signed_attribute_iff depends on axioms: [propext, Classical.choice, Quot.sound]
Apk.C76_signed_attribute_never_panics depends on axioms: [propext, Quot.sound]
Apk.C76_examples depends on axioms: [propext, Quot.sound]
Apk.C76_examples_refused depends on axioms: [propext, Quot.sound]
Apk.C77_rfc_message_read depends on axioms: [propext, Classical.choice, Quot.sound]
Apk.C77_signed_message depends on axioms: [propext, Classical.choice, Quot.sound]
Apk.C77_detached depends on axioms: [propext, Classical.choice, Quot.sound]
Apk.C77_other_contents_refused depends on axioms: [propext, Classical.choice, Quot.sound]
Apk.C77_attribute_read depends on axioms: [propext, Classical.choice, Quot.sound]
Apk.C77_standard_attributes_read depends on axioms: [propext, Classical.choice, Quot.sound]
Apk.C77_degenerate depends on axioms: [propext, Classical.choice, Quot.sound]
Apk.C77_other_keys_refused depends on axioms: [propext, Quot.sound]
Apk.C77_attributes_in_order depends on axioms: [propext, Classical.choice, Quot.sound]
Apk.C77_equal_keys depends on axioms: [propext, Classical.choice, Quot.sound]
Apk.C77_example depends on axioms: [propext, Classical.choice, Quot.sound]
Apk.C77_example_detached depends on axioms: [propext, Classical.choice, Quot.sound]
Apk.C78_envelope_read depends on axioms: [propext, Classical.choice, Quot.sound]
Apk.C78_decrypt_iff depends on axioms: [propext, Classical.choice, Quot.sound]
Apk.C78_not_recipient depends on axioms: [propext, Quot.sound]
Apk.C78_panics_iff depends on axioms: [propext, Classical.choice, Quot.sound]
Apk.C78_rfc5084_refused depends on axioms: [propext, Classical.choice, Quot.sound]
Apk.C78_trailing_parts_ignored depends on axioms: [propext, Classical.choice, Quot.sound]
Apk.C78_encrypt_panics_iff depends on axioms: [propext, Quot.sound]
Apk.C78_roundtrip depends on axioms: [propext, Classical.choice, Quot.sound]
Apk.C78_example depends on axioms: [propext, Classical.choice, Quot.sound]
Apk.C79_no_failure depends on axioms: [propext, Classical.choice, Quot.sound]
Apk.C79_no_failure_package depends on axioms: [propext, Classical.choice, Quot.sound]
Apk.C79_accepted_despite_failures depends on axioms: [propext, Classical.choice, Quot.sound]
Apk.C79_same_result depends on axioms: [propext, Classical.choice, Quot.sound]
Apk.C79_frosting_despite_failures depends on axioms: [propext, Classical.choice, Quot.sound]
Apk.C79_package_despite_failures depends on axioms: [propext, Classical.choice, Quot.sound]
Apk.C79_example depends on axioms: [propext, Classical.choice, Quot.sound]
Apk.C79_zip64_witness depends on axioms: [propext, Classical.choice, Quot.sound]
Apk.C79_rerun_witness depends on axioms: [propext, Quot.sound]
Apk.C79_demotion_witness depends on axioms: [propext, Quot.sound]
Apk.C79_changing_file_witness depends on axioms: [propext, Quot.sound]
Apk.C80_certificate_iff depends on axioms: [propext, Classical.choice, Quot.sound]
Apk.C80_certificate_unique depends on axioms: [propext, Classical.choice, Quot.sound]
Apk.C80_certificate_refused depends on axioms: [propext, Classical.choice, Quot.sound]
Apk.C80_verifier_fields depends on axioms: [propext, Classical.choice, Quot.sound]
Apk.C80_for_go depends on axioms: [propext, Classical.choice, Quot.sound]
Apk.C80_certificates_iff depends on axioms: [propext, Classical.choice, Quot.sound]
Apk.C80_names_example depends on axioms: [propext, Classical.choice, Quot.sound]
Apk.C80_constraints_example depends on axioms: [propext, Classical.choice, Quot.sound]
Apk.C80_purposes_example depends on axioms: [propext, Classical.choice, Quot.sound]
Apk.C80_access_example depends on axioms: [propext, Classical.choice, Quot.sound]
Apk.C80_purposes_lost depends on axioms: [propext, Classical.choice, Quot.sound]
Apk.C80_class_ignored depends on axioms: [propext, Classical.choice, Quot.sound]
Apk.C80_last_wins depends on axioms: [propext, Classical.choice, Quot.sound]
Apk.C81_v2_narrower_range depends on axioms: [propext, Classical.choice, Quot.sound]
Apk.C81_v3_narrower_range depends on axioms: [propext, Classical.choice, Quot.sound]
Apk.C81_v31_narrower_range depends on axioms: [propext, Classical.choice, Quot.sound]
Apk.C81_wide_range_hides_rejections depends on axioms: [propext]
Apk.C82_date_of_instant depends on axioms: [propext, Classical.choice, Quot.sound]
Apk.C82_four_digit_years depends on axioms: [propext, Classical.choice, Quot.sound]
Apk.C82_certificate_years depends on axioms: [propext, Quot.sound]
Apk.C82_rfc3339_one_meaning depends on axioms: [propext, Quot.sound]
Apk.C82_description depends on axioms: [propext, Classical.choice, Quot.sound]
Apk.C82_description_determines depends on axioms: [propext, Quot.sound]
Apk.C82_description_names depends on axioms: [propext, Quot.sound]
Apk.C82_description_ambiguous depends on axioms: [propext]
Apk.C82_dump_text depends on axioms: [propext, Classical.choice, Quot.sound]
Apk.C82_dump_dies_iff depends on axioms: [propext, Classical.choice, Quot.sound]
Apk.C82_dump_writer depends on axioms: [propext]
Apk.C82_dump_forged depends on axioms: [propext, Quot.sound]
Apk.C83_chains_sound depends on axioms: [propext, Classical.choice, Quot.sound]
Apk.C83_terminates depends on axioms: [propext, Classical.choice, Quot.sound]
Apk.C83_host_iff depends on axioms: [propext, Classical.choice, Quot.sound]
Apk.C83_signature_iff depends on axioms: [propext, Classical.choice, Quot.sound]
Apk.C83_parsed_same depends on axioms: [propext, Classical.choice, Quot.sound]
Apk.C83_root_iff depends on axioms: [propext, Classical.choice, Quot.sound]
Apk.C83_complete_partial depends on axioms: [propext, Classical.choice, Quot.sound]
Apk.C83_chain_example depends on axioms: [propext, Classical.choice, Quot.sound]
Apk.C83_chains_missed depends on axioms: [propext, Classical.choice, Quot.sound]
Apk.C83_sentinel_accepts depends on axioms: [propext, Quot.sound]
Apk.C83_entrust_child depends on axioms: [propext, Classical.choice, Quot.sound]
Apk.C83_star_for_nothing depends on axioms: [propext, Classical.choice, Quot.sound]
Apk.C83_constraints_need_name depends on axioms: [propext]
Apk.C83_complete_example depends on axioms: [propext, Classical.choice, Quot.sound]
Apk.C83_root_example depends on axioms: [propext, Classical.choice, Quot.sound]
Apk.C84_decrypt_iff depends on axioms: [propext, Classical.choice, Quot.sound]
Apk.C84_data_unique depends on axioms: [propext, Classical.choice, Quot.sound]
Apk.C84_incorrect_iff depends on axioms: [propext, Classical.choice, Quot.sound]
Apk.C84_no_panic depends on axioms: [propext, Classical.choice, Quot.sound]
Apk.C84_encrypt_iff depends on axioms: [propext, Quot.sound]
Apk.C84_round_trip depends on axioms: [propext, Classical.choice, Quot.sound]
Apk.C84_encrypt_succeeds depends on axioms: [propext, Quot.sound]
Apk.C84_not_encrypted depends on axioms: [propext, Classical.choice, Quot.sound]
Apk.C84_wrong_password_undetected depends on axioms: [propext, Quot.sound]
Apk.C85_rsa_iff depends on axioms: [propext, Quot.sound]
Apk.C85_rsa_written depends on axioms: [propext, Quot.sound]
Apk.C85_rsa_marshal_panics depends on axioms: [propext, Classical.choice, Quot.sound]
Apk.C85_rsa_round_trip depends on axioms: [propext, Quot.sound]
Apk.C85_ec_iff depends on axioms: [propext, Classical.choice, Quot.sound]
Apk.C85_ec_total depends on axioms: [propext, Classical.choice, Quot.sound]
Apk.C85_ec_value depends on axioms: [propext, Classical.choice, Quot.sound]
Apk.C85_ec_written depends on axioms: [propext, Classical.choice, Quot.sound]
Apk.C85_ec_marshal_panics depends on axioms: [propext, Classical.choice, Quot.sound]
Apk.C85_ec_round_trip depends on axioms: [propext, Classical.choice, Quot.sound]
Apk.C85_ec_sign_lost depends on axioms: [propext, Quot.sound]
Apk.C85_pkcs8_iff depends on axioms: [propext, Classical.choice, Quot.sound]
Apk.C85_pkcs8_total depends on axioms: [propext, Classical.choice, Quot.sound]
Apk.C85_example depends on axioms: [propext, Classical.choice, Quot.sound]
Apk.C85_trailing depends on axioms: [propext]
Apk.C85_container_wins depends on axioms: [propext]
Apk.C85_zero_accepted depends on axioms: [propext]
Apk.C86_template_read_back depends on axioms: [propext, Classical.choice, Quot.sound]
Apk.C86_plain depends on axioms: [propext, Classical.choice, Quot.sound]
Apk.C86_describes depends on axioms: [propext, Classical.choice, Quot.sound]
Apk.C86_which depends on axioms: [propext, Classical.choice, Quot.sound]
Apk.C86_succeeds_iff depends on axioms: [propext, Classical.choice, Quot.sound]
Apk.C86_panics_iff depends on axioms: [propext, Classical.choice, Quot.sound]
Apk.C86_copies depends on axioms: [propext, Classical.choice, Quot.sound]
Apk.C86_usage_lost depends on axioms: [propext, Quot.sound]
Apk.C86_wrong_address depends on axioms: [propext, Quot.sound]
Apk.C86_empty_constraint depends on axioms: [propext, Quot.sound]
Apk.C86_large_policy depends on axioms: [propext, Quot.sound]
Apk.C86_unknown_panics depends on axioms: [propext, Quot.sound]
Apk.C86_example depends on axioms: [propext, Quot.sound]
Apk.C87_certificate_read_back depends on axioms: [propext, Classical.choice, Quot.sound]
Apk.C87_signature_verifies depends on axioms: [propext, Quot.sound]
Apk.C87_signed_by depends on axioms: [propext, Quot.sound]
Apk.C87_names_of_certificates depends on axioms: [propext, Classical.choice, Quot.sound]
Apk.C87_signing_iff depends on axioms: [propext, Classical.choice, Quot.sound]
Apk.C87_requires depends on axioms: [propext, Classical.choice, Quot.sound]
Apk.C87_refused depends on axioms: [propext, Quot.sound]
Apk.C87_panics depends on axioms: [propext, Classical.choice, Quot.sound]
Apk.C87_example depends on axioms: [propext, Classical.choice, Quot.sound]
Apk.C87_md5_made depends on axioms: [propext, Quot.sound]
Apk.C88_append depends on axioms: [propext, Classical.choice, Quot.sound]
Apk.C88_defined depends on axioms: [propext, Classical.choice, Quot.sound]
Apk.C88_total depends on axioms: [propext, Classical.choice, Quot.sound]
Apk.C88_contents depends on axioms: [propext, Classical.choice, Quot.sound]
Apk.C88_distinct depends on axioms: [propext, Classical.choice, Quot.sound]
Apk.C88_subjects depends on axioms: [propext, Classical.choice, Quot.sound]
Apk.C88_example depends on axioms: [propext, Classical.choice, Quot.sound] 