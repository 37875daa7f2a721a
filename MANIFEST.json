{
 "claims": [
  {
   "property": "C01",
   "status": "proved",
   "theorems": [
    "Apk.C01_eocd_located_iff",
    "Apk.C01_eocd_unique"
   ],
   "note": ""
  },
  {
   "property": "C02",
   "status": "proved",
   "theorems": [
    "Apk.C02_unlocatable_not_found",
    "Apk.C02_extract_not_found",
    "Apk.C02_zip64_unlocatable",
    "Apk.C02_short_file"
   ],
   "note": ""
  },
  {
   "property": "C03",
   "status": "proved",
   "theorems": [
    "Apk.C03_block_layout",
    "Apk.C03_layout_found",
    "Apk.C03_layout_unique"
   ],
   "note": ""
  },
  {
   "property": "C04",
   "status": "proved",
   "theorems": [
    "Apk.C04_pairs_roundtrip",
    "Apk.C04_pairs_sound",
    "Apk.C04_nonempty_pairs",
    "Apk.C04_reported_extra_blocks"
   ],
   "note": ""
  },
  {
   "property": "C05",
   "status": "proved",
   "theorems": [
    "Apk.C05_malformed_rejected",
    "Apk.C05_malformed_not_found"
   ],
   "note": "A panic of the frosting parser on a value inside the area is the only other outcome (see C26)."
  },
  {
   "property": "C06",
   "status": "proved",
   "theorems": [
    "Apk.C06_strongest_scheme",
    "Apk.C06_strongest_spec"
   ],
   "note": ""
  },
  {
   "property": "C07",
   "status": "proved",
   "theorems": [
    "Apk.C07_old_platforms_ignore_block"
   ],
   "note": ""
  },
  {
   "property": "C08",
   "status": "proved",
   "theorems": [
    "Apk.C08_read_is_slice_of_concat",
    "Apk.C08_read_refused_iff"
   ],
   "note": ""
  },
  {
   "property": "C09",
   "status": "proved",
   "theorems": [
    "Apk.C09_chunked_digest_spec",
    "Apk.C09_hash_functions"
   ],
   "note": ""
  },
  {
   "property": "C10",
   "status": "proved",
   "theorems": [
    "Apk.C10_chunked_digest_binding"
   ],
   "note": ""
  },
  {
   "property": "C11",
   "status": "proved",
   "theorems": [
    "Apk.C11_verity_spec",
    "Apk.C11_verity_spec_64GiB",
    "Apk.C11_verity_unaligned",
    "Apk.C11_verity_level_overflow",
    "Apk.C11_verity_sum_overflow_panics"
   ],
   "note": ""
  },
  {
   "property": "C12",
   "status": "proved",
   "theorems": [
    "Apk.C12_verity_binding"
   ],
   "note": ""
  },
  {
   "property": "C13",
   "status": "proved",
   "theorems": [
    "Apk.C13_v2_digests_match",
    "Apk.C13_v3_digests_match",
    "Apk.C13_v31_base_digests_match"
   ],
   "note": ""
  },
  {
   "property": "C14",
   "status": "partial",
   "theorems": [
    "Apk.C14_tamper_evidence_partial",
    "Apk.C14_tamper_evidence_small_partial",
    "Apk.C14_verity_split",
    "Apk.C14_verity_split_example"
   ],
   "note": "Proved up to one explicit exceptional case of the verity digest: it covers only the concatenation of the three sections, so two splits of the same concatenation are not told apart (stated as a disjunct; excluded for files below the size at which it can occur). That case does occur: C14_verity_split proves, for any hash functions, two accepted files with the same entries and signing block and different central directories."
  },
  {
   "property": "C15",
   "status": "proved",
   "theorems": [
    "Apk.C15_compare_total_preorder",
    "Apk.C15_strength_table",
    "Apk.C15_selects_strongest",
    "Apk.C15_no_supported_is_error",
    "Apk.C15_selection_total",
    "Apk.C15_v2_strongest_verified"
   ],
   "note": ""
  },
  {
   "property": "C16",
   "status": "proved",
   "theorems": [
    "Apk.C16_v2_signer_iff_spec",
    "Apk.C16_v2_signer_effect"
   ],
   "note": ""
  },
  {
   "property": "C17",
   "status": "proved",
   "theorems": [
    "Apk.C17_all_v2_signers",
    "Apk.C17_conforming_v2_accepted"
   ],
   "note": ""
  },
  {
   "property": "C18",
   "status": "proved",
   "theorems": [
    "Apk.C18_declared_schemes_present",
    "Apk.C18_stripped_v3_rejected",
    "Apk.C18_ignored_before_28"
   ],
   "note": ""
  },
  {
   "property": "C19",
   "status": "partial",
   "theorems": [
    "Apk.C19_v3_signer_iff_spec_partial",
    "Apk.C19_signed_max_sdk_not_checked"
   ],
   "note": "The max-SDK half is false of the code (schemev3.go:198 compares a variable with itself): C19_signed_max_sdk_not_checked is the witness; everything else is proved."
  },
  {
   "property": "C20",
   "status": "proved",
   "theorems": [
    "Apk.C20_v3_range_covered",
    "Apk.C20_v31_range_covered",
    "Apk.C20_rotation_is_minimum",
    "Apk.C20_order_independent"
   ],
   "note": ""
  },
  {
   "property": "C21",
   "status": "proved",
   "theorems": [
    "Apk.C21_lineage_is_chain_of_trust",
    "Apk.C21_lineage_read_iff"
   ],
   "note": ""
  },
  {
   "property": "C22",
   "status": "proved",
   "theorems": [
    "Apk.C22_lineage_extends_all"
   ],
   "note": ""
  },
  {
   "property": "C23",
   "status": "partial",
   "theorems": [
    "Apk.C23_v31_digests_not_checked",
    "Apk.C23_v31_bound_to_file_partial",
    "Apk.C23_v31_needs_v3"
   ],
   "note": "Refuted for the code: witness proved.  The weaker facts that hold are the _partial theorems."
  },
  {
   "property": "C24",
   "status": "partial",
   "theorems": [
    "Apk.C24_fallback_conditions",
    "Apk.C24_stale_certificates_reported",
    "Apk.C24_fallback_certificates_partial"
   ],
   "note": "The last sentence is refuted by a witness; the rest is proved."
  },
  {
   "property": "C25",
   "status": "proved",
   "theorems": [
    "Apk.C25_error_is_last"
   ],
   "note": ""
  },
  {
   "property": "C26",
   "status": "partial",
   "theorems": [
    "Apk.C26_check_panics_iff",
    "Apk.C26_panic_needs_misfit_partial",
    "Apk.C26_extract_panic_needs_misfit_partial",
    "Apk.C26_no_panic_partial",
    "Apk.C26_witnesses",
    "Apk.C26_package_panic_causes_partial",
    "Apk.C26_package_extract_panic_causes_partial"
   ],
   "note": "Refuted for the code: four panicking APKs are proved (C26_witnesses).  C26_panic_needs_misfit_partial bounds the causes: a key or signature that does not fit the declared algorithm of one signer, lineage step or stamp, or a negative varint in a frosting block."
  },
  {
   "property": "C27",
   "status": "proved",
   "theorems": [
    "Apk.C27_other_blocks_do_not_matter",
    "Apk.C27_stripping_other_blocks",
    "Apk.C27_extract_certs_independent"
   ],
   "note": ""
  },
  {
   "property": "C28",
   "status": "proved",
   "theorems": [
    "Apk.C28_integrity_errors_order_independent",
    "Apk.C28_verdict_order_independent"
   ],
   "note": ""
  },
  {
   "property": "C29",
   "status": "proved",
   "theorems": [
    "Apk.C29_roundtrip",
    "Apk.C29_sound",
    "Apk.C29_fails_iff"
   ],
   "note": ""
  },
  {
   "property": "C30",
   "status": "proved",
   "theorems": [
    "Apk.C30_stamp_sound",
    "Apk.C30_stamp_complete",
    "Apk.C30_stamp_end_to_end",
    "Apk.C30_missing_entry_only_warns",
    "Apk.C30_missing_block_is_an_error"
   ],
   "note": "Caveats of the code, visible in the statement: a stamp block without a stamp-cert ZIP entry yields only a warning, and a stamp lineage attribute without nodes stops attribute parsing without an error."
  },
  {
   "property": "C31",
   "status": "proved",
   "theorems": [
    "Apk.C31_order_independent",
    "Apk.C31_canonical",
    "Apk.C31_injective",
    "Apk.C31_binds_digests"
   ],
   "note": ""
  },
  {
   "property": "C32",
   "status": "partial",
   "theorems": [
    "Apk.C32_strongest_verified_partial",
    "Apk.C32_minimum_covered",
    "Apk.C32_complete",
    "Apk.C32_order_independent_without_ties",
    "Apk.C32_tie_witness"
   ],
   "note": "Order independence is refuted on ties by C32_tie_witness; the coverage and maximality parts are proved."
  },
  {
   "property": "C33",
   "status": "proved",
   "theorems": [
    "Apk.C33_varint_roundtrip",
    "Apk.C33_varint_iff",
    "Apk.C33_too_long",
    "Apk.C33_truncated",
    "Apk.C33_array_item_iff",
    "Apk.C33_array_roundtrip",
    "Apk.C33_negative_value"
   ],
   "note": "The fifth varint byte may set the sign bit (C33_negative_value)."
  },
  {
   "property": "C34",
   "status": "proved",
   "theorems": [
    "Apk.C34_parse_iff",
    "Apk.C34_frosting_sound",
    "Apk.C34_frosting_complete"
   ],
   "note": "Two size fields are not counted by the code, so the signed part may run over the end of the block by up to ten zero bytes; this is in the specification (FrostBlock)."
  },
  {
   "property": "C35",
   "status": "proved",
   "theorems": [
    "Apk.C35_accepted_iff",
    "Apk.C35_reported",
    "Apk.C35_block_not_bypassed",
    "Apk.C35_new_platforms_need_v2",
    "Apk.C35_empty_range_refused",
    "Apk.C35_old_platforms_need_v1",
    "Apk.C35_verify_default",
    "Apk.C35_accepted_means_verified",
    "Apk.C35_examples",
    "Apk.C35_unreadable_manifest_witness",
    "Apk.C35_broken_block_counts_as_absent"
   ],
   "note": "Two limits of the rules are proved as witnesses: an unreadable manifest lifts the sandbox and target SDK rules for archives with a v1 signature only (C35_unreadable_manifest_witness), and a signing block that cannot be parsed counts as absent (C35_broken_block_counts_as_absent)."
  },
  {
   "property": "C36",
   "status": "proved",
   "theorems": [
    "Apk.C36_dex_needs_block",
    "Apk.C36_dex_never_v1",
    "Apk.C36_mixed_means_otherwise_valid",
    "Apk.C36_example",
    "Apk.C36_dex_with_block"
   ],
   "note": ""
  },
  {
   "property": "C37",
   "status": "proved",
   "theorems": [
    "Apk.C37_downgrade_rejected",
    "Apk.C37_loaded_signatures",
    "Apk.C37_examples"
   ],
   "note": "The code looks for scheme 2 only: a signature file that lists only scheme 3 does not count (C37_examples). Signature blocks of the same file name in different folders below META-INF override each other, hence DistinctStems in C37_downgrade_rejected; C37_loaded_signatures is without this assumption."
  },
  {
   "property": "C38",
   "status": "partial",
   "theorems": [
    "Apk.C38_accepted_covers_files_partial",
    "Apk.C38_example",
    "Apk.C38_android_manifest_witness"
   ],
   "note": "Refuted for the contents of AndroidManifest.xml by C38_android_manifest_witness (its digest is never compared); directory entries are not checked either. The partial theorem covers every other regular file outside META-INF."
  },
  {
   "property": "C39",
   "status": "proved",
   "theorems": [
    "Apk.C39_order_independent",
    "Apk.C39_failure_order_independent",
    "Apk.C39_panic_or_error_witness",
    "Apk.C39_example"
   ],
   "note": "Acceptance and the set of chains are independent of the order; whether a failure is an error or a panic is not (C39_panic_or_error_witness)."
  },
  {
   "property": "C40",
   "status": "proved",
   "theorems": [
    "Apk.C40_roundtrip",
    "Apk.C40_duplicate_rejected",
    "Apk.C40_canonical_writer",
    "Apk.C40_partition",
    "Apk.C40_names_lower_case"
   ],
   "note": ""
  },
  {
   "property": "C41",
   "status": "partial",
   "theorems": [
    "Apk.C41_flattened_to_the_same_tree_partial",
    "Apk.C41_identity_on_der",
    "Apk.C41_output_is_der",
    "Apk.C41_idempotent",
    "Apk.C41_der_determines_the_tree",
    "Apk.C41_converted_iff",
    "Apk.C41_panics_iff",
    "Apk.C41_empty_indefinite_misread",
    "Apk.C41_panics",
    "Apk.C41_child_overruns_parent",
    "Apk.C41_exponential_output"
   ],
   "note": "Missing: indefinite-length values without children, which the code misreads (C41_empty_indefinite_misread). C41_exponential_output and C41_child_overruns_parent are further defects found."
  },
  {
   "property": "C42",
   "status": "proved",
   "theorems": [
    "Apk.C42_parse_int64",
    "Apk.C42_parse_big_int",
    "Apk.C42_parse_int32",
    "Apk.C42_int64_roundtrip",
    "Apk.C42_int64_canonical",
    "Apk.C42_int64_range",
    "Apk.C42_big_int_roundtrip",
    "Apk.C42_big_int_canonical",
    "Apk.C42_base128_roundtrip",
    "Apk.C42_base128_sound",
    "Apk.C42_oid_roundtrip",
    "Apk.C42_oid_encodable_iff",
    "Apk.C42_oid_sound",
    "Apk.C42_oid_injective",
    "Apk.C42_noncanonical_oid_accepted",
    "Apk.C42_header_roundtrip",
    "Apk.C42_header_sound",
    "Apk.C42_length_value",
    "Apk.C42_length_is_der",
    "Apk.C42_bool",
    "Apk.C42_bit_string",
    "Apk.C42_set_order_independent",
    "Apk.C42_set_content"
   ],
   "note": ""
  },
  {
   "property": "C43",
   "status": "partial",
   "theorems": [
    "Apk.C43_roundtrip",
    "Apk.C43_padded_length",
    "Apk.C43_unpad_sound_partial",
    "Apk.C43_unpad_inverse",
    "Apk.C43_malformed_padding_witnesses",
    "Apk.C43_unpad_iff",
    "Apk.C43_unpad_panics_iff"
   ],
   "note": "Rejection of malformed padding is refuted by C43_malformed_padding_witnesses; C43_unpad_iff and C43_unpad_panics_iff say exactly what is accepted and when it panics."
  },
  {
   "property": "C44",
   "status": "proved",
   "theorems": [
    "Apk.C44_picks_a_leaf",
    "Apk.C44_single_chain",
    "Apk.C44_never_panics",
    "Apk.C44_strongest_algorithm",
    "Apk.C44_inverted_validity",
    "Apk.C44_first_strongest",
    "Apk.C44_expired_can_win",
    "Apk.C44_order_matters",
    "Apk.C44_empty_chain_panics",
    "Apk.C44_after_verify",
    "Apk.C44_after_extract",
    "Apk.C44_name_text",
    "Apk.C44_description"
   ],
   "note": "sort.Sort is any algorithm that compares and swaps positions and sorts when the comparisons are consistent; the insertion sort that Go uses for up to 12 elements is modelled exactly."
  },
  {
   "property": "C45",
   "status": "proved",
   "theorems": [
    "Apk.C45_extract_agrees",
    "Apk.C45_extract_checks_no_digest",
    "Apk.C45_extract_nil_error",
    "Apk.C45_package_extract",
    "Apk.C45_package_agrees",
    "Apk.C45_package_examples"
   ],
   "note": ""
  },
  {
   "property": "C46",
   "status": "proved",
   "theorems": [
    "Apk.C46_reported_chains",
    "Apk.C46_extracted_chains",
    "Apk.C46_signature_chain",
    "Apk.C46_examples"
   ],
   "note": ""
  },
  {
   "property": "C47",
   "status": "partial",
   "theorems": [
    "Apk.C47_names_ambiguous",
    "Apk.C47_block_id_text",
    "Apk.C47_algorithm_text",
    "Apk.C47_level_text",
    "Apk.C47_numerals_denote",
    "Apk.C47_caps_unknown_never_returns",
    "Apk.C47_caps_text_partial",
    "Apk.C47_caps_injective",
    "Apk.C47_block_id_injective",
    "Apk.C47_algorithm_injective",
    "Apk.C47_level_injective",
    "Apk.C47_accepted_lineage_cannot_be_rendered"
   ],
   "note": "Refuted for flag sets with an unknown flag (C47_caps_unknown_never_returns, C47_accepted_lineage_cannot_be_rendered) and for names (C47_names_ambiguous); everything else is proved."
  },
  {
   "property": "C48",
   "status": "proved",
   "theorems": [
    "Apk.C48_section_determines_entry",
    "Apk.C48_entry_has_section",
    "Apk.C48_main_section_determines_attributes"
   ],
   "note": ""
  },
  {
   "property": "C49",
   "status": "partial",
   "theorems": [
    "Apk.C49_panic_causes_partial",
    "Apk.C49_panic_witnesses",
    "Apk.C49_panic_iff",
    "Apk.C49_panic_examples"
   ],
   "note": "Refuted for the code by C49_panic_witnesses; C49_panic_iff says exactly which inputs panic."
  },
  {
   "property": "C50",
   "status": "proved",
   "theorems": [
    "Apk.C50_authentic_files",
    "Apk.C50_example",
    "Apk.C50_signtool_witness"
   ],
   "note": ""
  },
  {
   "property": "C51",
   "status": "partial",
   "theorems": [
    "Apk.C51_panic_causes_partial",
    "Apk.C51_extract_panic_causes_partial",
    "Apk.C51_panic_witnesses"
   ],
   "note": "Refuted for the code by C51_panic_witnesses; the partial theorems bound the causes."
  },
  {
   "property": "C52",
   "status": "proved",
   "theorems": [
    "Apk.C52_manifest_meaning",
    "Apk.C52_manifest_unique",
    "Apk.C52_rest_ignored",
    "Apk.C52_any_min_is_manifest_min",
    "Apk.C52_examples"
   ],
   "note": "The binary XML parser (apkparser) is external: its token stream is a parameter. A manifest file without copies gives zeros instead of the defaults (visible in ManifestSays.no_copy)."
  },
  {
   "property": "C53",
   "status": "partial",
   "theorems": [
    "Apk.C53_lineage_min_sdk_partial",
    "Apk.C53_min_sdk_wrong_for_pss_sha256"
   ],
   "note": "Refuted for RSA-PSS with SHA-256 by C53_min_sdk_wrong_for_pss_sha256; proved for all other lineages."
  },
  {
   "property": "C54",
   "status": "proved",
   "theorems": [
    "Apk.C54_absent_is_blank",
    "Apk.C54_absent_example",
    "Apk.C54_unmarshal_total",
    "Apk.C54_accepts_exactly_the_grammar",
    "Apk.C54_tag_strings",
    "Apk.C54_fields",
    "Apk.C54_tag_string_examples",
    "Apk.C54_prefix_only",
    "Apk.C54_unambiguous",
    "Apk.C54_explicit_length_unchecked"
   ],
   "note": "Character set checks of UTF8String and BMPString contents and the two time formats are parameters of the model. C54_explicit_length_unchecked: the length of an explicit tag wrapper is not compared with its contents; the grammar says so."
  },
  {
   "property": "C55",
   "status": "proved",
   "theorems": [
    "Apk.C55_message_example",
    "Apk.C55_message_read_back",
    "Apk.C55_any_ber_form"
   ],
   "note": "The hypothesis on certificates is discharged by a concrete message with a concrete certificate (C55_message_example, C59_certificate_example)."
  },
  {
   "property": "C56",
   "status": "proved",
   "theorems": [
    "Apk.C56_archive_example",
    "Apk.C56_signers_from_well_formed_message",
    "Apk.C56_accepted_signature_well_formed"
   ],
   "note": ""
  },
  {
   "property": "C57",
   "status": "proved",
   "theorems": [
    "Apk.C57_signature_integers",
    "Apk.C57_malleable"
   ],
   "note": "C57_malleable is a defect: trailing elements inside the SEQUENCE are ignored."
  },
  {
   "property": "C58",
   "status": "proved",
   "theorems": [
    "Apk.C58_attributes_example",
    "Apk.C58_attributes_encode",
    "Apk.C58_read_back",
    "Apk.C58_bytes_determine_attributes",
    "Apk.C58_der_attributes_unchanged"
   ],
   "note": ""
  },
  {
   "property": "C59",
   "status": "proved",
   "theorems": [
    "Apk.C59_certificate_example",
    "Apk.C59_certificate_is_its_input",
    "Apk.C59_key_info_gives_certificate_key",
    "Apk.C59_v2_signed_by_certificate_key",
    "Apk.C59_v3_signed_by_certificate_key"
   ],
   "note": ""
  },
  {
   "property": "C60",
   "status": "partial",
   "theorems": [
    "Apk.C60_repair_partial",
    "Apk.C60_repair_drops_ff",
    "Apk.C60_repair_exact",
    "Apk.C60_zero_modulus",
    "Apk.C60_repaired_positive",
    "Apk.C60_positive_unchanged",
    "Apk.C60_wrong_modulus"
   ],
   "note": "The statement is false for moduli with first octet 255 (C60_repair_drops_ff, C60_wrong_modulus); C60_repair_exact says that this is exactly the failing case."
  },
  {
   "property": "C61",
   "status": "proved",
   "theorems": [
    "Apk.C61_parsers_never_panic"
   ],
   "note": ""
  },
  {
   "property": "C62",
   "status": "proved",
   "theorems": [
    "Apk.C62_accepted_iff",
    "Apk.C62_reported_chains",
    "Apk.C62_example"
   ],
   "note": "An oddity of the code is part of the specification: an unknown name in Digest-Algorithms ends the check of the main attributes (MainAttrsOk)."
  },
  {
   "property": "C63",
   "status": "proved",
   "theorems": [
    "Apk.C63_extracted_iff",
    "Apk.C63_extracted_chains",
    "Apk.C63_verify_then_extract"
   ],
   "note": ""
  },
  {
   "property": "C64",
   "status": "proved",
   "theorems": [
    "Apk.C64_type_text",
    "Apk.C64_type_text_example",
    "Apk.C64_same_name_iff",
    "Apk.C64_parsed_names_iff",
    "Apk.C64_equivalence",
    "Apk.C64_not_told_apart",
    "Apk.C64_type_order"
   ],
   "note": "LowerCase is an assumption on strings.ToLower; the ASCII conversion satisfies it (lower_lowerCase)."
  },
  {
   "property": "C65",
   "status": "proved",
   "theorems": [
    "Apk.C65_certificate_iff",
    "Apk.C65_certificate_refused",
    "Apk.C65_public_key_iff",
    "Apk.C65_certificates_iff",
    "Apk.C65_certificate_unique",
    "Apk.C65_keys_told_apart",
    "Apk.C65_key_strength",
    "Apk.C65_unknown_critical",
    "Apk.C65_ecdsa_example",
    "Apk.C65_dsa_example",
    "Apk.C65_refused_example"
   ],
   "note": "Times, character sets and curve points are parameters, for which goCertEnv gives the models of C67 to C69; the code is more lenient than RFC 5280 in several places that the specification spells out (bytes after PSS parameters, the class of general names, the outer signature algorithm)."
  },
  {
   "property": "C66",
   "status": "proved",
   "theorems": [
    "Apk.C66_signature_block_iff",
    "Apk.C66_file_iff",
    "Apk.C66_enveloped_iff",
    "Apk.C66_other_types",
    "Apk.C66_unique",
    "Apk.C66_rfc_messages",
    "Apk.C66_attribute_values",
    "Apk.C66_message_example",
    "Apk.C66_enveloped_examples",
    "Apk.C66_lenient_examples"
   ],
   "note": "Blocks that are accepted without signers (the error of the decoder is ignored) are outside of the equivalence; the v1 verifier rejects all of them (C56)."
  },
  {
   "property": "C67",
   "status": "partial",
   "theorems": [
    "Apk.C67_time_field_iff",
    "Apk.C67_certificate_layout",
    "Apk.C67_utc_accepted_iff",
    "Apk.C67_generalized_iff",
    "Apk.C67_utc_instant_partial",
    "Apk.C67_utc_early_numeric",
    "Apk.C67_utc_depends_on_local_zone",
    "Apk.C67_one_reading",
    "Apk.C67_instants_told_apart",
    "Apk.C67_written_as",
    "Apk.C67_written_text",
    "Apk.C67_read_back_partial"
   ],
   "note": "False of the code for UTCTimes with years 50 to 68 and a numeric zone: they are first taken for 2050 to 2068, and if the offset is the one of the local time zone then, the date a century earlier is evaluated with the rules of the local zone (C67_utc_depends_on_local_zone). All other times: proved in full; for these C67_utc_early_numeric says exactly what is reported."
  },
  {
   "property": "C68",
   "status": "proved",
   "theorems": [
    "Apk.C68_utf8_iff",
    "Apk.C68_bmp_iff",
    "Apk.C68_bmp_accepted_iff",
    "Apk.C68_bmp_read_back",
    "Apk.C68_one_reading",
    "Apk.C68_accepted_text"
   ],
   "note": "utf8.Valid, utf16.Decode and the conversion of runes to strings of the Go standard library are modelled."
  },
  {
   "property": "C69",
   "status": "proved",
   "theorems": [
    "Apk.C69_point_iff",
    "Apk.C69_one_encoding",
    "Apk.C69_key_accepted",
    "Apk.C69_keys_are_points"
   ],
   "note": "elliptic.Unmarshal of the Go standard library (nistec) is modelled with integers modulo the prime."
  },
  {
   "property": "C70",
   "status": "proved",
   "theorems": [
    "Apk.C70_warnings",
    "Apk.C70_base_block",
    "Apk.C70_signer_unique",
    "Apk.C70_block_unique",
    "Apk.Toy.C70_example"
   ],
   "note": "After a fallback the warnings that the failed v3 verification had added before its errors are not specified (ws0 in SchemeWarnings.fallback)."
  },
  {
   "property": "C71",
   "status": "proved",
   "theorems": [
    "Apk.C71_signed_v2_accepted",
    "Apk.C71_signed_v2_v3_accepted",
    "Apk.C71_signed_rotated_accepted_before",
    "Apk.C71_signed_rotated_accepted_after",
    "Apk.C71_rotated_rejected_between",
    "Apk.C71_v2_example",
    "Apk.C71_v3_example",
    "Apk.C71_rotated_example"
   ],
   "note": "The exception between Android 13 and the rotation platform is a theorem of its own (C71_rotated_rejected_between). Frosting and stamp blocks are not part of the reference signer; verity algorithms need entries that end at a page boundary."
  },
  {
   "property": "C72",
   "status": "proved",
   "theorems": [
    "Apk.C72_manifest_iff",
    "Apk.C72_value_unique",
    "Apk.C72_line_feed_in_value",
    "Apk.C72_line_feed_by_grammar"
   ],
   "note": ""
  },
  {
   "property": "C73",
   "status": "proved",
   "theorems": [
    "Apk.Jar.C73_signed_jar_accepted",
    "Apk.Toy.C73_example"
   ],
   "note": "Text encoding of digests (base64) and strings.ToLower are parameters with the laws that are needed (TextCode, toLower of the empty string); certificates, blocks and attributes are the concrete parsers of C55 to C66."
  },
  {
   "property": "C74",
   "status": "proved",
   "theorems": [
    "Apk.C74_signed_v1_accepted",
    "Apk.C74_signed_v2_accepted",
    "Apk.C74_signed_v2_v3_accepted",
    "Apk.C74_signed_rotated_accepted",
    "Apk.Toy.C74_v1_example",
    "Apk.Toy.C74_v2_example",
    "Apk.Toy.C74_v3_example",
    "Apk.Toy.C74_rotated_example"
   ],
   "note": "The archive as read by the ZIP library and the bytes of the file are independent in the model; the theorems hold for every combination. C74_signed_rotated_accepted leaves out the ranges of the defect of C71."
  },
  {
   "property": "C75",
   "status": "proved",
   "theorems": [
    "Apk.C75_unix_times",
    "Apk.C75_read_back",
    "Apk.C75_read_back_before",
    "Apk.C75_told_apart",
    "Apk.C75_utc_times",
    "Apk.C75_explicit_private_lost",
    "Apk.C75_application_private_lost",
    "Apk.C75_invalid_utf8_written",
    "Apk.C75_large_enumerated_written",
    "Apk.C75_flag_turns_true",
    "Apk.C75_explicit_before_empty_lost",
    "Apk.C75_raw_value_ignores_tag",
    "Apk.C75_attributes_in_order",
    "Apk.C75_writes_der",
    "Apk.C75_stable_under_ber2der",
    "Apk.C75_negative_tag_not_der",
    "Apk.C75_strings",
    "Apk.C75_times",
    "Apk.C75_omitempty",
    "Apk.C75_strings_example"
   ],
   "note": "Fits (Spec/Marshal.lean) is the exact list of conditions; for each there is a theorem with a value that is written and not read back when it fails. Copies of encodings (FullBytes, RawContent) are not compared."
  },
  {
   "property": "C76",
   "status": "proved",
   "theorems": [
    "Apk.C76_message_iff",
    "Apk.C76_message_read",
    "Apk.C76_file_iff",
    "Apk.C76_message_unique",
    "Apk.C76_what_v1_sees",
    "Apk.C76_verify_iff",
    "Apk.C76_verify_never_panics",
    "Apk.C76_serial_numbers",
    "Apk.C76_attributes_bind_contents",
    "Apk.C76_signed_bytes_determine_attributes",
    "Apk.C76_content_type_not_checked",
    "Apk.C76_attributes_as_contents",
    "Apk.C76_only_signer_iff",
    "Apk.C76_only_signer_signed",
    "Apk.C76_signed_attribute_iff",
    "Apk.C76_signed_attribute_never_panics",
    "Apk.C76_examples",
    "Apk.C76_examples_refused"
   ],
   "note": "Cryptography and the decoding of RSA-PSS parameters by encoding/asn1 are parameters. RawIssuer is re-read from the bytes of the certificate; revocation lists are not kept. For messages without signers only one direction (C76_message_read): a SignedData whose decoding failed half-way is returned by Parse with what was read so far, see C56."
  },
  {
   "property": "C77",
   "status": "proved",
   "theorems": [
    "Apk.C77_rfc_message_read",
    "Apk.C77_signed_message",
    "Apk.C77_detached",
    "Apk.C77_other_contents_refused",
    "Apk.C77_attribute_read",
    "Apk.C77_standard_attributes_read",
    "Apk.C77_degenerate",
    "Apk.C77_other_keys_refused",
    "Apk.C77_attributes_in_order",
    "Apk.C77_equal_keys",
    "Apk.C77_example",
    "Apk.C77_example_detached"
   ],
   "note": "Certificates and the keys are given as data that agree with each other (CertAgrees, KeyAgrees, StepOk in Spec/P7Sign.lean); messages and certificates below 2^31 bytes. Errors of Marshal and of the signing primitive are outcomes without a message. time.Now is an argument."
  },
  {
   "property": "C78",
   "status": "proved",
   "theorems": [
    "Apk.C78_envelope_read",
    "Apk.C78_decrypt_iff",
    "Apk.C78_not_recipient",
    "Apk.C78_panics_iff",
    "Apk.C78_rfc5084_refused",
    "Apk.C78_trailing_parts_ignored",
    "Apk.C78_encrypt_panics_iff",
    "Apk.C78_roundtrip",
    "Apk.C78_example"
   ],
   "note": "RSA, CBC and GCM are parameters with the laws CiphersOk (Spec/Envelope.lean); CryptBlocks fills a slice of the length of its input. rand.Read does not fail, the random bytes are arguments. The issuer of each recipient is one DER element (IssuerOk)."
  },
  {
   "property": "C79",
   "status": "proved",
   "theorems": [
    "Apk.C79_no_failure",
    "Apk.C79_no_failure_package",
    "Apk.C79_accepted_despite_failures",
    "Apk.C79_same_result",
    "Apk.C79_frosting_despite_failures",
    "Apk.C79_package_despite_failures",
    "Apk.C79_example",
    "Apk.C79_zip64_witness",
    "Apk.C79_rerun_witness",
    "Apk.C79_demotion_witness",
    "Apk.C79_changing_file_witness"
   ],
   "note": "A Seek and the Read that depends on it count as one call; calls are numbered in program order. Failures of the ZIP reader (which reads the same file on its own) are in Zip/Zip1: entries that cannot be opened or read. The disagreements are proved by witnesses."
  },
  {
   "property": "C80",
   "status": "proved",
   "theorems": [
    "Apk.C80_certificate_iff",
    "Apk.C80_certificate_unique",
    "Apk.C80_certificate_refused",
    "Apk.C80_verifier_fields",
    "Apk.C80_for_go",
    "Apk.C80_certificates_iff",
    "Apk.C80_names_example",
    "Apk.C80_constraints_example",
    "Apk.C80_purposes_example",
    "Apk.C80_access_example",
    "Apk.C80_purposes_lost",
    "Apk.C80_class_ignored",
    "Apk.C80_last_wins"
   ],
   "note": "Text strings of extensions are compared as bytes; nil and empty slices are the same; `reflect` in andrCertToGoCert is modelled as copying every field but ExtKeyUsage (all other field types convert)."
  },
  {
   "property": "C81",
   "status": "proved",
   "theorems": [
    "Apk.C81_v2_narrower_range",
    "Apk.C81_v3_narrower_range",
    "Apk.C81_v31_narrower_range",
    "Apk.C81_wide_range_hides_rejections"
   ],
   "note": "At the level of the signing block; both runs are supposed to return (C26 describes the panics). C81_wide_range_hides_rejections shows the limits."
  },
  {
   "property": "C82",
   "status": "proved",
   "theorems": [
    "Apk.C82_date_of_instant",
    "Apk.C82_four_digit_years",
    "Apk.C82_certificate_years",
    "Apk.C82_rfc3339_one_meaning",
    "Apk.C82_description",
    "Apk.C82_description_determines",
    "Apk.C82_description_names",
    "Apk.C82_description_ambiguous",
    "Apk.C82_dump_text",
    "Apk.C82_dump_dies_iff",
    "Apk.C82_dump_writer",
    "Apk.C82_dump_forged"
   ],
   "note": "Go time.Format is transcribed by its arithmetic (Model/Calendar); Dump for certificates whose times are in UTC, with years of four digits (C82_four_digit_years says which instants those are)."
  },
  {
   "property": "C83",
   "status": "proved",
   "theorems": [
    "Apk.C83_chains_sound",
    "Apk.C83_terminates",
    "Apk.C83_host_iff",
    "Apk.C83_signature_iff",
    "Apk.C83_parsed_same",
    "Apk.C83_root_iff",
    "Apk.C83_complete_partial",
    "Apk.C83_chain_example",
    "Apk.C83_chains_missed",
    "Apk.C83_sentinel_accepts",
    "Apk.C83_entrust_child",
    "Apk.C83_star_for_nothing",
    "Apk.C83_constraints_need_name",
    "Apk.C83_complete_example",
    "Apk.C83_root_example"
   ],
   "note": "Functions of an internal package that the exported API does not call. Signatures, strings.EqualFold, net.ParseIP, the clock and the roots of the system are parameters; errors are not told apart. Soundness for pools in which equal bytes mean equal certificates (C83_parsed_same: parsed certificates). Completeness holds without limits on path lengths (C83_complete_partial) and fails with them (C83_chains_missed)."
  },
  {
   "property": "C84",
   "status": "proved",
   "theorems": [
    "Apk.C84_decrypt_iff",
    "Apk.C84_data_unique",
    "Apk.C84_incorrect_iff",
    "Apk.C84_no_panic",
    "Apk.C84_encrypt_iff",
    "Apk.C84_round_trip",
    "Apk.C84_encrypt_succeeds",
    "Apk.C84_not_encrypted",
    "Apk.C84_wrong_password_undetected"
   ],
   "note": "Functions of an internal package that nothing calls. MD5 and the block ciphers are parameters (inverse to each other on blocks: PemEnvOk, met by toyPem_ok); CBC mode, padding, key derivation and header are modelled."
  },
  {
   "property": "C85",
   "status": "proved",
   "theorems": [
    "Apk.C85_rsa_iff",
    "Apk.C85_rsa_written",
    "Apk.C85_rsa_marshal_panics",
    "Apk.C85_rsa_round_trip",
    "Apk.C85_ec_iff",
    "Apk.C85_ec_total",
    "Apk.C85_ec_value",
    "Apk.C85_ec_written",
    "Apk.C85_ec_marshal_panics",
    "Apk.C85_ec_round_trip",
    "Apk.C85_ec_sign_lost",
    "Apk.C85_pkcs8_iff",
    "Apk.C85_pkcs8_total",
    "Apk.C85_example",
    "Apk.C85_trailing",
    "Apk.C85_container_wins",
    "Apk.C85_zero_accepted"
   ],
   "note": "Functions of an internal package that nothing calls. They use encoding/asn1 of the standard library, which is a parameter (with what it reads back as hypothesis of the round trips), as are validation and precomputation of RSA keys and the multiplication on curves. C85_example meets all hypotheses."
  },
  {
   "property": "C86",
   "status": "proved",
   "theorems": [
    "Apk.C86_template_read_back",
    "Apk.C86_plain",
    "Apk.C86_describes",
    "Apk.C86_which",
    "Apk.C86_succeeds_iff",
    "Apk.C86_panics_iff",
    "Apk.C86_copies",
    "Apk.C86_usage_lost",
    "Apk.C86_wrong_address",
    "Apk.C86_empty_constraint",
    "Apk.C86_large_policy",
    "Apk.C86_unknown_panics",
    "Apk.C86_example"
   ],
   "note": "Functions of an internal package that nothing in the verifier calls. A template is given by its fields that come from extensions; usages and numbers of purposes are not negative. encoding/asn1 of the standard library is the model of the writer of this fork with sorted sets. C86_example meets all hypotheses with something in every field."
  },
  {
   "property": "C87",
   "status": "proved",
   "theorems": [
    "Apk.C87_certificate_read_back",
    "Apk.C87_signature_verifies",
    "Apk.C87_signed_by",
    "Apk.C87_names_of_certificates",
    "Apk.C87_signing_iff",
    "Apk.C87_requires",
    "Apk.C87_refused",
    "Apk.C87_panics",
    "Apk.C87_example",
    "Apk.C87_md5_made"
   ],
   "note": "A function of an internal package that nothing in the verifier calls. Certificates of less than 1 GB; extra extensions only of kinds that the parser does not understand; names that can be read (those of a certificate that was read, by C87_names_of_certificates), readable keys and template fields, and times that are read as they were written. Signing, hashing and points of curves are parameters. Of success only necessary conditions are proved (C87_requires). C87_example meets all hypotheses."
  },
  {
   "property": "C88",
   "status": "proved",
   "theorems": [
    "Apk.C88_append",
    "Apk.C88_defined",
    "Apk.C88_total",
    "Apk.C88_contents",
    "Apk.C88_distinct",
    "Apk.C88_subjects",
    "Apk.C88_example"
   ],
   "note": "Functions of an internal package that nothing in the verifier calls. pem.Decode is a parameter, of which only is assumed that what it leaves is shorter. C88_example meets all hypotheses with every kind of block and a repeated certificate."
  }
 ]
}