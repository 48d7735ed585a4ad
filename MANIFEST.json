{
 "claims": [
  {
   "property": "C01",
   "status": "proved",
   "theorems": [
    "Zkenc.Props.C01_roundtrip"
   ],
   "note": ""
  },
  {
   "property": "C02",
   "status": "proved",
   "theorems": [
    "Zkenc.Props.C02_bn254_generic_failure",
    "Zkenc.Props.C02_bn254_at_most_one_delta",
    "Zkenc.Props.C02_cli_public_only",
    "Zkenc.Props.C02_js_public_only",
    "Zkenc.Props.C02_exact_condition",
    "Zkenc.Props.C02_at_most_one_delta",
    "Zkenc.Props.C02_roundtrip_refuted"
   ],
   "note": ""
  },
  {
   "property": "C03",
   "status": "proved",
   "theorems": [
    "Zkenc.Props.C03_key_recoverable",
    "Zkenc.Props.C03_even_unsatisfiable"
   ],
   "note": ""
  },
  {
   "property": "C04",
   "status": "proved",
   "theorems": [
    "Zkenc.Props.C04_C05_decap_sound",
    "Zkenc.Props.C04_no_key_without_witness"
   ],
   "note": ""
  },
  {
   "property": "C05",
   "status": "proved",
   "theorems": [
    "Zkenc.Props.C04_C05_decap_sound"
   ],
   "note": ""
  },
  {
   "property": "C06",
   "status": "proved",
   "theorems": [
    "Zkenc.Props.C06_outcome",
    "Zkenc.Props.C06_graceful"
   ],
   "note": ""
  },
  {
   "property": "C07",
   "status": "proved",
   "theorems": [
    "Zkenc.Props.C07_encap_ok",
    "Zkenc.Props.C07_encap_outcome",
    "Zkenc.Props.C07_encap_outcome_circom"
   ],
   "note": ""
  },
  {
   "property": "C08",
   "status": "proved",
   "theorems": [
    "Zkenc.Props.C08_bound_public_inputs",
    "Zkenc.Props.C08_unbound_if_first_missing"
   ],
   "note": ""
  },
  {
   "property": "C09",
   "status": "proved",
   "theorems": [
    "Zkenc.Props.C09_no_circuit_binding",
    "Zkenc.Props.C09_strip_public",
    "Zkenc.Props.C09_empty_circuit_opens"
   ],
   "note": ""
  },
  {
   "property": "C10",
   "status": "proved",
   "theorems": [
    "Zkenc.Props.C10_unique_key"
   ],
   "note": ""
  },
  {
   "property": "C11",
   "status": "proved",
   "theorems": [
    "Zkenc.Props.C11_key_formula",
    "Zkenc.Props.C11_keys_equal_iff"
   ],
   "note": ""
  },
  {
   "property": "C12",
   "status": "proved",
   "theorems": [
    "Zkenc.Props.C12_verify_iff",
    "Zkenc.Props.C12_accepts_broken"
   ],
   "note": ""
  },
  {
   "property": "C13",
   "status": "proved",
   "theorems": [
    "Zkenc.Props.C13_qap_evaluations",
    "Zkenc.Props.C13_no_domain"
   ],
   "note": ""
  },
  {
   "property": "C14",
   "status": "proved",
   "theorems": [
    "Zkenc.Props.C14_r1cs_iff_divisible",
    "Zkenc.Props.C14_decap_on_domain"
   ],
   "note": ""
  },
  {
   "property": "C15",
   "status": "proved",
   "theorems": [
    "Zkenc.Props.C15_shape",
    "Zkenc.Props.C15_size_documented"
   ],
   "note": ""
  },
  {
   "property": "C16",
   "status": "proved",
   "theorems": [
    "Zkenc.Props.C16_roundtrip",
    "Zkenc.Props.C16_injective"
   ],
   "note": ""
  },
  {
   "property": "C17",
   "status": "proved",
   "theorems": [
    "Zkenc.Props.C17_truncation_rejected",
    "Zkenc.Props.C17_extension"
   ],
   "note": ""
  },
  {
   "property": "C18",
   "status": "proved",
   "theorems": [
    "Zkenc.Props.C18_canonical"
   ],
   "note": ""
  },
  {
   "property": "C19",
   "status": "proved",
   "theorems": [
    "Zkenc.Props.C19_bincode_roundtrip",
    "Zkenc.Props.C19_truncation_rejected",
    "Zkenc.Props.C20_C19_export_bincode"
   ],
   "note": ""
  },
  {
   "property": "C20",
   "status": "proved",
   "theorems": [
    "Zkenc.Props.C20_export_faithful",
    "Zkenc.Props.C20_C19_export_bincode"
   ],
   "note": ""
  },
  {
   "property": "C21",
   "status": "proved",
   "theorems": [
    "Zkenc.Props.C21_cli_inverts_format"
   ],
   "note": ""
  },
  {
   "property": "C22",
   "status": "proved",
   "theorems": [
    "Zkenc.Props.C22_js_inverts_format"
   ],
   "note": ""
  },
  {
   "property": "C23",
   "status": "proved",
   "theorems": [
    "Zkenc.Props.C23_js_agrees",
    "Zkenc.Props.C23_both_ok_agree"
   ],
   "note": ""
  },
  {
   "property": "C24",
   "status": "proved",
   "theorems": [
    "Zkenc.Props.C24_r1cs_accepts",
    "Zkenc.Props.C24_r1cs_total",
    "Zkenc.Props.C24_r1cs_bad_magic",
    "Zkenc.Props.C24_r1cs_bad_version",
    "Zkenc.Props.C24_r1cs_missing_section",
    "Zkenc.Props.C24_r1cs_truncation",
    "Zkenc.Props.C24_r1cs_strict_prefix",
    "Zkenc.Props.C24_wtns_accepts",
    "Zkenc.Props.C24_wtns_total",
    "Zkenc.Props.C24_wtns_panic_iff",
    "Zkenc.Props.C24_wtns_panic_example",
    "Zkenc.Props.C24_wtns_bad_preamble",
    "Zkenc.Props.C24_wtns_strict_prefix",
    "Zkenc.Props.C24_wtns_missing_section"
   ],
   "note": ""
  },
  {
   "property": "C25",
   "status": "proved",
   "theorems": [
    "Zkenc.Props.C25_js_ends",
    "Zkenc.Props.C25_js_graceful",
    "Zkenc.Props.C25_js_panics",
    "Zkenc.Props.C25_js_panic_example",
    "Zkenc.Props.C25_js_panic_iff",
    "Zkenc.Props.C25_js_coefficient_example"
   ],
   "note": ""
  },
  {
   "property": "C26",
   "status": "proved",
   "theorems": [
    "Zkenc.Props.C26_cli_inverts_format",
    "Zkenc.Props.C26_to_field_elements",
    "Zkenc.Props.C26_noncanonical_rejected",
    "Zkenc.Props.C26_roundtrip"
   ],
   "note": ""
  },
  {
   "property": "C27",
   "status": "proved",
   "theorems": [
    "Zkenc.Props.C27_js_inverts_format"
   ],
   "note": ""
  },
  {
   "property": "C28",
   "status": "proved",
   "theorems": [
    "Zkenc.Props.C28_hang_cause",
    "Zkenc.Props.C28_hangs",
    "Zkenc.Props.C28_data_first_hangs",
    "Zkenc.Props.C28_bad_magic",
    "Zkenc.Props.C28_preamble_cut_panics",
    "Zkenc.Props.C28_strict_prefix_panics",
    "Zkenc.Props.C28_outcome",
    "Zkenc.Props.C28_values"
   ],
   "note": ""
  },
  {
   "property": "C29",
   "status": "proved",
   "theorems": [
    "Zkenc.Props.C29_tools_compared",
    "Zkenc.Props.C29_two_data_sections"
   ],
   "note": ""
  },
  {
   "property": "C30",
   "status": "proved",
   "theorems": [
    "Zkenc.Props.C30_roundtrip",
    "Zkenc.Props.C30_canonical",
    "Zkenc.Props.C30_negative"
   ],
   "note": ""
  },
  {
   "property": "C31",
   "status": "proved",
   "theorems": [
    "Zkenc.Props.C31_calculator_output",
    "Zkenc.Props.C31_limbs_inverse"
   ],
   "note": ""
  },
  {
   "property": "C32",
   "status": "proved",
   "theorems": [
    "Zkenc.Props.C32_synthesis_faithful",
    "Zkenc.Props.C32_synthesis_ok_iff"
   ],
   "note": ""
  },
  {
   "property": "C33",
   "status": "proved",
   "theorems": [
    "Zkenc.Props.C33_tools_agree"
   ],
   "note": ""
  },
  {
   "property": "C34",
   "status": "proved",
   "theorems": [
    "Zkenc.Props.C34_out_of_range_dropped"
   ],
   "note": ""
  },
  {
   "property": "C35",
   "status": "proved",
   "theorems": [
    "Zkenc.Props.C35_tools_agree",
    "Zkenc.Props.C35_parses",
    "Zkenc.Props.C35_last_wins",
    "Zkenc.Props.C35_input_lookup"
   ],
   "note": ""
  },
  {
   "property": "C36",
   "status": "proved",
   "theorems": [
    "Zkenc.Props.C36_js_line",
    "Zkenc.Props.C36_cli_rejects_iff",
    "Zkenc.Props.C36_cli_total",
    "Zkenc.Props.C36_js_reads_prefix",
    "Zkenc.Props.C36_js_skips",
    "Zkenc.Props.C36_js_table",
    "Zkenc.Props.C36_cli_table",
    "Zkenc.Props.C36_js_table_exactly"
   ],
   "note": ""
  },
  {
   "property": "C37",
   "status": "proved",
   "theorems": [
    "Zkenc.Props.C37_cli_order_independent",
    "Zkenc.Props.C37_cli_order_dependent",
    "Zkenc.Props.C37_js_order_independent",
    "Zkenc.Props.C37_js_order_dependent",
    "Zkenc.Props.C37_js_encap_order",
    "Zkenc.Props.C37_js_encrypt_order",
    "Zkenc.Props.C37_cli_encap_order",
    "Zkenc.Props.C37_cli_encrypt_order"
   ],
   "note": ""
  },
  {
   "property": "C38",
   "status": "proved",
   "theorems": [
    "Zkenc.Props.C38_cli_accepts_iff",
    "Zkenc.Props.C38_cli_rejects",
    "Zkenc.Props.C38_cli_values",
    "Zkenc.Props.C38_names_unique",
    "Zkenc.Props.C38_no_clash",
    "Zkenc.Props.C38_cli_wires",
    "Zkenc.Props.C38_js_witness",
    "Zkenc.Props.C38_js_array_one_level",
    "Zkenc.Props.C38_js_nested_object"
   ],
   "note": ""
  },
  {
   "property": "C39",
   "status": "proved",
   "theorems": [
    "Zkenc.Props.C39_cli_integer",
    "Zkenc.Props.C39_cli_decimal_string",
    "Zkenc.Props.C39_cli_bad_string",
    "Zkenc.Props.C39_cli_negative",
    "Zkenc.Props.C39_cli_out_of_range",
    "Zkenc.Props.C39_js_integers",
    "Zkenc.Props.C39_js_wire_value",
    "Zkenc.Props.C39_calculator_value",
    "Zkenc.Props.C39_js_negative_differs",
    "Zkenc.Props.C39_js_negative_unopenable"
   ],
   "note": ""
  },
  {
   "property": "C40",
   "status": "proved",
   "theorems": [
    "Zkenc.Props.C40_cli_bound",
    "Zkenc.Props.C40_cli_unbound",
    "Zkenc.Props.C40_js_binds_all"
   ],
   "note": ""
  },
  {
   "property": "C41",
   "status": "proved",
   "theorems": [
    "Zkenc.Props.C41_roundtrip",
    "Zkenc.Props.C41_same_tool",
    "Zkenc.Props.C41_encrypt_outcome",
    "Zkenc.Props.C41_decrypt_iff",
    "Zkenc.Props.C41_rejects_short",
    "Zkenc.Props.C41_injective",
    "Zkenc.Props.C41_tag_checked"
   ],
   "note": ""
  },
  {
   "property": "C42",
   "status": "proved",
   "theorems": [
    "Zkenc.Props.C42_roundtrip",
    "Zkenc.Props.C42_outcome",
    "Zkenc.Props.C42_malleable",
    "Zkenc.Props.C42_iv_reuse"
   ],
   "note": ""
  },
  {
   "property": "C43",
   "status": "proved",
   "theorems": [
    "Zkenc.Props.C43_roundtrip",
    "Zkenc.Props.C43_injective",
    "Zkenc.Props.C43_length",
    "Zkenc.Props.C43_overflow"
   ],
   "note": ""
  },
  {
   "property": "C44",
   "status": "proved",
   "theorems": [
    "Zkenc.Props.C44_cli_iff",
    "Zkenc.Props.C44_js_iff",
    "Zkenc.Props.C44_tools",
    "Zkenc.Props.C44_layout_unique"
   ],
   "note": ""
  },
  {
   "property": "C45",
   "status": "proved",
   "theorems": [
    "Zkenc.Props.C45_returns",
    "Zkenc.Props.C45_refuses",
    "Zkenc.Props.C45_arbitrary",
    "Zkenc.Props.C45_js_included",
    "Zkenc.Props.C45_js_not_included",
    "Zkenc.Props.C45_cli_included",
    "Zkenc.Props.C45_js_text",
    "Zkenc.Props.C45_json_roundtrip",
    "Zkenc.Props.C45_js_values",
    "Zkenc.Props.C45_js_values_plain",
    "Zkenc.Props.C45_cli_values"
   ],
   "note": ""
  },
  {
   "property": "C46",
   "status": "proved",
   "theorems": [
    "Zkenc.Props.C46_parts_unchanged",
    "Zkenc.Props.C46_cli_decrypt",
    "Zkenc.Props.C46_js_decrypt"
   ],
   "note": ""
  },
  {
   "property": "C47",
   "status": "proved",
   "theorems": [
    "Zkenc.Props.C47_encrypt_outcome",
    "Zkenc.Props.C47_roundtrip",
    "Zkenc.Props.C47_decrypt_sound"
   ],
   "note": ""
  },
  {
   "property": "C48",
   "status": "proved",
   "theorems": [
    "Zkenc.Props.C48_js_to_js",
    "Zkenc.Props.C48_js_to_cli",
    "Zkenc.Props.C48_cli_to_js",
    "Zkenc.Props.C48_encrypt_outcome"
   ],
   "note": ""
  },
  {
   "property": "C49",
   "status": "proved",
   "theorems": [
    "Zkenc.Props.C49_cli_opened_by_anyone",
    "Zkenc.Props.C49_js_opened_by_anyone"
   ],
   "note": ""
  },
  {
   "property": "C50",
   "status": "proved",
   "theorems": [
    "Zkenc.Props.C50_decap",
    "Zkenc.Props.C50_encrypt",
    "Zkenc.Props.C50_decrypt",
    "Zkenc.Props.C50_encap",
    "Zkenc.Props.C50_only_outputs",
    "Zkenc.Props.C50_failure_changes_nothing",
    "Zkenc.Props.C50_encap_ciphertext_without_key",
    "Zkenc.Props.C50_encap_same_path",
    "Zkenc.Props.C50_exec_is_run",
    "Zkenc.Props.C50_success_complete"
   ],
   "note": ""
  },
  {
   "property": "C51",
   "status": "proved",
   "theorems": [
    "Zkenc.Props.C51_at_most_once",
    "Zkenc.Props.C51_runs_only_initialized",
    "Zkenc.Props.C51_failure_sticky",
    "Zkenc.Props.C51_success_sticky",
    "Zkenc.Props.C51_no_lost_call"
   ],
   "note": ""
  },
  {
   "property": "C52",
   "status": "proved",
   "theorems": [
    "Zkenc.Props.C52_hash_is_fnv1a",
    "Zkenc.Props.C52_halves",
    "Zkenc.Props.C52_same_signal_iff",
    "Zkenc.Props.C52_ascii"
   ],
   "note": ""
  },
  {
   "property": "C53",
   "status": "proved",
   "theorems": [
    "Zkenc.Props.C53_flatten",
    "Zkenc.Props.C53_row_major",
    "Zkenc.Props.C53_accepts_iff",
    "Zkenc.Props.C53_circom_accepts_iff",
    "Zkenc.Props.C53_circom_values"
   ],
   "note": ""
  },
  {
   "property": "C54",
   "status": "proved",
   "theorems": [
    "Zkenc.Props.C54_cli_outputs_unbind",
    "Zkenc.Props.C54_js_outputs_unbind"
   ],
   "note": ""
  },
  {
   "property": "C55",
   "status": "proved",
   "theorems": [
    "Zkenc.Props.C55_cli_to_cli",
    "Zkenc.Props.C55_cli_to_js",
    "Zkenc.Props.C55_js_to_js",
    "Zkenc.Props.C55_js_to_cli",
    "Zkenc.Props.C55_cli_decap_sound",
    "Zkenc.Props.C55_js_encap_outcome",
    "Zkenc.Props.C55_cli_encap_outcome",
    "Zkenc.Props.C55_js_decap_sound"
   ],
   "note": ""
  },
  {
   "property": "C56",
   "status": "proved",
   "theorems": [
    "Zkenc.Props.C56_stringify_outcome",
    "Zkenc.Props.C56_bigint_inputs"
   ],
   "note": ""
  },
  {
   "property": "C57",
   "status": "proved",
   "theorems": [
    "Zkenc.Props.C57_same_text",
    "Zkenc.Props.C57_cli_values"
   ],
   "note": ""
  },
  {
   "property": "C58",
   "status": "proved",
   "theorems": [
    "Zkenc.Props.C58_js_to_js",
    "Zkenc.Props.C58_js_to_cli",
    "Zkenc.Props.C58_cli_to_js",
    "Zkenc.Props.C58_kem"
   ],
   "note": ""
  },
  {
   "property": "C59",
   "status": "proved",
   "theorems": [
    "Zkenc.Props.C59_array_and_file"
   ],
   "note": ""
  },
  {
   "property": "C60",
   "status": "proved",
   "theorems": [
    "Zkenc.Props.C60_same_state",
    "Zkenc.Props.C60_same_bytes",
    "Zkenc.Props.C60_original_limit"
   ],
   "note": ""
  },
  {
   "property": "C61",
   "status": "proved",
   "theorems": [
    "Zkenc.Props.C61_domain_exists",
    "Zkenc.Props.C61_domain_points",
    "Zkenc.Props.C61_lawful",
    "Zkenc.Props.C61_lagrange",
    "Zkenc.Props.C61_qap_bn254",
    "Zkenc.Props.C61_too_large"
   ],
   "note": ""
  },
  {
   "property": "C62",
   "status": "proved",
   "theorems": [
    "Zkenc.Props.C62_field_order_others",
    "Zkenc.Props.C62_unknown_ignored_others",
    "Zkenc.Props.C62_missing_or_repeated_others",
    "Zkenc.Props.C62_optional_missing",
    "Zkenc.Props.C62_circuit_roundtrip",
    "Zkenc.Props.C62_witness_roundtrip",
    "Zkenc.Props.C62_test_case_roundtrip",
    "Zkenc.Props.C62_json_bincode_agree",
    "Zkenc.Props.C62_circuit_accepted",
    "Zkenc.Props.C62_witness_accepted",
    "Zkenc.Props.C62_test_case_accepted",
    "Zkenc.Props.C62_field_order",
    "Zkenc.Props.C62_unknown_ignored",
    "Zkenc.Props.C62_missing_or_repeated",
    "Zkenc.Props.C62_circuit_truncated",
    "Zkenc.Props.C62_witness_truncated",
    "Zkenc.Props.C62_test_case_truncated",
    "Zkenc.Props.C62_save_circuit_json",
    "Zkenc.Props.C62_save_circuit_bincode",
    "Zkenc.Props.C62_save_witness_json",
    "Zkenc.Props.C62_save_test_case_json",
    "Zkenc.Props.C62_save_can_lose_old",
    "Zkenc.Props.C62_documents_written",
    "Zkenc.Props.C62_documents_read"
   ],
   "note": ""
  },
  {
   "property": "C63",
   "status": "proved",
   "theorems": [
    "Zkenc.Props.C63_ordered_values",
    "Zkenc.Props.C63_same_acceptance",
    "Zkenc.Props.C63_same_values",
    "Zkenc.Props.C63_texts",
    "Zkenc.Props.C63_texts_rejects",
    "Zkenc.Props.C63_text_value",
    "Zkenc.Props.C63_load_ignores_contents",
    "Zkenc.Props.C63_load_fails_iff"
   ],
   "note": ""
  },
  {
   "property": "C64",
   "status": "proved",
   "theorems": [
    "Zkenc.Props.C64_repeat",
    "Zkenc.Props.C64_in_place_loses"
   ],
   "note": ""
  },
  {
   "property": "C65",
   "status": "proved",
   "theorems": [
    "Zkenc.Props.C65_parallel",
    "Zkenc.Props.C65_parallel_success",
    "Zkenc.Props.C65_single",
    "Zkenc.Props.C65_same_output_lost"
   ],
   "note": ""
  },
  {
   "property": "C66",
   "status": "proved",
   "theorems": [
    "Zkenc.Props.C66_read_order",
    "Zkenc.Props.C66_snapshot",
    "Zkenc.Props.C66_decap_second_circuit",
    "Zkenc.Props.C66_encap_mixes",
    "Zkenc.Props.C66_undisturbed",
    "Zkenc.Props.C66_decrypt_second_circuit",
    "Zkenc.Props.C66_encrypt_mixes"
   ],
   "note": ""
  },
  {
   "property": "C67",
   "status": "proved",
   "theorems": [
    "Zkenc.Props.C67_isolated",
    "Zkenc.Props.C67_encrypt_reads",
    "Zkenc.Props.C67_decrypt_reads",
    "Zkenc.Props.C67_decap_reads",
    "Zkenc.Props.C67_encap_reads",
    "Zkenc.Props.C67_encrypt_mixes",
    "Zkenc.Props.C67_can_finish"
   ],
   "note": ""
  },
  {
   "property": "C68",
   "status": "proved",
   "theorems": [
    "Zkenc.Props.C68_js_no_value",
    "Zkenc.Props.C68_js_not_bound",
    "Zkenc.Props.C68_js_opens_any",
    "Zkenc.Props.C68_cli_any_depth"
   ],
   "note": ""
  },
  {
   "property": "C69",
   "status": "proved",
   "theorems": [
    "Zkenc.Props.C69_g1_accepts",
    "Zkenc.Props.C69_g2_accepts",
    "Zkenc.Props.C69_g2_rejects_outside",
    "Zkenc.Props.C69_unique",
    "Zkenc.Props.C69_identity_encodings",
    "Zkenc.Props.C69_group_order"
   ],
   "note": ""
  },
  {
   "property": "C70",
   "status": "proved",
   "theorems": [
    "Zkenc.Props.C70_accepted_iff",
    "Zkenc.Props.C70_unique_without_identity",
    "Zkenc.Props.C70_documented_malleable",
    "Zkenc.Props.C70_cli_only_decoded",
    "Zkenc.Props.C70_js_only_decoded",
    "Zkenc.Props.C70_message_malleable"
   ],
   "note": ""
  },
  {
   "property": "C71",
   "status": "proved",
   "theorems": [
    "Zkenc.Props.C71_accepts_iff",
    "Zkenc.Props.C71_unambiguous",
    "Zkenc.Props.C71_otherwise_nothing",
    "Zkenc.Props.C71_runs",
    "Zkenc.Props.C71_ciphertext_long",
    "Zkenc.Props.C71_sym_required",
    "Zkenc.Props.C71_debug"
   ],
   "note": ""
  },
  {
   "property": "C72",
   "status": "proved",
   "theorems": [
    "Zkenc.Props.C72_field",
    "Zkenc.Props.C72_format",
    "Zkenc.Props.C72_counters",
    "Zkenc.Props.C72_tampering",
    "Zkenc.Props.C72_nonce_reuse",
    "Zkenc.Props.C72_forging",
    "Zkenc.Props.C72_ctr_format"
   ],
   "note": ""
  },
  {
   "property": "C73",
   "status": "proved",
   "theorems": [
    "Zkenc.Props.C73_roundtrip",
    "Zkenc.Props.C73_kem_roundtrip",
    "Zkenc.Props.C73_public_input",
    "Zkenc.Props.C73_switch",
    "Zkenc.Props.C73_every_run"
   ],
   "note": ""
  },
  {
   "property": "C74",
   "status": "proved",
   "theorems": [
    "Zkenc.Props.C74_js_count",
    "Zkenc.Props.C74_cli_ignored_values",
    "Zkenc.Props.C74_js_wire_zero"
   ],
   "note": ""
  },
  {
   "property": "C75",
   "status": "proved",
   "theorems": [
    "Zkenc.Props.C75_accepts_iff",
    "Zkenc.Props.C75_solutions_accepted",
    "Zkenc.Props.C75_public_wires",
    "Zkenc.Props.C75_wrong_solution_accepted",
    "Zkenc.Props.C75_renamed_solutions_accepted"
   ],
   "note": ""
  },
  {
   "property": "C76",
   "status": "proved",
   "theorems": [
    "Zkenc.Props.C76_encrypts",
    "Zkenc.Props.C76_cli_to_cli",
    "Zkenc.Props.C76_cli_to_js",
    "Zkenc.Props.C76_js_to_cli",
    "Zkenc.Props.C76_js_to_js",
    "Zkenc.Props.C76_who_decrypts",
    "Zkenc.Props.C76_circuit_file",
    "Zkenc.Props.C76_symbol_file"
   ],
   "note": ""
  },
  {
   "property": "C77",
   "status": "proved",
   "theorems": [
    "Zkenc.Props.C77_cli_to_cli",
    "Zkenc.Props.C77_cli_to_js",
    "Zkenc.Props.C77_js_to_cli",
    "Zkenc.Props.C77_js_to_js",
    "Zkenc.Props.C77_cli_encap",
    "Zkenc.Props.C77_js_encap",
    "Zkenc.Props.C77_cli_to_cli_exactly",
    "Zkenc.Props.C77_cli_to_js_exactly",
    "Zkenc.Props.C77_js_to_cli_exactly",
    "Zkenc.Props.C77_js_to_js_exactly",
    "Zkenc.Props.C77_cli_encap_exactly",
    "Zkenc.Props.C77_js_encap_exactly"
   ],
   "note": ""
  },
  {
   "property": "C78",
   "status": "proved",
   "theorems": [
    "Zkenc.Props.C78_no_ciphertext",
    "Zkenc.Props.C78_custom_offers_upload",
    "Zkenc.Props.C78_attempt_fails",
    "Zkenc.Props.C78_false_success"
   ],
   "note": ""
  },
  {
   "property": "C79",
   "status": "proved",
   "theorems": [
    "Zkenc.Props.C79_one_call",
    "Zkenc.Props.C79_buttons",
    "Zkenc.Props.C79_free_again"
   ],
   "note": ""
  },
  {
   "property": "C80",
   "status": "proved",
   "theorems": [
    "Zkenc.Props.C80_shown_text",
    "Zkenc.Props.C80_custom_shown_text",
    "Zkenc.Props.C80_failure",
    "Zkenc.Props.C80_stale"
   ],
   "note": ""
  },
  {
   "property": "C81",
   "status": "proved",
   "theorems": [
    "Zkenc.Props.C81_js",
    "Zkenc.Props.C81_unambiguous",
    "Zkenc.Props.C81_serde",
    "Zkenc.Props.C81_serde_value",
    "Zkenc.Props.C81_serde_unambiguous"
   ],
   "note": ""
  },
  {
   "property": "C82",
   "status": "proved",
   "theorems": [
    "Zkenc.Props.C82_upload_and_type",
    "Zkenc.Props.C82_incomplete",
    "Zkenc.Props.C82_decrypt",
    "Zkenc.Props.C82_visit",
    "Zkenc.Props.C82_solution_shows",
    "Zkenc.Props.C82_wrong_solution_shows"
   ],
   "note": ""
  },
  {
   "property": "C83",
   "status": "proved",
   "theorems": [
    "Zkenc.Props.C83_own_checks",
    "Zkenc.Props.C83_exactly",
    "Zkenc.Props.C83_signers"
   ],
   "note": ""
  },
  {
   "property": "C84",
   "status": "proved",
   "theorems": [
    "Zkenc.Props.C84_signers",
    "Zkenc.Props.C84_cli_to_cli",
    "Zkenc.Props.C84_cli_to_js",
    "Zkenc.Props.C84_js_to_cli",
    "Zkenc.Props.C84_js_to_js"
   ],
   "note": ""
  },
  {
   "property": "C85",
   "status": "proved",
   "theorems": [
    "Zkenc.Props.C85_fields",
    "Zkenc.Props.C85_not_ready",
    "Zkenc.Props.C85_decrypt",
    "Zkenc.Props.C85_message"
   ],
   "note": ""
  },
  {
   "property": "C86",
   "status": "proved",
   "theorems": [
    "Zkenc.Props.C86_button",
    "Zkenc.Props.C86_auto_solve"
   ],
   "note": ""
  },
  {
   "property": "C87",
   "status": "proved",
   "theorems": [
    "Zkenc.Props.C87_cli_encap",
    "Zkenc.Props.C87_cli_encrypt",
    "Zkenc.Props.C87_js_encap",
    "Zkenc.Props.C87_js_encrypt",
    "Zkenc.Props.C87_documented_js",
    "Zkenc.Props.C87_documented_cli",
    "Zkenc.Props.C87_sudoku"
   ],
   "note": ""
  },
  {
   "property": "C88",
   "status": "proved",
   "theorems": [
    "Zkenc.Props.C88_flat_leaves",
    "Zkenc.Props.C88_calculator",
    "Zkenc.Props.C88_decrypt",
    "Zkenc.Props.C88_cli_no_value",
    "Zkenc.Props.C88_cli_unenforced",
    "Zkenc.Props.C88_js_unenforced",
    "Zkenc.Props.C88_js_spelled_out"
   ],
   "note": ""
  },
  {
   "property": "C89",
   "status": "proved",
   "theorems": [
    "Zkenc.Props.C89_bound",
    "Zkenc.Props.C89_mimc_checks",
    "Zkenc.Props.C89_mimc_native",
    "Zkenc.Props.C89_mimc_unbound",
    "Zkenc.Props.C89_mimc_roundtrip"
   ],
   "note": ""
  },
  {
   "property": "C90",
   "status": "proved",
   "theorems": [
    "Zkenc.Props.C90_bincode",
    "Zkenc.Props.C90_same_synthesis",
    "Zkenc.Props.C90_export_import",
    "Zkenc.Props.C90_same_decap",
    "Zkenc.Props.C90_roundtrip",
    "Zkenc.Props.C90_dummy_witness",
    "Zkenc.Props.C90_zero_solution"
   ],
   "note": ""
  },
  {
   "property": "C91",
   "status": "proved",
   "theorems": [
    "Zkenc.Props.C91_key_distribution",
    "Zkenc.Props.C91_no_likely_key"
   ],
   "note": ""
  },
  {
   "property": "C92",
   "status": "proved",
   "theorems": [
    "Zkenc.Props.C92_commands",
    "Zkenc.Props.C92_layout",
    "Zkenc.Props.C92_example"
   ],
   "note": ""
  },
  {
   "property": "C93",
   "status": "proved",
   "theorems": [
    "Zkenc.Props.C93_cli_to_cli",
    "Zkenc.Props.C93_cli_to_js",
    "Zkenc.Props.C93_js_to_js",
    "Zkenc.Props.C93_js_to_cli"
   ],
   "note": ""
  },
  {
   "property": "C94",
   "status": "proved",
   "theorems": [
    "Zkenc.Props.C94_js_to_js",
    "Zkenc.Props.C94_js_to_cli",
    "Zkenc.Props.C94_cli_to_js",
    "Zkenc.Props.C94_cli_to_cli",
    "Zkenc.Props.C94_js_kem",
    "Zkenc.Props.C94_cli_kem"
   ],
   "note": ""
  },
  {
   "property": "C95",
   "status": "proved",
   "theorems": [
    "Zkenc.Props.C95_encap",
    "Zkenc.Props.C95_encrypt",
    "Zkenc.Props.C95_decap",
    "Zkenc.Props.C95_decrypt",
    "Zkenc.Props.C95_documented"
   ],
   "note": ""
  },
  {
   "property": "C96",
   "status": "proved",
   "theorems": [
    "Zkenc.Props.C96_circuit_read",
    "Zkenc.Props.C96_circuit_accepted",
    "Zkenc.Props.C96_test_case_read",
    "Zkenc.Props.C96_test_case_accepted",
    "Zkenc.Props.C96_written"
   ],
   "note": ""
  },
  {
   "property": "C97",
   "status": "proved",
   "theorems": [
    "Zkenc.Props.C97_same_calls",
    "Zkenc.Props.C97_documented_handler",
    "Zkenc.Props.C97_guide_handler",
    "Zkenc.Props.C97_damage_inside",
    "Zkenc.Props.C97_wrong_key",
    "Zkenc.Props.C97_circuit_refuses",
    "Zkenc.Props.C97_no_key",
    "Zkenc.Props.C97_receiver_is_told"
   ],
   "note": ""
  },
  {
   "property": "C98",
   "status": "proved",
   "theorems": [
    "Zkenc.Props.C98_same_program",
    "Zkenc.Props.C98_initial_part",
    "Zkenc.Props.C98_encap_text",
    "Zkenc.Props.C98_encrypt_text",
    "Zkenc.Props.C98_decap_text",
    "Zkenc.Props.C98_decrypt_text",
    "Zkenc.Props.C98_encap_shows",
    "Zkenc.Props.C98_encrypt_shows",
    "Zkenc.Props.C98_decap_shows",
    "Zkenc.Props.C98_decrypt_shows",
    "Zkenc.Props.C98_encrypt_mark",
    "Zkenc.Props.C98_decrypt_mark",
    "Zkenc.Props.C98_shows_text",
    "Zkenc.Props.C98_silent_run",
    "Zkenc.Props.C98_forged_completion"
   ],
   "note": ""
  },
  {
   "property": "C99",
   "status": "proved",
   "theorems": [
    "Zkenc.Props.C99_names",
    "Zkenc.Props.C99_kept",
    "Zkenc.Props.C99_alone",
    "Zkenc.Props.C99_finishes",
    "Zkenc.Props.C99_message",
    "Zkenc.Props.C99_kem"
   ],
   "note": ""
  },
  {
   "property": "C100",
   "status": "proved",
   "theorems": [
    "Zkenc.Props.C100_text",
    "Zkenc.Props.C100_stringify_outcome",
    "Zkenc.Props.C100_grammar",
    "Zkenc.Props.C100_unambiguous",
    "Zkenc.Props.C100_cli_texts",
    "Zkenc.Props.C100_cli_rejects",
    "Zkenc.Props.C100_not_portable",
    "Zkenc.Props.C100_agree",
    "Zkenc.Props.C100_agree_public",
    "Zkenc.Props.C100_same_key",
    "Zkenc.Props.C100_cleaned",
    "Zkenc.Props.C100_public_input",
    "Zkenc.Props.C100_not_included",
    "Zkenc.Props.C100_js_to_js",
    "Zkenc.Props.C100_js_to_cli",
    "Zkenc.Props.C100_encrypt_outcome"
   ],
   "note": ""
  },
  {
   "property": "C101",
   "status": "proved",
   "theorems": [
    "Zkenc.Props.C101_values",
    "Zkenc.Props.C101_counts",
    "Zkenc.Props.C101_witness",
    "Zkenc.Props.C101_effective",
    "Zkenc.Props.C101_noalias",
    "Zkenc.Props.C101_cli_counts",
    "Zkenc.Props.C101_cli_choices",
    "Zkenc.Props.C101_encap_outcome",
    "Zkenc.Props.C101_encrypt_outcome",
    "Zkenc.Props.C101_js_to_js_exactly",
    "Zkenc.Props.C101_js_to_cli_exactly",
    "Zkenc.Props.C101_cli_to_cli_exactly"
   ],
   "note": ""
  },
  {
   "property": "C102",
   "status": "proved",
   "theorems": [
    "Zkenc.Props.C102_encap",
    "Zkenc.Props.C102_encrypt",
    "Zkenc.Props.C102_outcome",
    "Zkenc.Props.C102_small",
    "Zkenc.Props.C102_unused_values",
    "Zkenc.Props.C102_array",
    "Zkenc.Props.C102_cli"
   ],
   "note": ""
  },
  {
   "property": "C103",
   "status": "proved",
   "theorems": [
    "Zkenc.Props.C103_public_errors",
    "Zkenc.Props.C103_public_same",
    "Zkenc.Props.C103_public_messages",
    "Zkenc.Props.C103_public_written",
    "Zkenc.Props.C103_same",
    "Zkenc.Props.C103_encap",
    "Zkenc.Props.C103_encrypt",
    "Zkenc.Props.C103_encrypt_outcome",
    "Zkenc.Props.C103_page",
    "Zkenc.Props.C103_workers_decrypt"
   ],
   "note": ""
  },
  {
   "property": "C104",
   "status": "proved",
   "theorems": [
    "Zkenc.Props.C104_decap",
    "Zkenc.Props.C104_decrypt",
    "Zkenc.Props.C104_encap",
    "Zkenc.Props.C104_encrypt",
    "Zkenc.Props.C104_receiver_cli",
    "Zkenc.Props.C104_receiver_js",
    "Zkenc.Props.C104_intact_cli",
    "Zkenc.Props.C104_intact_js",
    "Zkenc.Props.C104_same",
    "Zkenc.Props.C104_io"
   ],
   "note": ""
  }
 ]
}