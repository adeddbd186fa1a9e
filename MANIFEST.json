{"claims": [
{"property": "C01", "status": "proved", "theorems": ["JustJson.C01_validate_accepts_iff", "JustJson.C01_validate_str_accepts_iff", "JustJson.C01_validate_with_config_accepts_iff"], "note": ""},
{"property": "C02", "status": "proved", "theorems": ["JustJson.C02_value_is_denoted_tree", "JustJson.C02_value_complete", "JustJson.C02_text_unambiguous", "JustJson.C02_denotes_injective", "JustJson.C02_from_json_bytes", "JustJson.C02_from_json"], "note": ""},
{"property": "C03", "status": "proved", "theorems": ["JustJson.C03_trailing_commas_grammar", "JustJson.C03_strict_implies_lenient", "JustJson.C03_only_difference_is_illegal_trailing_comma", "JustJson.C03_illegal_trailing_comma", "JustJson.C03_allowing_trailing_commas", "JustJson.C03_validate_and_document", "JustJson.C03_configured_entry_points", "JustJson.C03_validate_and_document_difference", "JustJson.C03_commas"], "note": ""},
{"property": "C04", "status": "proved", "theorems": ["JustJson.C04_recursion_limit_exact", "JustJson.C04_too_deep", "JustJson.C04_too_deep_value", "JustJson.C04_default_limit", "JustJson.C04_without_limit", "JustJson.C04_validate_and_document"], "note": ""},
{"property": "C05", "status": "proved", "theorems": ["JustJson.C05_root_restriction", "JustJson.C05_scalar_root_error", "JustJson.C05_strict", "JustJson.C05_strict_scalar", "JustJson.C05_validate_and_document"], "note": ""},
{"property": "C06", "status": "proved", "theorems": ["JustJson.C06_str_bytes_agree", "JustJson.C06_str_bytes_agree_delegate", "JustJson.C06_tokenizers_agree"], "note": ""},
{"property": "C07", "status": "proved", "theorems": ["JustJson.C07_validate_agrees", "JustJson.C07_document_agrees", "JustJson.C07_plain_bytes_entry_points_agree", "JustJson.C07_plain_str_entry_points_agree", "JustJson.C07_configured_entry_points_agree"], "note": ""},
{"property": "C08", "status": "proved", "theorems": ["JustJson.C08_document_to_value"], "note": ""},
{"property": "C09", "status": "proved", "theorems": ["JustJson.C09_nodes_are_preorder", "JustJson.C09_listing_injective"], "note": ""},
{"property": "C10", "status": "proved", "theorems": ["JustJson.C10_next_and_skip", "JustJson.C10_every_position", "JustJson.C10_any_series_of_calls"], "note": ""},
{"property": "C11", "status": "proved", "theorems": ["JustJson.C11_bounded_ok_iff", "JustJson.C11_too_large", "JustJson.C11_rejected", "JustJson.C11_capacity_respected"], "note": ""},
{"property": "C12", "status": "proved", "theorems": ["JustJson.C12_no_panic", "JustJson.C12_no_panic_any_delegate"], "note": ""},
{"property": "C13", "status": "proved", "theorems": ["JustJson.C13_progress", "JustJson.C13_no_panic", "JustJson.C13_finitely_many_items", "JustJson.C13_fused"], "note": ""},
{"property": "C14", "status": "proved", "theorems": ["JustJson.C14_peek_none_iff", "JustJson.C14_peek_does_not_consume", "JustJson.C14_peek_kind", "JustJson.C14_peek_unrecognized"], "note": ""},
{"property": "C15", "status": "proved", "theorems": ["JustJson.C15_next_or_eof"], "note": ""},
{"property": "C16", "status": "proved", "theorems": ["JustJson.C16_token_strings_well_formed", "JustJson.C16_no_string_operation_panics"], "note": ""},
{"property": "C17", "status": "proved", "theorems": ["JustJson.C17_parsed_lengths"], "note": ""},
{"property": "C18", "status": "partial", "theorems": ["JustJson.C18_decoded_items", "JustJson.C18_decoding_partial", "JustJson.C18_refuted"], "note": "Full claim C18_full is false of the code (C18_refuted): \\b decodes to U+0007 and surrogate pairs with payload bit 16 set lose 0x10000. Proved: what is decoded for every item, and that decoding agrees with RFC 8259 exactly when no item is one of those."},
{"property": "C19", "status": "proved", "theorems": ["JustJson.C19_while_decoding", "JustJson.C19_eq_str"], "note": ""},
{"property": "C20", "status": "partial", "theorems": ["JustJson.C20_while_decoding_partial", "JustJson.C20_eq_partial", "JustJson.C20_eq_parsed", "JustJson.C20_eq_sound", "JustJson.C20_refuted", "JustJson.C20_not_transitive"], "note": "Full claim C20_full is false of the code (C20_refuted, C20_not_transitive): JSON source against raw text also compares JSON lengths. Proved: the exact meaning of ==, soundness, reflexivity, symmetry, and the full claim for parsed strings."},
{"property": "C21", "status": "proved", "theorems": ["JustJson.C21_while_decoding", "JustJson.C21_cmp_is_code_point_order", "JustJson.C21_cmp_str", "JustJson.C21_total_order"], "note": ""},
{"property": "C22", "status": "partial", "theorems": ["JustJson.C22_ord_eq_partial", "JustJson.C22_exact_partial", "JustJson.C22_ord_eq_parsed", "JustJson.C22_refuted"], "note": "Full claim C22_full is false of the code (C22_refuted). Proved: the exact condition under which cmp and == agree (C22_exact_partial); == implies Equal always; agreement for parsed strings."},
{"property": "C23", "status": "partial", "theorems": ["JustJson.C23_while_decoding_partial", "JustJson.C23_hash_is_str_hash_partial", "JustJson.C23_hash_consistent_partial", "JustJson.C23_any_hasher_partial", "JustJson.C23_refuted", "JustJson.C23_exact_partial"], "note": "Full claim C23_full is false of the code for hashers sensitive to how bytes are split into write calls (C23_refuted). Proved for every hasher that is not, and, for equal strings, the exact condition under which every hasher agrees (C23_exact_partial)."},
{"property": "C24", "status": "partial", "theorems": ["JustJson.C24_roundtrip_partial", "JustJson.C24_refuted"], "note": "Full claim C24_full is false of the code (C24_refuted): most control characters are rendered with their \\u digits in the wrong order. Proved: the round trip holds exactly for texts of Renderable characters."},
{"property": "C25", "status": "partial", "theorems": ["JustJson.C25_lengths_partial", "JustJson.C25_exact_partial", "JustJson.C25_refuted"], "note": "Full claim C25_full is false of the code (C25_refuted): U+0080..U+00FF are counted as one byte. Proved: the text is kept always, the exact value of each length, and the exact condition under which each is right."},
{"property": "C26", "status": "proved", "theorems": ["JustJson.C26_to_json_any_config", "JustJson.C26_to_json_not_longer", "JustJson.C26_to_json_minifies"], "note": ""},
{"property": "C27", "status": "proved", "theorems": ["JustJson.C27_to_json_roundtrip", "JustJson.C27_pretty_roundtrip", "JustJson.C27_pretty_default_roundtrip"], "note": ""},
{"property": "C28", "status": "proved", "theorems": ["JustJson.C28_layout", "JustJson.C28_pretty_minifies"], "note": ""},
{"property": "C29", "status": "proved", "theorems": ["JustJson.C29_calls", "JustJson.C29_failures", "JustJson.C29_provided_write_fmt", "JustJson.C29_write_fmt_failures"], "note": ""},
{"property": "C30", "status": "proved", "theorems": ["JustJson.C30_get", "JustJson.C30_get_entry_mut", "JustJson.C30_get_mut", "JustJson.C30_write_read", "JustJson.C30_value_get", "JustJson.C30_value_get_mut"], "note": ""},
{"property": "C31", "status": "proved", "theorems": ["JustJson.C31_number_tokens_maximal"], "note": ""},
{"property": "C32", "status": "proved", "theorems": ["JustJson.C32_unsigned", "JustJson.C32_signed", "JustJson.C32_value", "JustJson.C32_agree"], "note": ""},
{"property": "C33", "status": "proved", "theorems": ["JustJson.C33_error_offset_in_bounds", "JustJson.C33_entry_points"], "note": ""},
{"property": "C34", "status": "proved", "theorems": ["JustJson.C34_truncation", "JustJson.C34_root_end", "JustJson.C34_truncation_validate", "JustJson.C34_truncation_document"], "note": ""},
{"property": "C35", "status": "proved", "theorems": ["JustJson.C35_same_value_iff", "JustJson.C35_whitespace_is_insignificant", "JustJson.C35_minified_accepted"], "note": ""},
{"property": "C36", "status": "proved", "theorems": ["JustJson.C36_delegate_error_stops"], "note": ""},
{"property": "C37", "status": "proved", "theorems": ["JustJson.C37_callback_protocol", "JustJson.C37_rejection_independent", "JustJson.C37_events"], "note": ""},
{"property": "C38", "status": "proved", "theorems": ["JustJson.C38_string_from_json", "JustJson.C38_number_from_json", "JustJson.C38_string_ok_iff", "JustJson.C38_number_ok_iff", "JustJson.C38_string_wrong_kind", "JustJson.C38_number_wrong_kind"], "note": ""},
{"property": "C39", "status": "proved", "theorems": ["JustJson.C39_is_empty", "JustJson.C39_string_views"], "note": ""},
{"property": "C40", "status": "proved", "theorems": ["JustJson.C40_ownership_invisible"], "note": ""},
{"property": "C41", "status": "proved", "theorems": ["JustJson.C41_accessors", "JustJson.C41_accessors_mut", "JustJson.C41_as_str", "JustJson.C41_get_index", "JustJson.C41_get_index_mut", "JustJson.C41_index", "JustJson.C41_index_key"], "note": ""},
{"property": "C42", "status": "proved", "theorems": ["JustJson.C42_config_monotone", "JustJson.C42_validate_and_document"], "note": ""},
{"property": "C43", "status": "proved", "theorems": ["JustJson.C43_flag_and_length", "JustJson.C43_hash", "JustJson.C43_new_unchecked", "JustJson.C43_debug", "JustJson.C43_debug_tells", "JustJson.C43_info_packing", "JustJson.C43_any_additions"], "note": ""},
{"property": "C44", "status": "proved", "theorems": ["JustJson.C44_eq_parsed", "JustJson.C44_eq_of_texts", "JustJson.C44_equivalence", "JustJson.C44_eq_built"], "note": ""},
{"property": "C45", "status": "proved", "theorems": ["JustJson.C45_float_some", "JustJson.C45_value"], "note": ""},
{"property": "C46", "status": "proved", "theorems": ["JustJson.C46_rendering_is_safe_and_minimal", "JustJson.C46_plain_text_is_kept"], "note": ""},
{"property": "C47", "status": "partial", "theorems": ["JustJson.C47_exact_everywhere_partial", "JustJson.C47_lower_bound_partial", "JustJson.C47_json_source_partial", "JustJson.C47_exact_partial", "JustJson.C47_refuted"], "note": "Full claim C47_full is false of the code (C47_refuted). Proved: the lower bound always; both bounds for strings kept as JSON source; the exact condition for converted text, for a fresh iterator (C47_exact_partial) and after any number of calls of next (C47_exact_everywhere_partial)."},
{"property": "C48", "status": "partial", "theorems": ["JustJson.C48_no_panic_partial", "JustJson.C48_refuted", "JustJson.C48_exact_partial"], "note": "Full claim C48_full is false of the code (C48_refuted). Proved: the exact condition of each panic (C48_exact_partial); no panic up to isize::MAX/12 bytes, and for all texts that need no escapes."},
{"property": "C49", "status": "partial", "theorems": ["JustJson.C49_built_roundtrip_partial", "JustJson.C49_exact_partial", "JustJson.C49_refuted"], "note": "Full claim C49_full is false of the code (C49_refuted): a vertical tab is written as \\ul000. Proved: it holds if and only if strings kept as raw text contain only Renderable characters (C49_exact_partial)."},
{"property": "C50", "status": "proved", "theorems": ["JustJson.C50_token_is_lexeme", "JustJson.C50_lexeme_is_token", "JustJson.C50_stream_covers_source", "JustJson.C50_tokens_of_text"], "note": ""},
{"property": "C51", "status": "proved", "theorems": ["JustJson.C51_array_of_texts", "JustJson.C51_object_of_texts", "JustJson.C51_array_decomposes", "JustJson.C51_object_decomposes"], "note": ""},
{"property": "C52", "status": "proved", "theorems": ["JustJson.C52_nodes_le_half", "JustJson.C52_half_suffices", "JustJson.C52_whole_is_unbounded"], "note": ""},
{"property": "C53", "status": "proved", "theorems": ["JustJson.C53_error_describes_source", "JustJson.C53_validation", "JustJson.C53_document", "JustJson.C53_delegate", "JustJson.C53_tokenizer", "JustJson.C53_str_utf8"], "note": ""},
{"property": "C54", "status": "proved", "theorems": ["JustJson.C54_error_at_boundary", "JustJson.C54_document", "JustJson.C54_tokenizer"], "note": ""},
{"property": "C55", "status": "proved", "theorems": ["JustJson.C55_malformed_stays_malformed", "JustJson.C55_malformed_stays_malformed_bytes", "JustJson.C55_prefix_error_at_end", "JustJson.C55_document"], "note": ""},
{"property": "C56", "status": "proved", "theorems": ["JustJson.C56_callbacks_bracketed", "JustJson.C56_success_is_traversal"], "note": ""},
{"property": "C57", "status": "proved", "theorems": ["JustJson.C57_open_containers_bounded", "JustJson.C57_callbacks_linear"], "note": ""},
{"property": "C58", "status": "proved", "theorems": ["JustJson.C58_source_decides", "JustJson.C58_trailing_commas", "JustJson.C58_comparable"], "note": ""},
{"property": "C59", "status": "proved", "theorems": ["JustJson.C59_tokens_told"], "note": ""},
{"property": "C60", "status": "partial", "theorems": ["JustJson.C60_messages_partial", "JustJson.C60_refuted", "JustJson.C60_position_and_byte"], "note": "Full claim C60_full is false of the code (C60_refuted): ExpectedDigit and ExpectedDecimalDigit print the same text. Proved: messages are equal exactly when offset and kind are equal or both kinds are one of these two."},
{"property": "C61", "status": "proved", "theorems": ["JustJson.C61_parsed_bytes_are_utf8", "JustJson.C61_accepted_bytes_are_utf8", "JustJson.C61_consumed_is_utf8"], "note": ""},
{"property": "C62", "status": "proved", "theorems": ["JustJson.C62_editing_session", "JustJson.C62_reading", "JustJson.C62_content", "JustJson.C62_parsed", "JustJson.C62_conversions", "JustJson.C62_written_reads_back"], "note": ""},
{"property": "C63", "status": "proved", "theorems": ["JustJson.C63_any_collection", "JustJson.C63_infallible_collection", "JustJson.C63_crate_collections", "JustJson.C63_exact_calls"], "note": ""},
{"property": "C64", "status": "proved", "theorems": ["JustJson.C64_document_eq", "JustJson.C64_equivalence"], "note": ""},
{"property": "C65", "status": "proved", "theorems": ["JustJson.C65_value", "JustJson.C65_document", "JustJson.C65_tokenizer", "JustJson.C65_delegate", "JustJson.C65_total_size", "JustJson.C65_single"], "note": ""},
{"property": "C66", "status": "proved", "theorems": ["JustJson.C66_decoded", "JustJson.C66_display", "JustJson.C66_as_json"], "note": ""},
{"property": "C67", "status": "proved", "theorems": ["JustJson.C67_parser_is_tokenizer_and_grammar", "JustJson.C67_unambiguous"], "note": ""},
{"property": "C68", "status": "proved", "theorems": ["JustJson.C68_gives_up_at_first_wrong_token", "JustJson.C68_validation", "JustJson.C68_lexical_errors_are_the_tokenizers", "JustJson.C68_all_well_before_error", "JustJson.C68_unfinished", "JustJson.C68_root", "JustJson.C68_tokenizer_kinds"], "note": ""},
{"property": "C69", "status": "proved", "theorems": ["JustJson.C69_any_delegate", "JustJson.C69_error_stands", "JustJson.C69_error_stands_bytes", "JustJson.C69_document", "JustJson.C69_calls_stand"], "note": ""},
{"property": "C70", "status": "proved", "theorems": ["JustJson.C70_any_delegate", "JustJson.C70_value", "JustJson.C70_never_earlier", "JustJson.C70_document"], "note": ""},
{"property": "C71", "status": "proved", "theorems": ["JustJson.C71_counter_only_counts", "JustJson.C71_parse_linear", "JustJson.C71_entry_points", "JustJson.C71_tokenizer_counter_only_counts", "JustJson.C71_tokenizer_linear"], "note": ""},
{"property": "C72", "status": "proved", "theorems": ["JustJson.C72_recursion_limit", "JustJson.C72_default", "JustJson.C72_brackets", "JustJson.C72_parse_threshold", "JustJson.C72_value_exact", "JustJson.C72_any_delegate_exact", "JustJson.C72_height_is_depth", "JustJson.C72_no_limit_overflows", "JustJson.C72_write", "JustJson.C72_write_exact", "JustJson.C72_document_exact", "JustJson.C72_skip_exact", "JustJson.C72_eq", "JustJson.C72_eq_exact", "JustJson.C72_drop_exact", "JustJson.C72_debug_exact", "JustJson.C72_limit_covers_all"], "note": ""},
{"property": "C73", "status": "proved", "theorems": ["JustJson.C73_script"], "note": ""},
{"property": "C74", "status": "proved", "theorems": ["JustJson.C74_machine", "JustJson.C74_value", "JustJson.C74_callback_offset", "JustJson.C74_any_delegate"], "note": ""},
{"property": "C75", "status": "proved", "theorems": ["JustJson.C75_nearest", "JustJson.C75_unique", "JustJson.C75_exact", "JustJson.C75_integer", "JustJson.C75_monotone", "JustJson.C75_value", "JustJson.C75_cut_off"], "note": ""},
{"property": "C76", "status": "proved", "theorems": ["JustJson.C76_opaque", "JustJson.C76_same_callbacks", "JustJson.C76_errors_convert", "JustJson.C76_observer"], "note": ""},
{"property": "C77", "status": "proved", "theorems": ["JustJson.C77_calls", "JustJson.C77_panics", "JustJson.C77_how_many", "JustJson.C77_at_most", "JustJson.C77_no_empty_call", "JustJson.C77_any_write_fmt"], "note": ""},
{"property": "C78", "status": "proved", "theorems": ["JustJson.C78_part", "JustJson.C78_entry", "JustJson.C78_order"], "note": ""},
{"property": "C79", "status": "proved", "theorems": ["JustJson.C79_values", "JustJson.C79_strings", "JustJson.C79_numbers", "JustJson.C79_nodes", "JustJson.C79_tokens", "JustJson.C79_errors", "JustJson.C79_configs", "JustJson.C79_kinds", "JustJson.C79_one_line", "JustJson.C79_info", "JustJson.C79_text", "JustJson.C79_error_text", "JustJson.C79_config_text", "JustJson.C79_kind_text", "JustJson.C79_document_text", "JustJson.C79_documents", "JustJson.C79_documentIters", "JustJson.C79_document_one_line", "JustJson.C79_parts", "JustJson.C79_part_text", "JustJson.C79_error_kinds", "JustJson.C79_payload_text", "JustJson.C79_delegate_errors"], "note": ""},
{"property": "C80", "status": "proved", "theorems": ["JustJson.C80_fresh_on_the_rest", "JustJson.C80_replies_stand", "JustJson.C80_tokens_stand", "JustJson.C80_streams_join", "JustJson.C80_lines"], "note": ""},
{"property": "C81", "status": "proved", "theorems": ["JustJson.C81_from_document", "JustJson.C81_next_value", "JustJson.C81_any_series_of_calls", "JustJson.C81_same_calls"], "note": ""},
{"property": "C82", "status": "proved", "theorems": ["JustJson.C82_structure_kept", "JustJson.C82_accepted_iff", "JustJson.C82_rejected_at"], "note": ""},
{"property": "C83", "status": "proved", "theorems": ["JustJson.C83_error_in_place", "JustJson.C83_error_in_key"], "note": ""},
{"property": "C84", "status": "proved", "theorems": ["JustJson.C84_strings", "JustJson.C84_pretty_adds", "JustJson.C84_pretty_bound", "JustJson.C84_reformatted", "JustJson.C84_default", "JustJson.C84_without_limit"], "note": ""},
{"property": "C85", "status": "proved", "theorems": ["JustJson.C85_tokens", "JustJson.C85_tokens_made_up", "JustJson.C85_equal_streams", "JustJson.C85_streams", "JustJson.C85_errors", "JustJson.C85_delegate_errors", "JustJson.C85_kinds", "JustJson.C85_hash"], "note": ""},
{"property": "C86", "status": "proved", "theorems": ["JustJson.C86_one_parse_for_two", "JustJson.C86_both_return", "JustJson.C86_one_fails"], "note": ""},
{"property": "C87", "status": "proved", "theorems": ["JustJson.C87_panics_unwind", "JustJson.C87_where_it_panics", "JustJson.C87_told_before"], "note": ""},
{"property": "C88", "status": "proved", "theorems": ["JustJson.C88_any_formatter", "JustJson.C88_delegate_display", "JustJson.C88_kinds", "JustJson.C88_failures"], "note": ""}
]}
