# Axioms each theorem depends on

Output of `#print axioms` for every theorem of MANIFEST.json.

| theorem | axioms |
|---|---|
| `Ron.C01_layout_is_skipped` | propext, Classical.choice, Quot.sound |
| `Ron.C01_open_line_comment_is_skipped` | propext, Classical.choice, Quot.sound |
| `Ron.C01_only_layout_is_skipped` | propext, Classical.choice, Quot.sound |
| `Ron.C01_idempotent` | propext, Classical.choice, Quot.sound |
| `Ron.C01_failure` | propext, Classical.choice, Quot.sound |
| `Ron.C01_typed_document` | propext, Classical.choice, Quot.sound |
| `Ron.C01_value_document` | propext, Classical.choice, Quot.sound |
| `Ron.C02_balanced_comment` | propext, Classical.choice, Quot.sound |
| `Ron.C02_accepted_is_balanced` | propext, Classical.choice, Quot.sound |
| `Ron.C02_unbalanced_rejected` | propext, Classical.choice, Quot.sound |
| `Ron.C02_end_unique` | propext, Classical.choice, Quot.sound |
| `Ron.C03_exact_or_rejected` | propext, Classical.choice, Quot.sound |
| `Ron.C03_accepted_is_exact` | propext, Classical.choice, Quot.sound |
| `Ron.C04_roundtrip` | propext, Classical.choice, Quot.sound |
| `Ron.C04_injective` | propext, Classical.choice, Quot.sound |
| `Ron.C05_other_type_rejected` | propext, Classical.choice, Quot.sound |
| `Ron.C05_self_describing` | propext, Classical.choice, Quot.sound |
| `Ron.C05_accepted_suffix` | propext, Classical.choice, Quot.sound |
| `Ron.C06_smallest_type` | propext, Classical.choice, Quot.sound |
| `Ron.C06_unique` | propext |
| `Ron.C07_roundtrip` | propext, Classical.choice, Quot.sound |
| `Ron.C07_reads_literal` | propext, Classical.choice, Quot.sound |
| `Ron.C07_injective` | propext, Classical.choice, Quot.sound |
| `Ron.C08_roundtrip` | propext, Classical.choice, Quot.sound |
| `Ron.C08_reads_raw` | propext, Classical.choice, Quot.sound |
| `Ron.C09_roundtrip` | propext, Classical.choice, Quot.sound |
| `Ron.C09_reads_literal` | propext, Classical.choice, Quot.sound |
| `Ron.C09_list` | propext, Classical.choice, Quot.sound |
| `Ron.C10_roundtrip` | propext, Classical.choice, Quot.sound |
| `Ron.C10_injective` | propext, Classical.choice, Quot.sound |
| `Ron.C11_written_or_refused` | propext, Classical.choice, Quot.sound |
| `Ron.C11_refused_iff` | propext, Classical.choice, Quot.sound |
| `Ron.C11_no_injection` | propext, Classical.choice, Quot.sound |
| `Ron.C11_not_keyword` | propext, Quot.sound |
| `Ron.C11_maximal` | propext, Quot.sound |
| `Ron.C11_document` | propext, Quot.sound |
| `Ron.C12_suggested` | propext, Classical.choice, Quot.sound |
| `Ron.C12_not_suggested` | propext, Classical.choice, Quot.sound |
| `Ron.C12_suggestion_reads` | propext, Classical.choice, Quot.sound |
| `Ron.C12_unique` | propext, Quot.sound |
| `Ron.C12_encoding_recognised` | propext, Quot.sound |
| `Ron.C13` | propext, Classical.choice, Quot.sound |
| `Ron.C14_sound` | propext, Classical.choice, Quot.sound |
| `Ron.C14_default_kept` | propext, Classical.choice, Quot.sound |
| `Ron.C14_named` | propext, Classical.choice, Quot.sound |
| `Ron.C14_complete` | propext, Classical.choice, Quot.sound |
| `Ron.C14_unknown` | propext, Classical.choice, Quot.sound |
| `Ron.C15_end` | propext, Classical.choice, Quot.sound |
| `Ron.C15` | propext, Classical.choice, Quot.sound |
| `Ron.C15_trailing` | propext, Classical.choice, Quot.sound |
| `Ron.C15_split` | propext, Classical.choice, Quot.sound |
| `Ron.C16` | propext, Classical.choice, Quot.sound |
| `Ron.C16_written` | propext, Classical.choice, Quot.sound |
| `Ron.C16_limit_needed` | propext, Classical.choice, Quot.sound |
| `Ron.C17` | propext, Classical.choice, Quot.sound |
| `Ron.C17_exact` | propext, Classical.choice, Quot.sound |
| `Ron.C17_shape` | propext, Classical.choice, Quot.sound |
| `Ron.C17_keys_collide` | propext, Classical.choice, Quot.sound |
| `Ron.C18_partial` | propext, Classical.choice, Quot.sound |
| `Ron.C18_value_partial` | propext, Classical.choice, Quot.sound |
| `Ron.C18_untyped_fails` | propext, Classical.choice, Quot.sound |
| `Ron.C19_partial` | propext, Classical.choice, Quot.sound |
| `Ron.C19_roundtrip_partial` | propext, Classical.choice, Quot.sound |
| `Ron.C19_injective_partial` | propext, Classical.choice, Quot.sound |
| `Ron.C19_fails` | propext, Classical.choice, Quot.sound |
| `Ron.C20` | propext, Classical.choice, Quot.sound |
| `Ron.C20_distinct` | propext, Classical.choice, Quot.sound |
| `Ron.C21_struct` | propext, Classical.choice, Quot.sound |
| `Ron.C21_only_struct` | propext, Classical.choice, Quot.sound |
| `Ron.C21_only_newtype` | propext, Classical.choice, Quot.sound |
| `Ron.C21_only_tuple` | propext, Classical.choice, Quot.sound |
| `Ron.C21_only_unit` | propext, Classical.choice, Quot.sound |
| `Ron.C21_wrong_name` | propext, Classical.choice, Quot.sound |
| `Ron.C21_missing_name` | propext, Classical.choice, Quot.sound |
| `Ron.C21_wrong_document` | propext, Classical.choice, Quot.sound |
| `Ron.C22_fields` | propext, Classical.choice, Quot.sound |
| `Ron.C22_order` | propext, Classical.choice, Quot.sound |
| `Ron.C22_duplicate` | propext, Classical.choice, Quot.sound |
| `Ron.C22_unknown` | propext, Classical.choice, Quot.sound |
| `Ron.C22_missing` | propext, Classical.choice, Quot.sound |
| `Ron.C23_threshold` | propext, Quot.sound |
| `Ron.C23_threshold_value` | propext, Quot.sound |
| `Ron.C23_threshold_ignored` | propext, Quot.sound |
| `Ron.C23_depth` | propext, Classical.choice, Quot.sound |
| `Ron.C23_depth_value` | propext, Classical.choice, Quot.sound |
| `Ron.C23_siblings` | propext, Classical.choice, Quot.sound |
| `Ron.C23_accepts` | propext, Classical.choice, Quot.sound |
| `Ron.C23_width` | propext, Quot.sound |
| `Ron.C23_guard` | propext |
| `Ron.C24_exact` | propext, Classical.choice, Quot.sound |
| `Ron.C24_partial` | propext, Classical.choice, Quot.sound |
| `Ron.C24_within` | propext, Classical.choice, Quot.sound |
| `Ron.C24_errors` | propext, Classical.choice, Quot.sound |
| `Ron.C24_fails` | propext, Classical.choice, Quot.sound |
| `Ron.C25_counts` | propext, Classical.choice, Quot.sound |
| `Ron.C25_line_column` | propext, Classical.choice, Quot.sound |
| `Ron.C25_increasing` | propext, Classical.choice, Quot.sound |
| `Ron.C25_unique` | propext, Classical.choice, Quot.sound |
| `Ron.C26_partial` | propext, Classical.choice, Quot.sound |
| `Ron.C26_bytes_partial` | propext, Classical.choice, Quot.sound |
| `Ron.C26_order_fails` | propext, Classical.choice, Quot.sound |
| `Ron.C26_order_fails_int` | propext, Classical.choice, Quot.sound |
| `Ron.C27_number_order` | propext, Classical.choice, Quot.sound |
| `Ron.C27_value_order` | propext, Classical.choice, Quot.sound |
| `Ron.C27_map_order` | propext, Classical.choice, Quot.sound |
| `Ron.C27_hash` | propext, Classical.choice, Quot.sound |
| `Ron.C27_hash_distinct` | propext, Classical.choice, Quot.sound |
| `Ron.C27_maps_collide` | propext |
| `Ron.C27_f32_total_order` | propext, Classical.choice, Quot.sound |
| `Ron.C27_f64_total_order` | propext, Classical.choice, Quot.sound |
| `Ron.C27_structure` | propext, Quot.sound |
| `Ron.C28_get` | propext, Classical.choice, Quot.sound |
| `Ron.C28_returns` | propext, Classical.choice, Quot.sound |
| `Ron.C28_iter` | propext, Classical.choice, Quot.sound |
| `Ron.C28_key_order` | propext, Classical.choice, Quot.sound |
| `Ron.C28_insertion_order` | propext, Classical.choice, Quot.sound |
| `Ron.C28_retain_visits` | propext |
| `Ron.C28_collect` | propext, Quot.sound |
| `Ron.C29_seq` | propext, Quot.sound |
| `Ron.C29_seq_unique` | none |
| `Ron.C29_seq_ok` | propext, Quot.sound |
| `Ron.C29_map` | propext, Quot.sound |
| `Ron.C29_map_unique` | none |
| `Ron.C29_map_ok` | propext, Quot.sound |
| `Ron.C29_no_panic` | propext |
| `Ron.C29_identity` | propext, Classical.choice, Quot.sound |
| `Ron.C30_accepts` | propext, Classical.choice, Quot.sound |
| `Ron.C30_trim` | propext, Classical.choice, Quot.sound |
| `Ron.C30_trim_again` | propext, Classical.choice, Quot.sound |
| `Ron.C30_plain` | propext, Classical.choice, Quot.sound |
| `Ron.C30_embeds_partial` | propext, Classical.choice, Quot.sound |
| `Ron.C30_sequence` | propext, Classical.choice, Quot.sound |
| `Ron.C30_read` | propext, Classical.choice, Quot.sound |
| `Ron.C30_attribute_fails` | propext, Classical.choice, Quot.sound |
| `Ron.C30_depth_fails` | propext, Classical.choice, Quot.sound |
| `Ron.C30_from_rust_fails` | propext, Classical.choice, Quot.sound |
| `Ron.C31_document_partial` | propext, Classical.choice, Quot.sound |
| `Ron.C31_full` | propext, Classical.choice, Quot.sound |
| `Ron.C31_nested_partial` | propext, Classical.choice, Quot.sound |
| `Ron.C31_fallback_partial` | propext, Classical.choice, Quot.sound |
| `Ron.C31_value_partial` | propext, Classical.choice, Quot.sound |
| `Ron.C31_explicit_fails` | propext, Classical.choice, Quot.sound |
| `Ron.C31_unwrap_fails` | propext, Classical.choice, Quot.sound |
| `Ron.C31_word_fails` | propext, Classical.choice, Quot.sound |
| `Ron.C31_value_fails` | propext, Classical.choice, Quot.sound |
| `Ron.C32_writes` | propext, Quot.sound |
| `Ron.C32_success_is_complete` | propext, Quot.sound |
| `Ron.C32_prefix` | propext, Quot.sound |
| `Ron.C32_no_failure` | propext, Quot.sound |
| `Ron.C32_full_disk` | propext, Quot.sound |
| `Ron.C33_comments_only` | propext, Classical.choice, Quot.sound |
| `Ron.C33_data` | propext, Classical.choice, Quot.sound |
| `Ron.C33_preserved` | propext, Classical.choice, Quot.sound |
| `Ron.C34_valid` | propext, Classical.choice, Quot.sound |
| `Ron.C34_invalid` | propext, Classical.choice, Quot.sound |
| `Ron.C34_reader` | propext |
| `Ron.C34_reader_error` | propext, Classical.choice, Quot.sound |
| `Ron.C35_extensions` | propext, Quot.sound |
| `Ron.C35_limit` | propext, Quot.sound |
| `Ron.C35_default` | none |
| `Ron.C36_refused` | propext, Quot.sound |
| `Ron.C36_accepted` | propext, Quot.sound |
| `Ron.C37_value` | propext, Classical.choice, Quot.sound |
| `Ron.C37_typed` | propext, Classical.choice, Quot.sound |
| `Ron.C37_no_panic` | propext, Classical.choice, Quot.sound |
| `Ron.C37_forward` | propext, Classical.choice, Quot.sound |
| `Ron.C37_progress` | propext, Classical.choice, Quot.sound |
| `Ron.C37_element` | propext, Classical.choice, Quot.sound |
| `Ron.C38_seq` | propext, Classical.choice, Quot.sound |
| `Ron.C38_tuple` | propext, Classical.choice, Quot.sound |
| `Ron.C38_map` | propext, Classical.choice, Quot.sound |
| `Ron.C38_struct` | propext, Classical.choice, Quot.sound |
| `Ron.C38_option` | propext, Classical.choice, Quot.sound |
| `Ron.C38_newtype` | propext, Classical.choice, Quot.sound |
| `Ron.C38_seq_only` | propext, Classical.choice, Quot.sound |
| `Ron.C38_map_only` | propext, Classical.choice, Quot.sound |
| `Ron.C38_tuple_only_partial` | propext, Classical.choice, Quot.sound |
| `Ron.C38_struct_only` | propext, Classical.choice, Quot.sound |
| `Ron.C38_double_comma` | propext, Classical.choice, Quot.sound |
| `Ron.C38_double_comma_fails` | propext, Classical.choice, Quot.sound |
| `Ron.C39_partial` | propext, Classical.choice, Quot.sound |
| `Ron.C39_local_partial` | propext, Quot.sound |
| `Ron.C39_open_partial` | propext, Classical.choice, Quot.sound |
| `Ron.C39_name_partial` | propext, Classical.choice, Quot.sound |
| `Ron.C39_comment_counts` | propext, Classical.choice, Quot.sound |
| `Ron.C40_value` | propext, Classical.choice, Quot.sound |
| `Ron.C40_underscores_ignored` | propext, Classical.choice, Quot.sound |
| `Ron.C40_misplaced_underscore` | propext, Classical.choice, Quot.sound |
| `Ron.C40_suffix_value` | propext, Classical.choice, Quot.sound |
| `Ron.C40_suffix_binding` | propext, Classical.choice, Quot.sound |
| `Ron.C41_string` | propext, Classical.choice, Quot.sound |
| `Ron.C41_byte_string` | propext, Classical.choice, Quot.sound |
| `Ron.C41_unique` | propext, Classical.choice, Quot.sound |
| `Ron.C42_f32` | propext, Classical.choice, Quot.sound |
| `Ron.C42_f32_nan` | propext, Classical.choice, Quot.sound |
| `Ron.C42_f64` | propext, Classical.choice, Quot.sound |
| `Ron.C42_f64_nan` | propext, Classical.choice, Quot.sound |
| `Ron.C42_untyped_suffix` | propext, Classical.choice, Quot.sound |
| `Ron.C43` | propext, Classical.choice, Quot.sound |
| `Ron.C43_written` | propext, Classical.choice, Quot.sound |
| `Ron.C44` | propext, Classical.choice, Quot.sound |
| `Ron.C45_read` | propext, Classical.choice, Quot.sound |
| `Ron.C45_write` | propext, Quot.sound |
| `Ron.C46_typed` | propext, Classical.choice, Quot.sound |
| `Ron.C46_value` | propext, Classical.choice, Quot.sound |
| `Ron.C46_value_again` | propext, Classical.choice, Quot.sound |
| `Ron.C46_again` | propext, Classical.choice, Quot.sound |
| `Ron.C47_partial` | propext, Classical.choice, Quot.sound |
| `Ron.C47_value_partial` | propext, Classical.choice, Quot.sound |
| `Ron.C47_enum_fails` | propext, Classical.choice, Quot.sound |
| `Ron.C47_empty_fails` | propext, Classical.choice, Quot.sound |
| `Ron.C47_newtype_fails` | propext, Classical.choice, Quot.sound |
| `Ron.C47_some_fails` | propext, Classical.choice, Quot.sound |
| `Ron.C48_reads` | propext, Classical.choice, Quot.sound |
| `Ron.C48_only` | propext, Classical.choice, Quot.sound |
| `Ron.C48` | propext, Classical.choice, Quot.sound |
| `Ron.C48_plain` | propext |
| `Ron.C48_one` | propext, Classical.choice, Quot.sound |
| `Ron.C49_ignored` | propext, Classical.choice, Quot.sound |
| `Ron.C49_value` | propext, Classical.choice, Quot.sound |
| `Ron.C49_value_ignored` | propext, Classical.choice, Quot.sound |
| `Ron.C50_index` | propext, Classical.choice, Quot.sound |
| `Ron.C50_unique` | propext, Classical.choice, Quot.sound |
| `Ron.C50_exclusive` | propext, Classical.choice, Quot.sound |
| `Ron.C50_inclusive` | propext, Classical.choice, Quot.sound |
| `Ron.C50_error_partial` | propext, Classical.choice, Quot.sound |
| `Ron.C50_grapheme_fails` | propext, Classical.choice, Quot.sound |
| `Ron.C50_order_fails` | propext, Classical.choice, Quot.sound |
| `Ron.C50_end_fails` | propext, Classical.choice, Quot.sound |
| `Ron.C51_buffered` | propext, Classical.choice, Quot.sound |
| `Ron.C51_roundtrip_partial` | propext, Classical.choice, Quot.sound |
| `Ron.C51_untagged_partial` | propext, Classical.choice, Quot.sound |
| `Ron.C51_first` | propext, Quot.sound |
| `Ron.C51_repeated` | propext, Quot.sound |
| `Ron.C51_limit_fails` | propext, Classical.choice, Quot.sound |
| `Ron.C51_one_field_fails` | propext, Classical.choice, Quot.sound |
| `Ron.C51_newtype_fails` | propext, Classical.choice, Quot.sound |
| `Ron.C51_empty_fails` | propext, Classical.choice, Quot.sound |
| `Ron.C51_comma_fails` | propext, Classical.choice, Quot.sound |
| `Ron.C51_unbalanced_fails` | propext, Classical.choice, Quot.sound |
| `Ron.C51_implicit_fails` | propext, Classical.choice, Quot.sound |
| `Ron.C52_text` | propext, Classical.choice, Quot.sound |
| `Ron.C52_written` | propext, Classical.choice, Quot.sound |
| `Ron.C52_exactly` | propext, Classical.choice, Quot.sound |
| `Ron.C52_same` | propext, Classical.choice, Quot.sound |
| `Ron.C53_anywhere` | propext, Classical.choice, Quot.sound |
| `Ron.C53_struct` | propext, Classical.choice, Quot.sound |
| `Ron.C53_roundtrip_partial` | propext, Classical.choice, Quot.sound |
| `Ron.C53_written` | propext, Quot.sound |
| `Ron.C53_missing` | propext, Classical.choice, Quot.sound |
| `Ron.C53_twice` | propext, Classical.choice, Quot.sound |
| `Ron.C53_unknown` | propext, Classical.choice, Quot.sound |
| `Ron.C53_field_fails` | propext, Classical.choice, Quot.sound |
| `Ron.C53_identifier_fails` | propext, Classical.choice, Quot.sound |
| `Ron.C53_implicit_fails` | propext, Classical.choice, Quot.sound |
| `Ron.C54_any_order` | propext, Classical.choice, Quot.sound |
| `Ron.C54_roundtrip_partial` | propext, Classical.choice, Quot.sound |
| `Ron.C54_written` | propext |
| `Ron.C54_missing` | propext, Classical.choice, Quot.sound |
| `Ron.C54_twice` | propext, Classical.choice, Quot.sound |
| `Ron.C54_inner_once` | propext, Classical.choice, Quot.sound |
| `Ron.C54_struct_syntax` | propext, Classical.choice, Quot.sound |
| `Ron.C54_map_first_fails` | propext, Classical.choice, Quot.sound |
| `Ron.C54_collision_fails` | propext, Classical.choice, Quot.sound |
| `Ron.C54_key_fails` | propext, Classical.choice, Quot.sound |
| `Ron.C54_identifier_fails` | propext, Classical.choice, Quot.sound |
| `Ron.C54_implicit_fails` | propext, Classical.choice, Quot.sound |
| `Ron.C55_tag_first` | propext, Classical.choice, Quot.sound |
| `Ron.C55_content_first` | propext, Classical.choice, Quot.sound |
| `Ron.C55_partial` | propext, Classical.choice, Quot.sound |
| `Ron.C55_roundtrip_partial` | propext, Classical.choice, Quot.sound |
| `Ron.C55_swapped` | propext, Classical.choice, Quot.sound |
| `Ron.C55_missing_tag` | propext, Classical.choice, Quot.sound |
| `Ron.C55_missing_content` | propext, Classical.choice, Quot.sound |
| `Ron.C55_absent_option` | propext, Classical.choice, Quot.sound |
| `Ron.C55_tag_twice` | propext, Classical.choice, Quot.sound |
| `Ron.C55_content_twice` | propext, Classical.choice, Quot.sound |
| `Ron.C55_unknown` | propext, Classical.choice, Quot.sound |
| `Ron.C55_fields_as_map` | propext, Classical.choice, Quot.sound |
| `Ron.C55_map_missing` | propext, Classical.choice, Quot.sound |
| `Ron.C55_map_key` | propext, Classical.choice, Quot.sound |
| `Ron.C55_empty_fails` | propext, Classical.choice, Quot.sound |
| `Ron.C55_range_fails` | propext, Classical.choice, Quot.sound |
| `Ron.C55_content_first_fails` | propext, Classical.choice, Quot.sound |
| `Ron.C55_string_fails` | propext, Classical.choice, Quot.sound |
| `Ron.C55_name_unchecked` | propext, Classical.choice, Quot.sound |
| `Ron.C56_place` | propext, Classical.choice, Quot.sound |
| `Ron.C56_message` | propext, Classical.choice, Quot.sound |
| `Ron.C56_whole` | propext, Classical.choice, Quot.sound |
| `Ron.C56_found` | propext, Classical.choice, Quot.sound |
| `Ron.C56_name` | propext, Classical.choice, Quot.sound |
| `Ron.C56_names` | propext, Classical.choice, Quot.sound |
| `Ron.C56_closing_same` | propext |
| `Ron.C56_custom_same` | propext |
| `Ron.C56_expected_same` | propext |
| `Ron.C57_read` | propext, Classical.choice, Quot.sound |
| `Ron.C57_missing` | propext, Classical.choice, Quot.sound |
| `Ron.C57_twice` | propext, Classical.choice, Quot.sound |
| `Ron.C57_unknown` | propext, Classical.choice, Quot.sound |
| `Ron.C57_written` | propext, Classical.choice, Quot.sound |
| `Ron.C57_roundtrip` | propext, Classical.choice, Quot.sound |
| `Ron.C57_roundtrip_plain` | propext, Classical.choice, Quot.sound |
| `Ron.C57_skipped_fails` | propext, Classical.choice, Quot.sound |
| `Ron.C58_implicit_some` | propext, Quot.sound |
| `Ron.C58_explicit_struct_names` | propext, Quot.sound |
| `Ron.C58_no_structs` | propext, Quot.sound |
| `Ron.C58_unwrap_newtypes` | propext, Quot.sound |
| `Ron.C58_unwrap_variant_newtypes` | propext, Quot.sound |
| `Ron.C59_string` | propext, Classical.choice, Quot.sound |
| `Ron.C59_byte_string` | propext, Classical.choice, Quot.sound |
| `Ron.C59_char` | propext, Classical.choice, Quot.sound |
| `Ron.C59_byte` | propext, Classical.choice, Quot.sound |
| `Ron.C59_unique` | propext, Classical.choice, Quot.sound |
| `Ron.C59_doc_string` | propext, Classical.choice, Quot.sound |
| `Ron.C59_doc_char` | propext, Classical.choice, Quot.sound |
| `Ron.C59_doc_bytes` | propext, Classical.choice, Quot.sound |
| `Ron.C60_reads` | propext, Classical.choice, Quot.sound |
| `Ron.C60_fails` | propext, Classical.choice, Quot.sound |
| `Ron.C60_unique` | propext, Classical.choice, Quot.sound |
| `Ron.C60_doc` | propext, Classical.choice, Quot.sound |
| `Ron.C60_float_reads` | propext, Classical.choice, Quot.sound |
| `Ron.C60_float_fails` | propext, Classical.choice, Quot.sound |
| `Ron.C60_doc_float` | propext, Classical.choice, Quot.sound |
| `Ron.C60_bool` | propext, Quot.sound |
| `Ron.C61_text` | propext, Classical.choice, Quot.sound |
| `Ron.C61_into` | propext, Classical.choice, Quot.sound |
| `Ron.C61_value_into` | propext, Quot.sound |
| `Ron.C61_reread` | propext, Classical.choice, Quot.sound |
| `Ron.C61_reread_untyped` | propext, Classical.choice, Quot.sound |
| `Ron.C61_last_wins` | propext, Classical.choice, Quot.sound |
| `Ron.C61_byte_array` | propext |
| `Ron.C61_into_f64` | propext |
| `Ron.C61_unsorted_fails` | propext, Classical.choice, Quot.sound |
| `Ron.C61_byte_array_fails` | propext, Classical.choice, Quot.sound |
| `Ron.C62_reads` | propext, Classical.choice, Quot.sound |
| `Ron.C62_only` | propext, Classical.choice, Quot.sound |
| `Ron.C62` | propext, Classical.choice, Quot.sound |
| `Ron.C62_one` | propext, Classical.choice, Quot.sound |
| `Ron.C63_reads` | propext, Classical.choice, Quot.sound |
| `Ron.C63_fails` | propext, Classical.choice, Quot.sound |
| `Ron.C63_unique` | propext, Classical.choice, Quot.sound |
| `Ron.C63_values` | propext, Classical.choice, Quot.sound |
| `Ron.C63_one_value` | propext, Classical.choice, Quot.sound |
| `Ron.C63_doc` | propext, Classical.choice, Quot.sound |
| `Ron.C64_text` | propext, Classical.choice, Quot.sound |
| `Ron.C64_same` | propext, Classical.choice, Quot.sound |
| `Ron.C64` | propext, Classical.choice, Quot.sound |
| `Ron.C64_cut` | propext, Classical.choice, Quot.sound |
| `Ron.C64_written` | propext, Classical.choice, Quot.sound |
| `Ron.C64_number_fails` | propext, Classical.choice, Quot.sound |
| `Ron.C64_range_fails` | propext, Classical.choice, Quot.sound |
| `Ron.C64_variant_fails` | propext, Classical.choice, Quot.sound |
| `Ron.C64_implicit_fails` | propext, Classical.choice, Quot.sound |
| `Ron.C65` | propext, Classical.choice, Quot.sound |
| `Ron.C65_unwrap_variant_newtypes` | propext, Classical.choice, Quot.sound |
| `Ron.C65_trailing` | propext, Classical.choice, Quot.sound |
| `Ron.C65_unique` | propext, Classical.choice, Quot.sound |
| `Ron.C65_no_text` | propext, Classical.choice, Quot.sound |
| `Ron.C65_name_fails` | propext, Classical.choice, Quot.sound |
| `Ron.C66_sorted` | propext, Classical.choice, Quot.sound |
| `Ron.C66` | propext, Classical.choice, Quot.sound |
| `Ron.C66_refused` | propext, Classical.choice, Quot.sound |
| `Ron.C66_no_slash` | propext, Classical.choice, Quot.sound |
| `Ron.C66_reads` | propext, Classical.choice, Quot.sound |
| `Ron.C66_torn` | propext, Classical.choice, Quot.sound |
| `Ron.C66_after` | propext, Classical.choice, Quot.sound |
| `Ron.C66_broken` | propext, Classical.choice, Quot.sound |
| `Ron.C66_odd` | propext, Classical.choice, Quot.sound |
| `Ron.C66_total` | propext, Classical.choice, Quot.sound |
| `Ron.C66_total_reads` | propext, Classical.choice, Quot.sound |
| `Ron.C66_unwrap_variant_newtypes` | propext, Classical.choice, Quot.sound |
