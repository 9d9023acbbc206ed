# Axioms of every theorem in MANIFEST.json

Made by `tools/gen_axioms.py` from `#print axioms`.

| property | theorem | axioms |
|---|---|---|
| C01 | `Mopaq.C01_block_round_trip` | propext, Quot.sound |
| C02 | `Mopaq.C02_byte_round_trip` | propext, Classical.choice, Quot.sound |
| C03 | `Mopaq.C03_table` | propext, Classical.choice, Quot.sound |
| C03 | `Mopaq.C03_cipher` | propext, Classical.choice, Quot.sound |
| C03 | `Mopaq.C03_cipher_unique` | propext, Classical.choice, Quot.sound |
| C03 | `Mopaq.C03_byte_cipher` | propext, Classical.choice, Quot.sound |
| C03 | `Mopaq.C03_name_hash` | propext, Classical.choice, Quot.sound |
| C03 | `Mopaq.C03_jenkins` | propext, Quot.sound |
| C03 | `Mopaq.C03_cipher_key_zero_deviates` | propext, Quot.sound |
| C04 | `Mopaq.C04_case_and_separator` | propext, Classical.choice, Quot.sound |
| C05 | `Mopaq.C05_cipher_in_bounds` | propext, Classical.choice, Quot.sound |
| C05 | `Mopaq.C05_hash_in_bounds` | propext, Classical.choice, Quot.sound |
| C05 | `Mopaq.C05_hash_panics` | propext, Classical.choice, Quot.sound |
| C06 | `Mopaq.C06_lookup_is_directory_lookup` | propext, Classical.choice, Quot.sound |
| C06 | `Mopaq.C06_found_was_added` | propext, Classical.choice, Quot.sound |
| C06 | `Mopaq.C06_any_table` | propext, Classical.choice, Quot.sound |
| C06 | `Mopaq.C06_added_is_found` | propext, Classical.choice, Quot.sound |
| C07 | `Mopaq.C07_lookup_returns` | propext, Classical.choice, Quot.sound |
| C07 | `Mopaq.C07_add_returns` | propext, Classical.choice, Quot.sound |
| C07 | `Mopaq.C07_full_table_add_never_returns` | propext, Classical.choice, Quot.sound |
| C07 | `Mopaq.C07_builder_size` | propext, Classical.choice, Quot.sound |
| C07 | `Mopaq.C07_builder_adds_return` | propext, Classical.choice, Quot.sound |
| C08 | `Mopaq.C08_duplicates_rejected` | propext, Classical.choice, Quot.sound |
| C08 | `Mopaq.C08_add_preserves_others` | propext, Classical.choice, Quot.sound |
| C08 | `Mopaq.C08_built_files_distinct` | propext, Classical.choice, Quot.sound |
| C09 | `Mopaq.C09_requested_locale_is_shadowed` | propext, Classical.choice, Quot.sound |
| C09 | `Mopaq.C09_locale_honoured_partial` | propext, Classical.choice, Quot.sound |
| C10 | `Mopaq.C10_hash_table_round_trip` | propext, Classical.choice, Quot.sound |
| C10 | `Mopaq.C10_block_table_round_trip` | propext, Classical.choice, Quot.sound |
| C10 | `Mopaq.C10_hi_block_table_round_trip` | propext, Classical.choice, Quot.sound |
| C10 | `Mopaq.C10_hash_table_format` | propext, Classical.choice, Quot.sound |
| C10 | `Mopaq.C10_block_table_format` | propext, Classical.choice, Quot.sound |
| C10 | `Mopaq.C10_read_hash_table_size` | propext, Classical.choice, Quot.sound |
| C11 | `Mopaq.C11_positions_48_bit` | propext, Quot.sound |
| C11 | `Mopaq.C11_positions_32_bit` | propext, Quot.sound |
| C11 | `Mopaq.C11_no_hi_table_truncates` | propext, Quot.sound |
| C12 | `Mopaq.C12_header_round_trip` | propext, Classical.choice, Quot.sound |
| C12 | `Mopaq.C12_header_format` | propext, Quot.sound |
| C12 | `Mopaq.C12_read_total` | propext, Quot.sound |
| C12 | `Mopaq.C12_accepted` | propext, Classical.choice, Quot.sound |
| C13 | `Mopaq.C13_search_exact` | propext, Classical.choice, Quot.sound |
| C13 | `Mopaq.C13_search_terminates` | propext, Classical.choice, Quot.sound |
| C13 | `Mopaq.C13_found_is_first_aligned` | propext, Classical.choice, Quot.sound |
| C13 | `Mopaq.C13_embedded_archive_found` | propext, Classical.choice, Quot.sound |
| C13 | `Mopaq.C13_false_mark_hides_archive` | propext, Classical.choice, Quot.sound |
| C14 | `Mopaq.C14_never_grows` | propext, Quot.sound |
| C14 | `Mopaq.C14_same_length_ambiguous` | propext, Quot.sound |
| C15 | `Mopaq.C15_round_trip_partial` | propext, Quot.sound |
| C15 | `Mopaq.C15_bzip2_implode_never_decompresses` | propext, Quot.sound |
| C15 | `Mopaq.C15_pkware_implode_mismatch` | propext, Quot.sound |
| C16 | `Mopaq.C16_sparse_loses_data` | propext, Quot.sound |
| C16 | `Mopaq.C16_sparse_round_trip_partial` | propext, Quot.sound |
| C17 | `Mopaq.C17_sparse_overshoots` | propext, Quot.sound |
| C17 | `Mopaq.C17_sparse_output_size_partial` | propext, Quot.sound |
| C18 | `Mopaq.C18_adpcm_length_and_start` | propext, Classical.choice, Quot.sound |
| C18 | `Mopaq.C18_decoder_tracks_encoder` | propext, Classical.choice, Quot.sound |
| C18 | `Mopaq.C18_error_bound` | propext, Classical.choice, Quot.sound |
| C18 | `Mopaq.C18_compress_succeeds` | propext, Classical.choice, Quot.sound |
| C18 | `Mopaq.C18_level_10_panics` | propext, Quot.sound |
| C19 | `Mopaq.C19_adpcm_panics` | propext, Quot.sound |
| C19 | `Mopaq.C19_adpcm_robust_partial` | propext, Quot.sound |
| C20 | `Mopaq.C20_huffman_ignores_stream` | propext, Quot.sound |
| C49 | `Mopaq.C49_audio_combinations_partial` | propext, Classical.choice, Quot.sound |
| C49 | `Mopaq.C49_audio_bzip2_never_decompresses` | propext, Classical.choice, Quot.sound |
| C49 | `Mopaq.C49_both_channel_counts_mismatch` | propext, Quot.sound |
| C21 | `Mopaq.C21_single_unit_round_trip_partial` | propext, Classical.choice, Quot.sound |
| C21 | `Mopaq.C21_single_unit_exact` | propext, Classical.choice, Quot.sound |
| C22 | `Mopaq.C22_multi_sector_exact_partial` | propext, Classical.choice, Quot.sound |
| C22 | `Mopaq.C22_stored_multi_sector_unreadable` | propext, Classical.choice, Quot.sound |
| C22 | `Mopaq.C22_offset_table_returned` | propext, Quot.sound |
| C23 | `Mopaq.C23_single_unit_checked_partial` | propext, Quot.sound |
| C23 | `Mopaq.C23_byte_change_detected` | propext, Classical.choice, Quot.sound |
| C23 | `Mopaq.C23_sector_checksums_ignored` | propext, Quot.sound |
| C24 | `Mopaq.C24_key_agreement` | propext, Classical.choice, Quot.sound |
| C24 | `Mopaq.C24_key_value` | propext, Classical.choice, Quot.sound |
| C25 | `Mopaq.C25_sector_shift_panics` | propext, Quot.sound |
| C25 | `Mopaq.C25_empty_checked_file_panics` | propext, Quot.sound |
| C25 | `Mopaq.C25_long_sector_panics` | propext, Classical.choice, Quot.sound |
| C25 | `Mopaq.C25_declared_size_panics` | propext, Quot.sound |
| C25 | `Mopaq.C25_no_panic_partial` | propext, Quot.sound |
| C28 | `Mopaq.C28_listfile_exact_partial` | propext, Classical.choice, Quot.sound |
| C28 | `Mopaq.C28_parsed_names_are_clean` | propext, Quot.sound |
| C28 | `Mopaq.C28_semicolon_cut` | propext |
| C28 | `Mopaq.C28_number_sign_dropped` | propext |
| C30 | `Mopaq.C30_write_exact` | propext, Classical.choice, Quot.sound |
| C30 | `Mopaq.C30_round_trip_partial` | propext, Classical.choice, Quot.sound |
| C30 | `Mopaq.C30_other_entries_unchanged` | propext, Classical.choice, Quot.sound |
| C30 | `Mopaq.C30_wide_entry_loses_bits` | propext, Classical.choice, Quot.sound |
| C31 | `Mopaq.C31_lookup_only_index_zero` | propext, Classical.choice, Quot.sound |
| C31 | `Mopaq.C31_wrong_file` | propext, Classical.choice, Quot.sound |
| C31 | `Mopaq.C31_small_tables_resolve_nothing_partial` | propext, Classical.choice, Quot.sound |
| C32 | `Mopaq.C32_record_round_trip_partial` | propext, Classical.choice, Quot.sound |
| C32 | `Mopaq.C32_last_record_unreadable` | propext, Classical.choice, Quot.sound |
| C32 | `Mopaq.C32_wide_records_panic` | propext, Quot.sound |
| C32 | `Mopaq.C32_build_panics` | propext, Classical.choice, Quot.sound |
| C32 | `Mopaq.C32_out_of_range` | propext, Quot.sound |
| C33 | `Mopaq.C33_het_uncompressed_partial` | propext, Classical.choice, Quot.sound |
| C33 | `Mopaq.C33_bet_uncompressed_partial` | propext, Classical.choice, Quot.sound |
| C33 | `Mopaq.C33_het_indices_wrong` | propext, Classical.choice, Quot.sound |
| C33 | `Mopaq.C33_compressed_tables_do_not_load` | propext, Classical.choice, Quot.sound |
| C33 | `Mopaq.C33_wrong_mark_refused` | propext, Quot.sound |
| C35 | `Mopaq.C35_round_trip` | propext, Classical.choice, Quot.sound |
| C35 | `Mopaq.C35_round_trip_same` | propext, Classical.choice, Quot.sound |
| C36 | `Mopaq.C36_accepts_exactly` | propext, Classical.choice, Quot.sound |
| C36 | `Mopaq.C36_values` | propext, Classical.choice, Quot.sound |
| C36 | `Mopaq.C36_huge_count_panics` | propext, Classical.choice, Quot.sound |
| C26 | `Mopaq.C26_read_back_partial` | propext, Classical.choice, Quot.sound |
| C26 | `Mopaq.C26_extended_read_partial` | propext, Classical.choice, Quot.sound |
| C26 | `Mopaq.C26_extended_wrong_content` | propext, Classical.choice, Quot.sound |
| C50 | `Mopaq.C50_classic_build_succeeds` | propext, Classical.choice, Quot.sound |
| C50 | `Mopaq.C50_extended_build_succeeds_partial` | propext, Classical.choice, Quot.sound |
| C50 | `Mopaq.C50_large_file_panics` | propext, Classical.choice, Quot.sound |
| C27 | `Mopaq.C27_generated_listing_partial` | propext, Classical.choice, Quot.sound |
| C27 | `Mopaq.C27_listing_follows_listfile` | propext, Classical.choice, Quot.sound |
| C27 | `Mopaq.C27_external_listing_partial` | propext, Classical.choice, Quot.sound |
| C27 | `Mopaq.C27_no_listfile` | none |
| C29 | `Mopaq.C29_archive_divided` | propext, Classical.choice, Quot.sound |
| C34 | `Mopaq.C34_fresh_archive_valid` | propext, Classical.choice, Quot.sound |
| C34 | `Mopaq.C34_verdicts_exact` | propext, Classical.choice, Quot.sound |
| C48 | `Mopaq.C48_built_sizes_partial` | propext, Classical.choice, Quot.sound |
| C48 | `Mopaq.C48_stored_multi_sector_longer` | propext, Classical.choice, Quot.sound |
| C48 | `Mopaq.C48_uncompressed_reads_stored_size` | propext, Quot.sound |
| C37 | `Mopaq.C37_padding_check_exact_partial` | propext, Classical.choice, Quot.sound |
| C37 | `Mopaq.C37_no_weak_signature_accepted` | propext, Classical.choice, Quot.sound |
| C37 | `Mopaq.C37_never_weak_valid` | propext, Classical.choice, Quot.sound |
| C37 | `Mopaq.C37_correct_signature_rejected` | propext, Classical.choice, Quot.sound |
| C38 | `Mopaq.C38_strong_signature_exact` | propext, Classical.choice, Quot.sound |
| C38 | `Mopaq.C38_strong_valid_iff` | propext, Classical.choice, Quot.sound |
| C39 | `Mopaq.C39_hashing_independent_of_reads` | propext, Classical.choice, Quot.sound |
| C47 | `Mopaq.C47_precedence_partial` | propext, Classical.choice, Quot.sound |
| C47 | `Mopaq.C47_huge_size_panics` | propext, Quot.sound |
| C42 | `Mopaq.C42_sequential_reads` | propext, Classical.choice, Quot.sound |
| C42 | `Mopaq.C42_reads_reproduce_file` | propext, Classical.choice, Quot.sound |
| C42 | `Mopaq.C42_position_in_file` | propext, Classical.choice, Quot.sound |
| C42 | `Mopaq.C42_read_piece` | propext, Classical.choice, Quot.sound |
| C43 | `Mopaq.C43_seek_partial` | propext, Classical.choice, Quot.sound |
| C43 | `Mopaq.C43_before_start_goes_to_end` | propext, Classical.choice, Quot.sound |
| C43 | `Mopaq.C43_high_half_ignored` | propext, Classical.choice, Quot.sound |
| C43 | `Mopaq.C43_far_target_panics` | propext, Classical.choice, Quot.sound |
| C43 | `Mopaq.C43_unknown_origin` | propext, Quot.sound |
| C41 | `Mopaq.C41_handles_unique` | propext, Classical.choice, Quot.sound |
| C41 | `Mopaq.C41_kinds_apart` | propext, Classical.choice, Quot.sound |
| C44 | `Mopaq.C44_closed_partial` | propext, Classical.choice, Quot.sound |
| C44 | `Mopaq.C44_open_file_survives_close` | propext, Classical.choice, Quot.sound |
| C45 | `Mopaq.C45_no_deadlock_partial` | propext, Classical.choice, Quot.sound |
| C45 | `Mopaq.C45_calls_end_partial` | propext, Classical.choice, Quot.sound |
| C45 | `Mopaq.C45_verify_all_files_hangs` | propext, Classical.choice, Quot.sound |
| C45 | `Mopaq.C45_callback_opening_file_hangs` | propext, Classical.choice, Quot.sound |
| C40 | `Mopaq.C40_atomic_partial` | propext, Quot.sound |
| C40 | `Mopaq.C40_power_failure_loses_archive` | propext, Classical.choice, Quot.sound |
| C46 | `Mopaq.C46_plain_extraction_inside` | propext, Classical.choice, Quot.sound |
| C46 | `Mopaq.C46_preserved_paths_inside_partial` | propext, Classical.choice, Quot.sound |
| C46 | `Mopaq.C46_parent_escapes` | propext, Classical.choice, Quot.sound |
| C46 | `Mopaq.C46_absolute_escapes` | propext, Classical.choice, Quot.sound |
| C51 | `Mopaq.C51_extraction_complete_partial` | propext, Classical.choice, Quot.sound |
| C51 | `Mopaq.C51_files_overwrite_each_other` | propext, Classical.choice, Quot.sound |
| C51 | `Mopaq.C51_name_without_last_part` | propext, Quot.sound |
| C52 | `Mopaq.C52_others_leave_file_alone` | propext, Classical.choice, Quot.sound |
| C52 | `Mopaq.C52_closed_stays_closed` | propext, Classical.choice, Quot.sound |
| C52 | `Mopaq.C52_call_isolated` | propext, Classical.choice, Quot.sound |
| C53 | `Mopaq.C53_success_iff` | propext, Quot.sound |
| C53 | `Mopaq.C53_changed_content_fails` | propext, Quot.sound |
| C53 | `Mopaq.C53_content_ignored_without_records` | propext, Quot.sound |
| C54 | `Mopaq.C54_enumeration_partial` | propext, Classical.choice, Quot.sound |
| C54 | `Mopaq.C54_suffix_masks_report_more` | propext, Quot.sound |
| C54 | `Mopaq.C54_inner_star_misses` | propext, Classical.choice, Quot.sound |
| C57 | `Mopaq.C57_every_block_once` | propext, Classical.choice, Quot.sound |
| C57 | `Mopaq.C57_built_listing` | propext, Classical.choice, Quot.sound |
| C57 | `Mopaq.C57_slots_listed` | propext, Classical.choice, Quot.sound |
| C57 | `Mopaq.C57_list_without_listfile` | propext, Classical.choice, Quot.sound |
| C57 | `Mopaq.C57_extended_listing_partial` | propext, Classical.choice, Quot.sound |
| C57 | `Mopaq.C57_last_file_missing` | propext, Classical.choice, Quot.sound |
| C57 | `Mopaq.C57_small_archive_misses_last` | propext, Classical.choice, Quot.sound |
| C55 | `Mopaq.C55_built_info_partial` | propext, Classical.choice, Quot.sound |
| C55 | `Mopaq.C55_built_tables_partial` | propext, Classical.choice, Quot.sound |
| C55 | `Mopaq.C55_empty_files_not_counted` | propext, Classical.choice, Quot.sound |
| C55 | `Mopaq.C55_strong_signature_unreported` | propext, Quot.sound |
| C55 | `Mopaq.C55_tables_described` | propext, Quot.sound |
| C55 | `Mopaq.C55_sizes_in_file` | propext, Quot.sound |
| C55 | `Mopaq.C55_signature_status` | propext, Quot.sound |
| C55 | `Mopaq.C55_built_sizes` | propext, Classical.choice, Quot.sound |
| C56 | `Mopaq.C56_success_iff` | propext, Classical.choice, Quot.sound |
| C56 | `Mopaq.C56_report_adds_up` | propext, Quot.sound |
| C56 | `Mopaq.C56_built_archive_verifies_partial` | propext, Classical.choice, Quot.sound |
| C56 | `Mopaq.C56_nameless_archive_fails` | propext, Classical.choice, Quot.sound |
| C56 | `Mopaq.C56_digests_ignored` | propext, Classical.choice, Quot.sound |
| C56 | `Mopaq.C56_wrong_digests_pass` | propext, Classical.choice, Quot.sound |
| C58 | `Mopaq.C58_files_added` | propext, Quot.sound |
| C58 | `Mopaq.C58_round_trip_partial` | propext, Classical.choice, Quot.sound |
| C58 | `Mopaq.C58_directory_restored_partial` | propext, Classical.choice, Quot.sound |
| C58 | `Mopaq.C58_stored_large_file_not_restored` | propext, Classical.choice, Quot.sound |
| C58 | `Mopaq.C58_same_names_fail` | propext, Classical.choice, Quot.sound |
| C58 | `Mopaq.C58_listfile_in_directory_fails` | propext, Classical.choice, Quot.sound |
| C58 | `Mopaq.C58_unreadable_file_fails` | propext, Classical.choice, Quot.sound |
| C58 | `Mopaq.C58_ignore_matches_directory` | propext, Classical.choice, Quot.sound |
| C58 | `Mopaq.C58_leading_backslash_escapes` | propext, Classical.choice, Quot.sound |
| C59 | `Mopaq.C59_explicit_load_same` | propext, Quot.sound |
| C59 | `Mopaq.C59_reload_same` | propext, Quot.sound |
| C59 | `Mopaq.C59_description_same` | propext, Quot.sound |
| C59 | `Mopaq.C59_deferred_access_fails` | propext, Quot.sound |
| C60 | `Mopaq.C60_library_create` | propext, Classical.choice, Quot.sound |
| C60 | `Mopaq.C60_call_creates` | propext, Classical.choice, Quot.sound |
| C60 | `Mopaq.C60_path_kept` | propext, Classical.choice, Quot.sound |
| C60 | `Mopaq.C60_call_refused` | propext, Classical.choice, Quot.sound |
| C60 | `Mopaq.C60_create_new_race` | propext, Classical.choice, Quot.sound |
| C60 | `Mopaq.C60_create_new_replaces` | propext, Classical.choice, Quot.sound |
| C61 | `Mopaq.C61_listing_same` | propext, Classical.choice, Quot.sound |
| C61 | `Mopaq.C61_enumeration_same` | propext, Quot.sound |
| C61 | `Mopaq.C61_enumeration_hashes` | propext, Classical.choice, Quot.sound |
| C61 | `Mopaq.C61_built_hashes` | propext, Classical.choice, Quot.sound |
| C61 | `Mopaq.C61_placeholder_hashes` | propext, Classical.choice, Quot.sound |
| C61 | `Mopaq.C61_extended_no_hashes` | propext, Quot.sound |
| C62 | `Mopaq.C62_open_exactly_partial` | propext, Classical.choice, Quot.sound |
| C62 | `Mopaq.C62_recorded_attributes_partial` | propext, Classical.choice, Quot.sound |
| C62 | `Mopaq.C62_short_attributes_block_opening` | propext, Classical.choice, Quot.sound |
| C62 | `Mopaq.C62_unreadable_attributes_block_opening` | propext, Classical.choice, Quot.sound |
| C63 | `Mopaq.C63_no_method_reported` | propext, Quot.sound |
| C63 | `Mopaq.C63_built_partial` | propext, Classical.choice, Quot.sound |
| C63 | `Mopaq.C63_figures` | propext, Quot.sound |
| C63 | `Mopaq.C63_nothing_iff` | propext, Quot.sound |
| C64 | `Mopaq.C64_options` | propext, Quot.sound |
| C64 | `Mopaq.C64_files` | propext, Classical.choice, Quot.sound |
| C64 | `Mopaq.C64_order` | propext, Quot.sound |
| C64 | `Mopaq.C64_read_at_build` | propext, Classical.choice, Quot.sound |
| C64 | `Mopaq.C64_path_or_data` | propext, Quot.sound |
| C64 | `Mopaq.C64_default_round_trip_partial` | propext, Classical.choice, Quot.sound |
| C65 | `Mopaq.C65_list_shows` | propext, Classical.choice, Quot.sound |
| C65 | `Mopaq.C65_list_fails` | propext, Classical.choice, Quot.sound |
| C65 | `Mopaq.C65_find_as_list` | propext, Classical.choice, Quot.sound |
| C65 | `Mopaq.C65_find_folded` | propext, Quot.sound |
| C65 | `Mopaq.C65_names_readable` | propext, Classical.choice, Quot.sound |
| C65 | `Mopaq.C65_csv_rows` | propext, Classical.choice, Quot.sound |
| C65 | `Mopaq.C65_csv_columns_partial` | propext, Classical.choice, Quot.sound |
| C65 | `Mopaq.C65_verbose_partial` | propext, Classical.choice, Quot.sound |
| C65 | `Mopaq.C65_verbose_panics_on_built` | propext, Classical.choice, Quot.sound |
| C65 | `Mopaq.C65_list_lines` | propext, Classical.choice, Quot.sound |
| C65 | `Mopaq.C65_find_lines` | propext, Quot.sound |
| C65 | `Mopaq.C65_find_output` | propext, Classical.choice, Quot.sound |
| C66 | `Mopaq.C66_same_file` | propext, Classical.choice, Quot.sound |
| C66 | `Mopaq.C66_same_answer` | propext, Classical.choice, Quot.sound |
| C67 | `Mopaq.C67_extract_one` | propext, Quot.sound |
| C67 | `Mopaq.C67_plain_inside` | propext, Classical.choice, Quot.sound |
| C67 | `Mopaq.C67_plain_last_part_partial` | propext, Classical.choice, Quot.sound |
| C67 | `Mopaq.C67_parent_panics` | propext, Classical.choice, Quot.sound |
| C67 | `Mopaq.C67_backslash_kept` | propext, Classical.choice, Quot.sound |
| C67 | `Mopaq.C67_info_size` | propext, Classical.choice, Quot.sound |
| C67 | `Mopaq.C67_info_csv_partial` | propext, Classical.choice, Quot.sound |
| C68 | `Mopaq.C68_values` | propext, Classical.choice, Quot.sound |
| C68 | `Mopaq.C68_json_partial` | propext, Classical.choice, Quot.sound |
| C68 | `Mopaq.C68_all_not_json` | propext, Quot.sound |
| C68 | `Mopaq.C68_compare` | propext, Classical.choice, Quot.sound |
| C68 | `Mopaq.C68_compare_spellings` | propext, Classical.choice, Quot.sound |
| C69 | `Mopaq.C69_last_error` | propext, Classical.choice, Quot.sound |
| C69 | `Mopaq.C69_success_told` | propext, Classical.choice, Quot.sound |
| C69 | `Mopaq.C69_halves` | propext, Quot.sound |
| C69 | `Mopaq.C69_return_value_ambiguous` | propext |
| C69 | `Mopaq.C69_locale` | propext, Classical.choice, Quot.sound |
| C69 | `Mopaq.C69_asked_at_once` | propext, Classical.choice, Quot.sound |
| C69 | `Mopaq.C69_has_file_leaves_error` | propext, Quot.sound |
| C69 | `Mopaq.C69_locale_ignored` | propext, Classical.choice, Quot.sound |
| C70 | `Mopaq.C70_set_accepts` | propext, Classical.choice, Quot.sound |
| C70 | `Mopaq.C70_set_used` | propext, Classical.choice, Quot.sound |
| C70 | `Mopaq.C70_command_line_first` | propext, Classical.choice, Quot.sound |
| C70 | `Mopaq.C70_defaults` | propext, Classical.choice, Quot.sound |
| C70 | `Mopaq.C70_reset` | propext, Classical.choice, Quot.sound |
| C70 | `Mopaq.C70_show` | propext, Classical.choice, Quot.sound |
| C70 | `Mopaq.C70_output_ignored` | propext, Classical.choice, Quot.sound |
| C70 | `Mopaq.C70_reset_cannot_repair` | propext, Classical.choice, Quot.sound |
| C70 | `Mopaq.C70_shown_version_unused` | propext, Classical.choice, Quot.sound |
| C70 | `Mopaq.C70_block_size_unchecked` | propext, Classical.choice, Quot.sound |
| C71 | `Mopaq.C71_call` | propext, Classical.choice, Quot.sound |
| C71 | `Mopaq.C71_session` | propext, Classical.choice, Quot.sound |
| C71 | `Mopaq.C71_answer_unique` | propext, Quot.sound |
| C71 | `Mopaq.C71_answered` | propext, Classical.choice, Quot.sound |
| C71 | `Mopaq.C71_reads_like_library` | propext, Classical.choice, Quot.sound |
| C71 | `Mopaq.C71_missing_archive_denied` | propext, Classical.choice, Quot.sound |
| C71 | `Mopaq.C71_truncated_codes_differ` | propext, Classical.choice, Quot.sound |
| C72 | `Mopaq.C72_recoverable_iff_missing` | propext, Quot.sound |
| C72 | `Mopaq.C72_classes_apart` | propext |
| C72 | `Mopaq.C72_opening_not_recoverable` | propext, Quot.sound |
| C72 | `Mopaq.C72_checksum_partial` | propext, Quot.sound |
| C72 | `Mopaq.C72_truncation_not_corruption` | propext, Quot.sound |
| C72 | `Mopaq.C72_no_checksum_no_corruption` | propext, Quot.sound |
| C72 | `Mopaq.C72_broken_entry_not_corruption` | propext, Quot.sound |
| C72 | `Mopaq.C72_intact_called_corrupt` | propext, Classical.choice, Quot.sound |
| C73 | `Mopaq.C73_one_reading` | propext, Quot.sound |
| C73 | `Mopaq.C73_printed` | propext, Classical.choice, Quot.sound |
| C73 | `Mopaq.C73_list` | propext, Classical.choice, Quot.sound |
| C73 | `Mopaq.C73_list_hashes` | propext, Classical.choice, Quot.sound |
| C73 | `Mopaq.C73_file_info` | propext, Classical.choice, Quot.sound |
| C73 | `Mopaq.C73_archive_info` | propext, Classical.choice, Quot.sound |
| C73 | `Mopaq.C73_verify` | propext, Classical.choice, Quot.sound |
| C73 | `Mopaq.C73_verify_quiet` | propext, Classical.choice, Quot.sound |
| C73 | `Mopaq.C73_analyze` | propext, Classical.choice, Quot.sound |
| C73 | `Mopaq.C73_method_words` | propext, Classical.choice, Quot.sound |
| C73 | `Mopaq.C73_analyze_csv` | propext, Classical.choice, Quot.sound |
| C73 | `Mopaq.C73_info_csv_partial` | propext, Classical.choice, Quot.sound |
| C73 | `Mopaq.C73_verify_csv_partial` | propext, Classical.choice, Quot.sound |
| C73 | `Mopaq.C73_signature_spellings` | propext, Classical.choice, Quot.sound |
| C73 | `Mopaq.C73_find_not_json` | propext, Classical.choice, Quot.sound |
| C73 | `Mopaq.C73_analyze_nothing_not_json` | propext, Classical.choice, Quot.sound |
| C74 | `Mopaq.C74_cut_agrees_partial` | propext, Classical.choice, Quot.sound |
| C74 | `Mopaq.C74_built_cut_refused` | propext, Classical.choice, Quot.sound |
| C74 | `Mopaq.C74_violated_user_data` | propext, Quot.sound |
| C74 | `Mopaq.C74_violated_lost_tables` | propext, Classical.choice, Quot.sound |
| C75 | `Mopaq.C75_deferred_opening_ends` | propext, Classical.choice, Quot.sound |
| C75 | `Mopaq.C75_opening_ends_partial` | propext, Classical.choice, Quot.sound |
| C75 | `Mopaq.C75_classic_opening_ends` | propext, Classical.choice, Quot.sound |
| C75 | `Mopaq.C75_classic_lookup_ends` | propext, Classical.choice, Quot.sound |
| C75 | `Mopaq.C75_violated_het_place` | propext, Classical.choice, Quot.sound |
| C75 | `Mopaq.C75_violated_hi_place` | propext, Classical.choice, Quot.sound |
| C75 | `Mopaq.C75_violated_het_entries` | propext, Quot.sound |
| C76 | `Mopaq.C76_answer` | propext, Quot.sound |
| C76 | `Mopaq.C76_success_iff` | propext, Quot.sound |
| C76 | `Mopaq.C76_strong_exact` | propext, Classical.choice, Quot.sound |
| C76 | `Mopaq.C76_unsigned_passes` | propext, Classical.choice, Quot.sound |
| C76 | `Mopaq.C76_no_files` | propext, Classical.choice, Quot.sound |
| C76 | `Mopaq.C76_weak_signature_refused` | propext, Classical.choice, Quot.sound |
| C76 | `Mopaq.C76_files_never_answered` | propext, Quot.sound |
| C77 | `Mopaq.C77_other_files_unaffected` | propext, Quot.sound |
| C77 | `Mopaq.C77_opening_unaffected` | propext, Classical.choice, Quot.sound |
| C77 | `Mopaq.C77_listing_unaffected` | propext, Quot.sound |
| C77 | `Mopaq.C77_built_damage_local_partial` | propext, Classical.choice, Quot.sound |
| C78 | `Mopaq.C78_read_at_never_wrong` | propext, Classical.choice, Quot.sound |
| C78 | `Mopaq.C78_read_at_succeeds` | propext, Classical.choice, Quot.sound |
| C78 | `Mopaq.C78_read_at_moves` | propext, Classical.choice, Quot.sound |
| C78 | `Mopaq.C78_reads_in_order` | propext |
| C78 | `Mopaq.C78_read_at_early_end` | propext, Quot.sound |
| C78 | `Mopaq.C78_seek` | propext, Quot.sound |
| C79 | `Mopaq.C79_rest_is_irrelevant` | propext, Classical.choice, Quot.sound |
| C79 | `Mopaq.C79_order_irrelevant` | propext, Classical.choice, Quot.sound |
| C79 | `Mopaq.C79_same_name_order_matters` | propext, Classical.choice, Quot.sound |
| C80 | `Mopaq.C80_classic_requests_partial` | propext, Quot.sound |
| C80 | `Mopaq.C80_any_amount` | propext, Classical.choice, Quot.sound |
| C80 | `Mopaq.C80_small_file_asks` | propext, Classical.choice, Quot.sound |
| C80 | `Mopaq.C80_held_was_asked` | propext, Quot.sound |
| C81 | `Mopaq.C81_reads_what_is_stored_partial` | propext, Classical.choice, Quot.sound |
| C81 | `Mopaq.C81_imploded_not_expanded` | propext, Classical.choice, Quot.sound |
| C81 | `Mopaq.C81_first_byte_lost` | propext, Classical.choice, Quot.sound |
| C81 | `Mopaq.C81_odd_bytes` | propext, Classical.choice, Quot.sound |
| C81 | `Mopaq.C81_sectors_not_decrypted` | propext, Classical.choice, Quot.sound |
| C81 | `Mopaq.C81_sectors_at_most_one` | propext, Classical.choice, Quot.sound |
| C81 | `Mopaq.C81_sectors_read_wrong` | propext, Classical.choice, Quot.sound |
| C82 | `Mopaq.C82_written_as_stored_partial` | propext, Classical.choice, Quot.sound |
| C82 | `Mopaq.C82_uncompressed_sectors` | propext, Classical.choice, Quot.sound |
| C82 | `Mopaq.C82_equal_length` | propext, Classical.choice, Quot.sound |
| C82 | `Mopaq.C82_odd_bytes` | propext, Classical.choice, Quot.sound |
| C83 | `Mopaq.C83_slot_deleted` | propext, Classical.choice, Quot.sound |
| C83 | `Mopaq.C83_deleted_in_file` | propext, Classical.choice, Quot.sound |
| C83 | `Mopaq.C83_marked_still_read` | propext, Classical.choice, Quot.sound |
| C84 | `Mopaq.C84_writes_only_lent_partial` | propext, Quot.sound |
| C84 | `Mopaq.C84_read_delivers` | propext, Classical.choice, Quot.sound |
| C84 | `Mopaq.C84_info_in_two_calls` | propext, Classical.choice, Quot.sound |
| C84 | `Mopaq.C84_info_misaligned` | propext, Classical.choice, Quot.sound |
| C84 | `Mopaq.C84_archive_name` | propext, Quot.sound |
| C84 | `Mopaq.C84_file_name` | propext, Quot.sound |
| C84 | `Mopaq.C84_file_name_overruns` | propext, Classical.choice, Quot.sound |
| C84 | `Mopaq.C84_answers` | propext, Classical.choice, Quot.sound |
| C84 | `Mopaq.C84_stays_tidy` | propext, Quot.sound |
| C85 | `Mopaq.C85_sector_damage` | propext, Classical.choice, Quot.sound |
| C85 | `Mopaq.C85_damage_goes_forward` | propext, Quot.sound |
| C85 | `Mopaq.C85_silently_shorter` | propext, Classical.choice, Quot.sound |
| C86 | `Mopaq.C86_opens_format_partial` | propext, Classical.choice, Quot.sound |
| C86 | `Mopaq.C86_builds_format_partial` | propext, Classical.choice, Quot.sound |
| C86 | `Mopaq.C86_unambiguous` | propext, Classical.choice, Quot.sound |
| C87 | `Mopaq.C87_repack_partial` | propext, Classical.choice, Quot.sound |
| C87 | `Mopaq.C87_listing_kept` | propext, Classical.choice, Quot.sound |
| C87 | `Mopaq.C87_repack_refused` | propext, Classical.choice, Quot.sound |
| C87 | `Mopaq.C87_second_run_packs_archive` | propext, Classical.choice, Quot.sound |
| C88 | `Mopaq.C88_requests_partial` | propext, Quot.sound |
| C88 | `Mopaq.C88_true_size` | propext, Quot.sound |
| C88 | `Mopaq.C88_below_4_gib` | propext, Quot.sound |
| C88 | `Mopaq.C88_small_file_asks` | propext, Classical.choice, Quot.sound |
| C89 | `Mopaq.C89_size_nearest` | propext, Classical.choice, Quot.sound |
| C89 | `Mopaq.C89_size_unambiguous` | propext, Classical.choice, Quot.sound |
| C89 | `Mopaq.C89_size_1024` | propext, Classical.choice, Quot.sound |
| C89 | `Mopaq.C89_two_units` | propext, Classical.choice, Quot.sound |
| C89 | `Mopaq.C89_ratio_partial` | propext, Classical.choice, Quot.sound |
| C89 | `Mopaq.C89_ratio_off` | propext, Classical.choice, Quot.sound |
| C89 | `Mopaq.C89_share_nearest` | propext, Classical.choice, Quot.sound |
| C89 | `Mopaq.C89_share_of_nothing` | none |
| C90 | `Mopaq.C90_follows_signal` | propext, Classical.choice, Quot.sound |
| C90 | `Mopaq.C90_never_further` | propext, Classical.choice, Quot.sound |
| C90 | `Mopaq.C90_held_level` | propext, Classical.choice, Quot.sound |
| C90 | `Mopaq.C90_silence_not_exact` | propext, Quot.sound |
| C91 | `Mopaq.C91_info_text` | propext, Classical.choice, Quot.sound |
| C91 | `Mopaq.C91_verify_text` | propext, Classical.choice, Quot.sound |
| C91 | `Mopaq.C91_verify_text_quiet` | propext, Classical.choice, Quot.sound |
| C92 | `Mopaq.C92_extension` | propext, Classical.choice, Quot.sound |
| C92 | `Mopaq.C92_no_extension_partial` | propext, Classical.choice, Quot.sound |
| C92 | `Mopaq.C92_folder_taken_for_extension` | propext, Classical.choice, Quot.sound |
| C92 | `Mopaq.C92_figures` | propext, Classical.choice, Quot.sound |
| C92 | `Mopaq.C92_json` | propext, Classical.choice, Quot.sound |
| C93 | `Mopaq.C93_analysis_text` | propext, Classical.choice, Quot.sound |
| C93 | `Mopaq.C93_nothing` | propext, Classical.choice, Quot.sound |
| C93 | `Mopaq.C93_verdict_always_good` | propext, Classical.choice, Quot.sound |
| C93 | `Mopaq.C93_unsupported_yet_read` | propext, Quot.sound |
| C94 | `Mopaq.C94_options_add` | propext, Classical.choice, Quot.sound |
| C94 | `Mopaq.C94_nothing` | propext, Classical.choice, Quot.sound |
| C94 | `Mopaq.C94_supported_shown` | propext, Classical.choice, Quot.sound |
| C95 | `Mopaq.C95_verbose_lines` | propext, Classical.choice, Quot.sound |
| C95 | `Mopaq.C95_stopped` | propext, Classical.choice, Quot.sound |
| C96 | `Mopaq.C96_verbose_table` | propext, Classical.choice, Quot.sound |
| C96 | `Mopaq.C96_every_file_shown` | propext, Classical.choice, Quot.sound |
| C96 | `Mopaq.C96_built_archive` | propext, Classical.choice, Quot.sound |
| C97 | `Mopaq.C97_hashes_only_add` | propext, Classical.choice, Quot.sound |
| C97 | `Mopaq.C97_verbosity` | propext, Classical.choice, Quot.sound |
| C97 | `Mopaq.C97_hashes_readable_partial` | propext, Classical.choice, Quot.sound |
| C97 | `Mopaq.C97_hashes_ambiguous` | propext, Classical.choice, Quot.sound |
| C98 | `Mopaq.C98_flags_say_partial` | propext, Classical.choice, Quot.sound |
| C98 | `Mopaq.C98_listfile` | propext, Classical.choice, Quot.sound |
| C98 | `Mopaq.C98_listfile_not_compressed` | propext, Classical.choice, Quot.sound |
| C98 | `Mopaq.C98_special_names` | propext, Classical.choice, Quot.sound |
| C98 | `Mopaq.C98_spelling_unknown` | propext, Classical.choice, Quot.sound |
