{
 "claims": [
  {
   "property": "C01",
   "status": "proved",
   "theorems": [
    "Mopaq.C01_block_round_trip"
   ],
   "note": ""
  },
  {
   "property": "C02",
   "status": "proved",
   "theorems": [
    "Mopaq.C02_byte_round_trip"
   ],
   "note": ""
  },
  {
   "property": "C03",
   "status": "partial",
   "theorems": [
    "Mopaq.C03_table",
    "Mopaq.C03_cipher",
    "Mopaq.C03_cipher_unique",
    "Mopaq.C03_byte_cipher",
    "Mopaq.C03_name_hash",
    "Mopaq.C03_jenkins",
    "Mopaq.C03_cipher_key_zero_deviates"
   ],
   "note": "Holds for every key except 0, where the code skips encryption and the published cipher does not; the deviation is proved."
  },
  {
   "property": "C04",
   "status": "proved",
   "theorems": [
    "Mopaq.C04_case_and_separator"
   ],
   "note": ""
  },
  {
   "property": "C05",
   "status": "proved",
   "theorems": [
    "Mopaq.C05_cipher_in_bounds",
    "Mopaq.C05_hash_in_bounds",
    "Mopaq.C05_hash_panics"
   ],
   "note": ""
  },
  {
   "property": "C06",
   "status": "proved",
   "theorems": [
    "Mopaq.C06_lookup_is_directory_lookup",
    "Mopaq.C06_found_was_added",
    "Mopaq.C06_any_table",
    "Mopaq.C06_added_is_found"
   ],
   "note": "The exact form excludes collisions of the 64-bit hash pair; the other two hold without that assumption."
  },
  {
   "property": "C07",
   "status": "proved",
   "theorems": [
    "Mopaq.C07_lookup_returns",
    "Mopaq.C07_add_returns",
    "Mopaq.C07_full_table_add_never_returns",
    "Mopaq.C07_builder_size",
    "Mopaq.C07_builder_adds_return"
   ],
   "note": "Builder size for up to 2^30 - 1 files; beyond that the doubled count leaves u32."
  },
  {
   "property": "C08",
   "status": "proved",
   "theorems": [
    "Mopaq.C08_duplicates_rejected",
    "Mopaq.C08_add_preserves_others",
    "Mopaq.C08_built_files_distinct"
   ],
   "note": "Up to hash collisions (NoCollision)."
  },
  {
   "property": "C09",
   "status": "partial",
   "theorems": [
    "Mopaq.C09_requested_locale_is_shadowed",
    "Mopaq.C09_locale_honoured_partial"
   ],
   "note": "False of the code when a neutral entry of the name was added first (proved for every name); holds otherwise."
  },
  {
   "property": "C10",
   "status": "proved",
   "theorems": [
    "Mopaq.C10_hash_table_round_trip",
    "Mopaq.C10_block_table_round_trip",
    "Mopaq.C10_hi_block_table_round_trip",
    "Mopaq.C10_hash_table_format",
    "Mopaq.C10_block_table_format",
    "Mopaq.C10_read_hash_table_size"
   ],
   "note": ""
  },
  {
   "property": "C11",
   "status": "proved",
   "theorems": [
    "Mopaq.C11_positions_48_bit",
    "Mopaq.C11_positions_32_bit",
    "Mopaq.C11_no_hi_table_truncates"
   ],
   "note": ""
  },
  {
   "property": "C12",
   "status": "proved",
   "theorems": [
    "Mopaq.C12_header_round_trip",
    "Mopaq.C12_header_format",
    "Mopaq.C12_read_total",
    "Mopaq.C12_accepted"
   ],
   "note": ""
  },
  {
   "property": "C13",
   "status": "proved",
   "theorems": [
    "Mopaq.C13_search_exact",
    "Mopaq.C13_search_terminates",
    "Mopaq.C13_found_is_first_aligned",
    "Mopaq.C13_embedded_archive_found",
    "Mopaq.C13_false_mark_hides_archive"
   ],
   "note": "Exact: the search finds the first aligned mark whatever follows it, so an invalid header there hides a later archive (proved)."
  },
  {
   "property": "C14",
   "status": "proved",
   "theorems": [
    "Mopaq.C14_never_grows",
    "Mopaq.C14_same_length_ambiguous"
   ],
   "note": "Also proved: equal length does not mean uncompressed."
  },
  {
   "property": "C15",
   "status": "partial",
   "theorems": [
    "Mopaq.C15_round_trip_partial",
    "Mopaq.C15_bzip2_implode_never_decompresses",
    "Mopaq.C15_pkware_implode_mismatch"
   ],
   "note": "All method bytes below 0x40 but 0x0C and 0x14, for which it is false (proved); SPARSE under the exact condition of C16."
  },
  {
   "property": "C16",
   "status": "partial",
   "theorems": [
    "Mopaq.C16_sparse_loses_data",
    "Mopaq.C16_sparse_round_trip_partial"
   ],
   "note": "False in general (proved); the partial theorem is the exact condition."
  },
  {
   "property": "C17",
   "status": "partial",
   "theorems": [
    "Mopaq.C17_sparse_overshoots",
    "Mopaq.C17_sparse_output_size_partial"
   ],
   "note": "False in general (proved); exact bounds proved."
  },
  {
   "property": "C18",
   "status": "proved",
   "theorems": [
    "Mopaq.C18_adpcm_length_and_start",
    "Mopaq.C18_decoder_tracks_encoder",
    "Mopaq.C18_error_bound",
    "Mopaq.C18_compress_succeeds",
    "Mopaq.C18_level_10_panics"
   ],
   "note": ""
  },
  {
   "property": "C19",
   "status": "partial",
   "theorems": [
    "Mopaq.C19_adpcm_panics",
    "Mopaq.C19_adpcm_robust_partial"
   ],
   "note": "False for shift bytes of 32 and more (proved); proved for all others."
  },
  {
   "property": "C20",
   "status": "partial",
   "theorems": [
    "Mopaq.C20_huffman_ignores_stream"
   ],
   "note": "False: proved that the output never depends on the stream."
  },
  {
   "property": "C49",
   "status": "partial",
   "theorems": [
    "Mopaq.C49_audio_combinations_partial",
    "Mopaq.C49_audio_bzip2_never_decompresses",
    "Mopaq.C49_both_channel_counts_mismatch"
   ],
   "note": "Proved for ZLIB, PKWARE, SPARSE; false for BZIP2 and for both channel counts at once (proved)."
  },
  {
   "property": "C21",
   "status": "partial",
   "theorems": [
    "Mopaq.C21_single_unit_round_trip_partial",
    "Mopaq.C21_single_unit_exact"
   ],
   "note": "For the methods of C15; for all methods, exactly when the stored bytes decompress to the data."
  },
  {
   "property": "C22",
   "status": "partial",
   "theorems": [
    "Mopaq.C22_multi_sector_exact_partial",
    "Mopaq.C22_stored_multi_sector_unreadable",
    "Mopaq.C22_offset_table_returned"
   ],
   "note": "False in general (proved: uncompressed files of several sectors never read back); the partial theorem is an exact condition, for the methods of C15 and sizes below about 4.22 GB."
  },
  {
   "property": "C23",
   "status": "partial",
   "theorems": [
    "Mopaq.C23_single_unit_checked_partial",
    "Mopaq.C23_byte_change_detected",
    "Mopaq.C23_sector_checksums_ignored"
   ],
   "note": "Single-unit files; false for several sectors, where no checksum has a consequence (proved)."
  },
  {
   "property": "C24",
   "status": "proved",
   "theorems": [
    "Mopaq.C24_key_agreement",
    "Mopaq.C24_key_value"
   ],
   "note": ""
  },
  {
   "property": "C25",
   "status": "partial",
   "theorems": [
    "Mopaq.C25_sector_shift_panics",
    "Mopaq.C25_empty_checked_file_panics",
    "Mopaq.C25_long_sector_panics",
    "Mopaq.C25_declared_size_panics",
    "Mopaq.C25_no_panic_partial"
   ],
   "note": "False in general (four kinds of panic proved, plus C19); proved outside of these."
  },
  {
   "property": "C28",
   "status": "partial",
   "theorems": [
    "Mopaq.C28_listfile_exact_partial",
    "Mopaq.C28_parsed_names_are_clean",
    "Mopaq.C28_semicolon_cut",
    "Mopaq.C28_number_sign_dropped"
   ],
   "note": "False for some names (proved); the partial theorem is an exact condition on the names."
  },
  {
   "property": "C30",
   "status": "partial",
   "theorems": [
    "Mopaq.C30_write_exact",
    "Mopaq.C30_round_trip_partial",
    "Mopaq.C30_other_entries_unchanged",
    "Mopaq.C30_wide_entry_loses_bits"
   ],
   "note": "Exact description of every write; reading back holds up to 64 bits from the first byte, false beyond (proved)."
  },
  {
   "property": "C31",
   "status": "partial",
   "theorems": [
    "Mopaq.C31_lookup_only_index_zero",
    "Mopaq.C31_wrong_file",
    "Mopaq.C31_small_tables_resolve_nothing_partial"
   ],
   "note": "False: index 0 is the only possible answer, with a wrong-file witness; archives of at most four files resolve nothing and fall back."
  },
  {
   "property": "C32",
   "status": "partial",
   "theorems": [
    "Mopaq.C32_record_round_trip_partial",
    "Mopaq.C32_last_record_unreadable",
    "Mopaq.C32_wide_records_panic",
    "Mopaq.C32_build_panics",
    "Mopaq.C32_out_of_range"
   ],
   "note": "False for the last record, wide records and large archives (proved); proved for the others."
  },
  {
   "property": "C33",
   "status": "partial",
   "theorems": [
    "Mopaq.C33_het_uncompressed_partial",
    "Mopaq.C33_bet_uncompressed_partial",
    "Mopaq.C33_het_indices_wrong",
    "Mopaq.C33_compressed_tables_do_not_load",
    "Mopaq.C33_wrong_mark_refused"
   ],
   "note": "Uncompressed tables, except the HET file indices and the last BET hash of tables of unaligned length; compressed tables do not load (proved)."
  },
  {
   "property": "C35",
   "status": "proved",
   "theorems": [
    "Mopaq.C35_round_trip",
    "Mopaq.C35_round_trip_same"
   ],
   "note": "Fewer than 2^58 blocks; a table entry without a value is written as zero."
  },
  {
   "property": "C36",
   "status": "partial",
   "theorems": [
    "Mopaq.C36_accepts_exactly",
    "Mopaq.C36_values",
    "Mopaq.C36_huge_count_panics"
   ],
   "note": "False for block counts of 2^62 and more with a checksum table (proved); proved below 2^58, which covers every block count an archive can state."
  },
  {
   "property": "C26",
   "status": "partial",
   "theorems": [
    "Mopaq.C26_read_back_partial",
    "Mopaq.C26_extended_read_partial",
    "Mopaq.C26_extended_wrong_content"
   ],
   "note": "Proved for versions 1 and 2, and 3 and 4 with at most four files or zlib-compressed tables; exact condition per file. False for other version 3 and 4 archives (proved: another file's content is returned); there the first file, and every file not taken for it, is still read back."
  },
  {
   "property": "C50",
   "status": "partial",
   "theorems": [
    "Mopaq.C50_classic_build_succeeds",
    "Mopaq.C50_extended_build_succeeds_partial",
    "Mopaq.C50_large_file_panics"
   ],
   "note": "Proved for versions 1 and 2; for 3 and 4 up to 2 MiB without table compression or with one that always succeeds. False for 3 and 4 from 2 MiB on (proved): every archive with such a file, kept as it is and not the last, panics."
  },
  {
   "property": "C27",
   "status": "partial",
   "theorems": [
    "Mopaq.C27_generated_listing_partial",
    "Mopaq.C27_listing_follows_listfile",
    "Mopaq.C27_external_listing_partial",
    "Mopaq.C27_no_listfile"
   ],
   "note": "Names that survive the listfile (C28), recoverable listfiles, and the archives of C26; for any other listfile the exact listing."
  },
  {
   "property": "C29",
   "status": "proved",
   "theorems": [
    "Mopaq.C29_archive_divided"
   ],
   "note": "Files below about 4.22 GB, archives within what the version can address."
  },
  {
   "property": "C34",
   "status": "proved",
   "theorems": [
    "Mopaq.C34_fresh_archive_valid",
    "Mopaq.C34_verdicts_exact"
   ],
   "note": ""
  },
  {
   "property": "C48",
   "status": "partial",
   "theorems": [
    "Mopaq.C48_built_sizes_partial",
    "Mopaq.C48_stored_multi_sector_longer",
    "Mopaq.C48_uncompressed_reads_stored_size"
   ],
   "note": "False in general (proved, also for built archives); proved for recoverable files of built archives."
  },
  {
   "property": "C37",
   "status": "partial",
   "theorems": [
    "Mopaq.C37_padding_check_exact_partial",
    "Mopaq.C37_no_weak_signature_accepted",
    "Mopaq.C37_never_weak_valid",
    "Mopaq.C37_correct_signature_rejected"
   ],
   "note": "False (proved): no weak signature is ever reported valid, because the leading zero byte of the block is dropped; only the padding check by itself is exact."
  },
  {
   "property": "C38",
   "status": "proved",
   "theorems": [
    "Mopaq.C38_strong_signature_exact",
    "Mopaq.C38_strong_valid_iff"
   ],
   "note": "SHA-1 and the key are arbitrary."
  },
  {
   "property": "C39",
   "status": "proved",
   "theorems": [
    "Mopaq.C39_hashing_independent_of_reads"
   ],
   "note": "MD5 is arbitrary."
  },
  {
   "property": "C47",
   "status": "partial",
   "theorems": [
    "Mopaq.C47_precedence_partial",
    "Mopaq.C47_huge_size_panics"
   ],
   "note": "Holds unless the stated archive size plus 260 exceeds 64 bits; then the call panics (proved)."
  },
  {
   "property": "C42",
   "status": "proved",
   "theorems": [
    "Mopaq.C42_sequential_reads",
    "Mopaq.C42_reads_reproduce_file",
    "Mopaq.C42_position_in_file",
    "Mopaq.C42_read_piece"
   ],
   "note": ""
  },
  {
   "property": "C43",
   "status": "partial",
   "theorems": [
    "Mopaq.C43_seek_partial",
    "Mopaq.C43_before_start_goes_to_end",
    "Mopaq.C43_high_half_ignored",
    "Mopaq.C43_far_target_panics",
    "Mopaq.C43_unknown_origin"
   ],
   "note": "Exact for targets at or after the start; false before it (goes to the end), with a high half below a negative low half (ignored), and for targets beyond 63 bits (panic), all proved."
  },
  {
   "property": "C41",
   "status": "proved",
   "theorems": [
    "Mopaq.C41_handles_unique",
    "Mopaq.C41_kinds_apart"
   ],
   "note": "Any number of threads, any calls, any interleaving. A process whose counter would overflow aborts."
  },
  {
   "property": "C44",
   "status": "partial",
   "theorems": [
    "Mopaq.C44_closed_partial",
    "Mopaq.C44_open_file_survives_close"
   ],
   "note": "False (proved for every archive and file): a file being opened while the archive is closed stays open. Proved when no file of the archive is being opened during the close."
  },
  {
   "property": "C45",
   "status": "partial",
   "theorems": [
    "Mopaq.C45_no_deadlock_partial",
    "Mopaq.C45_calls_end_partial",
    "Mopaq.C45_verify_all_files_hangs",
    "Mopaq.C45_callback_opening_file_hangs"
   ],
   "note": "False (proved): verifying all files and callbacks that open files hang for ever. Proved for all other calls."
  },
  {
   "property": "C40",
   "status": "partial",
   "theorems": [
    "Mopaq.C40_atomic_partial",
    "Mopaq.C40_power_failure_loses_archive"
   ],
   "note": "Holds for stops and failures at every step of the process; false for power failures (proved for every archive): nothing is synchronised before the rename."
  },
  {
   "property": "C46",
   "status": "partial",
   "theorems": [
    "Mopaq.C46_plain_extraction_inside",
    "Mopaq.C46_preserved_paths_inside_partial",
    "Mopaq.C46_parent_escapes",
    "Mopaq.C46_absolute_escapes"
   ],
   "note": "Holds without --preserve-path for all names; with it false for names with .. and absolute names (proved for every archive and output directory), and proved for other names."
  },
  {
   "property": "C51",
   "status": "partial",
   "theorems": [
    "Mopaq.C51_extraction_complete_partial",
    "Mopaq.C51_files_overwrite_each_other",
    "Mopaq.C51_name_without_last_part"
   ],
   "note": "Proved when no two files go to one path; otherwise false without --preserve-path (proved), and names without a last part make extraction panic (proved)."
  },
  {
   "property": "C52",
   "status": "proved",
   "theorems": [
    "Mopaq.C52_others_leave_file_alone",
    "Mopaq.C52_closed_stays_closed",
    "Mopaq.C52_call_isolated"
   ],
   "note": "Any number of threads and any interleaving of the steps of calls."
  },
  {
   "property": "C53",
   "status": "partial",
   "theorems": [
    "Mopaq.C53_success_iff",
    "Mopaq.C53_changed_content_fails",
    "Mopaq.C53_content_ignored_without_records"
   ],
   "note": "The exact condition for success is proved; without recorded checksums content is not looked at at all (proved), so damage goes unnoticed there."
  },
  {
   "property": "C54",
   "status": "partial",
   "theorems": [
    "Mopaq.C54_enumeration_partial",
    "Mopaq.C54_suffix_masks_report_more",
    "Mopaq.C54_inner_star_misses"
   ],
   "note": "Proved for * and *text*; false for *text (reports more) and masks with an inner * (misses), both proved."
  },
  {
   "property": "C57",
   "status": "partial",
   "theorems": [
    "Mopaq.C57_every_block_once",
    "Mopaq.C57_built_listing",
    "Mopaq.C57_slots_listed",
    "Mopaq.C57_list_without_listfile",
    "Mopaq.C57_extended_listing_partial",
    "Mopaq.C57_last_file_missing",
    "Mopaq.C57_small_archive_misses_last"
   ],
   "note": "Proved for archives without BET table (versions 1 and 2, any tables) and for listing without listfile. In versions 3 and 4 the exact set reported is proved for records of up to 57 bits; the last files are missing, proved false."
  },
  {
   "property": "C55",
   "status": "partial",
   "theorems": [
    "Mopaq.C55_built_info_partial",
    "Mopaq.C55_built_tables_partial",
    "Mopaq.C55_empty_files_not_counted",
    "Mopaq.C55_strong_signature_unreported",
    "Mopaq.C55_tables_described",
    "Mopaq.C55_sizes_in_file",
    "Mopaq.C55_signature_status",
    "Mopaq.C55_built_sizes"
   ],
   "note": "Versions 1 and 2 completely, versions 3 and 4 with up to four files and uncompressed tables (ClassicLookup). Proved violations: empty files are not counted in versions 1 and 2; a strong signature is not reported without a (signature) file."
  },
  {
   "property": "C56",
   "status": "partial",
   "theorems": [
    "Mopaq.C56_success_iff",
    "Mopaq.C56_report_adds_up",
    "Mopaq.C56_built_archive_verifies_partial",
    "Mopaq.C56_nameless_archive_fails",
    "Mopaq.C56_digests_ignored",
    "Mopaq.C56_wrong_digests_pass"
   ],
   "note": "The criterion and the counts are proved for all inputs. Fresh archives verify in versions 1 and 2, in 3 and 4 with up to four files. Proved violations: intact archives without listfile fail; wrong MD5 values do not make the command fail."
  },
  {
   "property": "C58",
   "status": "partial",
   "theorems": [
    "Mopaq.C58_files_added",
    "Mopaq.C58_round_trip_partial",
    "Mopaq.C58_directory_restored_partial",
    "Mopaq.C58_stored_large_file_not_restored",
    "Mopaq.C58_same_names_fail",
    "Mopaq.C58_listfile_in_directory_fails",
    "Mopaq.C58_unreadable_file_fails",
    "Mopaq.C58_ignore_matches_directory",
    "Mopaq.C58_leading_backslash_escapes"
   ],
   "note": "What is added is proved exactly. The round trip is proved with a generated listfile for recoverable contents, listable names without colliding hashes, versions 1 and 2, or 3 and 4 with up to three files. Proved violations: files over one sector with --compression none, names differing in case only, a (listfile) in the directory, ignore texts found in the directory's own path, names with backslashes."
  },
  {
   "property": "C59",
   "status": "partial",
   "theorems": [
    "Mopaq.C59_explicit_load_same",
    "Mopaq.C59_reload_same",
    "Mopaq.C59_description_same",
    "Mopaq.C59_deferred_access_fails"
   ],
   "note": "Loading explicitly gives the archive opened normally, for every file; reloading changes nothing; describing loads the tables. Proved violation: lookups, reads and listings do not load the tables on first access, they fail."
  },
  {
   "property": "C60",
   "status": "partial",
   "theorems": [
    "Mopaq.C60_library_create",
    "Mopaq.C60_call_creates",
    "Mopaq.C60_path_kept",
    "Mopaq.C60_call_refused",
    "Mopaq.C60_create_new_race",
    "Mopaq.C60_create_new_replaces"
   ],
   "note": "Proved for a call with nobody else at the path, with its exact results. Proved violations: the number of slots asked for is ignored (C60_call_creates: always 16); two calls insisting on a new file can both succeed; a file that appears after the look is replaced."
  },
  {
   "property": "C61",
   "status": "partial",
   "theorems": [
    "Mopaq.C61_listing_same",
    "Mopaq.C61_enumeration_same",
    "Mopaq.C61_enumeration_hashes",
    "Mopaq.C61_built_hashes",
    "Mopaq.C61_placeholder_hashes",
    "Mopaq.C61_extended_no_hashes"
   ],
   "note": "The entries always agree; the hashes are those of the added names for every built archive of version 1 or 2 (enumeration) and those of the listed names (listing). Proved violations: without a listfile the listing hashes its made-up names; through the extended tables the enumeration has no hashes."
  },
  {
   "property": "C62",
   "status": "partial",
   "theorems": [
    "Mopaq.C62_open_exactly_partial",
    "Mopaq.C62_recorded_attributes_partial",
    "Mopaq.C62_short_attributes_block_opening",
    "Mopaq.C62_unreadable_attributes_block_opening"
   ],
   "note": "Exactly which contents of a file \"(attributes)\" let a built archive open, and what is then known about every file. The second half of the property fails: attributes that are malformed or made for fewer files than the archive has make the whole archive unreadable (C62_open_exactly_partial, second part; C62_short_attributes_block_opening), and so do attributes that cannot be decompressed (C62_unreadable_attributes_block_opening). Missing: the restrictions of C26."
  },
  {
   "property": "C63",
   "status": "partial",
   "theorems": [
    "Mopaq.C63_no_method_reported",
    "Mopaq.C63_built_partial",
    "Mopaq.C63_figures",
    "Mopaq.C63_nothing_iff"
   ],
   "note": "For any archive the figures are made from the files listed that are found. Number of files and sums of sizes are right for built archives with a generated listfile (restrictions of C27). The main part of the property fails: the method is taken from bits of the block flags that the format leaves unused, so that every file of every archive without extended tables counts as not compressed (C63_no_method_reported, C63_built_partial)."
  },
  {
   "property": "C64",
   "status": "partial",
   "theorems": [
    "Mopaq.C64_options",
    "Mopaq.C64_files",
    "Mopaq.C64_order",
    "Mopaq.C64_read_at_build",
    "Mopaq.C64_path_or_data",
    "Mopaq.C64_default_round_trip_partial"
   ],
   "note": "Complete for the options, the files, the order of calls and the time of reading. The round trip with default options is for files of at most 4096 bytes (larger ones are not always readable, C22), up to half a million of them, without colliding hashes."
  },
  {
   "property": "C65",
   "status": "partial",
   "theorems": [
    "Mopaq.C65_list_shows",
    "Mopaq.C65_list_fails",
    "Mopaq.C65_find_as_list",
    "Mopaq.C65_find_folded",
    "Mopaq.C65_names_readable",
    "Mopaq.C65_csv_rows",
    "Mopaq.C65_csv_columns_partial",
    "Mopaq.C65_verbose_partial",
    "Mopaq.C65_verbose_panics_on_built",
    "Mopaq.C65_list_lines",
    "Mopaq.C65_find_lines",
    "Mopaq.C65_find_output"
   ],
   "note": "Complete for which files are shown, in which order, and for the lists of names (no name listed has a line feed). Two parts fail: a name with a comma shifts the columns of the CSV output with hashes (C65_csv_columns_partial), and the verbose table panics if a name of more than 39 bytes cannot be cut after 36 (C65_verbose_partial), for every built archive with such a name (C65_verbose_panics_on_built, restrictions of C27). JSON is in C73. Not covered: columns computed with floating point."
  },
  {
   "property": "C66",
   "status": "proved",
   "theorems": [
    "Mopaq.C66_same_file",
    "Mopaq.C66_same_answer"
   ],
   "note": "For all archives that open, however they came about. Opening a file through the C interface uses the same two functions."
  },
  {
   "property": "C67",
   "status": "partial",
   "theorems": [
    "Mopaq.C67_extract_one",
    "Mopaq.C67_plain_inside",
    "Mopaq.C67_plain_last_part_partial",
    "Mopaq.C67_parent_panics",
    "Mopaq.C67_backslash_kept",
    "Mopaq.C67_info_size",
    "Mopaq.C67_info_csv_partial"
   ],
   "note": "Complete for the content, for a path given, for preserved paths, and for where a file can end up otherwise. Three parts fail: with neither option a name whose last part is .. panics (C67_parent_panics); backslashes, the separators of the format, are not taken for separators, so the file written depends on the spelling of the name (C67_backslash_kept); and in CSV a name with a comma shifts the columns (C67_info_csv_partial). JSON is in C73. Not covered: failures of writing."
  },
  {
   "property": "C68",
   "status": "partial",
   "theorems": [
    "Mopaq.C68_values",
    "Mopaq.C68_json_partial",
    "Mopaq.C68_all_not_json",
    "Mopaq.C68_compare",
    "Mopaq.C68_compare_spellings"
   ],
   "note": "Complete for the values and for comparing. JSON fails: names are not escaped, so the line tells the name exactly if it has no quotation mark, backslash or control character (C68_json_partial, an equivalence); and all hashes are printed as text even if JSON is asked for (C68_all_not_json)."
  },
  {
   "property": "C69",
   "status": "partial",
   "theorems": [
    "Mopaq.C69_last_error",
    "Mopaq.C69_success_told",
    "Mopaq.C69_halves",
    "Mopaq.C69_return_value_ambiguous",
    "Mopaq.C69_locale",
    "Mopaq.C69_asked_at_once",
    "Mopaq.C69_has_file_leaves_error",
    "Mopaq.C69_locale_ignored"
   ],
   "note": "Complete for the last error after every call but SFileHasFile, and for what the locale calls return. Two parts fail: SFileHasFile answers false with the code of an earlier call, 0 for instance (C69_has_file_leaves_error); and the locale has no effect at all: every run has the same results as one in which no locale is ever set (C69_locale_ignored)."
  },
  {
   "property": "C70",
   "status": "partial",
   "theorems": [
    "Mopaq.C70_set_accepts",
    "Mopaq.C70_set_used",
    "Mopaq.C70_command_line_first",
    "Mopaq.C70_defaults",
    "Mopaq.C70_reset",
    "Mopaq.C70_show",
    "Mopaq.C70_output_ignored",
    "Mopaq.C70_reset_cannot_repair",
    "Mopaq.C70_shown_version_unused",
    "Mopaq.C70_block_size_unchecked"
   ],
   "note": "Complete for the three settings of archive create. Four parts fail: the output format is accepted and never used (C70_output_ignored); a configuration that cannot be parsed stops every command, config reset included (C70_reset_cannot_repair); a version other than 1 to 4 in the file is shown but not used (C70_shown_version_unused); and a block size in the file is not checked (C70_block_size_unchecked). The TOML library is a parameter that reads back what it wrote."
  },
  {
   "property": "C71",
   "status": "partial",
   "theorems": [
    "Mopaq.C71_call",
    "Mopaq.C71_session",
    "Mopaq.C71_answer_unique",
    "Mopaq.C71_answered",
    "Mopaq.C71_reads_like_library",
    "Mopaq.C71_missing_archive_denied",
    "Mopaq.C71_truncated_codes_differ"
   ],
   "note": "Complete for every call except enumeration and verification (C37 to C43, C69 cover these), as long as the library does not panic. Two parts fail: an archive that does not exist is reported as access denied (C71_missing_archive_denied), and the same damage gets different codes from opening and extracting (C71_truncated_codes_differ)."
  },
  {
   "property": "C72",
   "status": "partial",
   "theorems": [
    "Mopaq.C72_recoverable_iff_missing",
    "Mopaq.C72_classes_apart",
    "Mopaq.C72_opening_not_recoverable",
    "Mopaq.C72_checksum_partial",
    "Mopaq.C72_truncation_not_corruption",
    "Mopaq.C72_no_checksum_no_corruption",
    "Mopaq.C72_broken_entry_not_corruption",
    "Mopaq.C72_intact_called_corrupt"
   ],
   "note": "Recoverable is exact for all archives. Corruption is exact for files stored in one piece as they are with a checksum; otherwise it fails both ways: archives cut off, content impossible to decompress and entries pointing nowhere are not called corrupt, and a new archive with too short a file (attributes) is."
  },
  {
   "property": "C73",
   "status": "partial",
   "theorems": [
    "Mopaq.C73_one_reading",
    "Mopaq.C73_printed",
    "Mopaq.C73_list",
    "Mopaq.C73_list_hashes",
    "Mopaq.C73_file_info",
    "Mopaq.C73_archive_info",
    "Mopaq.C73_verify",
    "Mopaq.C73_verify_quiet",
    "Mopaq.C73_analyze",
    "Mopaq.C73_method_words",
    "Mopaq.C73_analyze_csv",
    "Mopaq.C73_info_csv_partial",
    "Mopaq.C73_verify_csv_partial",
    "Mopaq.C73_signature_spellings",
    "Mopaq.C73_find_not_json",
    "Mopaq.C73_analyze_nothing_not_json"
   ],
   "note": "Complete for lists, file information, archive information, verification and analysis in JSON, against a grammar of JSON that has one reading. It fails for `file find`, which prints lines whatever format is asked for, for the analysis of an empty archive, which prints nothing, and in CSV for paths with a comma, which are not quoted."
  },
  {
   "property": "C74",
   "status": "partial",
   "theorems": [
    "Mopaq.C74_cut_agrees_partial",
    "Mopaq.C74_built_cut_refused",
    "Mopaq.C74_violated_user_data",
    "Mopaq.C74_violated_lost_tables"
   ],
   "note": "Any file of an archive in version 1 or 2, and every built archive in all versions (that an error is told, and is no panic, in versions 1 and 2). It fails in version 4 for archives with the HET and BET tables at their end, which the library opens but does not build: lost tables are passed over, and a file can then read other content. It fails where user data points into the missing part: another archive is opened in its place."
  },
  {
   "property": "C75",
   "status": "partial",
   "theorems": [
    "Mopaq.C75_deferred_opening_ends",
    "Mopaq.C75_opening_ends_partial",
    "Mopaq.C75_classic_opening_ends",
    "Mopaq.C75_classic_lookup_ends",
    "Mopaq.C75_violated_het_place",
    "Mopaq.C75_violated_hi_place",
    "Mopaq.C75_violated_het_entries"
   ],
   "note": "Deferred opening: every file. Opening: every file whose header places can be reckoned with, whose HET and BET tables name no audio codec and whose (attributes) can be read without a panic; for versions 1 and 2 without (attributes) this leaves only the position of the hi-block table. The excluded cases are real: four kinds of files for which opening panics are proved to do so."
  },
  {
   "property": "C76",
   "status": "partial",
   "theorems": [
    "Mopaq.C76_answer",
    "Mopaq.C76_success_iff",
    "Mopaq.C76_strong_exact",
    "Mopaq.C76_unsigned_passes",
    "Mopaq.C76_no_files",
    "Mopaq.C76_weak_signature_refused",
    "Mopaq.C76_files_never_answered"
   ],
   "note": "Without the files: the answer in every case in which the check of the signature does not panic, exact for strong signatures. It fails for weak signatures (all refused, C37), and for the files: as soon as there is one to check the call waits for ever for its own lock."
  },
  {
   "property": "C77",
   "status": "partial",
   "theorems": [
    "Mopaq.C77_other_files_unaffected",
    "Mopaq.C77_opening_unaffected",
    "Mopaq.C77_listing_unaffected",
    "Mopaq.C77_built_damage_local_partial"
   ],
   "note": "Reading, opening and listing for all archives, whoever made them; for built archives the ranges of the files are proved to be apart. Missing for built archives: versions 3 and 4 with more than four files and uncompressed tables (C26)."
  },
  {
   "property": "C78",
   "status": "proved",
   "theorems": [
    "Mopaq.C78_read_at_never_wrong",
    "Mopaq.C78_read_at_succeeds",
    "Mopaq.C78_read_at_moves",
    "Mopaq.C78_reads_in_order",
    "Mopaq.C78_read_at_early_end",
    "Mopaq.C78_seek"
   ],
   "note": "The default read_exact of the standard library is part of the model. read_at moves the position: reading goes on behind its bytes."
  },
  {
   "property": "C79",
   "status": "partial",
   "theorems": [
    "Mopaq.C79_rest_is_irrelevant",
    "Mopaq.C79_order_irrelevant",
    "Mopaq.C79_same_name_order_matters"
   ],
   "note": "For the archives of C26 and contents of at most a sector or with the methods of C15. False for files of the same name in different locales (proved): the one added first is read, so the order decides."
  },
  {
   "property": "C80",
   "status": "partial",
   "theorems": [
    "Mopaq.C80_classic_requests_partial",
    "Mopaq.C80_any_amount",
    "Mopaq.C80_small_file_asks",
    "Mopaq.C80_held_was_asked"
   ],
   "note": "False (proved): 32 bytes of version 1 make opening ask for up to 32 GiB, 224 bytes of version 4 for any amount below 2^63 bytes and still open. True in versions 1 and 2 for archives that open. Counted are the buffers for tables, not decompression and (attributes)."
  },
  {
   "property": "C81",
   "status": "partial",
   "theorems": [
    "Mopaq.C81_reads_what_is_stored_partial",
    "Mopaq.C81_imploded_not_expanded",
    "Mopaq.C81_first_byte_lost",
    "Mopaq.C81_odd_bytes",
    "Mopaq.C81_sectors_not_decrypted",
    "Mopaq.C81_sectors_at_most_one",
    "Mopaq.C81_sectors_read_wrong"
   ],
   "note": "Against a specification of storage written from the format's description, independent of the writer. False (proved) for imploded files, for encrypted files with odd bytes at the end, for encrypted uncompressed files of several sectors, for single units stored as they are with the flag for compression. Not stated for single units with checksums, which the description leaves open."
  },
  {
   "property": "C82",
   "status": "partial",
   "theorems": [
    "Mopaq.C82_written_as_stored_partial",
    "Mopaq.C82_uncompressed_sectors",
    "Mopaq.C82_equal_length",
    "Mopaq.C82_odd_bytes"
   ],
   "note": "Against the same specification of storage as C81. Needs that a file of several sectors has a compressed one, that nothing compressed has the length of its original and that encrypted units have a multiple of four bytes; proved to fail without these. The checksums of sectors are not part of the specification."
  },
  {
   "property": "C83",
   "status": "partial",
   "theorems": [
    "Mopaq.C83_slot_deleted",
    "Mopaq.C83_deleted_in_file",
    "Mopaq.C83_marked_still_read"
   ],
   "note": "Complete for the mark in the hash table. False for the mark in the block table (proved): entries that do not exist, mark a deleted file or are patches are read like any file."
  },
  {
   "property": "C84",
   "status": "partial",
   "theorems": [
    "Mopaq.C84_writes_only_lent_partial",
    "Mopaq.C84_read_delivers",
    "Mopaq.C84_info_in_two_calls",
    "Mopaq.C84_info_misaligned",
    "Mopaq.C84_archive_name",
    "Mopaq.C84_file_name",
    "Mopaq.C84_file_name_overruns",
    "Mopaq.C84_answers",
    "Mopaq.C84_stays_tidy"
   ],
   "note": "Holds for every call but SFileGetFileName, which has no parameter for the size of the buffer and overruns buffers of every size (proved). SFileGetFileInfo stores numbers through the buffer as if it were aligned: with checks, other buffers bring the program down (proved). C84_answers is complete for correct callers: every answer the specification of C71 gives reaches the caller through memory."
  },
  {
   "property": "C85",
   "status": "proved",
   "theorems": [
    "Mopaq.C85_sector_damage",
    "Mopaq.C85_damage_goes_forward",
    "Mopaq.C85_silently_shorter"
   ],
   "note": "The last theorem is a finding: when decompressing a changed sector gives fewer bytes, a file is read shorter than recorded, without an error."
  },
  {
   "property": "C86",
   "status": "partial",
   "theorems": [
    "Mopaq.C86_opens_format_partial",
    "Mopaq.C86_builds_format_partial",
    "Mopaq.C86_unambiguous"
   ],
   "note": "Missing in the first two: versions 3 and 4 (HET and BET tables); reading is proved for files that are not imploded, and whose encrypted parts are whole dwords; the files excepted in C82 are not stored as the format says."
  },
  {
   "property": "C87",
   "status": "partial",
   "theorems": [
    "Mopaq.C87_repack_partial",
    "Mopaq.C87_listing_kept",
    "Mopaq.C87_repack_refused",
    "Mopaq.C87_second_run_packs_archive"
   ],
   "note": "Holds with --no-listfile or if the listfile is ignored, for the archives of C26 and recoverable contents. False with the default options (proved for every archive that lists its listfile): packing is refused because of the extracted (listfile). An archive written into the directory it is made of is packed into the next one (proved)."
  },
  {
   "property": "C88",
   "status": "partial",
   "theorems": [
    "Mopaq.C88_requests_partial",
    "Mopaq.C88_true_size",
    "Mopaq.C88_below_4_gib",
    "Mopaq.C88_small_file_asks"
   ],
   "note": "Holds where the archive states the true size of the file. In general every request of a successful read is at most the archive or exactly the stated size, and in versions 1 and 2 below 4 GiB, also when reading fails. False otherwise (proved): from an archive of 74 bytes one byte is read with a buffer of any size from 3 bytes to 4 GiB."
  },
  {
   "property": "C89",
   "status": "partial",
   "theorems": [
    "Mopaq.C89_size_nearest",
    "Mopaq.C89_size_unambiguous",
    "Mopaq.C89_size_1024",
    "Mopaq.C89_two_units",
    "Mopaq.C89_ratio_partial",
    "Mopaq.C89_ratio_off",
    "Mopaq.C89_share_nearest",
    "Mopaq.C89_share_of_nothing"
   ],
   "note": "Sizes and shares complete, against floating point arithmetic modelled exactly. Percentages are right unless the true one is a whole number, where one less may be shown (29 of 100 and everything in this proportion give 28, proved). Also proved: sizes just below a unit are shown as 1024.00 of the smaller one, the line on the size of an archive names two units (1.50 KB bytes), shares of no files are no numbers."
  },
  {
   "property": "C90",
   "status": "partial",
   "theorems": [
    "Mopaq.C90_follows_signal",
    "Mopaq.C90_never_further",
    "Mopaq.C90_held_level",
    "Mopaq.C90_silence_not_exact"
   ],
   "note": "Complete but for silence: the error is at most 36 and three sixteenths of the largest difference between neighbouring samples; no sample is more than one further from the original than the one read back before it; a level that is held is kept within one. Refuted (silence): thirty-two samples of silence are not read back as silence, the last is one off."
  },
  {
   "property": "C91",
   "status": "proved",
   "theorems": [
    "Mopaq.C91_info_text",
    "Mopaq.C91_verify_text",
    "Mopaq.C91_verify_text_quiet"
   ],
   "note": "A report is read as lines below titles; every fact is the only line below its title that begins with its label. That names in a listing have no line feeds is proved, not assumed. Without colours and without --verbose."
  },
  {
   "property": "C92",
   "status": "partial",
   "theorems": [
    "Mopaq.C92_extension",
    "Mopaq.C92_no_extension_partial",
    "Mopaq.C92_folder_taken_for_extension",
    "Mopaq.C92_figures",
    "Mopaq.C92_json"
   ],
   "note": "Complete for the counts, the output in JSON and the files that have an extension. For files without an extension the claim fails if a folder has a dot and is followed by a backslash: the end of its name and the name of the file are taken for the extension (C92_folder_taken_for_extension)."
  },
  {
   "property": "C93",
   "status": "partial",
   "theorems": [
    "Mopaq.C93_analysis_text",
    "Mopaq.C93_nothing",
    "Mopaq.C93_verdict_always_good",
    "Mopaq.C93_unsupported_yet_read"
   ],
   "note": "Complete for what the text says about the figures of the analysis (C63), without colours; --detailed and --by-extension are C94. The last part fails: for archives without extended tables it is always said that all methods are supported (C93_verdict_always_good), and PKWARE is called not supported though it is decompressed (C93_unsupported_yet_read)."
  },
  {
   "property": "C94",
   "status": "partial",
   "theorems": [
    "Mopaq.C94_options_add",
    "Mopaq.C94_nothing",
    "Mopaq.C94_supported_shown"
   ],
   "note": "Complete for what is added to the text of C93, without colours; what the counts by extension are is C92, and the methods are those of C63. The last part fails for --by-extension: it has lines about supported methods in spite of --unsupported-only (C94_supported_shown). Lines printed before an error are not modelled."
  },
  {
   "property": "C95",
   "status": "proved",
   "theorems": [
    "Mopaq.C95_verbose_lines",
    "Mopaq.C95_stopped"
   ],
   "note": "Without colours. The text of an error is any function of the name of the file."
  },
  {
   "property": "C96",
   "status": "proved",
   "theorems": [
    "Mopaq.C96_verbose_table",
    "Mopaq.C96_every_file_shown",
    "Mopaq.C96_built_archive"
   ],
   "note": "Without colours. C96_built_archive applies it to built archives, under the conditions of C27. The texts of sizes and the percentage of a row are those of C89, which is partial for the percentage. Lines printed before a panic are not modelled."
  },
  {
   "property": "C97",
   "status": "partial",
   "theorems": [
    "Mopaq.C97_hashes_only_add",
    "Mopaq.C97_verbosity",
    "Mopaq.C97_hashes_readable_partial",
    "Mopaq.C97_hashes_ambiguous"
   ],
   "note": "Complete but for reading back, which needs that every file has hashes and no name a line feed. It fails otherwise: a file with hashes looks like a file without hashes whose name ends in brackets (C97_hashes_ambiguous). Without colours; lines printed before a panic are not modelled."
  },
  {
   "property": "C98",
   "status": "partial",
   "theorems": [
    "Mopaq.C98_flags_say_partial",
    "Mopaq.C98_listfile",
    "Mopaq.C98_listfile_not_compressed",
    "Mopaq.C98_special_names",
    "Mopaq.C98_spelling_unknown"
   ],
   "note": "Flags: complete for the archives of C26 without a file (attributes) and with no colliding names. Special files: the listfile is never encrypted, as said. Two parts fail: a builder told not to compress stores the listfile as it is, though it is said to be compressed (C98_listfile_not_compressed), and other spellings of the name are not known though they reach the file (C98_spelling_unknown)."
  }
 ]
}