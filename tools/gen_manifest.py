"""Writes MANIFEST.json from the table below and checks that every theorem named exists in lean/Verif/Props."""
import json, re, glob
names = set()
for f in glob.glob('/verif/lean/Verif/Props/*.lean'):
    names |= set(re.findall(r'^theorem ([^\s:({\[]+)', open(f).read(), re.M))
CLAIMS = [
 ("C01", "proved", ["C01_block_round_trip"], ""),
 ("C02", "proved", ["C02_byte_round_trip"], ""),
 ("C03", "partial", ["C03_table", "C03_cipher", "C03_cipher_unique", "C03_byte_cipher", "C03_name_hash", "C03_jenkins", "C03_cipher_key_zero_deviates"],
  "Holds for every key except 0, where the code skips encryption and the published cipher does not; the deviation is proved."),
 ("C04", "proved", ["C04_case_and_separator"], ""),
 ("C05", "proved", ["C05_cipher_in_bounds", "C05_hash_in_bounds", "C05_hash_panics"], ""),
 ("C06", "proved", ["C06_lookup_is_directory_lookup", "C06_found_was_added", "C06_any_table", "C06_added_is_found"],
  "The exact form excludes collisions of the 64-bit hash pair; the other two hold without that assumption."),
 ("C07", "proved", ["C07_lookup_returns", "C07_add_returns", "C07_full_table_add_never_returns", "C07_builder_size", "C07_builder_adds_return"],
  "Builder size for up to 2^30 - 1 files; beyond that the doubled count leaves u32."),
 ("C08", "proved", ["C08_duplicates_rejected", "C08_add_preserves_others", "C08_built_files_distinct"], "Up to hash collisions (NoCollision)."),
 ("C09", "partial", ["C09_requested_locale_is_shadowed", "C09_locale_honoured_partial"],
  "False of the code when a neutral entry of the name was added first (proved for every name); holds otherwise."),
 ("C10", "proved", ["C10_hash_table_round_trip", "C10_block_table_round_trip", "C10_hi_block_table_round_trip", "C10_hash_table_format", "C10_block_table_format", "C10_read_hash_table_size"], ""),
 ("C11", "proved", ["C11_positions_48_bit", "C11_positions_32_bit", "C11_no_hi_table_truncates"], ""),
 ("C12", "proved", ["C12_header_round_trip", "C12_header_format", "C12_read_total", "C12_accepted"], ""),
 ("C13", "proved", ["C13_search_exact", "C13_search_terminates", "C13_found_is_first_aligned", "C13_embedded_archive_found", "C13_false_mark_hides_archive"],
  "Exact: the search finds the first aligned mark whatever follows it, so an invalid header there hides a later archive (proved)."),
 ("C14", "proved", ["C14_never_grows", "C14_same_length_ambiguous"], "Also proved: equal length does not mean uncompressed."),
 ("C15", "partial", ["C15_round_trip_partial", "C15_bzip2_implode_never_decompresses", "C15_pkware_implode_mismatch"],
  "All method bytes below 0x40 but 0x0C and 0x14, for which it is false (proved); SPARSE under the exact condition of C16."),
 ("C16", "partial", ["C16_sparse_loses_data", "C16_sparse_round_trip_partial"], "False in general (proved); the partial theorem is the exact condition."),
 ("C17", "partial", ["C17_sparse_overshoots", "C17_sparse_output_size_partial"], "False in general (proved); exact bounds proved."),
 ("C18", "proved", ["C18_adpcm_length_and_start", "C18_decoder_tracks_encoder", "C18_error_bound", "C18_compress_succeeds", "C18_level_10_panics"], ""),
 ("C19", "partial", ["C19_adpcm_panics", "C19_adpcm_robust_partial"], "False for shift bytes of 32 and more (proved); proved for all others."),
 ("C20", "partial", ["C20_huffman_ignores_stream"], "False: proved that the output never depends on the stream."),
 ("C49", "partial", ["C49_audio_combinations_partial", "C49_audio_bzip2_never_decompresses", "C49_both_channel_counts_mismatch"],
  "Proved for ZLIB, PKWARE, SPARSE; false for BZIP2 and for both channel counts at once (proved)."),
 ("C21", "partial", ["C21_single_unit_round_trip_partial", "C21_single_unit_exact"],
  "For the methods of C15; for all methods, exactly when the stored bytes decompress to the data."),
 ("C22", "partial", ["C22_multi_sector_exact_partial", "C22_stored_multi_sector_unreadable", "C22_offset_table_returned"],
  "False in general (proved: uncompressed files of several sectors never read back); the partial theorem is an exact condition, for the methods of C15 and sizes below about 4.22 GB."),
 ("C23", "partial", ["C23_single_unit_checked_partial", "C23_byte_change_detected", "C23_sector_checksums_ignored"],
  "Single-unit files; false for several sectors, where no checksum has a consequence (proved)."),
 ("C24", "proved", ["C24_key_agreement", "C24_key_value"], ""),
 ("C25", "partial", ["C25_sector_shift_panics", "C25_empty_checked_file_panics", "C25_long_sector_panics", "C25_declared_size_panics",
  "C25_no_panic_partial"],
  "False in general (four kinds of panic proved, plus C19); proved outside of these."),
 ("C28", "partial", ["C28_listfile_exact_partial", "C28_parsed_names_are_clean", "C28_semicolon_cut", "C28_number_sign_dropped"],
  "False for some names (proved); the partial theorem is an exact condition on the names."),
 ("C30", "partial", ["C30_write_exact", "C30_round_trip_partial", "C30_other_entries_unchanged", "C30_wide_entry_loses_bits"],
  "Exact description of every write; reading back holds up to 64 bits from the first byte, false beyond (proved)."),
 ("C31", "partial", ["C31_lookup_only_index_zero", "C31_wrong_file", "C31_small_tables_resolve_nothing_partial"],
  "False: index 0 is the only possible answer, with a wrong-file witness; archives of at most four files resolve nothing and fall back."),
 ("C32", "partial", ["C32_record_round_trip_partial", "C32_last_record_unreadable", "C32_wide_records_panic", "C32_build_panics", "C32_out_of_range"],
  "False for the last record, wide records and large archives (proved); proved for the others."),
 ("C33", "partial", ["C33_het_uncompressed_partial", "C33_bet_uncompressed_partial", "C33_het_indices_wrong", "C33_compressed_tables_do_not_load", "C33_wrong_mark_refused"],
  "Uncompressed tables, except the HET file indices and the last BET hash of tables of unaligned length; compressed tables do not load (proved)."),
 ("C35", "proved", ["C35_round_trip", "C35_round_trip_same"], "Fewer than 2^58 blocks; a table entry without a value is written as zero."),
 ("C36", "partial", ["C36_accepts_exactly", "C36_values", "C36_huge_count_panics"],
  "False for block counts of 2^62 and more with a checksum table (proved); proved below 2^58, which covers every block count an archive can state."),
 ("C26", "partial", ["C26_read_back_partial", "C26_extended_read_partial", "C26_extended_wrong_content"],
  "Proved for versions 1 and 2, and 3 and 4 with at most four files or zlib-compressed tables; exact condition per file. False for other version 3 and 4 archives (proved: another file's content is returned); there the first file, and every file not taken for it, is still read back."),
 ("C50", "partial", ["C50_classic_build_succeeds", "C50_extended_build_succeeds_partial", "C50_large_file_panics"],
  "Proved for versions 1 and 2; for 3 and 4 up to 2 MiB without table compression or with one that always succeeds. False for 3 and 4 from 2 MiB on (proved): every archive with such a file, kept as it is and not the last, panics."),
 ("C27", "partial", ["C27_generated_listing_partial", "C27_listing_follows_listfile", "C27_external_listing_partial", "C27_no_listfile"],
  "Names that survive the listfile (C28), recoverable listfiles, and the archives of C26; for any other listfile the exact listing."),
 ("C29", "proved", ["C29_archive_divided"], "Files below about 4.22 GB, archives within what the version can address."),
 ("C34", "proved", ["C34_fresh_archive_valid", "C34_verdicts_exact"], ""),
 ("C48", "partial", ["C48_built_sizes_partial", "C48_stored_multi_sector_longer", "C48_uncompressed_reads_stored_size"],
  "False in general (proved, also for built archives); proved for recoverable files of built archives."),
 ("C37", "partial", ["C37_padding_check_exact_partial", "C37_no_weak_signature_accepted", "C37_never_weak_valid", "C37_correct_signature_rejected"],
  "False (proved): no weak signature is ever reported valid, because the leading zero byte of the block is dropped; only the padding check by itself is exact."),
 ("C38", "proved", ["C38_strong_signature_exact", "C38_strong_valid_iff"], "SHA-1 and the key are arbitrary."),
 ("C39", "proved", ["C39_hashing_independent_of_reads"], "MD5 is arbitrary."),
 ("C47", "partial", ["C47_precedence_partial", "C47_huge_size_panics"],
  "Holds unless the stated archive size plus 260 exceeds 64 bits; then the call panics (proved)."),
 ("C42", "proved", ["C42_sequential_reads", "C42_reads_reproduce_file", "C42_position_in_file", "C42_read_piece"], ""),
 ("C43", "partial", ["C43_seek_partial", "C43_before_start_goes_to_end", "C43_high_half_ignored", "C43_far_target_panics",
                        "C43_unknown_origin"],
  "Exact for targets at or after the start; false before it (goes to the end), with a high half below a negative low half (ignored), and for targets beyond 63 bits (panic), all proved."),
 ("C41", "proved", ["C41_handles_unique", "C41_kinds_apart"], "Any number of threads, any calls, any interleaving. A process whose counter would overflow aborts."),
 ("C44", "partial", ["C44_closed_partial", "C44_open_file_survives_close"],
  "False (proved for every archive and file): a file being opened while the archive is closed stays open. Proved when no file of the archive is being opened during the close."),
 ("C45", "partial", ["C45_no_deadlock_partial", "C45_calls_end_partial", "C45_verify_all_files_hangs", "C45_callback_opening_file_hangs"],
  "False (proved): verifying all files and callbacks that open files hang for ever. Proved for all other calls."),
 ("C40", "partial", ["C40_atomic_partial", "C40_power_failure_loses_archive"],
  "Holds for stops and failures at every step of the process; false for power failures (proved for every archive): nothing is synchronised before the rename."),
 ("C46", "partial", ["C46_plain_extraction_inside", "C46_preserved_paths_inside_partial", "C46_parent_escapes", "C46_absolute_escapes"],
  "Holds without --preserve-path for all names; with it false for names with .. and absolute names (proved for every archive and output directory), and proved for other names."),
 ("C51", "partial", ["C51_extraction_complete_partial", "C51_files_overwrite_each_other", "C51_name_without_last_part"],
  "Proved when no two files go to one path; otherwise false without --preserve-path (proved), and names without a last part make extraction panic (proved)."),
 ("C52", "proved", ["C52_others_leave_file_alone", "C52_closed_stays_closed", "C52_call_isolated"],
  "Any number of threads and any interleaving of the steps of calls."),
 ("C53", "partial", ["C53_success_iff", "C53_changed_content_fails", "C53_content_ignored_without_records"],
  "The exact condition for success is proved; without recorded checksums content is not looked at at all (proved), so damage goes unnoticed there."),
 ("C54", "partial", ["C54_enumeration_partial", "C54_suffix_masks_report_more", "C54_inner_star_misses"],
  "Proved for * and *text*; false for *text (reports more) and masks with an inner * (misses), both proved."),
 ("C57", "partial", ["C57_every_block_once", "C57_built_listing", "C57_slots_listed", "C57_list_without_listfile", "C57_extended_listing_partial", "C57_last_file_missing", "C57_small_archive_misses_last"],
  "Proved for archives without BET table (versions 1 and 2, any tables) and for listing without listfile. In versions 3 and 4 the exact set reported is proved for records of up to 57 bits; the last files are missing, proved false."),
    ("C55", "partial", ["C55_built_info_partial", "C55_built_tables_partial", "C55_empty_files_not_counted",
                        "C55_strong_signature_unreported", "C55_tables_described", "C55_sizes_in_file",
                        "C55_signature_status", "C55_built_sizes"],
     "Versions 1 and 2 completely, versions 3 and 4 with up to four files and uncompressed tables (ClassicLookup). Proved violations: empty files are not counted in versions 1 and 2; a strong signature is not reported without a (signature) file."),
    ("C56", "partial", ["C56_success_iff", "C56_report_adds_up", "C56_built_archive_verifies_partial",
                        "C56_nameless_archive_fails", "C56_digests_ignored", "C56_wrong_digests_pass"],
     "The criterion and the counts are proved for all inputs. Fresh archives verify in versions 1 and 2, in 3 and 4 with up to four files. Proved violations: intact archives without listfile fail; wrong MD5 values do not make the command fail."),
    ("C58", "partial", ["C58_files_added", "C58_round_trip_partial", "C58_directory_restored_partial",
                        "C58_stored_large_file_not_restored", "C58_same_names_fail", "C58_listfile_in_directory_fails",
                        "C58_unreadable_file_fails", "C58_ignore_matches_directory", "C58_leading_backslash_escapes"],
     "What is added is proved exactly. The round trip is proved with a generated listfile for recoverable contents, listable names without colliding hashes, versions 1 and 2, or 3 and 4 with up to three files. Proved violations: files over one sector with --compression none, names differing in case only, a (listfile) in the directory, ignore texts found in the directory's own path, names with backslashes."),
    ("C59", "partial", ["C59_explicit_load_same", "C59_reload_same", "C59_description_same", "C59_deferred_access_fails"],
     "Loading explicitly gives the archive opened normally, for every file; reloading changes nothing; describing loads the tables. Proved violation: lookups, reads and listings do not load the tables on first access, they fail."),
    ("C60", "partial", ["C60_library_create", "C60_call_creates", "C60_path_kept", "C60_call_refused", "C60_create_new_race",
                        "C60_create_new_replaces"],
     "Proved for a call with nobody else at the path, with its exact results. Proved violations: the number of slots asked for is ignored (C60_call_creates: always 16); two calls insisting on a new file can both succeed; a file that appears after the look is replaced."),
    ("C61", "partial", ["C61_listing_same", "C61_enumeration_same", "C61_enumeration_hashes", "C61_built_hashes",
                        "C61_placeholder_hashes", "C61_extended_no_hashes"],
     "The entries always agree; the hashes are those of the added names for every built archive of version 1 or 2 (enumeration) and those of the listed names (listing). Proved violations: without a listfile the listing hashes its made-up names; through the extended tables the enumeration has no hashes."),
    ("C62", "partial", ["C62_open_exactly_partial", "C62_recorded_attributes_partial", "C62_short_attributes_block_opening",
                        "C62_unreadable_attributes_block_opening"],
     "Exactly which contents of a file \"(attributes)\" let a built archive open, and what is then known about every file. The "
     "second half of the property fails: attributes that are malformed or made for fewer files than the archive has make the whole "
     "archive unreadable (C62_open_exactly_partial, second part; C62_short_attributes_block_opening), and so do attributes "
     "that cannot be decompressed (C62_unreadable_attributes_block_opening). Missing: the restrictions of C26."),
    ("C63", "partial", ["C63_no_method_reported", "C63_built_partial", "C63_figures", "C63_nothing_iff"],
     "For any archive the figures are made from the files listed that are found. Number of files and sums of sizes are right for built archives with a generated listfile (restrictions of C27). The main "
     "part of the property fails: the method is taken from bits of the block flags that the format leaves unused, so that every "
     "file of every archive without extended tables counts as not compressed (C63_no_method_reported, C63_built_partial)."),
    ("C64", "partial", ["C64_options", "C64_files", "C64_order", "C64_read_at_build", "C64_path_or_data",
                        "C64_default_round_trip_partial"],
     "Complete for the options, the files, the order of calls and the time of reading. The round trip with default options is for "
     "files of at most 4096 bytes (larger ones are not always readable, C22), up to half a million of them, without colliding hashes."),
    ("C65", "partial", ["C65_list_shows", "C65_list_fails", "C65_find_as_list", "C65_find_folded", "C65_names_readable", "C65_csv_rows",
                        "C65_csv_columns_partial", "C65_verbose_partial", "C65_verbose_panics_on_built", "C65_list_lines",
                        "C65_find_lines", "C65_find_output"],
     "Complete for which files are shown, in which order, and for the lists of names (no name listed has a line feed). Two parts fail: a "
     "name with a comma shifts the columns of the CSV output with hashes (C65_csv_columns_partial), and the verbose table panics "
     "if a name of more than 39 bytes cannot be cut after 36 (C65_verbose_partial), for every built archive with such a name "
     "(C65_verbose_panics_on_built, restrictions of C27). JSON is in C73. Not covered: columns computed with floating point."),
    ("C66", "proved", ["C66_same_file", "C66_same_answer"],
     "For all archives that open, however they came about. Opening a file through the C interface uses the same two functions."),
    ("C67", "partial", ["C67_extract_one", "C67_plain_inside", "C67_plain_last_part_partial", "C67_parent_panics", "C67_backslash_kept",
                        "C67_info_size", "C67_info_csv_partial"],
     "Complete for the content, for a path given, for preserved paths, and for where a file can end up otherwise. Three parts fail: with "
     "neither option a name whose last part is .. panics (C67_parent_panics); backslashes, the separators of the format, are not taken "
     "for separators, so the file written depends on the spelling of the name (C67_backslash_kept); and in CSV a name with a comma "
     "shifts the columns (C67_info_csv_partial). JSON is in C73. Not covered: failures of writing."),
    ("C68", "partial", ["C68_values", "C68_json_partial", "C68_all_not_json", "C68_compare", "C68_compare_spellings"],
     "Complete for the values and for comparing. JSON fails: names are not escaped, so the line tells the name exactly if it has no "
     "quotation mark, backslash or control character (C68_json_partial, an equivalence); and all hashes are printed as text even if "
     "JSON is asked for (C68_all_not_json)."),
    ("C69", "partial", ["C69_last_error", "C69_success_told", "C69_halves", "C69_return_value_ambiguous", "C69_locale",
                        "C69_asked_at_once", "C69_has_file_leaves_error", "C69_locale_ignored"],
     "Complete for the last error after every call but SFileHasFile, and for what the locale calls return. Two parts fail: SFileHasFile "
     "answers false with the code of an earlier call, 0 for instance (C69_has_file_leaves_error); and the locale has no effect at all: "
     "every run has the same results as one in which no locale is ever set (C69_locale_ignored)."),
    ("C70", "partial", ["C70_set_accepts", "C70_set_used", "C70_command_line_first", "C70_defaults", "C70_reset", "C70_show", "C70_output_ignored",
                        "C70_reset_cannot_repair", "C70_shown_version_unused", "C70_block_size_unchecked"],
     "Complete for the three settings of archive create. Four parts fail: the output format is accepted and never used "
     "(C70_output_ignored); a configuration that cannot be parsed stops every command, config reset included "
     "(C70_reset_cannot_repair); a version other than 1 to 4 in the file is shown but not used (C70_shown_version_unused); and a block "
     "size in the file is not checked (C70_block_size_unchecked). The TOML library is a parameter that reads back what it wrote."),
    ("C71", "partial", ["C71_call", "C71_session", "C71_answer_unique", "C71_answered", "C71_reads_like_library",
                        "C71_missing_archive_denied", "C71_truncated_codes_differ"],
     "Complete for every call except enumeration and verification (C37 to C43, C69 cover these), as long as the library does not panic. Two "
     "parts fail: an archive that does not exist is reported as access denied (C71_missing_archive_denied), and the same damage gets "
     "different codes from opening and extracting (C71_truncated_codes_differ)."),
    ("C72", "partial", ["C72_recoverable_iff_missing", "C72_classes_apart", "C72_opening_not_recoverable", "C72_checksum_partial",
                        "C72_truncation_not_corruption", "C72_no_checksum_no_corruption", "C72_broken_entry_not_corruption",
                        "C72_intact_called_corrupt"],
     "Recoverable is exact for all archives. Corruption is exact for files stored in one piece as they are with a checksum; otherwise it fails "
     "both ways: archives cut off, content impossible to decompress and entries pointing nowhere are not called corrupt, and a new archive "
     "with too short a file (attributes) is."),
    ("C73", "partial", ["C73_one_reading", "C73_printed", "C73_list", "C73_list_hashes", "C73_file_info", "C73_archive_info", "C73_verify",
                        "C73_verify_quiet", "C73_analyze", "C73_method_words", "C73_analyze_csv", "C73_info_csv_partial",
                        "C73_verify_csv_partial", "C73_signature_spellings", "C73_find_not_json", "C73_analyze_nothing_not_json"],
     "Complete for lists, file information, archive information, verification and analysis in JSON, against a grammar of JSON that has one "
     "reading. It fails for `file find`, which prints lines whatever format is asked for, for the analysis of an empty archive, which prints "
     "nothing, and in CSV for paths with a comma, which are not quoted."),
    ("C74", "partial", ["C74_cut_agrees_partial", "C74_built_cut_refused", "C74_violated_user_data",
      "C74_violated_lost_tables"],
     "Any file of an archive in version 1 or 2, and every built archive in all versions (that an error is told, and is no panic, in "
     "versions 1 and 2). It fails in version 4 for archives with the HET and BET tables at their end, which the library opens but does not "
     "build: lost tables are passed over, and a file can then read other content. It fails where user data points into the missing part: "
     "another archive is opened in its place."),
    ("C75", "partial", ["C75_deferred_opening_ends", "C75_opening_ends_partial", "C75_classic_opening_ends", "C75_classic_lookup_ends",
      "C75_violated_het_place", "C75_violated_hi_place", "C75_violated_het_entries"],
     "Deferred opening: every file. Opening: every file whose header places can be reckoned with, whose HET and BET tables name no audio "
     "codec and whose (attributes) can be read without a panic; for versions 1 and 2 without (attributes) this leaves only the position "
     "of the hi-block table. The excluded cases are real: four kinds of files for which opening panics are proved to do so."),
    ("C76", "partial", ["C76_answer", "C76_success_iff", "C76_strong_exact", "C76_unsigned_passes", "C76_no_files",
      "C76_weak_signature_refused", "C76_files_never_answered"],
     "Without the files: the answer in every case in which the check of the signature does not panic, exact for strong signatures. It fails "
     "for weak signatures (all refused, C37), and for the files: as soon as there is one to check the call waits for ever for its own lock."),
    ("C77", "partial", ["C77_other_files_unaffected", "C77_opening_unaffected", "C77_listing_unaffected",
      "C77_built_damage_local_partial"],
     "Reading, opening and listing for all archives, whoever made them; for built archives the ranges of the files are proved to be apart. "
     "Missing for built archives: versions 3 and 4 with more than four files and uncompressed tables (C26)."),
    ("C78", "proved", ["C78_read_at_never_wrong", "C78_read_at_succeeds", "C78_read_at_moves", "C78_reads_in_order",
      "C78_read_at_early_end", "C78_seek"],
     "The default read_exact of the standard library is part of the model. read_at moves the position: reading goes on behind its bytes."),
    ("C79", "partial", ["C79_rest_is_irrelevant", "C79_order_irrelevant", "C79_same_name_order_matters"],
     "For the archives of C26 and contents of at most a sector or with the methods of C15. False for files of the same name in different "
     "locales (proved): the one added first is read, so the order decides."),
    ("C80", "partial", ["C80_classic_requests_partial", "C80_any_amount", "C80_small_file_asks", "C80_held_was_asked"],
     "False (proved): 32 bytes of version 1 make opening ask for up to 32 GiB, 224 bytes of version 4 for any amount below 2^63 bytes and still "
     "open. True in versions 1 and 2 for archives that open. Counted are the buffers for tables, not decompression and (attributes)."),
    ("C81", "partial", ["C81_reads_what_is_stored_partial", "C81_imploded_not_expanded", "C81_first_byte_lost", "C81_odd_bytes",
      "C81_sectors_not_decrypted", "C81_sectors_at_most_one", "C81_sectors_read_wrong"],
     "Against a specification of storage written from the format's description, independent of the writer. False (proved) for imploded files, for "
     "encrypted files with odd bytes at the end, for encrypted uncompressed files of several sectors, for single units stored as they are with "
     "the flag for compression. Not stated for single units with checksums, which the description leaves open."),
    ("C82", "partial", ["C82_written_as_stored_partial", "C82_uncompressed_sectors", "C82_equal_length", "C82_odd_bytes"],
     "Against the same specification of storage as C81. Needs that a file of several sectors has a compressed one, that nothing compressed "
     "has the length of its original and that encrypted units have a multiple of four bytes; proved to fail without these. The checksums of "
     "sectors are not part of the specification."),
    ("C83", "partial", ["C83_slot_deleted", "C83_deleted_in_file", "C83_marked_still_read"],
     "Complete for the mark in the hash table. False for the mark in the block table (proved): entries that do not exist, mark a deleted file "
     "or are patches are read like any file."),
    ("C84", "partial", ["C84_writes_only_lent_partial", "C84_read_delivers", "C84_info_in_two_calls", "C84_info_misaligned",
      "C84_archive_name", "C84_file_name", "C84_file_name_overruns",
      "C84_answers", "C84_stays_tidy"],
     "Holds for every call but SFileGetFileName, which has no parameter for the size of the buffer and overruns buffers of every size (proved). "
     "SFileGetFileInfo stores numbers through the buffer as if it were aligned: with checks, other buffers bring the program down (proved). "
     "C84_answers is complete for correct callers: every answer the specification of C71 gives reaches the caller through memory."),
    ("C85", "proved", ["C85_sector_damage", "C85_damage_goes_forward", "C85_silently_shorter"],
     "The last theorem is a finding: when decompressing a changed sector gives fewer bytes, a file is read shorter than recorded, without an error."),
    ("C86", "partial", ["C86_opens_format_partial", "C86_builds_format_partial", "C86_unambiguous"],
     "Missing in the first two: versions 3 and 4 (HET and BET tables); reading is proved for files that are not imploded, and whose encrypted parts are whole dwords; the files excepted in C82 are not stored as the format says."),
    ("C87", "partial", ["C87_repack_partial", "C87_listing_kept", "C87_repack_refused", "C87_second_run_packs_archive"],
     "Holds with --no-listfile or if the listfile is ignored, for the archives of C26 and recoverable contents. False with the default options (proved for every archive that lists its listfile): packing is refused because of the extracted (listfile). An archive written into the directory it is made of is packed into the next one (proved)."),
    ("C88", "partial", ["C88_requests_partial", "C88_true_size", "C88_below_4_gib", "C88_small_file_asks"],
     "Holds where the archive states the true size of the file. In general every request of a successful read is at most the archive or exactly the stated size, and in versions 1 and 2 below 4 GiB, also when reading fails. False otherwise (proved): from an archive of 74 bytes one byte is read with a buffer of any size from 3 bytes to 4 GiB."),
    ("C89", "partial", ["C89_size_nearest", "C89_size_unambiguous", "C89_size_1024", "C89_two_units", "C89_ratio_partial", "C89_ratio_off", "C89_share_nearest", "C89_share_of_nothing"],
     "Sizes and shares complete, against floating point arithmetic modelled exactly. Percentages are right unless the true one is a whole number, where one less may be shown (29 of 100 and everything in this proportion give 28, proved). Also proved: sizes just below a unit are shown as 1024.00 of the smaller one, the line on the size of an archive names two units (1.50 KB bytes), shares of no files are no numbers."),
    ("C90", "partial", ["C90_follows_signal", "C90_never_further", "C90_held_level", "C90_silence_not_exact"],
     "Complete but for silence: the error is at most 36 and three sixteenths of the largest difference between neighbouring samples; no sample is more than one further from the original than the one read back before it; a level that is held is kept within one. Refuted (silence): thirty-two samples of silence are not read back as silence, the last is one off."),
    ("C91", "proved", ["C91_info_text", "C91_verify_text", "C91_verify_text_quiet"],
     "A report is read as lines below titles; every fact is the only line below its title that begins with its label. That names in a listing have no line feeds is proved, not assumed. Without colours and without --verbose."),
    ("C92", "partial", ["C92_extension", "C92_no_extension_partial", "C92_folder_taken_for_extension", "C92_figures", "C92_json"],
     "Complete for the counts, the output in JSON and the files that have an extension. For files without an extension the claim fails if a folder has a dot and is followed by a backslash: the end of its name and the name of the file are taken for the extension (C92_folder_taken_for_extension)."),
    ("C93", "partial", ["C93_analysis_text", "C93_nothing", "C93_verdict_always_good", "C93_unsupported_yet_read"],
     "Complete for what the text says about the figures of the analysis (C63), without colours; --detailed and --by-extension are C94. The last part fails: for archives without extended tables it is always said that all methods are supported (C93_verdict_always_good), and PKWARE is called not supported though it is decompressed (C93_unsupported_yet_read)."),
    ("C94", "partial", ["C94_options_add", "C94_nothing", "C94_supported_shown"],
     "Complete for what is added to the text of C93, without colours; what the counts by extension are is C92, and the methods are those of C63. The last part fails for --by-extension: it has lines about supported methods in spite of --unsupported-only (C94_supported_shown). Lines printed before an error are not modelled."),
    ("C95", "proved", ["C95_verbose_lines", "C95_stopped"],
     "Without colours. The text of an error is any function of the name of the file."),
    ("C96", "proved", ["C96_verbose_table", "C96_every_file_shown", "C96_built_archive"],
     "Without colours. C96_built_archive applies it to built archives, under the conditions of C27. The texts of sizes and the percentage of a row are those of C89, which is partial for the percentage. Lines printed before a panic are not modelled."),
    ("C97", "partial", ["C97_hashes_only_add", "C97_verbosity", "C97_hashes_readable_partial", "C97_hashes_ambiguous"],
     "Complete but for reading back, which needs that every file has hashes and no name a line feed. It fails otherwise: a file with hashes looks like a file without hashes whose name ends in brackets (C97_hashes_ambiguous). Without colours; lines printed before a panic are not modelled."),
    ("C98", "partial", ["C98_flags_say_partial", "C98_listfile", "C98_listfile_not_compressed", "C98_special_names", "C98_spelling_unknown"],
     "Flags: complete for the archives of C26 without a file (attributes) and with no colliding names. Special files: the listfile is never encrypted, as said. Two parts fail: a builder told not to compress stores the listfile as it is, though it is said to be compressed (C98_listfile_not_compressed), and other spellings of the name are not known though they reach the file (C98_spelling_unknown)."),
]
claims = []
for pid, status, ths, note in CLAIMS:
    for t in ths:
        assert t in names, (pid, t)
    claims.append({"property": pid, "status": status, "theorems": ["Mopaq." + t for t in ths], "note": note})
used = {t for _, _, ths, _ in CLAIMS for t in ths}
print("property theorems not in manifest:", sorted(n for n in names if n not in used and re.match(r'C\d\d', n)))
props = [json.loads(l)["id"] for l in open('/verif/properties.jsonl')]
print("properties without claim:", [p for p in props if p not in {c["property"] for c in claims}])
json.dump({"claims": claims}, open('/verif/MANIFEST.json', 'w'), indent=1)
