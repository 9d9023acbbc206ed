# Formal model of mopaq

The code modelled is the Rust workspace in /repo (crates `mopaq`, `storm-ffi`, `storm-cli`) at its pinned
commit. The model is Lean 4, in `lean/Verif/`. The code was read as text only: it was not built or run.

## How the model is set up

* Bytes are `BitVec 8`; `u16/u32/u64` are `BitVec 16/32/64` wherever wrap-around matters; lengths and file
  offsets are `Nat` with the casts of the source (`as u32` etc.) written out.
* A file is a `List Byte`. `Read`/`Seek`/`Write` sequences become functions of an offset.
* `Result` is `Except Err`. A panic (index out of bounds, overflow in a checked operation, division by zero) is
  the explicit error value `Err.panic`, distinct from every error the code returns.
* `&mut` arguments become returned values. Loops become structural recursion, folds, or recursion on fuel whose
  sufficiency is proved.
* External code is a parameter: zlib, bzip2, lzma, PKWARE, MD5, SHA-1, RSA `modpow`, Adler-32 and temp-file
  persistence. Laws assumed of them (such as "decompress inverts compress") are explicit hypotheses of the
  theorems that need them, and each law is shown to be satisfiable by an instance.
* Where the code violates a property, the negation is proved on a concrete witness and a `_partial` theorem
  states exactly the region where the property does hold.

Property theorems are in `lean/Verif/Props/*.lean`; independent specifications are in `lean/Verif/Spec/*.lean`;
models are in `lean/Verif/Model/*.lean`; helper lemmas are in `lean/Verif/Lemmas/*.lean`.

## Plan per property

| id | what is modelled | how it is proved |
|----|------------------|------------------|
| C01 | `encrypt_block`, `decrypt_block` on dword lists | induction over the list generalising key and seed |
| C02 | `encrypt_data`, `decrypt_file_data`, `decrypt_dword` | C01 on whole dwords, XOR argument on the truncated tail |
| C03 | table generator, cipher, `hash_string` | equality with a separate specification in natural-number arithmetic modulo 2^32 |
| C04 | `hash_string`, `jenkins_hash` with their folding tables | folding maps agree on equivalent bytes (finite check over all 256 bytes), lifted by induction |
| C05 | the same functions with checked indexing | checked version never returns `panic`; for types >= 5 it always does on non-empty names |
| C06 | `add_to_hash_table`, `find_file` | refinement to an abstract association list, probe-chain invariant, any size and history |
| C07 | the two probing loops with fuel, `calculate_hash_table_size` | fuel = table size suffices; size >= 2 * files; full table loops for ever (negation for the unguarded add) |
| C08 | `add_to_hash_table`, `build` | corollary of the C06 refinement; a build that succeeds had no duplicates |
| C09 | `find_file` with a locale | false: witness with locale 0 entry shadowing; partial: locale respected when asked locale is unique |
| C10 | `write_hash_table`, `HashTable::read`, `write_block_table`, `BlockTable::read` | LE encode/decode inverse and C01 |
| C11 | hi-block table split and merge | bit-vector arithmetic |
| C12 | `write_header`, `MpqHeader::read` | LE encode/decode over the four layouts |
| C13 | `find_header` | strong induction on the remaining length; characterised by a declarative relation |
| C14 | `compress` | case analysis for arbitrary codecs |
| C15 | `compress`, `compress_multiple`, `decompress`, `decompress_multiple` | case analysis over method bytes with codec laws |
| C16 | sparse codec | false: witness with a zero run of 127; partial: all inputs whose zero runs avoid a 127 chunk |
| C17 | sparse decoder | false: witness; partial: exact bounds for all inputs |
| C18 | ADPCM encoder and decoder | simulation invariant between encoder and decoder state |
| C19 | ADPCM decoder with checked shifts | false for shift >= 32: witness; partial for smaller shifts |
| C20 | Huffman decoder | false: output independent of the stream, for all streams |
| C21 | `write_file`, `read_file` single-unit branch | composition of C02, C15, C24 |
| C22 | `write_file`, `read_file`, `read_sectored_file` | false: witnesses; partial under the exact per-sector condition, by induction over sectors |
| C23 | checksum branches | single unit: mismatch is an error; sectored: false (mismatch only logged) |
| C24 | `calculate_file_key` and the reader's key computation | C04 |
| C25 | `read_file` with all panicking operations explicit | false: witnesses; partial: guards under which no panic is reachable |
| C26 | `write_archive`, `write_archive_with_het_bet`, `open_with_options`, `load_tables`, `read_file`, all versions | layout invariant over the file list + C06 + C10 + C12 + C21 + C22; versions 3 and 4: exact description of every lookup through the extended tables, false beyond four files (general theorem) |
| C27 | `prepare_listfile`, `list` | C26 on the listfile entry + C28 |
| C28 | `prepare_listfile`, `parse_listfile` | induction over names, on an explicit name predicate; witnesses for excluded names |
| C29 | `write_archive` | layout invariant |
| C30 | `write_bit_entry`, `calculate_bits_needed` | bit-level induction |
| C31 | `create_het_table`, HET `find_file` | false: lookup only ever yields index 0 |
| C32 | `create_bet_table`, `get_file_info` | false in general: witness; partial where the packed entry fits |
| C33 | `write_het_table`/`write_bet_table`, readers | false with compression and for lengths not multiple of 4: witnesses; partial otherwise |
| C34 | V4 writer and `validate_v4_md5_checksums` | equality of hashed ranges, MD5 arbitrary |
| C35 | attributes `to_bytes`, `parse` | LE round trip, bit packing |
| C36 | attributes `parse` with checked reads | exact success condition |
| C37 | weak signature check | false: leading zero byte is dropped, so no value is ever accepted |
| C38 | strong signature check | exact characterisation |
| C39 | `calculate_mpq_hash_md5` with arbitrary short reads | invariant over the read schedule |
| C40 | `build` as a sequence of file-system steps with crash points | invariant; durability (no fsync) is outside the model |
| C41 | FFI state machine | invariant over call sequences |
| C42 | `SFileReadFile`, `SFileSetFilePointer` | invariant and refinement to list slices |
| C43 | `SFileSetFilePointer` | false for negative targets: witness; partial otherwise |
| C44 | `SFileCloseArchive`, `SFileOpenFileEx` as atomic lock sections | sequential: proved; interleaved: race witness |
| C45 | lock acquisition traces of every FFI call | false: witness; partial: remaining calls, acyclic lock order |
| C46 | `extract` path construction with `Path::join` | false: witness; partial: names without `..`, root or prefix |
| C47 | `verify_signature` | case analysis |
| C48 | `SFileOpenFileEx`, `SFileGetFileSize`, `read_file` | false: witness; partial for files the builder writes |
| C49 | `compress_multiple`, `decompress_multiple` with audio flags | C18 with bounds on the audio stream's length; false for BZIP2 and for both channel counts |
| C50 | `build` | every checked step of the writer succeeds, by induction over the files; sizes bounded for the extended tables |
| C51 | `extract` of storm-cli | induction over the listed names; false where two names share a last part |
| C52 | FFI file handles under interleaving | frame argument over the transition system of C41 |
| C53 | `SFileVerifyFile` | exact success condition; false without recorded checksums |
| C54 | `SFileEnumFiles` mask test | equivalence with a declarative wildcard relation for `*` and `*text*`; false otherwise |
| C55 | `get_info` | composition of C26, C34, C47 on the opened archive; false for empty files and appended signatures |
| C56 | `verify` of storm-cli | exact success criterion by induction over the listing; composition with C26, C27, C55 |
| C57 | `list` without listfile, `list_all` | permutation argument over slots and blocks; exact index set for BET tables |
| C58 | `create` of storm-cli on a directory, then `extract` with preserved paths | exact list of files added; composition of C08, C26, C27, C51 |
| C59 | `OpenOptions::load_tables(false)`, then explicit loading or access | equality of the two ways of opening; the state after a deferred opening has no tables |
| C60 | `OpenOptions::create`, `SFileCreateArchive` as a sequence of three steps (look, make, open) | composition of C50, C27 and C59 for the empty archive; case analysis of the dispositions; interleavings as a transition system |
| C61 | `list_with_hashes`, `list_all_with_hashes` | projection onto the plain listings; induction over the hash table; C57 for built archives |
| C62 | `load_attributes` on built archives, `get_file_attributes` | layout of built archives (C26) composed with the exact acceptance of attributes files (C36) |
| C63 | `analyze` of the command line tool: the figures (not their printed form, not the figures by extension) | induction over the listing; for built archives the exact figures from C27 and the layout |
| C64 | the calls on `ArchiveBuilder` before `build` | induction over the chain of calls; composition with C50 and C26 |
| C65 | `list` and `find` of the command line tool and their output as text and CSV | sorting is a permutation; splitting the output into lines and fields; induction over the rows, with UTF-8 from C28 |
| C66 | `find_file`, `read_file` and the C calls with a name | every place that looks at the name does so through a hash that C04 covers |
| C67 | `extract` with a file name, `info` of a file and its output | case analysis with the path model of C46; C66 for the spellings; decimal numbers are read back |
| C68 | `hash generate` and `hash compare` and their output | C03 for the values; a JSON literal is at least as long as its text, and as long only without escapes |
| C69 | the last error and the locale of each thread, on top of the concurrent system of C41 | invariant: the variables of a thread are a function of its own events; every failure has a code other than 0; simulation of each run by one without locales |
| C70 | `config.rs`, the `config` commands, the options of `archive create` in `main.rs` | case analysis; digits by induction; the TOML library is a parameter |
| C71 | the calls of `Model/Ffi` as a small specification of sessions, `Spec/FfiSession` | simulation: every rule is a run of the process from every state without a running call; induction over the calls |
| C72 | the classes of errors, over all of opening, finding and reading | which errors each function can end in, function by function, by induction over its loops |
| C73 | the JSON and CSV output of `list`, `info`, `verify`, `analyze` and `find`; serde_json from its documentation | the grammar of JSON (`Spec/JsonText`) has one reading (induction over the derivation); the printer by induction over the value; each report by its members |
| C74 | opening and reading as for C26, on a file and on a beginning of it | a relation "whatever the one returns the other returns", kept by every step of opening and reading; for built archives the layout of C26 and the bounds of the tables read last |
| C75 | opening as for C26, with 64-bit arithmetic on positions that panics on overflow | "ends with a value or an error that is told" kept by every step of opening; for the exceptions the step that panics is followed through to the result |
| C76 | the process of C71; `SFileVerifyArchive` up to its answer or its wait | the run of the call step by step, as for C71; signatures by C37, C38 and C47; that a blocked run has no end by its being the only run |
| C77 | opening, lookup, reading and listing as in C26, C27 and C41; damage is any change of the bytes of a range | every read of the file is a slice, and slices apart from the damage are unchanged; induction over the stages of opening and over the sectors; the ranges of built files by the layout of C29 |
| C78 | `Model/Io`: the reader as a file and a position, with an arbitrary answer of the system to every call of `read` | induction over the answers; it also justifies `readAt`, by which all other reads are modelled |
| C79 | two archives as in C26 | the exact condition of C26 for reading a file back does not mention the rest of the archive |
| C80 | the list of buffers reserved for tables (`Model/Memory`) next to opening | every request precedes a read of the same length, which fails when the file is shorter; witnesses for all sizes |
| C81 | a relation between the bytes of a file and an entry that says how the format stores it (`Spec/Format`) | the relation gives every read of the model what it reads; decryption is unique; the exceptions by the same way |
| C82 | the writer of C14 against the relation of C81 (`Spec/Format`) | the table of offsets gives the place of every sector; encryption is what the relation asks for on multiples of four; the exceptions from the uniqueness of encryption |
| C83 | the lookup of C06 on any table with one slot marked; opening the file with the table written anew | the probe passes the marked slot and stops where it did; locality of C77 for the rest |
| C84 | the memory of the caller as a function from addresses to bytes; every call that takes pointers to write to | case analysis of every call; frame lemma for writes; a name for every size of buffer; refinement of the specification of C71 by the calls with pointers (`C84_answers`) |
| C85 | any change of bytes within one sector of a file stored as the format says | induction over the sectors before and behind; causality of the cipher by induction over the dwords |
| C86 | archives as the format describes them, against the opening, lookup and reading of the model and against the builder | relation `Spec.IsArchive` (`Spec/FormatArchive`) that uses neither reader nor writer; refinement in both directions; uniqueness of decryption and of the probing result |
| C87 | extraction and creation by the command line tool, one after the other, on a disk; the directory is listed in any order | relation `Spec.FilesBelow` between the disk and what the second command finds; composition of C26, C27, C51, C58, C66 |
| C88 | the buffers that reading a file asks for, in their order, as a list of sizes beside the reader of C26 | a request after which reading goes on was filled from the file (induction on the sectors); the false part by a family of archives that open by C86 |
| C89 | floating point numbers as multiples of 2^-120 with rounding to 53 bits; halves in printed decimals go either way | error bounds of each operation, which integers between them leave one or two values |
| C90 | the model of C18 | invariants of a channel over all samples: the step follows the largest difference, the prediction follows the sample |
| C91 | `Model/TextReport`: the lines of both reports as blocks with titles | generic lemmas on blocks: what is below a title is the body of its block, and a line is found by its label if no other label is a prefix of it or the other way round |
| C92 | `Model/Extensions`: `Path::extension` on Unix, the counters by extension, the JSON output with them | splitting at the last slash and the last dot; induction over the entries; counting by the values of a function |
| C93 | `Model/TextAnalysis`: the lines of the analysis; the order of the hash map is a parameter | the lemmas on blocks of C91; merge sort is a sorted permutation |
| C94 | `Model/FullAnalysis`: the lines about files and extensions; the orders of the hash maps are parameters | induction over the files listed; the blocks of C93 with others put in between; merge sort is a sorted permutation |
| C95 | `Model/VerboseVerify`: the lines of the loop of `verify` next to its counters (`Model/CliVerify`), up to the file at which it stops | induction over the files listed: line and counters agree for each file; the blocks of C91 with the lines put after the first |
| C96 | `Model/VerboseList`: the text of the verbose table and its statistics, over the rows of `Model/CliList` | the rows of C65, characters counted by first bytes of their encodings, shares by C89 |
| C97 | `Model/ListOutput`: the choice of output of `list` over all formats, and the text with hashes | both listings have the same files (C65), sorting commutes with forgetting the hashes; lines end in twenty bytes of known length; the negation for files without hashes |
| C98 | the writer of C21 and C22, the lookup of C26; `Model/SpecialInfo` | the flags as a function of five booleans, each settled by the way the writer took; the sectors by their numbers; case analysis for the special names |

## What is modelled

Each definition in `lean/Verif/Model/` cites the lines it models. By source file:

| source | model | covered |
|---|---|---|
| `mopaq/src/crypto/{keys,encryption,decryption,hash,types}.rs` | `Model/Crypto` | all |
| `mopaq/src/crypto/signature.rs` | `Model/Signature` | all; RSA exactly, MD5 and SHA-1 as parameters |
| `mopaq/src/compression/**` | `Model/{Compression,Adpcm,Huffman}` | all but `pkware::compress_with_options` (unused) and the libraries behind zlib, bzip2, lzma, PKWARE |
| `mopaq/src/tables/**` | `Model/{Tables,HetBet}` | all but the plain accessors and `clear` |
| `mopaq/src/header.rs` | `Model/Header` | all |
| `mopaq/src/special_files/{listfile,attributes,info}.rs` | `Model/{Listfile,Attributes,SpecialInfo}` | all |
| `mopaq/src/builder.rs` | `Model/{Builder,BuilderCalls,FileIO,Header,HetBet,Tables,Publish}` | all |
| `mopaq/src/archive.rs` | `Model/{Archive,HashListing,FileIO,Md5,Info,Signature,Memory,MemoryRead}` | opening, lookup, reading, listing, description, validation |
| `storm-ffi/src/lib.rs` | `Model/{Ffi,FfiFile,FfiLocal,FfiMemory,Create}`, `Spec/{FfiSession,FfiMemory}` | every call; pointers are valid (what is written through them: `FfiMemory`, one thread), strings are UTF-8 |
| `storm-cli/src/commands/file.rs` | `Model/Cli`, `Model/CliList`, `Model/ListOutput`, `Model/CliFile` | `extract`, `list`, `find`, `info` (`add` and `remove` always fail) |
| `storm-cli/src/commands/hash.rs` | `Model/CliHash` | `generate` and `compare` without colours (`jenkins` prints that it is not implemented) |
| `storm-cli/src/output.rs` | `Model/{CliList,VerboseList,ListOutput,CliFile,Report,TextReport,Figures}` | lists of names and information on a file as text, CSV and JSON, the verbose table with its statistics as text, sizes and percentages in text; information on archives as text (without colours), JSON and CSV |
| `mopaq/src/io.rs` | `Model/Io` | all; the reader below it answers as it likes |
| `mopaq/src/error.rs` | `Basic` (`Err`), `Model/ErrorKind` | the kinds and their classes; messages dropped |
| `storm-cli/src/config.rs`, `main.rs` | `Model/Config` | loading and saving, the `config` commands, the options of `archive create`; the remaining commands are passed on as they are |
| `storm-cli/src/commands/archive.rs` | `Model/{CliVerify,CliCreate,Analyze,Extensions,Report,TextReport,TextAnalysis,FullAnalysis,VerboseVerify}` | `verify`, `create`, `analyze`, `info`; reports as JSON, CSV and text (without colours) |

Not modelled: `test_utils` (not used by the operations above), log output,
the commands `crypto` (prints values for fixed inputs) and `table` (prints that it is not implemented) of `storm-cli`, its argument
parsing and colours, and
`commands/{create,extract,find,list,verify}.rs`, which `commands/mod.rs` does not include in the build.

Simplifications, all of them stated where they are made:

* An open file does not change, and reading it returns the bytes there are; the exception is the digest of signatures,
  where every call to `read` may deliver fewer bytes or fail. Writing to the temporary file may fail at every step
  (`Model/Publish`); elsewhere it works.
* `usize` has 64 bits. Arithmetic is checked as in a debug build: an overflow is a panic. Reserving a buffer of 2^63 bytes
  or more is a panic (`readVec`, `sizePanics`): this can be reached from sizes stored in extended tables and headers of
  version 4. Smaller buffers can always be had. Sizes of single files are below 2^63 in every table format (BET entries
  hold at most 63 bits of a size), so the buffers that `read_file` itself reserves need no such check.
* Names are the bytes of strings. Their UTF-8 structure is modelled where it matters, for the listfile and the verbose table.
* A mutex is not re-entrant and never poisoned (a panic across the C boundary ends the process).
* Paths are those of Unix, without symbolic links.

## Findings

Properties the code does not have. For each the negation is a theorem about the model, most of them general (for every
archive, name or state of the kind named), the others by a concrete witness.

| property | what happens | theorem |
|---|---|---|
| C03 | key 0 leaves data unencrypted where the published cipher encrypts | `C03_cipher_key_zero_deviates` |
| C09 | a neutral entry added first hides the entry of the locale asked for | `C09_requested_locale_is_shadowed` |
| C13 | an invalid header at an aligned mark hides a later archive | `C13_false_mark_hides_archive` |
| C15 | method bytes 0x0C and 0x14 do not round-trip | `C15_pkware_implode_mismatch`, `C15_bzip2_implode_never_decompresses` |
| C16, C17 | runs of 127 and more zero bytes end the data; decoding may exceed the size given | `C16_sparse_loses_data`, `C17_sparse_overshoots` |
| C18, C49 | compression level 10 panics; audio methods combined with BZIP2, or with both channel counts, do not decompress | `C18_level_10_panics`, `C49_audio_bzip2_never_decompresses`, `C49_both_channel_counts_mismatch` |
| C19 | ADPCM streams with a shift byte of 32 or more panic | `C19_adpcm_panics` |
| C20 | Huffman decoding ignores its input | `C20_huffman_ignores_stream` |
| C22 | uncompressed files of several sectors never read back | `C22_stored_multi_sector_unreadable`, `C22_offset_table_returned` |
| C23 | wrong sector checksums have no consequence | `C23_sector_checksums_ignored` |
| C25 | four kinds of malformed archives make reading panic | `C25_sector_shift_panics`, `C25_empty_checked_file_panics`, `C25_long_sector_panics`, `C25_declared_size_panics` |
| C26 | version 3 and 4 archives of five and more files return the first file's content for other names, even for names never added | `C26_extended_wrong_content` |
| C28 | listfile names with `;` are cut, names starting with `#` dropped | `C28_semicolon_cut`, `C28_number_sign_dropped` |
| C30-C33 | bit reads beyond 64 bits; HET lookup only yields index 0; the last BET record is unreadable; wide records panic; large archives panic while building; compressed tables do not load | `C30_wide_entry_loses_bits`, `C31_lookup_only_index_zero`, `C31_wrong_file`, `C32_last_record_unreadable`, `C32_wide_records_panic`, `C32_build_panics`, `C33_het_indices_wrong`, `C33_compressed_tables_do_not_load` |
| C50 | a version 3 or 4 archive with an uncompressed (or incompressible) file of 2 MiB or more that is not the last one cannot be built: `build` panics in the BET table, whose widths of position, size and stored size then come to 63 bits or more | `C50_large_file_panics` |
| C36 | attributes of 2^62 and more blocks with checksums panic | `C36_huge_count_panics` |
| C37 | no weak signature is ever accepted | `C37_no_weak_signature_accepted` |
| C40 | a power failure after a successful build may leave an empty file | `C40_power_failure_loses_archive` |
| C43 | seeking before the start goes to the end; a high half is ignored under a negative low half; far targets panic | `C43_before_start_goes_to_end`, `C43_high_half_ignored`, `C43_far_target_panics` |
| C44 | a file opened while its archive is closed stays open | `C44_open_file_survives_close` |
| C45 | verifying all files, and callbacks that open files, hang | `C45_verify_all_files_hangs`, `C45_callback_opening_file_hangs` |
| C46 | `--preserve-path` writes outside the output directory | `C46_parent_escapes`, `C46_absolute_escapes` |
| C47 | a stated archive size near 2^64 makes the signature check panic | `C47_huge_size_panics` |
| C48 | the reported size of an uncompressed file of several sectors is not what reading returns | `C48_stored_multi_sector_longer`, `C48_uncompressed_reads_stored_size` |
| C51 | files with equal last parts overwrite each other; names without a last part panic | `C51_files_overwrite_each_other`, `C51_name_without_last_part` |
| C53 | damage goes unnoticed where no checksums are recorded | `C53_content_ignored_without_records` |
| C54 | `*text` reports more, an inner `*` misses | `C54_suffix_masks_report_more`, `C54_inner_star_misses` |
| C55 | empty files are not counted; an appended strong signature is not reported | `C55_empty_files_not_counted`, `C55_strong_signature_unreported` |
| C56 | intact archives without listfile fail, wrong MD5 values pass | `C56_nameless_archive_fails`, `C56_wrong_digests_pass` |
| C57 | the last files of version 3 and 4 archives are missing | `C57_last_file_missing`, `C57_small_archive_misses_last` |
| C58 | packing and unpacking a directory loses files over one sector with `--compression none`; a directory with a `(listfile)` or with names differing in case only cannot be packed; ignore texts match the directory's own path; a name starting with a backslash is unpacked outside the output directory | `C58_stored_large_file_not_restored`, `C58_listfile_in_directory_fails`, `C58_same_names_fail`, `C58_ignore_matches_directory`, `C58_leading_backslash_escapes` |
| C59 | with deferred loading the tables are documented as loaded on first access; lookups, reads and listings fail instead | `C59_deferred_access_fails` |
| C60 | the number of hash table slots asked for is ignored; two calls insisting on a new file can both succeed, and a file that appears meanwhile is replaced | `C60_call_creates`, `C60_create_new_race`, `C60_create_new_replaces` |
| C61 | without a listfile the hashes listed are those of made-up names; through the extended tables none are delivered | `C61_placeholder_hashes`, `C61_extended_no_hashes` |
| C62 | a malformed "(attributes)" file, or one made for fewer files than the archive has, makes the whole archive unreadable | `C62_open_exactly_partial`, `C62_short_attributes_block_opening` |
| C63 | the analysis reports every file of an archive without extended tables as not compressed, and never finds an unsupported method | `C63_no_method_reported`, `C63_built_partial` |
| C65 | `list --verbose` panics on a name of more than 39 bytes in which a character lies across byte 36 | `C65_verbose_partial`, `C65_verbose_panics_on_built` |
| C65 | CSV output with hashes does not quote names: a comma in a name shifts the columns | `C65_csv_columns_partial` |
| C67 | `extract` of one file panics for a name whose last part is `..` | `C67_parent_panics` |
| C67 | `extract dir\\last` writes a file called `dir\\last`, with or without preserved paths | `C67_backslash_kept` |
| C67 | `info` as CSV does not quote names | `C67_info_csv_partial` |
| C68 | `hash generate --output json` prints names unescaped: a backslash or quotation mark gives something that is not JSON or tells another name | `C68_json_partial` |
| C68 | `hash generate --all --output json` prints text | `C68_all_not_json` |
| C69 | `SFileHasFile` never sets the last error, so `false` comes with the code of an earlier call | `C69_has_file_leaves_error` |
| C69 | `SFileSetLocale` has no effect on any other call | `C69_locale_ignored` |
| C70 | `config set default_output` is accepted and has no effect | `C70_output_ignored` |
| C70 | a broken configuration file stops every command, `config reset` included | `C70_reset_cannot_repair` |
| C70 | `config show` shows a version that is not used | `C70_shown_version_unused` |
| C70 | with a block size of 64 or more in the configuration file `archive create` panics | `C70_block_size_unchecked` |
| C71 | `SFileOpenArchive` on a path with nothing there gives 5 (access denied), not 2 (not found) | `C71_missing_archive_denied` |
| C71 | an archive cut off before a file: opening the file gives 1392, extracting it gives 5 | `C71_truncated_codes_differ` |
| C72 | an archive that was cut off is not called corrupt | `C72_truncation_not_corruption` |
| C72 | without a checksum no damaged content is called corruption, even if it cannot be decompressed | `C72_no_checksum_no_corruption` |
| C72 | an entry that points outside the block table is not called corruption | `C72_broken_entry_not_corruption` |
| C72 | a new archive is called corrupt because of a short file (attributes) | `C72_intact_called_corrupt` |
| C73 | `file find` ignores the output format: it prints lines even when JSON is asked for | `C73_find_not_json` |
| C73 | `archive analyze` in JSON prints nothing for an archive without files | `C73_analyze_nothing_not_json` |
| C73 | the two JSON reports spell the state of a signature differently: `WeakValid` and `Some(WeakValid)` | `C73_signature_spellings` |
| C73 | paths are not quoted in CSV: a path with a comma has more columns than the heading | `C73_info_csv_partial`, `C73_verify_csv_partial` |
| C74 | when user data points to an archive that has been cut off, another archive further in front is opened in its place, without an error | `C74_violated_user_data` |
| C74 | an archive of version 4 with its HET and BET tables at the end opens when part of the last table is missing; a file then reads other content than in the whole archive, without an error | `C74_violated_lost_tables` |
| C75 | opening panics when the HET table of a version 3 archive lies behind its hash table (negative size), when a version 4 table has a size of 2^63 or more, or when a HET position exceeds 64 bits together with the archive offset | `C75_violated_het_place` |
| C75 | opening a version 2 archive panics when the position of its hi-block table exceeds 64 bits together with the archive offset | `C75_violated_hi_place` |
| C75 | opening panics when a HET table has no entries or entries of no bits (the search for `(attributes)` divides by zero or counts down from zero) | `C75_violated_het_entries` |
| C76 | an archive with a weak signature is reported corrupt, whether the signature is right or wrong | `C76_weak_signature_refused` |
| C76 | verifying all files never answers when there is a file to check | `C76_files_never_answered` |
| C79 | of two files with the same name and different locales only the one added first can be read by name | `C79_same_name_order_matters` |
| C80 | a file of 224 bytes makes opening reserve any amount of memory below 2^63 bytes, and opens | `C80_any_amount` |
| C80 | a file of 32 bytes makes opening reserve up to 32 GiB | `C80_small_file_asks` |
| C81 | imploded files are returned still imploded, without error, when they begin with 0 | `C81_imploded_not_expanded` |
| C81 | single units that are flagged as compressed but stored as they are lose their first byte when it is 0 | `C81_first_byte_lost` |
| C81 | the last one to three bytes of encrypted files, which the format leaves alone, are decrypted too and come out wrong | `C81_odd_bytes` |
| C81 | encrypted uncompressed files of several sectors are decrypted with one key; all but the first sector comes out wrong | `C81_sectors_not_decrypted`, `C81_sectors_at_most_one`, `C81_sectors_read_wrong` |
| C82 | files of several sectors of which none is compressed are written with a table of offsets although their flags say there is none; other software takes the table for content | `C82_uncompressed_sectors` |
| C82 | files whose compressed form is as long as the original are stored compressed; other software takes them for uncompressed | `C82_equal_length` |
| C82 | the last one to three bytes of encrypted files are encrypted too, which the format leaves alone | `C82_odd_bytes` |
| C83 | entries of the block table marked as not existing, as deletion marks or as patches are still found and read as ordinary files | `C83_marked_still_read` |
| C84 | `SFileGetFileName` is not told the size of its buffer and writes beyond it for long names | `C84_file_name_overruns` |
| C84 | `SFileGetFileInfo` stores 8-byte and 4-byte numbers to buffers at any address: a panic with checks, undefined behaviour without | `C84_info_misaligned` |
| C85 | the number of bytes read is not compared with the size recorded: one changed byte makes a file of 1024 bytes be read as 514 bytes, without an error | `C85_silently_shorter` |
| C87 | an archive with a generated listfile cannot be packed again from what extracting it wrote, with default options | `C87_repack_refused` |
| C87 | the same creation command run twice with the archive inside the directory packs the first archive into the second | `C87_second_run_packs_archive` |
| C88 | the reader allots the size that the archive states for a file before it has seen any content: 74 bytes make it ask for almost 4 GiB | `C88_small_file_asks` |
| C89 | 29 bytes of 100, or anything in this proportion, are shown as 28 % | `C89_ratio_off` |
| C89 | sizes of archives are shown with two units, as in "1.50 KB bytes" | `C89_two_units` |
| C90 | silence that is compressed as audio is read back with samples that are one off | `C90_silence_not_exact` |
| C92 | a file without an extension in a folder with a dot, as in `maps.v2\readme`, is counted under the extension `v2\readme` | `C92_folder_taken_for_extension` |
| C93 | `archive analyze` says of every archive without extended tables that all its methods are supported | `C93_verdict_always_good` |
| C93 | `archive analyze` calls PKWARE not supported, though the library decompresses it | `C93_unsupported_yet_read` |
| C94 | `archive analyze --by-extension --unsupported-only` shows supported methods as well | `C94_supported_shown` |
| C97 | `file list --show-hashes` as text: a file with hashes looks like a file without hashes whose name ends in brackets (`storm-cli/src/output.rs` 307-311) | `C97_hashes_ambiguous` |
| C98 | the listfile is said to be compressed (`get_special_file_info`) also when the builder does not compress it | `C98_listfile_not_compressed` |
| C98 | `get_special_file_info` does not know other spellings of the names, though they reach the files | `C98_spelling_unknown` |

## Trusted base

* Lean 4.33.0's kernel. Axioms: at most `propext`, `Classical.choice`, `Quot.sound`; `AXIOMS.md` lists them for every theorem
  of the manifest (made by `tools/gen_axioms.py`). No axiom is added; there is no `sorry`, `native_decide` or `bv_decide`.
  Mathlib is not imported.
* The reading of /repo that produced the model. The code was not run, so the model was not tested against it. The theorems
  were tested against wrong models instead: `seeded/LOG.jsonl` records each edit and the theorems that failed.
* The assumed laws of external code, which appear as hypotheses and are shown to be satisfiable: `Codecs.Lawful` (decompressing
  what a codec compressed gives it back), digests of 16 bytes, `NoCollision` (of the names at hand no two that differ
  have the same 64-bit name hash), `Toml.Lawful` (a configuration written is read back), `ZlibTables` (zlib streams do not start with `0x02` and shorten the table).

## Files

* `properties.jsonl`, `MANIFEST.json`, `AXIOMS.md` are made by `tools/gen_properties.py`, `tools/gen_manifest.py`,
  `tools/gen_axioms.py`.
* `tools/mutate.py` applies the wrong edits listed in `seeded/m*.py` to a copy of the model and records which theorems fail;
  `tools/log_mutants.py` adds the results to `seeded/LOG.jsonl`.
