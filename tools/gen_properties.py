#!/usr/bin/env python3
"""Writes /verif/properties.jsonl (one JSON object per line)."""
import json, os
P = []
def p(id, title, statement, quantifier, why, anchors):
    P.append(dict(id=id, title=title, statement=statement, quantifier=quantifier,
                  why_tests_cant=why, anchors=anchors))

S = "mopaq/src/"
p("C01", "Block cipher round trip",
  "Decrypting with a key what was encrypted with the same key gives back the original dwords, and encrypting what was decrypted gives back the ciphertext; both keep the number of dwords.",
  "every 32-bit key (including 0) and every list of dwords of any length",
  "2^32 keys and unboundedly many buffers; the keystream depends on all previous plaintext.",
  [S+"crypto/encryption.rs: encrypt_block", S+"crypto/decryption.rs: decrypt_block"])
p("C02", "Byte cipher round trip for files of any length",
  "Encrypting a byte buffer the way the builder does and decrypting it the way the reader does restores it exactly, also when the length is not a multiple of four; the length never changes.",
  "every key and every byte string of any length",
  "Length residues, keys and contents are unbounded; the trailing 1-3 bytes follow a separate truncated path.",
  [S+"builder.rs: encrypt_data", S+"archive.rs: decrypt_file_data", S+"crypto/decryption.rs: decrypt_dword"])
p("C03", "Cipher conforms to the published MPQ cipher",
  "Encryption, the encryption table and the name hash compute exactly the published MPQ algorithms, so archives interoperate with other MPQ tools.",
  "every key, buffer, name and hash type 0..4",
  "Known-answer tests sample a few inputs of an unbounded domain.",
  [S+"crypto/keys.rs: generate_encryption_table", S+"crypto/encryption.rs", S+"crypto/hash.rs: hash_string"])
p("C04", "Name hashing ignores ASCII case and slash direction",
  "Two names that differ only in ASCII letter case and in '/' versus '\\\\' have equal hashes for every hash type and equal Jenkins hashes, so any lookup treats them as one name.",
  "every pair of byte strings equal up to ASCII case and separator, every hash type",
  "Unbounded set of name pairs.",
  [S+"crypto/hash.rs: hash_string, jenkins_hash", S+"crypto/keys.rs: ASCII_TO_UPPER, ASCII_TO_LOWER"])
p("C05", "Crypto table accesses never go out of bounds",
  "hash_string (types 0..4), encrypt and decrypt never index outside the 0x500-entry table; with a hash type of 5 or more hash_string panics on every non-empty name (without overflow checks the product wraps, so there only types whose low 24 bits are 5 or more panic).",
  "every name, key and buffer",
  "An out-of-bounds index is a panic that depends on data and key evolution.",
  [S+"crypto/hash.rs: hash_string", S+"crypto/encryption.rs: encrypt_block", S+"crypto/decryption.rs"])
p("C06", "Hash table lookup finds exactly what was added",
  "After any successful sequence of adds to a fresh table, looking a name up (default locale) returns an entry of that name when one was added and nothing when no added name has the same hash pair; the returned block index is the one recorded for the earliest added entry of that hash pair.",
  "every power-of-two table size, every sequence of (name, locale, block) adds that succeeds, every looked-up name",
  "Probe chains, wrap-around and collisions depend on the whole history of adds.",
  [S+"builder.rs: add_to_hash_table", S+"tables/hash.rs: find_file"])
p("C07", "Hash table adds terminate and lookups terminate",
  "A lookup examines each slot at most once on any table; an add ends whenever a free slot remains, and the size the builder picks always leaves a free slot for every file it adds.",
  "every table contents and name; every number of files",
  "Termination on all table contents is not observable by finite tests; a full table makes the add loop forever.",
  [S+"tables/hash.rs: find_file", S+"builder.rs: add_to_hash_table, calculate_hash_table_size"])
p("C08", "Duplicate names are rejected, other locales coexist",
  "Adding a name that equals an already added name up to case and slash direction with the same locale is an error, and adding it with a new locale succeeds without disturbing other files.",
  "every history of adds",
  "Depends on probe chains of arbitrary histories.",
  [S+"builder.rs: add_to_hash_table"])
p("C09", "Lookups honour the requested locale",
  "A lookup for a locale returns the entry of exactly that locale when it exists and otherwise a neutral entry.",
  "every table reachable by adds and every locale",
  "Which entry comes first in probe order depends on the add history.",
  [S+"tables/hash.rs: find_file", S+"archive.rs: find_file_classic"])
p("C10", "Hash and block tables survive write and read",
  "Writing a hash or block table (serialise, encrypt) at any position in a file and reading it back gives the same entries.",
  "every table of any size, any surrounding bytes",
  "Unbounded table sizes and contents.",
  [S+"builder.rs: write_hash_table, write_block_table", S+"tables/hash.rs: HashTable::read", S+"tables/block.rs: BlockTable::read"])
p("C11", "48-bit file positions survive the hi-block table",
  "A file position below 2^48 split into the block table's low word and the hi-block table's high word is recovered exactly by lookup in version 2+ archives; version 1 archives recover positions below 2^32 only.",
  "every position, every table index",
  "2^48 positions.",
  [S+"builder.rs: write_archive", S+"tables/block.rs: HiBlockTable", S+"archive.rs: find_file_classic"])
p("C12", "Archive headers survive write and read",
  "The header written for any version and any field values is parsed back to the same field values (positions up to 48 bits, sizes up to 64 bits).",
  "every format version and all field values",
  "Unbounded field combinations, four layouts.",
  [S+"builder.rs: write_header", S+"header.rs: MpqHeader::read"])
p("C13", "Header search",
  "Opening a file finds the header at the first 512-byte-aligned offset carrying an MPQ signature (or through a user data block that points to one), never at an unaligned offset without user data, always terminates, and fails when there is none.",
  "every file content of any length",
  "Unbounded files and prefixes.",
  [S+"header.rs: find_header"])
p("C14", "Compression never grows data",
  "compress returns at most as many bytes as it was given, for every method and every codec behaviour.",
  "every input, method byte and codec",
  "All inputs and codecs.",
  [S+"compression/compress.rs: compress"])
p("C15", "compress/decompress round trip",
  "When compress returns something other than its input, the first byte is the method and decompressing the rest with that method and the original size gives the input back, provided the external codec round trips.",
  "every input and every supported single method or supported combination",
  "All inputs; combinations of method flags follow different paths in the two directions.",
  [S+"compression/compress.rs", S+"compression/decompress.rs", S+"compression/methods.rs: from_flags"])
p("C16", "Sparse round trip",
  "Sparse-decompressing a sparse-compressed buffer gives the buffer back.",
  "every byte string",
  "Depends on run lengths across the whole buffer.",
  [S+"compression/algorithms/sparse.rs"])
p("C17", "Sparse decompression output size",
  "Sparse decompression of arbitrary data either fails or yields exactly the expected number of bytes.",
  "every byte string and expected size",
  "All malformed inputs.",
  [S+"compression/algorithms/sparse.rs: decompress"])
p("C18", "ADPCM decoder tracks the encoder",
  "For audio data of any length, decompressing what was compressed yields the same number of bytes, keeps the first sample of each channel exactly, and each decoded sample equals the encoder's own prediction (no drift). At the level the library uses no decoded sample is off by more than 2052.",
  "every input and compression level for which compression succeeds; whole-sample input always succeeds at levels 0..=9",
  "The adaptive state depends on the entire signal.",
  [S+"compression/algorithms/adpcm.rs: compress_internal, decompress_internal"])
p("C19", "ADPCM decoding is robust",
  "ADPCM decompression of arbitrary bytes never panics, never leaves the step table, and never emits more than one sample beyond the requested size after the initial samples.",
  "every byte string, output size and channel count",
  "All malformed inputs.",
  [S+"compression/algorithms/adpcm.rs: decompress_internal"])
p("C20", "Huffman decompression depends on its input",
  "Huffman decompression recovers distinct data from distinct compressed streams.",
  "every compressed stream",
  "Needs reasoning over all streams.",
  [S+"compression/algorithms/huffman.rs"])
p("C21", "Single-unit file round trip",
  "A file no longer than a sector written by the builder is read back byte for byte, with any combination of compression, encryption, position-dependent key and checksum.",
  "every name, content up to the sector size, method, flags, position and surrounding bytes",
  "All contents and option combinations.",
  [S+"builder.rs: write_file", S+"archive.rs: read_file"])
p("C22", "Multi-sector file round trip",
  "A file longer than a sector written by the builder is read back byte for byte, with any combination of compression, encryption, position-dependent key and checksum.",
  "every name, content, sector size, method, flags, position and surrounding bytes",
  "All contents; per-sector decisions interact with the file-wide flag.",
  [S+"builder.rs: write_file", S+"archive.rs: read_file, read_sectored_file"])
p("C23", "Checksums detect corruption of stored data",
  "When a file carries checksums, reading stored data whose checksum does not match fails with a checksum error instead of returning wrong bytes, and undamaged data is accepted.",
  "every file content and every corruption",
  "All corruptions.",
  [S+"archive.rs: read_file, read_sectored_file", S+"builder.rs: write_file"])
p("C24", "Writer and reader derive the same file key",
  "The key the reader computes for a file equals the key the builder used, for every spelling of the name up to case and slashes.",
  "every name, position, size and flag combination",
  "All names and positions.",
  [S+"builder.rs: calculate_file_key", S+"archive.rs: read_file"])
p("C25", "Reading never panics on malformed archives",
  "Reading a file from an arbitrary (possibly malicious) archive returns data or an error; it never panics.",
  "every file content",
  "All byte strings.",
  [S+"archive.rs: read_file, read_sectored_file", S+"header.rs: sector_size"])
p("C26", "Built archives return every added file",
  "After a successful build, opening the result and reading any added name (in any case or slash spelling) returns exactly the data added under it.",
  "every list of pending files, options and format version",
  "End-to-end over unbounded file lists and contents.",
  [S+"builder.rs: build, write_archive", S+"archive.rs: open_with_options, load_tables, read_file"])
p("C27", "Built archives list every added file",
  "After a successful build with a generated listfile, list() returns every added name and the listfile, each once, with the recorded size.",
  "every list of pending files",
  "Names are arbitrary strings that go through a text format.",
  [S+"builder.rs: prepare_listfile", S+"special_files/listfile.rs: parse_listfile", S+"archive.rs: list"])
p("C28", "Listfile text round trip",
  "Parsing a generated listfile yields exactly the names it was generated from, in order.",
  "every list of names",
  "Arbitrary strings.",
  [S+"builder.rs: prepare_listfile", S+"special_files/listfile.rs: parse_listfile"])
p("C29", "File data regions are disjoint",
  "In a built archive the header, every file's bytes, and each table occupy pairwise disjoint ranges that tile the archive.",
  "every list of pending files",
  "All file lists.",
  [S+"builder.rs: write_archive"])
p("C30", "Bit-packed entries do not interfere",
  "Writing a bit-packed entry makes that entry read back as written (modulo its width) and leaves every other bit of the array unchanged; writes outside the array are refused.",
  "every array, index, value and width",
  "All alignments, widths and neighbours.",
  [S+"builder.rs: write_bit_entry, calculate_bits_needed"])
p("C31", "HET lookup returns the right file",
  "In an archive with HET/BET tables, looking up an added name through HET gives that file's index, and a name that was not added is not resolved to some other file.",
  "every list of names",
  "Depends on hashes of all names.",
  [S+"builder.rs: create_het_table", S+"tables/het.rs: find_file", S+"archive.rs: find_file"])
p("C32", "BET file records round trip",
  "The position, sizes and flags stored for a file in the BET table are read back exactly.",
  "every block table",
  "Bit widths depend on all files.",
  [S+"builder.rs: create_bet_table", S+"tables/bet.rs: get_file_info"])
p("C33", "HET/BET tables survive write and read",
  "A HET or BET table written to an archive (optionally compressed, always encrypted) is read back with the same contents.",
  "every table content, with and without table compression",
  "All table contents and lengths.",
  [S+"builder.rs: write_het_table, write_bet_table", S+"tables/het.rs: read", S+"tables/bet.rs: read"])
p("C34", "Fresh version 4 archives validate",
  "In a freshly built version 4 archive every recorded MD5 (tables and header) equals the one the reader recomputes.",
  "every list of pending files and options",
  "All archives.",
  [S+"builder.rs: write_archive_with_het_bet, finalize_v4_header_md5", S+"archive.rs: validate_v4_md5_checksums"])
p("C35", "Attributes round trip",
  "Serialising file attributes and parsing the bytes gives the same per-file values for every enabled column.",
  "every flag set and list of attributes",
  "All lists.",
  [S+"special_files/attributes.rs: Attributes::parse, to_bytes"])
p("C36", "Attributes parsing is total",
  "Parsing arbitrary bytes as attributes never panics, and succeeds exactly when the version is 100 and the data is long enough for the declared columns.",
  "every byte string and block count",
  "All inputs.",
  [S+"special_files/attributes.rs: Attributes::parse"])
p("C37", "Valid weak signatures are accepted",
  "A weak signature whose RSA decryption is the correctly padded digest of the archive is reported as valid, and no other signature is.",
  "every digest and signature value",
  "RSA values cannot be enumerated.",
  [S+"crypto/signature.rs: verify_weak_signature_stormlib, verify_pkcs1_v15_md5"])
p("C38", "Strong signature acceptance is exact",
  "A strong signature is reported valid exactly when the decrypted block is 0x0B, 235 bytes 0xBB and the SHA-1 of the archive range.",
  "every digest and signature value",
  "RSA values cannot be enumerated.",
  [S+"crypto/signature.rs: verify_strong_signature, verify_mpq_strong_signature_padding"])
p("C39", "Signature hashing is independent of read chunking",
  "The bytes hashed for a weak signature are the archive range with the signature file zeroed, whatever sizes the underlying reads return.",
  "every archive, exclusion range and schedule of short reads",
  "All read schedules.",
  [S+"crypto/signature.rs: calculate_mpq_hash_md5"])
p("C40", "Building is atomic for the destination",
  "At every instant, and after a crash or an error at any step, the destination path holds either its previous content or the complete new archive.",
  "every crash point and every failing step",
  "Crash points cannot be enumerated by tests.",
  [S+"builder.rs: build"])
p("C41", "FFI handles are unique and never reused",
  "Every handle returned by the C API is non-zero and different from every handle returned before, for archives and files alike.",
  "every sequence of API calls",
  "Unbounded call histories.",
  ["storm-ffi/src/lib.rs: SFileOpenArchive, SFileOpenFileEx"])
p("C42", "FFI sequential reads reproduce the file",
  "Reading an open file with any sequence of buffer sizes returns consecutive pieces of its data, never past the end, and the position never exceeds the length.",
  "every file content and sequence of read sizes and seeks",
  "All call sequences.",
  ["storm-ffi/src/lib.rs: SFileReadFile, SFileSetFilePointer"])
p("C43", "FFI seeking follows the documented origin arithmetic",
  "Setting the file pointer moves to origin + offset clamped to [0, length].",
  "every offset, origin and file",
  "2^64 offsets.",
  ["storm-ffi/src/lib.rs: SFileSetFilePointer"])
p("C44", "Closing an archive closes its files",
  "After SFileCloseArchive returns, no file handle of that archive remains usable, under any interleaving with other threads.",
  "every interleaving of API calls",
  "Schedules cannot be enumerated.",
  ["storm-ffi/src/lib.rs: SFileCloseArchive, SFileOpenFileEx"])
p("C45", "FFI calls do not deadlock",
  "Every C API call returns: no call waits for a lock its own thread already holds, and locks are acquired in a consistent order.",
  "every call, archive and schedule",
  "Schedules and lock orders cannot be enumerated.",
  ["storm-ffi/src/lib.rs: SFileVerifyArchive, SFileVerifyFile, SFileEnumFiles"])
p("C46", "Extraction stays inside the output directory",
  "Extracting all files writes only below the chosen output directory.",
  "every archive file name",
  "Arbitrary names from untrusted archives.",
  ["storm-cli/src/commands/file.rs: extract"])
p("C47", "Signature status precedence",
  "verify_signature reports the strong signature status whenever a strong signature is present, otherwise the weak status, and none if there is neither.",
  "every archive",
  "All archives.",
  [S+"archive.rs: verify_signature"])
p("C48", "Reported file size matches the data",
  "The size reported for an open file equals the number of bytes that can be read from it.",
  "every archive and file",
  "Depends on codec output versus recorded sizes.",
  ["storm-ffi/src/lib.rs: SFileGetFileSize, SFileOpenFileEx", S+"archive.rs: read_file"])
p("C49", "Audio compression combines with lossless compression",
  "Compressing with an audio method together with one lossless method and decompressing gives exactly the samples the audio method alone gives.",
  "every audio input and every combination of one audio and one lossless method accepted by compress",
  "Sizes of intermediate streams depend on the whole signal; combinations multiply.",
  [S+"compression/compress.rs: compress_multiple", S+"compression/decompress.rs: decompress_multiple"])
p("C50", "Building succeeds for every usable set of files",
  "Building an archive returns success whenever every source can be read, is below 4 GiB and can be compressed, no two files share name and locale, and the sector size is in range.",
  "every set of files, names, contents and options",
  "The hash table size, probing and the widths of the extended tables depend on all files together.",
  [S+"builder.rs: build, write_archive, add_to_hash_table"])
p("C51", "Extraction leaves every file",
  "When all files of an archive were extracted without an error, every listed file that can be read is found with its content in the output directory; extraction does not panic because of a name.",
  "every archive, set of file names and contents",
  "Names from arbitrary archives; which file survives depends on all of them together.",
  ["storm-cli/src/commands/file.rs: extract"])
p("C52", "Open files are independent of each other",
  "What is read from an open file, and its position, depend only on the calls made with its own handle: calls with other handles, in other threads and at any moment, change neither, unless they close it or its archive; a closed handle stays closed.",
  "every number of threads, every interleaving of calls, every archive and file",
  "Schedules and call histories cannot be enumerated.",
  ["storm-ffi/src/lib.rs: SFileReadFile, SFileSetFilePointer, SFileCloseFile, SFileCloseArchive, SFileOpenFileEx"])
p("C53", "Verifying a file finds damage",
  "Verifying a file reports success only if its content passes every check asked for; a file whose content changed is not reported good.",
  "every archive, file, flags and recorded checksums",
  "All contents, all flag combinations and all combinations of recorded checksums.",
  ["storm-ffi/src/lib.rs: SFileVerifyFile"])
p("C54", "Enumeration with a mask reports exactly the files that fit",
  "Enumerating with a mask, in which * stands for any text and ? for any character, reports exactly the listed names that fit the mask.",
  "every archive listing and mask",
  "All masks and names.",
  ["storm-ffi/src/lib.rs: SFileEnumFiles"])
p("C57", "Files without a known name are still listed",
  "Enumerating all files of an archive reports every stored file exactly once with its size, under a numbered name; listing an archive without listfile reports as many files as are stored.",
  "every archive, and every set of files an archive is built from",
  "The result depends on the whole hash and block tables, or on the packed extended table.",
  [S+"archive.rs: list, list_all", S+"tables/bet.rs: get_file_info"])
p("C55", "The description of an archive is accurate",
  "Describing a freshly built archive reports the size of the file, where the archive begins, its format version and sector size, the number of its files, capacity for at least as many, whether some file is encrypted, whether it has a listfile, attributes or a signature, the places and sizes of its tables, and (version 4) that all MD5 values are right.",
  "all builders and file contents, all bytes before and after the archive, all four versions",
  "Each field is computed from another table; tests look at archives with a few non-empty files. Empty files, signatures that follow the archive and archives inside larger files need a statement about all of them.",
  [S + "archive.rs:633-850"])

p("C56", "The verify command tells intact archives from damaged ones",
  "The command line tool's verify command succeeds exactly if the archive opens, can be described and listed, and every listed file is found and (with content checking) can be read; its counts of found, missing, readable and corrupted files add up to the number listed; freshly built archives verify, and archives whose recorded checksums are wrong do not.",
  "all files given to the command, all combinations of its options, all builders",
  "Tests verify a few fresh archives. That nothing else influences the exit status, and that checksum verdicts do, is a statement about all inputs.",
  ["storm-cli/src/commands/archive.rs:159-303"])

p("C58", "A directory packed and unpacked is the same directory",
  "Creating an archive from a directory with the command line tool and extracting it with preserved paths restores every file asked for (recursion and ignore options respected) under its relative path and with its content, and touches nothing outside the output directory.",
  "all directories, contents, options and output directories",
  "The claim composes walking, naming, building, listing, lookup, reading and writing; tests try a few small trees.",
  ["storm-cli/src/commands/archive.rs:15-147", "storm-cli/src/commands/file.rs:75-148", S + "builder.rs:329-340"])

p("C59", "Deferring the tables changes when they are loaded, not what is read",
  "An archive opened with deferred table loading behaves, from its first access on, exactly like one opened normally: the same lookups, contents, listings, descriptions and failures; loading explicitly, or twice, changes nothing.",
  "all files, names and codecs",
  "Equality of two ways of opening over every archive, damaged ones included; the only test of the option checks that the flag is stored.",
  [S + "archive.rs:146-199", S + "archive.rs:313-327", S + "archive.rs:329-620", S + "archive.rs:633-638"])

p("C60", "Creating an archive respects the creation disposition",
  "A call that creates an archive replaces an existing file only if the disposition says so, leaves an empty archive with the requested number of hash table slots that opens and lists nothing but its listfile, and reports the documented codes otherwise; of several calls insisting on a new file only one succeeds.",
  "all dispositions, sizes, contents of the path and interleavings of calls",
  "Single calls are tested on fresh paths; interleavings and what becomes of an existing file are not.",
  [S + "archive.rs:229-256", "storm-ffi/src/lib.rs:194-287", S + "lib.rs:105-107"])

p("C61", "Hash listings agree with the plain listings and identify the files",
  "Listing or enumerating with hashes reports the same entries in the same order as without, and the two hashes beside an entry are those of the name under which the file was added.",
  "all archives, names and tables",
  "Agreement of two listings over all archives, damaged ones included; tests compare a handful of names.",
  [S + "archive.rs:1126-1137", S + "archive.rs:1140-1213"])

p("C62", "Attributes put into an archive are found again, and bad ones do not cost the files",
  "When a file named \"(attributes)\" is added to an archive, opening the archive gives every file the attributes recorded at "
  "its position and every file is still read back; the archive opens whenever its files are intact, whatever the content "
  "of the attributes file.",
  "all builders, files, options, attributes contents, surrounding bytes",
  "The content is arbitrary and may be doubly compressed; tests use attributes written by the same tool for the right count.",
  [S + "archive.rs:1498-1573", S + "special_files/attributes.rs", S + "builder.rs"])

p("C63", "The analysis of an archive names the compression method of every file",
  "Analysing an archive counts every listed file under the method it is stored with, lists those whose method is not "
  "supported, and adds up the sizes.",
  "all archives; for the figures: all builders with a generated listfile",
  "The method is nowhere in the tables; tests only look at archives where the answer happens to be the same.",
  ["storm-cli/src/commands/archive.rs:615-770"])

p("C64", "A chain of builder calls means what its calls say, in whatever order",
  "For every chain of calls on a new archive builder: each option has the value given last (or its documented default), the files "
  "are those added, in order, each with the options of its own call and the default method in force at that point; files named by "
  "path are read when the archive is built; and the archive made with the default options gives every file back.",
  "all chains of calls, all contents of the disk",
  "The chains are unbounded and every interleaving of setters and additions is allowed; tests use a handful of orders.",
  [S + "builder.rs:165-505", S + "builder.rs:525-607"])

p("C65", "Listing and finding files shows exactly the matching files, readably",
  "The commands list and find show the entries of the archive that match the pattern, list sorted by name, with or without hashes; the "
  "names can be read back from the text and CSV output; and the verbose table shows sizes, flags, sums and names of every file.",
  "all archives, patterns, names and sizes",
  "Names are arbitrary texts, so where a name is cut, what separates columns and how names sort cannot be covered by samples.",
  ["storm-cli/src/commands/file.rs:17-70", "storm-cli/src/commands/file.rs:168-213", "storm-cli/src/output.rs:334-372",
   "storm-cli/src/output.rs:374-520"])

p("C66", "Any spelling of a name reaches the same file",
  "In every archive, names that differ only in the case of ASCII letters and in the kind of slashes find the same entry and give the same "
  "content or the same error, encrypted files included; so do the calls of the C interface that take a name.",
  "all archives (of any version, damaged ones included) and all pairs of names",
  "The search, the hash tables, the extended tables and the decryption key each derive something else from the name; tests try a few "
  "spellings in one archive.",
  [S + "archive.rs:874-960", S + "archive.rs:1213-1300", S + "tables/hash.rs", S + "crypto/hash.rs", "storm-ffi/src/lib.rs:1059-1159"])

p("C67", "Extracting one file writes its content where the user said; asking for its size tells the truth",
  "Extracting one file writes exactly its content to the path given, or to its name, or to the last part of its name in the working "
  "directory; nothing is written if it cannot be read. The information about a file shows the number of bytes extraction would write.",
  "all archives, names, paths and contents",
  "Names come from archives and are arbitrary; tests use names with one kind of slash.",
  ["storm-cli/src/commands/file.rs:75-108", "storm-cli/src/commands/file.rs:218-234", "storm-cli/src/output.rs:553-574"])

p("C68", "The hash commands print the published hashes and JSON that means what it says",
  "Generating prints the published hash of the type asked for (or all five) as hexadecimal; as JSON it prints an object that tells name, type "
  "and value. Comparing two names shows exactly the types in which the hashes are equal, which are all five for two spellings of one name.",
  "all names, types and output formats",
  "Names are arbitrary texts, and which characters break a JSON string shows only with such a name.",
  ["storm-cli/src/commands/hash.rs:11-100"])

p("C69", "The last error of a thread tells how its last call went, and the locale it set selects the version of a file",
  "After every call of the C interface SFileGetLastError, asked by the same thread, tells 0 if that call succeeded and its error code "
  "otherwise, whatever other threads do; so a size or position of 0xFFFFFFFF can be told from a failure. SFileSetLocale returns the locale "
  "set before by the same thread, and files are opened in the version of that locale.",
  "any number of threads, any calls, any interleaving",
  "Which thread runs when is not under the control of a test, and a code left over from an earlier call looks like a right one.",
  ["storm-ffi/src/lib.rs:27-31", "storm-ffi/src/lib.rs:108-110", "storm-ffi/src/lib.rs:565-584", "storm-ffi/src/lib.rs:871-897"])

p("C70", "Settings saved in the configuration take effect",
  "A setting made with config set is accepted exactly if it is one of the documented ones, is stored without changing other settings or files, "
  "and is used by later commands that do not give the option themselves; the command line takes precedence, config reset brings the "
  "documented defaults back, and config show tells what is used.",
  "all configurations, keys, values, command lines and states of the disk",
  "The settings, their sources and the commands that should use them multiply; tests try one command with one setting.",
  ["storm-cli/src/config.rs:8-82", "storm-cli/src/main.rs:433-556", "storm-cli/src/main.rs:708-851"])

p("C71", "The C API, used one call at a time, answers as the library does",
  "A program that calls the C API one call at a time gets handles that work exactly from the call that returns them to the call that closes "
  "them or their archive, gets from them the names, sizes and bytes that the library reads from the archive, and is told by the documented "
  "error code why a call failed, the same code for the same cause.",
  "all archives, names, handles, buffer sizes and sequences of calls of any length, from any state without a running call",
  "What a call answers depends on all the calls before it and on the archive; tests make a handful of calls on one archive.",
  ["storm-ffi/src/lib.rs:92-152", "storm-ffi/src/lib.rs:169-365", "storm-ffi/src/lib.rs:366-560", "storm-ffi/src/lib.rs:735-815"])

p("C72", "The class of an error tells whether to look for another file or to distrust the archive",
  "An error is called recoverable exactly if the file asked for is not in the archive, and corruption exactly if the archive is damaged; "
  "opening never fails with a recoverable error.",
  "all archives, damaged ones of any kind included, all names and all error values",
  "There is no end of ways to damage an archive; the unit tests classify two error values that they construct themselves.",
  ["mopaq/src/error.rs:131-151", "mopaq/src/archive.rs:293-498", "mopaq/src/archive.rs:874-947", "mopaq/src/archive.rs:1213-1495"])

p("C73", "Reports in JSON are JSON and say what the archive says",
  "With output in JSON every command of the tool prints one JSON text, which denotes exactly the names, sizes, hashes, tables, signature "
  "states and figures that the library reports; with output in CSV every row has the columns of the heading.",
  "all archives, paths and names with any bytes, and all reports",
  "Names may have quotation marks, line feeds and control characters anywhere; tests look at a few names and never parse the output.",
  ["storm-cli/src/output.rs:8-12", "storm-cli/src/output.rs:217-297", "storm-cli/src/output.rs:314-366", "storm-cli/src/output.rs:561-567",
   "storm-cli/src/commands/archive.rs:149-303", "storm-cli/src/commands/archive.rs:559-607", "storm-cli/src/commands/archive.rs:924-986"])

p("C74", "A file that has been cut off never passes for a whole archive",
  "When an archive file has lost its end, opening it fails, or it opens with the same tables and every file that can be read from it has "
  "the content that the whole file has; an archive that the library built does not open at all once anything is missing at its end.",
  "all files, all lengths they are cut to, and all archives the builder makes, also behind other content",
  "An interrupted download can end at any byte; tests use whole files, and a cut at one place says nothing about the others.",
  ["mopaq/src/archive.rs:298-326", "mopaq/src/archive.rs:329-498", "mopaq/src/archive.rs:1213-1336", "mopaq/src/header.rs:279-341",
   "mopaq/src/tables/hash.rs:92-131", "mopaq/src/tables/block.rs:111-145", "mopaq/src/tables/block.rs:207-216"])

p("C75", "Opening a file never brings the program down",
  "Opening a file, whatever it contains, ends with an archive or with an error the caller is told of: it never panics and never goes on "
  "for ever. The same holds for looking up a name in an archive of version 1 or 2 that is open.",
  "all files of all lengths, with the tables loaded at once or later, and all names",
  "Damaged and hostile files are without number; fuzzing samples them and does not show that none is left that brings the program down.",
  ["mopaq/src/archive.rs:298-326", "mopaq/src/archive.rs:329-498", "mopaq/src/archive.rs:500-560", "mopaq/src/header.rs:279-341",
   "mopaq/src/tables/hash.rs:92-131", "mopaq/src/tables/block.rs:111-145", "mopaq/src/tables/het.rs:60-264", "mopaq/src/tables/bet.rs:70-222"])

p("C76", "Verifying an archive through the C interface answers what its signature says",
  "SFileVerifyArchive reports success for an archive whose signature is valid, and an error when the archive does not match its signature "
  "or a file in it is damaged; it always answers.",
  "all archives, flags, keys and states of the process in which no other call is under way",
  "Whether an answer can be trusted is a statement about all archives and all changes to them; tests verify a handful of archives.",
  ["storm-ffi/src/lib.rs:1167-1270", "mopaq/src/archive.rs:1567-1692"])

p("C77", "Damage stays where it is",
  "If bytes of an archive file change, everything stored elsewhere is as before: with damage outside of the header and tables the archive "
  "opens with the same tables, lists the same names, and every file whose own bytes are not touched is read exactly as before; in an archive "
  "made by the builder, damage inside of one file affects the reading of no other file.",
  "all archives, all damaged ranges, all replacement bytes, all files",
  "A test can change some bytes of some archive; that no byte outside a file matters to it is a statement about all bytes and archives.",
  ["mopaq/src/archive.rs:293-499", "mopaq/src/archive.rs:950-1048", "mopaq/src/archive.rs:1213-1496", "mopaq/src/builder.rs:525-1080"])

p("C78", "Reading at a place gives the bytes of that place",
  "read_at of the archive reader returns exactly the bytes at the offset asked for, or an error; this depends neither on the calls made "
  "before nor on how the system splits or interrupts the reads; calls to read deliver every byte once and in order.",
  "all files, offsets, lengths, histories of calls and ways in which the system answers",
  "The splitting of reads is decided by the system; tests with a cursor in memory never see a short or interrupted read.",
  ["mopaq/src/io.rs:7-44"])

p("C79", "What a file reads as does not depend on the rest of the archive",
  "A file added with a given content, compression method and sector size is read back from one archive exactly if it is read back from "
  "any other, whatever other files there are, in which order they were added, and whatever the version, listfile, checksum and encryption "
  "options; the order in which files are added does not matter.",
  "all pairs of built archives, all files and spellings of names, all orders",
  "This compares all pairs of archives; tests build a few and never compare them.",
  ["mopaq/src/builder.rs:525-1080", "mopaq/src/archive.rs:1213-1496"])

p("C80", "Memory in proportion to the file",
  "Opening an archive reserves no more memory at a time than the file is long, so a small file from an untrusted source cannot exhaust memory.",
  "all files, as bytes; all versions",
  "Sizes in headers have 32 and 64 bits; a test that tried them would exhaust memory, and none does.",
  ["mopaq/src/archive.rs:329-498", "mopaq/src/tables/hash.rs:84-110", "mopaq/src/tables/block.rs:105-125", "mopaq/src/tables/het.rs:60-75", "mopaq/src/tables/bet.rs:70-183"])

p("C81", "Files are read as the format stores them",
  "A file stored as the format describes it (in one unit or in sectors, compressed or not, encrypted or not, with a key that depends on its place or not) is read as what it is, whoever wrote the archive.",
  "all archives, names and contents; all sector sizes up to 2^63 bytes; all combinations of flags",
  "Tests read archives written by the library itself, so a mistake made alike in writing and reading does not show.",
  ["mopaq/src/archive.rs:1213-1336", "mopaq/src/archive.rs:1340-1500", "mopaq/src/archive.rs:1764-1864", "docs/mopaq-format.md:711-732"])

p("C82", "Files are written as the format stores them",
  "What the builder writes for a file, together with the entry it records, is what the format's description prescribes for it, so that any software that follows the description reads the file.",
  "all names, places, contents, lossless methods, sector sizes from 512 bytes and options for encryption, keys and checksums",
  "Tests read back with the library itself, so a mistake made alike in writing and reading does not show.",
  ["mopaq/src/builder.rs:898-1110", "mopaq/src/builder.rs:1326-1374", "docs/mopaq-format.md:711-732"])

p("C83", "Deleted files are gone and the others stay",
  "When a file is deleted from an archive by the means the format provides (its slot in the hash table marked as deleted, its entry in the block table marked as not existing), it is no longer found, and every other file is found and reads as before.",
  "all archives of versions 1 and 2, whoever made them; all slots, names and locales",
  "The library does not delete files, so no test has a deleted one; which lookups pass a slot depends on the whole table.",
  ["mopaq/src/tables/hash.rs:41-54", "mopaq/src/tables/hash.rs:149-184", "mopaq/src/tables/block.rs:25-66", "mopaq/src/archive.rs:910-947", "docs/mopaq-format.md:1373"])

p("C84", "The C interface writes only to the memory it was lent",
  "A call of the C interface that is given pointers changes no byte of the calling program's memory but those of the buffer of the size it was told and of the results it was asked for; a call that fails leaves the buffer alone. What it puts there is what it was asked for: the bytes of the file and their number, the information of the class and the size it needs, the path with its terminating zero.",
  "all contents of memory, all pointers, sizes and handles; all open archives and files",
  "Memory written beyond the end of a buffer usually shows nowhere in a test; it depends on the length of names and on the addresses of buffers.",
  ["storm-ffi/src/lib.rs:320-397", "storm-ffi/src/lib.rs:423-557", "storm-ffi/src/lib.rs:594-794", "storm-ffi/src/lib.rs:907-936"])

p("C85", "Damage to a sector stays in the sector",
  "If bytes of an archive change within one sector of a compressed file of several sectors, everything that is read up to that sector is as before; what is read in the sector is what the changed bytes stand for, and the content behind it is as before, unless decompressing the changed bytes gives another number of bytes. If it cannot be decompressed, reading fails. In encrypted data, the bytes up to the changed dword are decrypted as before.",
  "all archives, files, sectors and changes within a sector; all compression methods",
  "Tests damage a few bytes of a few files; which part of the content is affected depends on the place, the compression of each sector and the encryption.",
  ["mopaq/src/archive.rs:1339-1495", "mopaq/src/crypto/decryption.rs:5-30", "mopaq/src/compression/decompress.rs:12-60"])

p("C86", "Whole archives follow the published format, in both directions",
  "A file that is an archive as the MPQ format describes it (versions 1 and 2: header, encrypted hash and block tables, high positions, probing order) opens, whoever wrote it; every file stored in it is found with the places, sizes and flags its block entry gives and is read as its content, every other name is reported as missing. What the builder writes in these versions is such an archive: other software that follows the format finds exactly the files that were added. The format itself determines one entry and one content for each name.",
  "all byte sequences that are archives of versions 1 and 2, with any data in front and behind; all builders of these versions; all names",
  "Tests use archives written by the same library, so that a misunderstanding of the format shared by reader and writer goes unnoticed; a few foreign archives cannot cover the combinations of sizes, positions, probing orders and flags.",
  ["mopaq/src/header.rs", "mopaq/src/archive.rs:298-640", "mopaq/src/archive.rs:874-960", "mopaq/src/tables/hash.rs:41-184", "mopaq/src/tables/block.rs:25-216", "mopaq/src/builder.rs:525-735", "mopaq/src/builder.rs:1161-1330"])

p("C87", "An archive can be unpacked and packed again",
  "Extracting all files of an archive into an empty directory and making an archive of that directory gives an archive with the same files: each is read under every spelling of its name with the content it had, no others are there, and the listing is the same. Making the archive again by the same command gives an archive of the same files.",
  "all archives whose listed files can be read, whoever made them; all directories, options and orders in which the directory is listed",
  "Tests pack or unpack, with a few files; they do not follow files through an unknown directory listing and back, and the special files that archives contain come into play only the second time.",
  ["storm-cli/src/commands/archive.rs:41-146", "storm-cli/src/commands/file.rs:75-148", "mopaq/src/builder.rs:525-735"])

p("C88", "Reading a file takes no more memory than the archive and the content warrant",
  "While a file is read no single buffer is asked for that is larger than the archive and larger than the content that is read.",
  "all archives, whoever made them, all names and contents",
  "Tests do not measure memory, and the archives at hand state true sizes; a crafted archive of a few bytes can state any.",
  ["mopaq/src/archive.rs:1213-1336", "mopaq/src/archive.rs:1339-1495"])

p("C89", "Sizes and percentages shown are right",
  "A size written for people is the true one to the nearest hundredth of the unit, in the largest unit that is not larger than the size, and has one meaning. A percentage is the whole part of the true one; shares of the number of files are true to the nearest tenth of a percent.",
  "all sizes below 2^53 bytes, compressed sizes below 2^44 bytes, and numbers of files below 2^40",
  "The figures go through floating point; errors show up at particular proportions and next to the limits of units, which tests with a few sizes do not meet.",
  ["storm-cli/src/output.rs:189-204", "storm-cli/src/output.rs:417-421", "storm-cli/src/output.rs:490-541", "storm-cli/src/commands/archive.rs:683-688", "storm-cli/src/commands/archive.rs:842-847"])

p("C90", "Audio read back is close to the original",
  "When sound is compressed with loss and read back, every sample is close to the original by a bound that depends only on how fast the sound changes, however long it is. No sample is much further from the original than the one before it was, and silence stays silence.",
  "all sounds of one or two channels of any length, for audio compression alone and combined with a second method that can be undone",
  "The error is carried from sample to sample; tests with a few seconds of one sound cannot exclude that errors add up.",
  [S+"compression/algorithms/adpcm.rs: compress_internal, decompress_internal", S+"compression/compress.rs: compress"])

p("C91", "Reports for people say what was found",
  "The text printed by `archive info` and `archive verify` says every fact that the program knows about the archive, once and under its heading: counts, sizes, offsets, versions, which tables were loaded, digests, signatures. What an archive does not have is not mentioned. The report of a verification lists every error and warning in order, and its last line says PASSED exactly when the command succeeds.",
  "all archives, whatever tables, user data and digests they have, all numbers of files, errors and warnings, all paths and messages without line feeds",
  "The parts of a report are optional and of any length; a test looks for a few words in the reports on a few archives and cannot tell that no fact is missing, repeated or under another heading.",
  ["storm-cli/src/output.rs: print_archive_info_text, print_table_info, print_md5_status, format_signature_status", "storm-cli/src/commands/archive.rs: info, verify, print_detailed_verify_result"])

p("C92", "Analysis by extension counts every file under its extension",
  "`archive analyze --by-extension` counts, for each extension and compression method, the files found that have both; the counts of an extension add up to its files and those of a method to all files with that method, and the JSON output says exactly these counts. The extension is what follows the last dot in the last part of the name, in lower case; files without one are counted together.",
  "all archives, all names and numbers of files, all methods",
  "Names are arbitrary, with folders separated by backslashes or slashes and dots anywhere; tests use a few plain names.",
  ["storm-cli/src/commands/archive.rs: analyze, get_file_extension, print_json_analysis_results"])

p("C93", "The text of an analysis says which compression methods occur and whether they are supported",
  "The text that `archive analyze` prints has a line for every compression method that occurs, most files first, with the number of files, their percentage and whether the method is supported; with `--show-stats` the totals; if files use methods that are not supported, how many and how many for each method, and with `--unsupported-only` which. That all methods are supported is said exactly if they are.",
  "all archives, all numbers of files, methods and sizes, all orders in which a hash map is gone through, every combination of --quiet, --unsupported-only and --show-stats",
  "The methods come out of a hash map, in an order that differs from run to run, and lists of any length are mixed with optional parts; a test sees one order on one archive.",
  ["storm-cli/src/commands/archive.rs: analyze, print_text_analysis_results, is_compression_supported, is_compression_method_supported"])

p("C94", "Details in the text of an analysis: a line for every file, and the methods by extension",
  "`archive analyze --detailed` adds to the text exactly one line for every file listed that is found, in the order of the list, telling whether its method is supported, its name, its method and, with `--show-stats`, its sizes and their ratio; `--by-extension` adds for every extension how many files have it and how many of these have each method, most files first. Nothing else in the text changes. With `--unsupported-only` only files with methods that are not supported are shown.",
  "all archives, all numbers of files, extensions, methods and sizes, all orders in which the hash maps are gone through, every combination of the five options",
  "Tables of any length come out of nested hash maps, in orders that differ from run to run, and are mixed with optional parts; a test sees one order, one archive and few of the 32 combinations.",
  ["storm-cli/src/commands/archive.rs: analyze, print_text_analysis_results, get_file_extension"])

p("C95", "Verbose verification accounts for every file",
  "`archive verify --verbose` adds to the text exactly one line for every file listed, in the order of the list: whether it is found, how many bytes were read or why it cannot be read. The files marked as failed are those the report has errors about, and the command succeeds exactly if no file is marked so. Nothing else in the text changes. If the command stops at a file, every file before it has its line.",
  "all archives, all lists of files, with and without checking contents, all messages without line feeds, all files at which the command may stop",
  "What is printed and what is counted are two bodies of code side by side in nested branches of a loop; that they agree on every mixture of readable, damaged and missing files is a statement about all archives.",
  ["storm-cli/src/commands/archive.rs: verify, print_detailed_verify_result"])

p("C96", "The verbose table of files says what the archive holds",
  "`file list -v` prints one row for every file, in the order of the list: its name in a column of forty characters (cut if it is longer than 39 bytes), its sizes, its percentage, its hashes if any file has hashes, and the names of exactly those flags it has. The last row has the number of files and the sums of the sizes. `-vv` adds how many files are compressed, encrypted and single units, their shares to the nearest tenth of a percent, and the space saved if there is any. The command panics exactly if a long name has no character boundary at byte 36 or a sum overflows.",
  "all lists of entries, all names in Unicode, all flags, sizes and hashes, all levels of verbosity; for the statistics fewer than 2^40 files and bytes",
  "Two layouts, seven flags, padding by characters, cutting by bytes and floating-point shares meet in one function that prints to the terminal; no test captures its output.",
  ["storm-cli/src/output.rs: print_file_list_verbose", "storm-cli/src/commands/file.rs: list"])

p("C97", "The options of the list of files change only what they say",
  "`file list --show-hashes` shows the same files in the same order as without the option, each line followed by its two hashes or by nothing, and fails exactly if the list without it fails; names and hashes can be read back from the text. In JSON and CSV verbosity changes nothing, and every level from the second on prints the same.",
  "all archives, patterns, names, hashes, output formats and levels of verbosity",
  "With hashes other functions of the library list the archive and another function prints it; that both agree in content and order on every archive, pattern and kind of listing is a statement about pairs of runs.",
  ["storm-cli/src/commands/file.rs: list", "storm-cli/src/output.rs: print_file_list, print_file_list_with_hashes"])

p("C98", "An archive says how its files are stored",
  "The entry found for a file of a freshly built archive has the length of its content as its size and says exactly how the file is stored: encrypted if that was asked for, with a key that depends on the position if that was asked for as well, with checksums if the builder was told so, as a single unit if it fits into a sector, compressed if compression changed some sector, and nothing else. What the library says about special files (`get_special_file_info`) holds of the listfile that the builder adds, and is said of every spelling of a name that reaches it.",
  "all builders, files, contents, options, compression codecs and archives, whatever stands before and after",
  "The flags are put together in four places of two writers and mean what the reader makes of them; tests look at single flags of single files, and never at the flags that must be absent.",
  ["mopaq/src/builder.rs: write_file, prepare_listfile", "mopaq/src/archive.rs: find_file", "mopaq/src/special_files/info.rs: get_special_file_info"])

out = os.path.join(os.path.dirname(os.path.dirname(os.path.abspath(__file__))), "properties.jsonl")
with open(out, "w") as f:
    for x in P: f.write(json.dumps(x)+"\n")
print(len(P))
