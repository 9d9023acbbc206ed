{"id": "C01", "title": "Block cipher round trip", "statement": "Decrypting with a key what was encrypted with the same key gives back the original dwords, and encrypting what was decrypted gives back the ciphertext; both keep the number of dwords.", "quantifier": "every 32-bit key (including 0) and every list of dwords of any length", "why_tests_cant": "2^32 keys and unboundedly many buffers; the keystream depends on all previous plaintext.", "anchors": ["mopaq/src/crypto/encryption.rs: encrypt_block", "mopaq/src/crypto/decryption.rs: decrypt_block"]}
{"id": "C02", "title": "Byte cipher round trip for files of any length", "statement": "Encrypting a byte buffer the way the builder does and decrypting it the way the reader does restores it exactly, also when the length is not a multiple of four; the length never changes.", "quantifier": "every key and every byte string of any length", "why_tests_cant": "Length residues, keys and contents are unbounded; the trailing 1-3 bytes follow a separate truncated path.", "anchors": ["mopaq/src/builder.rs: encrypt_data", "mopaq/src/archive.rs: decrypt_file_data", "mopaq/src/crypto/decryption.rs: decrypt_dword"]}
{"id": "C03", "title": "Cipher conforms to the published MPQ cipher", "statement": "Encryption, the encryption table and the name hash compute exactly the published MPQ algorithms, so archives interoperate with other MPQ tools.", "quantifier": "every key, buffer, name and hash type 0..4", "why_tests_cant": "Known-answer tests sample a few inputs of an unbounded domain.", "anchors": ["mopaq/src/crypto/keys.rs: generate_encryption_table", "mopaq/src/crypto/encryption.rs", "mopaq/src/crypto/hash.rs: hash_string"]}
{"id": "C04", "title": "Name hashing ignores ASCII case and slash direction", "statement": "Two names that differ only in ASCII letter case and in '/' versus '\\\\' have equal hashes for every hash type and equal Jenkins hashes, so any lookup treats them as one name.", "quantifier": "every pair of byte strings equal up to ASCII case and separator, every hash type", "why_tests_cant": "Unbounded set of name pairs.", "anchors": ["mopaq/src/crypto/hash.rs: hash_string, jenkins_hash", "mopaq/src/crypto/keys.rs: ASCII_TO_UPPER, ASCII_TO_LOWER"]}
{"id": "C05", "title": "Crypto table accesses never go out of bounds", "statement": "hash_string (types 0..4), encrypt and decrypt never index outside the 0x500-entry table; with a hash type of 5 or more hash_string panics on every non-empty name (without overflow checks the product wraps, so there only types whose low 24 bits are 5 or more panic).", "quantifier": "every name, key and buffer", "why_tests_cant": "An out-of-bounds index is a panic that depends on data and key evolution.", "anchors": ["mopaq/src/crypto/hash.rs: hash_string", "mopaq/src/crypto/encryption.rs: encrypt_block", "mopaq/src/crypto/decryption.rs"]}
{"id": "C06", "title": "Hash table lookup finds exactly what was added", "statement": "After any successful sequence of adds to a fresh table, looking a name up (default locale) returns an entry of that name when one was added and nothing when no added name has the same hash pair; the returned block index is the one recorded for the earliest added entry of that hash pair.", "quantifier": "every power-of-two table size, every sequence of (name, locale, block) adds that succeeds, every looked-up name", "why_tests_cant": "Probe chains, wrap-around and collisions depend on the whole history of adds.", "anchors": ["mopaq/src/builder.rs: add_to_hash_table", "mopaq/src/tables/hash.rs: find_file"]}
{"id": "C07", "title": "Hash table adds terminate and lookups terminate", "statement": "A lookup examines each slot at most once on any table; an add ends whenever a free slot remains, and the size the builder picks always leaves a free slot for every file it adds.", "quantifier": "every table contents and name; every number of files", "why_tests_cant": "Termination on all table contents is not observable by finite tests; a full table makes the add loop forever.", "anchors": ["mopaq/src/tables/hash.rs: find_file", "mopaq/src/builder.rs: add_to_hash_table, calculate_hash_table_size"]}
{"id": "C08", "title": "Duplicate names are rejected, other locales coexist", "statement": "Adding a name that equals an already added name up to case and slash direction with the same locale is an error, and adding it with a new locale succeeds without disturbing other files.", "quantifier": "every history of adds", "why_tests_cant": "Depends on probe chains of arbitrary histories.", "anchors": ["mopaq/src/builder.rs: add_to_hash_table"]}
{"id": "C09", "title": "Lookups honour the requested locale", "statement": "A lookup for a locale returns the entry of exactly that locale when it exists and otherwise a neutral entry.", "quantifier": "every table reachable by adds and every locale", "why_tests_cant": "Which entry comes first in probe order depends on the add history.", "anchors": ["mopaq/src/tables/hash.rs: find_file", "mopaq/src/archive.rs: find_file_classic"]}
{"id": "C10", "title": "Hash and block tables survive write and read", "statement": "Writing a hash or block table (serialise, encrypt) at any position in a file and reading it back gives the same entries.", "quantifier": "every table of any size, any surrounding bytes", "why_tests_cant": "Unbounded table sizes and contents.", "anchors": ["mopaq/src/builder.rs: write_hash_table, write_block_table", "mopaq/src/tables/hash.rs: HashTable::read", "mopaq/src/tables/block.rs: BlockTable::read"]}
{"id": "C11", "title": "48-bit file positions survive the hi-block table", "statement": "A file position below 2^48 split into the block table's low word and the hi-block table's high word is recovered exactly by lookup in version 2+ archives; version 1 archives recover positions below 2^32 only.", "quantifier": "every position, every table index", "why_tests_cant": "2^48 positions.", "anchors": ["mopaq/src/builder.rs: write_archive", "mopaq/src/tables/block.rs: HiBlockTable", "mopaq/src/archive.rs: find_file_classic"]}
{"id": "C12", "title": "Archive headers survive write and read", "statement": "The header written for any version and any field values is parsed back to the same field values (positions up to 48 bits, sizes up to 64 bits).", "quantifier": "every format version and all field values", "why_tests_cant": "Unbounded field combinations, four layouts.", "anchors": ["mopaq/src/builder.rs: write_header", "mopaq/src/header.rs: MpqHeader::read"]}
{"id": "C13", "title": "Header search", "statement": "Opening a file finds the header at the first 512-byte-aligned offset carrying an MPQ signature (or through a user data block that points to one), never at an unaligned offset without user data, always terminates, and fails when there is none.", "quantifier": "every file content of any length", "why_tests_cant": "Unbounded files and prefixes.", "anchors": ["mopaq/src/header.rs: find_header"]}
{"id": "C14", "title": "Compression never grows data", "statement": "compress returns at most as many bytes as it was given, for every method and every codec behaviour.", "quantifier": "every input, method byte and codec", "why_tests_cant": "All inputs and codecs.", "anchors": ["mopaq/src/compression/compress.rs: compress"]}
{"id": "C15", "title": "compress/decompress round trip", "statement": "When compress returns something other than its input, the first byte is the method and decompressing the rest with that method and the original size gives the input back, provided the external codec round trips.", "quantifier": "every input and every supported single method or supported combination", "why_tests_cant": "All inputs; combinations of method flags follow different paths in the two directions.", "anchors": ["mopaq/src/compression/compress.rs", "mopaq/src/compression/decompress.rs", "mopaq/src/compression/methods.rs: from_flags"]}
{"id": "C16", "title": "Sparse round trip", "statement": "Sparse-decompressing a sparse-compressed buffer gives the buffer back.", "quantifier": "every byte string", "why_tests_cant": "Depends on run lengths across the whole buffer.", "anchors": ["mopaq/src/compression/algorithms/sparse.rs"]}
{"id": "C17", "title": "Sparse decompression output size", "statement": "Sparse decompression of arbitrary data either fails or yields exactly the expected number of bytes.", "quantifier": "every byte string and expected size", "why_tests_cant": "All malformed inputs.", "anchors": ["mopaq/src/compression/algorithms/sparse.rs: decompress"]}
{"id": "C18", "title": "ADPCM decoder tracks the encoder", "statement": "For audio data of any length, decompressing what was compressed yields the same number of bytes, keeps the first sample of each channel exactly, and each decoded sample equals the encoder's own prediction (no drift). At the level the library uses no decoded sample is off by more than 2052.", "quantifier": "every input and compression level for which compression succeeds; whole-sample input always succeeds at levels 0..=9", "why_tests_cant": "The adaptive state depends on the entire signal.", "anchors": ["mopaq/src/compression/algorithms/adpcm.rs: compress_internal, decompress_internal"]}
{"id": "C19", "title": "ADPCM decoding is robust", "statement": "ADPCM decompression of arbitrary bytes never panics, never leaves the step table, and never emits more than one sample beyond the requested size after the initial samples.", "quantifier": "every byte string, output size and channel count", "why_tests_cant": "All malformed inputs.", "anchors": ["mopaq/src/compression/algorithms/adpcm.rs: decompress_internal"]}
{"id": "C20", "title": "Huffman decompression depends on its input", "statement": "Huffman decompression recovers distinct data from distinct compressed streams.", "quantifier": "every compressed stream", "why_tests_cant": "Needs reasoning over all streams.", "anchors": ["mopaq/src/compression/algorithms/huffman.rs"]}
{"id": "C21", "title": "Single-unit file round trip", "statement": "A file no longer than a sector written by the builder is read back byte for byte, with any combination of compression, encryption, position-dependent key and checksum.", "quantifier": "every name, content up to the sector size, method, flags, position and surrounding bytes", "why_tests_cant": "All contents and option combinations.", "anchors": ["mopaq/src/builder.rs: write_file", "mopaq/src/archive.rs: read_file"]}
{"id": "C22", "title": "Multi-sector file round trip", "statement": "A file longer than a sector written by the builder is read back byte for byte, with any combination of compression, encryption, position-dependent key and checksum.", "quantifier": "every name, content, sector size, method, flags, position and surrounding bytes", "why_tests_cant": "All contents; per-sector decisions interact with the file-wide flag.", "anchors": ["mopaq/src/builder.rs: write_file", "mopaq/src/archive.rs: read_file, read_sectored_file"]}
{"id": "C23", "title": "Checksums detect corruption of stored data", "statement": "When a file carries checksums, reading stored data whose checksum does not match fails with a checksum error instead of returning wrong bytes, and undamaged data is accepted.", "quantifier": "every file content and every corruption", "why_tests_cant": "All corruptions.", "anchors": ["mopaq/src/archive.rs: read_file, read_sectored_file", "mopaq/src/builder.rs: write_file"]}
{"id": "C24", "title": "Writer and reader derive the same file key", "statement": "The key the reader computes for a file equals the key the builder used, for every spelling of the name up to case and slashes.", "quantifier": "every name, position, size and flag combination", "why_tests_cant": "All names and positions.", "anchors": ["mopaq/src/builder.rs: calculate_file_key", "mopaq/src/archive.rs: read_file"]}
{"id": "C25", "title": "Reading never panics on malformed archives", "statement": "Reading a file from an arbitrary (possibly malicious) archive returns data or an error; it never panics.", "quantifier": "every file content", "why_tests_cant": "All byte strings.", "anchors": ["mopaq/src/archive.rs: read_file, read_sectored_file", "mopaq/src/header.rs: sector_size"]}
{"id": "C26", "title": "Built archives return every added file", "statement": "After a successful build, opening the result and reading any added name (in any case or slash spelling) returns exactly the data added under it.", "quantifier": "every list of pending files, options and format version", "why_tests_cant": "End-to-end over unbounded file lists and contents.", "anchors": ["mopaq/src/builder.rs: build, write_archive", "mopaq/src/archive.rs: open_with_options, load_tables, read_file"]}
{"id": "C27", "title": "Built archives list every added file", "statement": "After a successful build with a generated listfile, list() returns every added name and the listfile, each once, with the recorded size.", "quantifier": "every list of pending files", "why_tests_cant": "Names are arbitrary strings that go through a text format.", "anchors": ["mopaq/src/builder.rs: prepare_listfile", "mopaq/src/special_files/listfile.rs: parse_listfile", "mopaq/src/archive.rs: list"]}
{"id": "C28", "title": "Listfile text round trip", "statement": "Parsing a generated listfile yields exactly the names it was generated from, in order.", "quantifier": "every list of names", "why_tests_cant": "Arbitrary strings.", "anchors": ["mopaq/src/builder.rs: prepare_listfile", "mopaq/src/special_files/listfile.rs: parse_listfile"]}
{"id": "C29", "title": "File data regions are disjoint", "statement": "In a built archive the header, every file's bytes, and each table occupy pairwise disjoint ranges that tile the archive.", "quantifier": "every list of pending files", "why_tests_cant": "All file lists.", "anchors": ["mopaq/src/builder.rs: write_archive"]}
{"id": "C30", "title": "Bit-packed entries do not interfere", "statement": "Writing a bit-packed entry makes that entry read back as written (modulo its width) and leaves every other bit of the array unchanged; writes outside the array are refused.", "quantifier": "every array, index, value and width", "why_tests_cant": "All alignments, widths and neighbours.", "anchors": ["mopaq/src/builder.rs: write_bit_entry, calculate_bits_needed"]}
{"id": "C31", "title": "HET lookup returns the right file", "statement": "In an archive with HET/BET tables, looking up an added name through HET gives that file's index, and a name that was not added is not resolved to some other file.", "quantifier": "every list of names", "why_tests_cant": "Depends on hashes of all names.", "anchors": ["mopaq/src/builder.rs: create_het_table", "mopaq/src/tables/het.rs: find_file", "mopaq/src/archive.rs: find_file"]}
{"id": "C32", "title": "BET file records round trip", "statement": "The position, sizes and flags stored for a file in the BET table are read back exactly.", "quantifier": "every block table", "why_tests_cant": "Bit widths depend on all files.", "anchors": ["mopaq/src/builder.rs: create_bet_table", "mopaq/src/tables/bet.rs: get_file_info"]}
{"id": "C33", "title": "HET/BET tables survive write and read", "statement": "A HET or BET table written to an archive (optionally compressed, always encrypted) is read back with the same contents.", "quantifier": "every table content, with and without table compression", "why_tests_cant": "All table contents and lengths.", "anchors": ["mopaq/src/builder.rs: write_het_table, write_bet_table", "mopaq/src/tables/het.rs: read", "mopaq/src/tables/bet.rs: read"]}
{"id": "C34", "title": "Fresh version 4 archives validate", "statement": "In a freshly built version 4 archive every recorded MD5 (tables and header) equals the one the reader recomputes.", "quantifier": "every list of pending files and options", "why_tests_cant": "All archives.", "anchors": ["mopaq/src/builder.rs: write_archive_with_het_bet, finalize_v4_header_md5", "mopaq/src/archive.rs: validate_v4_md5_checksums"]}
{"id": "C35", "title": "Attributes round trip", "statement": "Serialising file attributes and parsing the bytes gives the same per-file values for every enabled column.", "quantifier": "every flag set and list of attributes", "why_tests_cant": "All lists.", "anchors": ["mopaq/src/special_files/attributes.rs: Attributes::parse, to_bytes"]}
{"id": "C36", "title": "Attributes parsing is total", "statement": "Parsing arbitrary bytes as attributes never panics, and succeeds exactly when the version is 100 and the data is long enough for the declared columns.", "quantifier": "every byte string and block count", "why_tests_cant": "All inputs.", "anchors": ["mopaq/src/special_files/attributes.rs: Attributes::parse"]}
{"id": "C37", "title": "Valid weak signatures are accepted", "statement": "A weak signature whose RSA decryption is the correctly padded digest of the archive is reported as valid, and no other signature is.", "quantifier": "every digest and signature value", "why_tests_cant": "RSA values cannot be enumerated.", "anchors": ["mopaq/src/crypto/signature.rs: verify_weak_signature_stormlib, verify_pkcs1_v15_md5"]}
{"id": "C38", "title": "Strong signature acceptance is exact", "statement": "A strong signature is reported valid exactly when the decrypted block is 0x0B, 235 bytes 0xBB and the SHA-1 of the archive range.", "quantifier": "every digest and signature value", "why_tests_cant": "RSA values cannot be enumerated.", "anchors": ["mopaq/src/crypto/signature.rs: verify_strong_signature, verify_mpq_strong_signature_padding"]}
{"id": "C39", "title": "Signature hashing is independent of read chunking", "statement": "The bytes hashed for a weak signature are the archive range with the signature file zeroed, whatever sizes the underlying reads return.", "quantifier": "every archive, exclusion range and schedule of short reads", "why_tests_cant": "All read schedules.", "anchors": ["mopaq/src/crypto/signature.rs: calculate_mpq_hash_md5"]}
{"id": "C40", "title": "Building is atomic for the destination", "statement": "At every instant, and after a crash or an error at any step, the destination path holds either its previous content or the complete new archive.", "quantifier": "every crash point and every failing step", "why_tests_cant": "Crash points cannot be enumerated by tests.", "anchors": ["mopaq/src/builder.rs: build"]}
{"id": "C41", "title": "FFI handles are unique and never reused", "statement": "Every handle returned by the C API is non-zero and different from every handle returned before, for archives and files alike.", "quantifier": "every sequence of API calls", "why_tests_cant": "Unbounded call histories.", "anchors": ["storm-ffi/src/lib.rs: SFileOpenArchive, SFileOpenFileEx"]}
{"id": "C42", "title": "FFI sequential reads reproduce the file", "statement": "Reading an open file with any sequence of buffer sizes returns consecutive pieces of its data, never past the end, and the position never exceeds the length.", "quantifier": "every file content and sequence of read sizes and seeks", "why_tests_cant": "All call sequences.", "anchors": ["storm-ffi/src/lib.rs: SFileReadFile, SFileSetFilePointer"]}
{"id": "C43", "title": "FFI seeking follows the documented origin arithmetic", "statement": "Setting the file pointer moves to origin + offset clamped to [0, length].", "quantifier": "every offset, origin and file", "why_tests_cant": "2^64 offsets.", "anchors": ["storm-ffi/src/lib.rs: SFileSetFilePointer"]}
{"id": "C44", "title": "Closing an archive closes its files", "statement": "After SFileCloseArchive returns, no file handle of that archive remains usable, under any interleaving with other threads.", "quantifier": "every interleaving of API calls", "why_tests_cant": "Schedules cannot be enumerated.", "anchors": ["storm-ffi/src/lib.rs: SFileCloseArchive, SFileOpenFileEx"]}
{"id": "C45", "title": "FFI calls do not deadlock", "statement": "Every C API call returns: no call waits for a lock its own thread already holds, and locks are acquired in a consistent order.", "quantifier": "every call, archive and schedule", "why_tests_cant": "Schedules and lock orders cannot be enumerated.", "anchors": ["storm-ffi/src/lib.rs: SFileVerifyArchive, SFileVerifyFile, SFileEnumFiles"]}
{"id": "C46", "title": "Extraction stays inside the output directory", "statement": "Extracting all files writes only below the chosen output directory.", "quantifier": "every archive file name", "why_tests_cant": "Arbitrary names from untrusted archives.", "anchors": ["storm-cli/src/commands/file.rs: extract"]}
{"id": "C47", "title": "Signature status precedence", "statement": "verify_signature reports the strong signature status whenever a strong signature is present, otherwise the weak status, and none if there is neither.", "quantifier": "every archive", "why_tests_cant": "All archives.", "anchors": ["mopaq/src/archive.rs: verify_signature"]}
{"id": "C48", "title": "Reported file size matches the data", "statement": "The size reported for an open file equals the number of bytes that can be read from it.", "quantifier": "every archive and file", "why_tests_cant": "Depends on codec output versus recorded sizes.", "anchors": ["storm-ffi/src/lib.rs: SFileGetFileSize, SFileOpenFileEx", "mopaq/src/archive.rs: read_file"]}
{"id": "C49", "title": "Audio compression combines with lossless compression", "statement": "Compressing with an audio method together with one lossless method and decompressing gives exactly the samples the audio method alone gives.", "quantifier": "every audio input and every combination of one audio and one lossless method accepted by compress", "why_tests_cant": "Sizes of intermediate streams depend on the whole signal; combinations multiply.", "anchors": ["mopaq/src/compression/compress.rs: compress_multiple", "mopaq/src/compression/decompress.rs: decompress_multiple"]}
{"id": "C50", "title": "Building succeeds for every usable set of files", "statement": "Building an archive returns success whenever every source can be read, is below 4 GiB and can be compressed, no two files share name and locale, and the sector size is in range.", "quantifier": "every set of files, names, contents and options", "why_tests_cant": "The hash table size, probing and the widths of the extended tables depend on all files together.", "anchors": ["mopaq/src/builder.rs: build, write_archive, add_to_hash_table"]}
{"id": "C51", "title": "Extraction leaves every file", "statement": "When all files of an archive were extracted without an error, every listed file that can be read is found with its content in the output directory; extraction does not panic because of a name.", "quantifier": "every archive, set of file names and contents", "why_tests_cant": "Names from arbitrary archives; which file survives depends on all of them together.", "anchors": ["storm-cli/src/commands/file.rs: extract"]}
{"id": "C52", "title": "Open files are independent of each other", "statement": "What is read from an open file, and its position, depend only on the calls made with its own handle: calls with other handles, in other threads and at any moment, change neither, unless they close it or its archive; a closed handle stays closed.", "quantifier": "every number of threads, every interleaving of calls, every archive and file", "why_tests_cant": "Schedules and call histories cannot be enumerated.", "anchors": ["storm-ffi/src/lib.rs: SFileReadFile, SFileSetFilePointer, SFileCloseFile, SFileCloseArchive, SFileOpenFileEx"]}
{"id": "C53", "title": "Verifying a file finds damage", "statement": "Verifying a file reports success only if its content passes every check asked for; a file whose content changed is not reported good.", "quantifier": "every archive, file, flags and recorded checksums", "why_tests_cant": "All contents, all flag combinations and all combinations of recorded checksums.", "anchors": ["storm-ffi/src/lib.rs: SFileVerifyFile"]}
{"id": "C54", "title": "Enumeration with a mask reports exactly the files that fit", "statement": "Enumerating with a mask, in which * stands for any text and ? for any character, reports exactly the listed names that fit the mask.", "quantifier": "every archive listing and mask", "why_tests_cant": "All masks and names.", "anchors": ["storm-ffi/src/lib.rs: SFileEnumFiles"]}
{"id": "C57", "title": "Files without a known name are still listed", "statement": "Enumerating all files of an archive reports every stored file exactly once with its size, under a numbered name; listing an archive without listfile reports as many files as are stored.", "quantifier": "every archive, and every set of files an archive is built from", "why_tests_cant": "The result depends on the whole hash and block tables, or on the packed extended table.", "anchors": ["mopaq/src/archive.rs: list, list_all", "mopaq/src/tables/bet.rs: get_file_info"]}
{"id": "C55", "title": "The description of an archive is accurate", "statement": "Describing a freshly built archive reports the size of the file, where the archive begins, its format version and sector size, the number of its files, capacity for at least as many, whether some file is encrypted, whether it has a listfile, attributes or a signature, the places and sizes of its tables, and (version 4) that all MD5 values are right.", "quantifier": "all builders and file contents, all bytes before and after the archive, all four versions", "why_tests_cant": "Each field is computed from another table; tests look at archives with a few non-empty files. Empty files, signatures that follow the archive and archives inside larger files need a statement about all of them.", "anchors": ["mopaq/src/archive.rs:633-850"]}
{"id": "C56", "title": "The verify command tells intact archives from damaged ones", "statement": "The command line tool's verify command succeeds exactly if the archive opens, can be described and listed, and every listed file is found and (with content checking) can be read; its counts of found, missing, readable and corrupted files add up to the number listed; freshly built archives verify, and archives whose recorded checksums are wrong do not.", "quantifier": "all files given to the command, all combinations of its options, all builders", "why_tests_cant": "Tests verify a few fresh archives. That nothing else influences the exit status, and that checksum verdicts do, is a statement about all inputs.", "anchors": ["storm-cli/src/commands/archive.rs:159-303"]}
{"id": "C58", "title": "A directory packed and unpacked is the same directory", "statement": "Creating an archive from a directory with the command line tool and extracting it with preserved paths restores every file asked for (recursion and ignore options respected) under its relative path and with its content, and touches nothing outside the output directory.", "quantifier": "all directories, contents, options and output directories", "why_tests_cant": "The claim composes walking, naming, building, listing, lookup, reading and writing; tests try a few small trees.", "anchors": ["storm-cli/src/commands/archive.rs:15-147", "storm-cli/src/commands/file.rs:75-148", "mopaq/src/builder.rs:329-340"]}
{"id": "C59", "title": "Deferring the tables changes when they are loaded, not what is read", "statement": "An archive opened with deferred table loading behaves, from its first access on, exactly like one opened normally: the same lookups, contents, listings, descriptions and failures; loading explicitly, or twice, changes nothing.", "quantifier": "all files, names and codecs", "why_tests_cant": "Equality of two ways of opening over every archive, damaged ones included; the only test of the option checks that the flag is stored.", "anchors": ["mopaq/src/archive.rs:146-199", "mopaq/src/archive.rs:313-327", "mopaq/src/archive.rs:329-620", "mopaq/src/archive.rs:633-638"]}
{"id": "C60", "title": "Creating an archive respects the creation disposition", "statement": "A call that creates an archive replaces an existing file only if the disposition says so, leaves an empty archive with the requested number of hash table slots that opens and lists nothing but its listfile, and reports the documented codes otherwise; of several calls insisting on a new file only one succeeds.", "quantifier": "all dispositions, sizes, contents of the path and interleavings of calls", "why_tests_cant": "Single calls are tested on fresh paths; interleavings and what becomes of an existing file are not.", "anchors": ["mopaq/src/archive.rs:229-256", "storm-ffi/src/lib.rs:194-287", "mopaq/src/lib.rs:105-107"]}
{"id": "C61", "title": "Hash listings agree with the plain listings and identify the files", "statement": "Listing or enumerating with hashes reports the same entries in the same order as without, and the two hashes beside an entry are those of the name under which the file was added.", "quantifier": "all archives, names and tables", "why_tests_cant": "Agreement of two listings over all archives, damaged ones included; tests compare a handful of names.", "anchors": ["mopaq/src/archive.rs:1126-1137", "mopaq/src/archive.rs:1140-1213"]}
{"id": "C62", "title": "Attributes put into an archive are found again, and bad ones do not cost the files", "statement": "When a file named \"(attributes)\" is added to an archive, opening the archive gives every file the attributes recorded at its position and every file is still read back; the archive opens whenever its files are intact, whatever the content of the attributes file.", "quantifier": "all builders, files, options, attributes contents, surrounding bytes", "why_tests_cant": "The content is arbitrary and may be doubly compressed; tests use attributes written by the same tool for the right count.", "anchors": ["mopaq/src/archive.rs:1498-1573", "mopaq/src/special_files/attributes.rs", "mopaq/src/builder.rs"]}
{"id": "C63", "title": "The analysis of an archive names the compression method of every file", "statement": "Analysing an archive counts every listed file under the method it is stored with, lists those whose method is not supported, and adds up the sizes.", "quantifier": "all archives; for the figures: all builders with a generated listfile", "why_tests_cant": "The method is nowhere in the tables; tests only look at archives where the answer happens to be the same.", "anchors": ["storm-cli/src/commands/archive.rs:615-770"]}
{"id": "C64", "title": "A chain of builder calls means what its calls say, in whatever order", "statement": "For every chain of calls on a new archive builder: each option has the value given last (or its documented default), the files are those added, in order, each with the options of its own call and the default method in force at that point; files named by path are read when the archive is built; and the archive made with the default options gives every file back.", "quantifier": "all chains of calls, all contents of the disk", "why_tests_cant": "The chains are unbounded and every interleaving of setters and additions is allowed; tests use a handful of orders.", "anchors": ["mopaq/src/builder.rs:165-505", "mopaq/src/builder.rs:525-607"]}
{"id": "C65", "title": "Listing and finding files shows exactly the matching files, readably", "statement": "The commands list and find show the entries of the archive that match the pattern, list sorted by name, with or without hashes; the names can be read back from the text and CSV output; and the verbose table shows sizes, flags, sums and names of every file.", "quantifier": "all archives, patterns, names and sizes", "why_tests_cant": "Names are arbitrary texts, so where a name is cut, what separates columns and how names sort cannot be covered by samples.", "anchors": ["storm-cli/src/commands/file.rs:17-70", "storm-cli/src/commands/file.rs:168-213", "storm-cli/src/output.rs:334-372", "storm-cli/src/output.rs:374-520"]}
{"id": "C66", "title": "Any spelling of a name reaches the same file", "statement": "In every archive, names that differ only in the case of ASCII letters and in the kind of slashes find the same entry and give the same content or the same error, encrypted files included; so do the calls of the C interface that take a name.", "quantifier": "all archives (of any version, damaged ones included) and all pairs of names", "why_tests_cant": "The search, the hash tables, the extended tables and the decryption key each derive something else from the name; tests try a few spellings in one archive.", "anchors": ["mopaq/src/archive.rs:874-960", "mopaq/src/archive.rs:1213-1300", "mopaq/src/tables/hash.rs", "mopaq/src/crypto/hash.rs", "storm-ffi/src/lib.rs:1059-1159"]}
{"id": "C67", "title": "Extracting one file writes its content where the user said; asking for its size tells the truth", "statement": "Extracting one file writes exactly its content to the path given, or to its name, or to the last part of its name in the working directory; nothing is written if it cannot be read. The information about a file shows the number of bytes extraction would write.", "quantifier": "all archives, names, paths and contents", "why_tests_cant": "Names come from archives and are arbitrary; tests use names with one kind of slash.", "anchors": ["storm-cli/src/commands/file.rs:75-108", "storm-cli/src/commands/file.rs:218-234", "storm-cli/src/output.rs:553-574"]}
{"id": "C68", "title": "The hash commands print the published hashes and JSON that means what it says", "statement": "Generating prints the published hash of the type asked for (or all five) as hexadecimal; as JSON it prints an object that tells name, type and value. Comparing two names shows exactly the types in which the hashes are equal, which are all five for two spellings of one name.", "quantifier": "all names, types and output formats", "why_tests_cant": "Names are arbitrary texts, and which characters break a JSON string shows only with such a name.", "anchors": ["storm-cli/src/commands/hash.rs:11-100"]}
{"id": "C69", "title": "The last error of a thread tells how its last call went, and the locale it set selects the version of a file", "statement": "After every call of the C interface SFileGetLastError, asked by the same thread, tells 0 if that call succeeded and its error code otherwise, whatever other threads do; so a size or position of 0xFFFFFFFF can be told from a failure. SFileSetLocale returns the locale set before by the same thread, and files are opened in the version of that locale.", "quantifier": "any number of threads, any calls, any interleaving", "why_tests_cant": "Which thread runs when is not under the control of a test, and a code left over from an earlier call looks like a right one.", "anchors": ["storm-ffi/src/lib.rs:27-31", "storm-ffi/src/lib.rs:108-110", "storm-ffi/src/lib.rs:565-584", "storm-ffi/src/lib.rs:871-897"]}
{"id": "C70", "title": "Settings saved in the configuration take effect", "statement": "A setting made with config set is accepted exactly if it is one of the documented ones, is stored without changing other settings or files, and is used by later commands that do not give the option themselves; the command line takes precedence, config reset brings the documented defaults back, and config show tells what is used.", "quantifier": "all configurations, keys, values, command lines and states of the disk", "why_tests_cant": "The settings, their sources and the commands that should use them multiply; tests try one command with one setting.", "anchors": ["storm-cli/src/config.rs:8-82", "storm-cli/src/main.rs:433-556", "storm-cli/src/main.rs:708-851"]}
{"id": "C71", "title": "The C API, used one call at a time, answers as the library does", "statement": "A program that calls the C API one call at a time gets handles that work exactly from the call that returns them to the call that closes them or their archive, gets from them the names, sizes and bytes that the library reads from the archive, and is told by the documented error code why a call failed, the same code for the same cause.", "quantifier": "all archives, names, handles, buffer sizes and sequences of calls of any length, from any state without a running call", "why_tests_cant": "What a call answers depends on all the calls before it and on the archive; tests make a handful of calls on one archive.", "anchors": ["storm-ffi/src/lib.rs:92-152", "storm-ffi/src/lib.rs:169-365", "storm-ffi/src/lib.rs:366-560", "storm-ffi/src/lib.rs:735-815"]}
{"id": "C72", "title": "The class of an error tells whether to look for another file or to distrust the archive", "statement": "An error is called recoverable exactly if the file asked for is not in the archive, and corruption exactly if the archive is damaged; opening never fails with a recoverable error.", "quantifier": "all archives, damaged ones of any kind included, all names and all error values", "why_tests_cant": "There is no end of ways to damage an archive; the unit tests classify two error values that they construct themselves.", "anchors": ["mopaq/src/error.rs:131-151", "mopaq/src/archive.rs:293-498", "mopaq/src/archive.rs:874-947", "mopaq/src/archive.rs:1213-1495"]}
{"id": "C73", "title": "Reports in JSON are JSON and say what the archive says", "statement": "With output in JSON every command of the tool prints one JSON text, which denotes exactly the names, sizes, hashes, tables, signature states and figures that the library reports; with output in CSV every row has the columns of the heading.", "quantifier": "all archives, paths and names with any bytes, and all reports", "why_tests_cant": "Names may have quotation marks, line feeds and control characters anywhere; tests look at a few names and never parse the output.", "anchors": ["storm-cli/src/output.rs:8-12", "storm-cli/src/output.rs:217-297", "storm-cli/src/output.rs:314-366", "storm-cli/src/output.rs:561-567", "storm-cli/src/commands/archive.rs:149-303", "storm-cli/src/commands/archive.rs:559-607", "storm-cli/src/commands/archive.rs:924-986"]}
{"id": "C74", "title": "A file that has been cut off never passes for a whole archive", "statement": "When an archive file has lost its end, opening it fails, or it opens with the same tables and every file that can be read from it has the content that the whole file has; an archive that the library built does not open at all once anything is missing at its end.", "quantifier": "all files, all lengths they are cut to, and all archives the builder makes, also behind other content", "why_tests_cant": "An interrupted download can end at any byte; tests use whole files, and a cut at one place says nothing about the others.", "anchors": ["mopaq/src/archive.rs:298-326", "mopaq/src/archive.rs:329-498", "mopaq/src/archive.rs:1213-1336", "mopaq/src/header.rs:279-341", "mopaq/src/tables/hash.rs:92-131", "mopaq/src/tables/block.rs:111-145", "mopaq/src/tables/block.rs:207-216"]}
{"id": "C75", "title": "Opening a file never brings the program down", "statement": "Opening a file, whatever it contains, ends with an archive or with an error the caller is told of: it never panics and never goes on for ever. The same holds for looking up a name in an archive of version 1 or 2 that is open.", "quantifier": "all files of all lengths, with the tables loaded at once or later, and all names", "why_tests_cant": "Damaged and hostile files are without number; fuzzing samples them and does not show that none is left that brings the program down.", "anchors": ["mopaq/src/archive.rs:298-326", "mopaq/src/archive.rs:329-498", "mopaq/src/archive.rs:500-560", "mopaq/src/header.rs:279-341", "mopaq/src/tables/hash.rs:92-131", "mopaq/src/tables/block.rs:111-145", "mopaq/src/tables/het.rs:60-264", "mopaq/src/tables/bet.rs:70-222"]}
{"id": "C76", "title": "Verifying an archive through the C interface answers what its signature says", "statement": "SFileVerifyArchive reports success for an archive whose signature is valid, and an error when the archive does not match its signature or a file in it is damaged; it always answers.", "quantifier": "all archives, flags, keys and states of the process in which no other call is under way", "why_tests_cant": "Whether an answer can be trusted is a statement about all archives and all changes to them; tests verify a handful of archives.", "anchors": ["storm-ffi/src/lib.rs:1167-1270", "mopaq/src/archive.rs:1567-1692"]}
{"id": "C77", "title": "Damage stays where it is", "statement": "If bytes of an archive file change, everything stored elsewhere is as before: with damage outside of the header and tables the archive opens with the same tables, lists the same names, and every file whose own bytes are not touched is read exactly as before; in an archive made by the builder, damage inside of one file affects the reading of no other file.", "quantifier": "all archives, all damaged ranges, all replacement bytes, all files", "why_tests_cant": "A test can change some bytes of some archive; that no byte outside a file matters to it is a statement about all bytes and archives.", "anchors": ["mopaq/src/archive.rs:293-499", "mopaq/src/archive.rs:950-1048", "mopaq/src/archive.rs:1213-1496", "mopaq/src/builder.rs:525-1080"]}
{"id": "C78", "title": "Reading at a place gives the bytes of that place", "statement": "read_at of the archive reader returns exactly the bytes at the offset asked for, or an error; this depends neither on the calls made before nor on how the system splits or interrupts the reads; calls to read deliver every byte once and in order.", "quantifier": "all files, offsets, lengths, histories of calls and ways in which the system answers", "why_tests_cant": "The splitting of reads is decided by the system; tests with a cursor in memory never see a short or interrupted read.", "anchors": ["mopaq/src/io.rs:7-44"]}
{"id": "C79", "title": "What a file reads as does not depend on the rest of the archive", "statement": "A file added with a given content, compression method and sector size is read back from one archive exactly if it is read back from any other, whatever other files there are, in which order they were added, and whatever the version, listfile, checksum and encryption options; the order in which files are added does not matter.", "quantifier": "all pairs of built archives, all files and spellings of names, all orders", "why_tests_cant": "This compares all pairs of archives; tests build a few and never compare them.", "anchors": ["mopaq/src/builder.rs:525-1080", "mopaq/src/archive.rs:1213-1496"]}
{"id": "C80", "title": "Memory in proportion to the file", "statement": "Opening an archive reserves no more memory at a time than the file is long, so a small file from an untrusted source cannot exhaust memory.", "quantifier": "all files, as bytes; all versions", "why_tests_cant": "Sizes in headers have 32 and 64 bits; a test that tried them would exhaust memory, and none does.", "anchors": ["mopaq/src/archive.rs:329-498", "mopaq/src/tables/hash.rs:84-110", "mopaq/src/tables/block.rs:105-125", "mopaq/src/tables/het.rs:60-75", "mopaq/src/tables/bet.rs:70-183"]}
{"id": "C81", "title": "Files are read as the format stores them", "statement": "A file stored as the format describes it (in one unit or in sectors, compressed or not, encrypted or not, with a key that depends on its place or not) is read as what it is, whoever wrote the archive.", "quantifier": "all archives, names and contents; all sector sizes up to 2^63 bytes; all combinations of flags", "why_tests_cant": "Tests read archives written by the library itself, so a mistake made alike in writing and reading does not show.", "anchors": ["mopaq/src/archive.rs:1213-1336", "mopaq/src/archive.rs:1340-1500", "mopaq/src/archive.rs:1764-1864", "docs/mopaq-format.md:711-732"]}
{"id": "C82", "title": "Files are written as the format stores them", "statement": "What the builder writes for a file, together with the entry it records, is what the format's description prescribes for it, so that any software that follows the description reads the file.", "quantifier": "all names, places, contents, lossless methods, sector sizes from 512 bytes and options for encryption, keys and checksums", "why_tests_cant": "Tests read back with the library itself, so a mistake made alike in writing and reading does not show.", "anchors": ["mopaq/src/builder.rs:898-1110", "mopaq/src/builder.rs:1326-1374", "docs/mopaq-format.md:711-732"]}
{"id": "C83", "title": "Deleted files are gone and the others stay", "statement": "When a file is deleted from an archive by the means the format provides (its slot in the hash table marked as deleted, its entry in the block table marked as not existing), it is no longer found, and every other file is found and reads as before.", "quantifier": "all archives of versions 1 and 2, whoever made them; all slots, names and locales", "why_tests_cant": "The library does not delete files, so no test has a deleted one; which lookups pass a slot depends on the whole table.", "anchors": ["mopaq/src/tables/hash.rs:41-54", "mopaq/src/tables/hash.rs:149-184", "mopaq/src/tables/block.rs:25-66", "mopaq/src/archive.rs:910-947", "docs/mopaq-format.md:1373"]}
{"id": "C84", "title": "The C interface writes only to the memory it was lent", "statement": "A call of the C interface that is given pointers changes no byte of the calling program's memory but those of the buffer of the size it was told and of the results it was asked for; a call that fails leaves the buffer alone. What it puts there is what it was asked for: the bytes of the file and their number, the information of the class and the size it needs, the path with its terminating zero.", "quantifier": "all contents of memory, all pointers, sizes and handles; all open archives and files", "why_tests_cant": "Memory written beyond the end of a buffer usually shows nowhere in a test; it depends on the length of names and on the addresses of buffers.", "anchors": ["storm-ffi/src/lib.rs:320-397", "storm-ffi/src/lib.rs:423-557", "storm-ffi/src/lib.rs:594-794", "storm-ffi/src/lib.rs:907-936"]}
{"id": "C85", "title": "Damage to a sector stays in the sector", "statement": "If bytes of an archive change within one sector of a compressed file of several sectors, everything that is read up to that sector is as before; what is read in the sector is what the changed bytes stand for, and the content behind it is as before, unless decompressing the changed bytes gives another number of bytes. If it cannot be decompressed, reading fails. In encrypted data, the bytes up to the changed dword are decrypted as before.", "quantifier": "all archives, files, sectors and changes within a sector; all compression methods", "why_tests_cant": "Tests damage a few bytes of a few files; which part of the content is affected depends on the place, the compression of each sector and the encryption.", "anchors": ["mopaq/src/archive.rs:1339-1495", "mopaq/src/crypto/decryption.rs:5-30", "mopaq/src/compression/decompress.rs:12-60"]}
{"id": "C86", "title": "Whole archives follow the published format, in both directions", "statement": "A file that is an archive as the MPQ format describes it (versions 1 and 2: header, encrypted hash and block tables, high positions, probing order) opens, whoever wrote it; every file stored in it is found with the places, sizes and flags its block entry gives and is read as its content, every other name is reported as missing. What the builder writes in these versions is such an archive: other software that follows the format finds exactly the files that were added. The format itself determines one entry and one content for each name.", "quantifier": "all byte sequences that are archives of versions 1 and 2, with any data in front and behind; all builders of these versions; all names", "why_tests_cant": "Tests use archives written by the same library, so that a misunderstanding of the format shared by reader and writer goes unnoticed; a few foreign archives cannot cover the combinations of sizes, positions, probing orders and flags.", "anchors": ["mopaq/src/header.rs", "mopaq/src/archive.rs:298-640", "mopaq/src/archive.rs:874-960", "mopaq/src/tables/hash.rs:41-184", "mopaq/src/tables/block.rs:25-216", "mopaq/src/builder.rs:525-735", "mopaq/src/builder.rs:1161-1330"]}
{"id": "C87", "title": "An archive can be unpacked and packed again", "statement": "Extracting all files of an archive into an empty directory and making an archive of that directory gives an archive with the same files: each is read under every spelling of its name with the content it had, no others are there, and the listing is the same. Making the archive again by the same command gives an archive of the same files.", "quantifier": "all archives whose listed files can be read, whoever made them; all directories, options and orders in which the directory is listed", "why_tests_cant": "Tests pack or unpack, with a few files; they do not follow files through an unknown directory listing and back, and the special files that archives contain come into play only the second time.", "anchors": ["storm-cli/src/commands/archive.rs:41-146", "storm-cli/src/commands/file.rs:75-148", "mopaq/src/builder.rs:525-735"]}
{"id": "C88", "title": "Reading a file takes no more memory than the archive and the content warrant", "statement": "While a file is read no single buffer is asked for that is larger than the archive and larger than the content that is read.", "quantifier": "all archives, whoever made them, all names and contents", "why_tests_cant": "Tests do not measure memory, and the archives at hand state true sizes; a crafted archive of a few bytes can state any.", "anchors": ["mopaq/src/archive.rs:1213-1336", "mopaq/src/archive.rs:1339-1495"]}
{"id": "C89", "title": "Sizes and percentages shown are right", "statement": "A size written for people is the true one to the nearest hundredth of the unit, in the largest unit that is not larger than the size, and has one meaning. A percentage is the whole part of the true one; shares of the number of files are true to the nearest tenth of a percent.", "quantifier": "all sizes below 2^53 bytes, compressed sizes below 2^44 bytes, and numbers of files below 2^40", "why_tests_cant": "The figures go through floating point; errors show up at particular proportions and next to the limits of units, which tests with a few sizes do not meet.", "anchors": ["storm-cli/src/output.rs:189-204", "storm-cli/src/output.rs:417-421", "storm-cli/src/output.rs:490-541", "storm-cli/src/commands/archive.rs:683-688", "storm-cli/src/commands/archive.rs:842-847"]}
{"id": "C90", "title": "Audio read back is close to the original", "statement": "When sound is compressed with loss and read back, every sample is close to the original by a bound that depends only on how fast the sound changes, however long it is. No sample is much further from the original than the one before it was, and silence stays silence.", "quantifier": "all sounds of one or two channels of any length, for audio compression alone and combined with a second method that can be undone", "why_tests_cant": "The error is carried from sample to sample; tests with a few seconds of one sound cannot exclude that errors add up.", "anchors": ["mopaq/src/compression/algorithms/adpcm.rs: compress_internal, decompress_internal", "mopaq/src/compression/compress.rs: compress"]}
{"id": "C91", "title": "Reports for people say what was found", "statement": "The text printed by `archive info` and `archive verify` says every fact that the program knows about the archive, once and under its heading: counts, sizes, offsets, versions, which tables were loaded, digests, signatures. What an archive does not have is not mentioned. The report of a verification lists every error and warning in order, and its last line says PASSED exactly when the command succeeds.", "quantifier": "all archives, whatever tables, user data and digests they have, all numbers of files, errors and warnings, all paths and messages without line feeds", "why_tests_cant": "The parts of a report are optional and of any length; a test looks for a few words in the reports on a few archives and cannot tell that no fact is missing, repeated or under another heading.", "anchors": ["storm-cli/src/output.rs: print_archive_info_text, print_table_info, print_md5_status, format_signature_status", "storm-cli/src/commands/archive.rs: info, verify, print_detailed_verify_result"]}
{"id": "C92", "title": "Analysis by extension counts every file under its extension", "statement": "`archive analyze --by-extension` counts, for each extension and compression method, the files found that have both; the counts of an extension add up to its files and those of a method to all files with that method, and the JSON output says exactly these counts. The extension is what follows the last dot in the last part of the name, in lower case; files without one are counted together.", "quantifier": "all archives, all names and numbers of files, all methods", "why_tests_cant": "Names are arbitrary, with folders separated by backslashes or slashes and dots anywhere; tests use a few plain names.", "anchors": ["storm-cli/src/commands/archive.rs: analyze, get_file_extension, print_json_analysis_results"]}
{"id": "C93", "title": "The text of an analysis says which compression methods occur and whether they are supported", "statement": "The text that `archive analyze` prints has a line for every compression method that occurs, most files first, with the number of files, their percentage and whether the method is supported; with `--show-stats` the totals; if files use methods that are not supported, how many and how many for each method, and with `--unsupported-only` which. That all methods are supported is said exactly if they are.", "quantifier": "all archives, all numbers of files, methods and sizes, all orders in which a hash map is gone through, every combination of --quiet, --unsupported-only and --show-stats", "why_tests_cant": "The methods come out of a hash map, in an order that differs from run to run, and lists of any length are mixed with optional parts; a test sees one order on one archive.", "anchors": ["storm-cli/src/commands/archive.rs: analyze, print_text_analysis_results, is_compression_supported, is_compression_method_supported"]}
{"id": "C94", "title": "Details in the text of an analysis: a line for every file, and the methods by extension", "statement": "`archive analyze --detailed` adds to the text exactly one line for every file listed that is found, in the order of the list, telling whether its method is supported, its name, its method and, with `--show-stats`, its sizes and their ratio; `--by-extension` adds for every extension how many files have it and how many of these have each method, most files first. Nothing else in the text changes. With `--unsupported-only` only files with methods that are not supported are shown.", "quantifier": "all archives, all numbers of files, extensions, methods and sizes, all orders in which the hash maps are gone through, every combination of the five options", "why_tests_cant": "Tables of any length come out of nested hash maps, in orders that differ from run to run, and are mixed with optional parts; a test sees one order, one archive and few of the 32 combinations.", "anchors": ["storm-cli/src/commands/archive.rs: analyze, print_text_analysis_results, get_file_extension"]}
{"id": "C95", "title": "Verbose verification accounts for every file", "statement": "`archive verify --verbose` adds to the text exactly one line for every file listed, in the order of the list: whether it is found, how many bytes were read or why it cannot be read. The files marked as failed are those the report has errors about, and the command succeeds exactly if no file is marked so. Nothing else in the text changes. If the command stops at a file, every file before it has its line.", "quantifier": "all archives, all lists of files, with and without checking contents, all messages without line feeds, all files at which the command may stop", "why_tests_cant": "What is printed and what is counted are two bodies of code side by side in nested branches of a loop; that they agree on every mixture of readable, damaged and missing files is a statement about all archives.", "anchors": ["storm-cli/src/commands/archive.rs: verify, print_detailed_verify_result"]}
{"id": "C96", "title": "The verbose table of files says what the archive holds", "statement": "`file list -v` prints one row for every file, in the order of the list: its name in a column of forty characters (cut if it is longer than 39 bytes), its sizes, its percentage, its hashes if any file has hashes, and the names of exactly those flags it has. The last row has the number of files and the sums of the sizes. `-vv` adds how many files are compressed, encrypted and single units, their shares to the nearest tenth of a percent, and the space saved if there is any. The command panics exactly if a long name has no character boundary at byte 36 or a sum overflows.", "quantifier": "all lists of entries, all names in Unicode, all flags, sizes and hashes, all levels of verbosity; for the statistics fewer than 2^40 files and bytes", "why_tests_cant": "Two layouts, seven flags, padding by characters, cutting by bytes and floating-point shares meet in one function that prints to the terminal; no test captures its output.", "anchors": ["storm-cli/src/output.rs: print_file_list_verbose", "storm-cli/src/commands/file.rs: list"]}
{"id": "C97", "title": "The options of the list of files change only what they say", "statement": "`file list --show-hashes` shows the same files in the same order as without the option, each line followed by its two hashes or by nothing, and fails exactly if the list without it fails; names and hashes can be read back from the text. In JSON and CSV verbosity changes nothing, and every level from the second on prints the same.", "quantifier": "all archives, patterns, names, hashes, output formats and levels of verbosity", "why_tests_cant": "With hashes other functions of the library list the archive and another function prints it; that both agree in content and order on every archive, pattern and kind of listing is a statement about pairs of runs.", "anchors": ["storm-cli/src/commands/file.rs: list", "storm-cli/src/output.rs: print_file_list, print_file_list_with_hashes"]}
{"id": "C98", "title": "An archive says how its files are stored", "statement": "The entry found for a file of a freshly built archive has the length of its content as its size and says exactly how the file is stored: encrypted if that was asked for, with a key that depends on the position if that was asked for as well, with checksums if the builder was told so, as a single unit if it fits into a sector, compressed if compression changed some sector, and nothing else. What the library says about special files (`get_special_file_info`) holds of the listfile that the builder adds, and is said of every spelling of a name that reaches it.", "quantifier": "all builders, files, contents, options, compression codecs and archives, whatever stands before and after", "why_tests_cant": "The flags are put together in four places of two writers and mean what the reader makes of them; tests look at single flags of single files, and never at the flags that must be absent.", "anchors": ["mopaq/src/builder.rs: write_file, prepare_listfile", "mopaq/src/archive.rs: find_file", "mopaq/src/special_files/info.rs: get_special_file_info"]}
