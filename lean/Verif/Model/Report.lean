import Verif.Spec.JsonText
import Verif.Model.Config
import Verif.Model.CliVerify
import Verif.Model.Analyze
import Verif.Model.CliFile
import Verif.Model.CliHash

/-!
# Reports of the command line tool in JSON and CSV

Models `storm-cli/src/output.rs` and the printing parts of `storm-cli/src/commands/archive.rs` and `file.rs` for the formats
JSON and CSV. `serde_json` (not in the repository) is modelled from its documentation: `json!` makes values whose objects are
sorted by their keys, and `to_string_pretty` writes them. Numbers that are computed with floating point are a parameter. The
text of an error is a parameter as well. Not modelled: the text format of the reports on archives.
-/

namespace Mopaq

open _root_.Spec (Json)

/-- Models `Map::insert` of `serde_json` (a `BTreeMap`). -/
def insertMember (key : List Byte) (v : Json) : List (List Byte × Json) → List (List Byte × Json)
  | [] => [(key, v)]
  | m :: ms => if key = m.1 then (key, v) :: ms else if nameLe key m.1 then (key, v) :: m :: ms else m :: insertMember key v ms

/-- Models an object of `json!`. -/
def jsonObject (members : List (List Byte × Json)) : Json :=
  .obj (members.foldl (fun ms m => insertMember m.1 m.2 ms) [])

/-- Models the escapes of `serde_json`. -/
def escapeByte (c : Byte) : List Byte :=
  if c = 0x22#8 then [0x5C#8, 0x22#8]
  else if c = 0x5C#8 then [0x5C#8, 0x5C#8]
  else if c = 0x08#8 then [0x5C#8, 0x62#8]
  else if c = 0x09#8 then [0x5C#8, 0x74#8]
  else if c = 0x0A#8 then [0x5C#8, 0x6E#8]
  else if c = 0x0C#8 then [0x5C#8, 0x66#8]
  else if c = 0x0D#8 then [0x5C#8, 0x72#8]
  else if c.toNat < 0x20 then
    [0x5C#8, 0x75#8, 0x30#8, 0x30#8, hexDigitLower (c.toNat / 16), hexDigitLower (c.toNat % 16)]
  else [c]

/-- A string as `serde_json` writes it. -/
def jsonQuoted (s : List Byte) : List Byte := [0x22#8] ++ s.flatMap escapeByte ++ [0x22#8]

/-- A line feed and the indentation. -/
def jsonNewline (depth : Nat) : List Byte := 0x0A#8 :: List.replicate (2 * depth) 0x20#8

mutual
/-- Models `serde_json::to_string_pretty`: a value, inside `depth` arrays and objects. -/
def jsonPretty (depth : Nat) : Json → List Byte
  | .null => word "null"
  | .bool true => word "true"
  | .bool false => word "false"
  | .num literal => literal
  | .str text => jsonQuoted text
  | .arr [] => word "[]"
  | .arr (v :: vs) =>
    [0x5B#8] ++ (jsonNewline (depth + 1) ++ jsonPretty (depth + 1) v ++ jsonPrettyItems (depth + 1) vs ++ jsonNewline depth) ++ [0x5D#8]
  | .obj [] => word "{}"
  | .obj ((key, v) :: ms) =>
    [0x7B#8] ++ (jsonNewline (depth + 1) ++ jsonQuoted key ++ word ": " ++ jsonPretty (depth + 1) v ++
      jsonPrettyMembers (depth + 1) ms ++ jsonNewline depth) ++ [0x7D#8]
/-- The items behind the first. -/
def jsonPrettyItems (depth : Nat) : List Json → List Byte
  | [] => []
  | v :: vs => [0x2C#8] ++ jsonNewline depth ++ jsonPretty depth v ++ jsonPrettyItems depth vs
/-- The members behind the first. -/
def jsonPrettyMembers (depth : Nat) : List (List Byte × Json) → List Byte
  | [] => []
  | (key, v) :: ms =>
    [0x2C#8] ++ jsonNewline depth ++ jsonQuoted key ++ word ": " ++ jsonPretty depth v ++ jsonPrettyMembers depth ms
end

/-- Models `storm-cli/src/output.rs` 8-12 (`print_json`). -/
def printJson (v : Json) : List Byte := outLine (jsonPretty 0 v)

/-- A number of an integer type. -/
def jsonNat (n : Nat) : Json := .num (decimal n)

/-- An optional value (`Option<T>`). -/
def jsonOption (f : α → Json) : Option α → Json
  | some x => f x
  | none => .null

/-- What `{:?}` prints for a `SignatureStatus` (derived). -/
def SignatureStatus.debug : SignatureStatus → List Byte
  | .none => word "None"
  | .weakValid => word "WeakValid"
  | .weakInvalid => word "WeakInvalid"
  | .strongValid => word "StrongValid"
  | .strongInvalid => word "StrongInvalid"
  | .strongNoKey => word "StrongNoKey"

/-- `format_version as u16 + 1`. -/
def versionNumber (v : FormatVersion) : Nat := v.raw.toNat + 1

/-- Models `storm-cli/src/output.rs` 229-261: a table. -/
def tableJson (t : TableInfo) : Json :=
  jsonObject [(word "size", jsonOption (fun x => jsonNat x.toNat) t.size), (word "offset", jsonNat t.offset.toNat),
    (word "compressed_size", jsonOption (fun x => jsonNat x.toNat) t.compressedSize),
    (word "failed_to_load", .bool t.failedToLoad)]

/-- Models `storm-cli/src/output.rs` 270-277 and `storm-cli/src/commands/archive.rs` 574-583. -/
def md5Json (m : Md5Status) : Json :=
  jsonObject [(word "header_valid", .bool m.headerValid), (word "hash_table_valid", .bool m.hashTableValid),
    (word "block_table_valid", .bool m.blockTableValid), (word "hi_block_table_valid", .bool m.hiBlockTableValid),
    (word "het_table_valid", .bool m.hetTableValid), (word "bet_table_valid", .bool m.betTableValid)]

/-- Models `storm-cli/src/output.rs` 217-278 (`print_archive_info_json`): the value printed. -/
def archiveInfoJson (path : List Byte) (info : ArchiveInfo) : Json :=
  jsonObject [(word "path", .str path), (word "file_size", jsonNat info.fileSize),
    (word "archive_offset", jsonNat info.archiveOffset), (word "format_version", jsonNat (versionNumber info.formatVersion)),
    (word "file_count", jsonNat info.fileCount), (word "max_file_count", jsonNat info.maxFileCount.toNat),
    (word "sector_size", jsonNat info.sectorSize), (word "is_encrypted", .bool info.isEncrypted),
    (word "has_signature", .bool info.hasSignature), (word "signature_status", .str info.signatureStatus.debug),
    (word "tables", jsonObject [(word "hash_table", tableJson info.hashTableInfo), (word "block_table", tableJson info.blockTableInfo),
      (word "het_table", jsonOption tableJson info.hetTableInfo), (word "bet_table", jsonOption tableJson info.betTableInfo),
      (word "hi_block_table", jsonOption tableJson info.hiBlockTableInfo)]),
    (word "special_files", jsonObject [(word "has_attributes", .bool info.hasAttributes), (word "has_listfile", .bool info.hasListfile)]),
    (word "user_data", jsonOption (fun u => jsonObject [(word "header_size", jsonNat u.1.toNat), (word "data_size", jsonNat u.2.toNat)])
      info.userDataInfo),
    (word "md5_status", jsonOption md5Json info.md5Status)]

/-- `{}` of a `bool`. -/
def boolWord : Bool → List Byte
  | true => word "true"
  | false => word "false"

/-- A line of a CSV report. -/
def csvLine (key value : List Byte) : List Byte := outLine (key ++ [0x2C#8] ++ value)

/-- Models `storm-cli/src/output.rs` 283-297 (`print_archive_info_csv`). -/
def archiveInfoCsv (path : List Byte) (info : ArchiveInfo) : List Byte :=
  csvLine (word "property") (word "value") ++ csvLine (word "path") path ++
    csvLine (word "file_size") (decimal info.fileSize) ++ csvLine (word "archive_offset") (decimal info.archiveOffset) ++
    csvLine (word "format_version") (decimal (versionNumber info.formatVersion)) ++
    csvLine (word "file_count") (decimal info.fileCount) ++ csvLine (word "max_file_count") (decimal info.maxFileCount.toNat) ++
    csvLine (word "sector_size") (decimal info.sectorSize) ++ csvLine (word "is_encrypted") (boolWord info.isEncrypted) ++
    csvLine (word "has_signature") (boolWord info.hasSignature) ++ csvLine (word "signature_status") info.signatureStatus.debug ++
    csvLine (word "has_attributes") (boolWord info.hasAttributes) ++ csvLine (word "has_listfile") (boolWord info.hasListfile)

/-- Models `storm-cli/src/commands/archive.rs` 149-157 (`info`) with `storm-cli/src/output.rs` 15-28, for JSON and CSV: what
is printed about the archive at a path with these bytes. -/
def cliInfo (e : Env) (s : SigEnv) (csv : Bool) (path f : List Byte) : Res (List Byte) := do
  let a ← openArchive e f
  let info ← a.getInfo e s
  return if csv then archiveInfoCsv path info else printJson (archiveInfoJson path info)

/-- Models `storm-cli/src/commands/archive.rs` 236-239: a warning. -/
def crcWarning (name : List Byte) : List Byte :=
  word "CRC verification requested but not yet implemented for file: " ++ name

/-- Models `storm-cli/src/commands/archive.rs` 559-595: the value printed by `verify`. `message` is the text of the error about
a file. -/
def verifyJson (message : List Byte → List Byte) (path : List Byte) (r : VerifyReport) : Json :=
  jsonObject [(word "archive", .str path), (word "format_version", jsonNat (versionNumber r.info.formatVersion)),
    (word "total_files", jsonNat r.totalFiles), (word "verified_files", jsonNat r.verifiedFiles),
    (word "header_checks", jsonObject [(word "signature_valid", .bool true), (word "version_supported", .bool true),
      (word "signature_status", .str (word "Some(" ++ r.info.signatureStatus.debug ++ word ")"))]),
    (word "table_checks", jsonObject [(word "hash_table_loaded", .bool !r.info.hashTableInfo.failedToLoad),
      (word "block_table_loaded", .bool !r.info.blockTableInfo.failedToLoad),
      (word "het_table_loaded", jsonOption (fun t => .bool !t.failedToLoad) r.info.hetTableInfo),
      (word "bet_table_loaded", jsonOption (fun t => .bool !t.failedToLoad) r.info.betTableInfo),
      (word "md5_checksums", jsonOption md5Json r.info.md5Status)]),
    (word "file_checks", jsonObject [(word "files_found", jsonNat r.filesFound), (word "files_readable", jsonNat r.filesReadable),
      (word "files_missing", jsonNat r.filesMissing), (word "files_corrupted", jsonNat r.filesCorrupted)]),
    (word "warnings", .arr (r.warnings.map fun n => .str (crcWarning n))),
    (word "errors", .arr (r.errors.map fun n => jsonObject [(word "file", .str n), (word "error", .str (message n))])),
    (word "passed", .bool r.errors.isEmpty)]

/-- Models `storm-cli/src/commands/archive.rs` 598-607: the CSV report of `verify`. -/
def verifyCsv (path : List Byte) (r : VerifyReport) : List Byte :=
  csvLine (word "metric") (word "value") ++ csvLine (word "archive") path ++
    csvLine (word "format_version") (decimal (versionNumber r.info.formatVersion)) ++
    csvLine (word "total_files") (decimal r.totalFiles) ++ csvLine (word "verified_files") (decimal r.verifiedFiles) ++
    csvLine (word "errors") (decimal r.errors.length) ++ csvLine (word "warnings") (decimal r.warnings.length) ++
    csvLine (word "passed") (boolWord r.errors.isEmpty)

/-- Models `storm-cli/src/commands/archive.rs` 159-303 (`verify`) with 351-358, for JSON and CSV: what is printed, and how
the command ends. -/
def cliVerifyRun (e : Env) (s : SigEnv) (message : List Byte → List Byte) (csv quiet : Bool) (path f : List Byte)
    (checkCrc checkContents : Bool) : List Byte × Res Unit :=
  match cliVerifyReport e s f checkCrc checkContents with
  | .error err => ([], .error err)
  | .ok r =>
    (if quiet then [] else if csv then verifyCsv path r else printJson (verifyJson message path r),
      if r.errors = [] then .ok () else .error .invalidFormat)

/-- Models `storm-cli/src/commands/archive.rs` 756-770 (`format_compression_method`). -/
def Method.name : Method → List Byte
  | .none => word "None"
  | .huffman => word "Huffman"
  | .zlib => word "Zlib"
  | .implode => word "PKWare Implode"
  | .pkware => word "PKWare DCL"
  | .bzip2 => word "BZip2"
  | .sparse => word "Sparse"
  | .adpcmMono => word "ADPCM Mono"
  | .adpcmStereo => word "ADPCM Stereo"
  | .lzma => word "LZMA"
  | .multiple flags => word "Multiple (0x" ++ [hexDigit (flags.toNat / 16), hexDigit (flags.toNat % 16)] ++ word ")"

/-- Models `storm-cli/src/commands/archive.rs` 772-786 (`is_compression_method_supported`). -/
def methodNameSupported (name : List Byte) : Bool :=
  [word "None", word "Zlib", word "BZip2", word "LZMA", word "Sparse", word "ADPCM Mono", word "ADPCM Stereo"].contains name

/-- Every method. -/
def allMethods : List Method :=
  [.none, .huffman, .zlib, .implode, .pkware, .bzip2, .sparse, .adpcmMono, .adpcmStereo, .lzma] ++
    (List.range 256).map fun i => .multiple (BitVec.ofNat 8 i)

/-- The methods with a counter (the keys of `compression_stats`, here in a fixed order). -/
def Analysis.methods (r : Analysis) : List Method := allMethods.filter fun m => r.count m ≠ 0

/-- Models `storm-cli/src/commands/archive.rs` 924-976 (`print_json_analysis_results`): the value printed, without figures by
extension asked for. `percent a b` is how the floating point number `a / b * 100` is written. -/
def analysisJson (percent : Nat → Nat → List Byte) (r : Analysis) : Json :=
  jsonObject [(word "total_files", jsonNat r.totalFiles), (word "total_compressed_size", jsonNat r.compressed),
    (word "total_uncompressed_size", jsonNat r.uncompressed),
    (word "overall_compression_ratio",
      .num (if 0 < r.uncompressed then percent r.compressed r.uncompressed else word "100.0")),
    (word "compression_methods", jsonObject (r.methods.map fun m => (m.name,
      jsonObject [(word "count", jsonNat (r.count m)), (word "percentage", .num (percent (r.count m) r.totalFiles)),
        (word "supported", .bool (methodNameSupported m.name))]))),
    (word "by_extension", jsonObject []),
    (word "unsupported_files", .arr (r.unsupported.map fun x =>
      jsonObject [(word "filename", .str x.1), (word "compression_method", .str x.2.name)])),
    (word "unsupported_count", jsonNat r.unsupported.length)]

/-- Models `storm-cli/src/commands/archive.rs` 978-986 (`print_csv_analysis_results`), in a fixed order of the methods. -/
def analysisCsv (r : Analysis) : List Byte :=
  outLine (word "compression_method,file_count,supported") ++
    r.methods.flatMap fun m => csvLine m.name (decimal (r.count m) ++ [0x2C#8] ++ boolWord (methodNameSupported m.name))

/-- Models `storm-cli/src/commands/archive.rs` 615-738 (`analyze`) on an open archive, for JSON and CSV: what is printed. -/
def cliAnalyze (e : Env) (percent : Nat → Nat → List Byte) (csv : Bool) (a : Archive) : Res (List Byte) := do
  match ← a.analyze e with
  | none => return []
  | some r => return if csv then analysisCsv r else printJson (analysisJson percent r)

/-- Models `storm-cli/src/output.rs` 364-366: the names as JSON. -/
def listJson (names : List (List Byte)) : Json := .arr (names.map .str)

/-- Models `storm-cli/src/output.rs` 314-333: the entries with hashes as JSON. -/
def hashesJson (entries : List HashedEntry) : Json :=
  .arr (entries.map fun x =>
    match x.2 with
    | some (h1, h2) => jsonObject [(word "name", .str x.1.name), (word "hash1", .str (hex8 h1)), (word "hash2", .str (hex8 h2))]
    | none => jsonObject [(word "name", .str x.1.name)])

/-- Models `storm-cli/src/commands/file.rs` 17-72 (`list`) on an open archive, in JSON. -/
def cliListJson (e : Env) (a : Archive) (all showHashes : Bool) (pattern : Option Matcher) : Res (List Byte) := do
  let entries ← cliList e a all showHashes pattern
  return printJson (if showHashes then hashesJson entries else listJson (entries.map (·.1.name)))

/-- Models `storm-cli/src/output.rs` 561-567 with `storm-cli/src/commands/file.rs` 218-234 (`info`): the information on a file
in JSON. -/
def fileInfoJson (e : Env) (a : Archive) (name : List Byte) : Res (List Byte) := do
  let size ← fileInfoSize e a name
  return printJson (jsonObject [(word "filename", .str name), (word "size", jsonNat size)])

/-- Models `storm-cli/src/commands/file.rs` 168-216 (`find`) on an open archive: what is printed, whatever the output format.
`text` is the pattern as given. -/
def cliFindOutput (e : Env) (a : Archive) (quiet verbose : Bool) (text : List Byte) (pattern : Matcher)
    (fold : List Byte → List Byte) : Res (List Byte) := do
  let names ← cliFind e a pattern fold
  if names = [] then return if quiet then [] else outLine (word "No files found matching pattern: " ++ text)
  return names.flatMap outLine ++
    (if !quiet && verbose then outLine [] ++ outLine (word "Found " ++ decimal names.length ++ word " matching files") else [])

end Mopaq
