import Verif.Model.Report
import Verif.Model.Cli

/-!
# Analysis by file extension

Models the part of `storm-cli/src/commands/archive.rs` `analyze` that counts files by extension, and how the counts are printed in
JSON. `str::to_lowercase` is a parameter.
-/

namespace Mopaq

/-- What is in front of the last dot and behind it. -/
def splitLastDot (file : List Byte) : Option (List Byte × List Byte) :=
  match file.reverse.dropWhile (· != 0x2E#8) with
  | [] => none
  | _ :: before => some (before.reverse, (file.reverse.takeWhile (· != 0x2E#8)).reverse)

/-- `Path::extension` on Unix: a file name that begins with its only dot has no extension. -/
def pathExtension (p : List Byte) : Option (List Byte) :=
  match fileName p with
  | none => none
  | some file =>
    match splitLastDot file with
    | none => none
    | some (before, after) => if before = [] then none else some after

/-- Models `storm-cli/src/commands/archive.rs` 788-794 (`get_file_extension`). -/
def fileExtension (lower : List Byte → List Byte) (name : List Byte) : List Byte :=
  match pathExtension name with
  | some ext => lower ext
  | none => word "(no extension)"

/-- The extensions counted, in the order in which they first occur, and the counters (`extension_stats`; a hash map, whose order is
not modelled). -/
structure ExtensionStats where
  extensions : List (List Byte)
  count : List Byte → Method → Nat

/-- Models `storm-cli/src/commands/archive.rs` 657-662: one file. -/
def ExtensionStats.add (s : ExtensionStats) (ext : List Byte) (method : Method) : ExtensionStats :=
  { extensions := if ext ∈ s.extensions then s.extensions else s.extensions ++ [ext]
    count := fun x m => if x = ext ∧ m = method then s.count x m + 1 else s.count x m }

/-- Models `storm-cli/src/commands/archive.rs` 647-662: the counters by extension. The rest of the loop is `Archive.analyzeLoop`; it
is the same loop in the code, and neither part uses what the other computes. -/
def Archive.extensionLoop (a : Archive) (lower : List Byte → List Byte) : List FileEntry → ExtensionStats → Res ExtensionStats
  | [], s => .ok s
  | entry :: rest, s => do
    match ← a.findFile entry.name with
    | none => a.extensionLoop lower rest s
    | some info => a.extensionLoop lower rest (s.add (fileExtension lower entry.name) (Method.fromFlags (info.flags.setWidth 8)))

/-- Models `storm-cli/src/commands/archive.rs` 615-738 (`analyze --by-extension`) on an open archive, up to the output. -/
def Archive.analyzeByExtension (e : Env) (lower : List Byte → List Byte) (a : Archive) : Res (Option (Analysis × ExtensionStats)) := do
  let entries ← a.listWithHashes e
  if entries = [] then return none
  let r ← a.analyzeLoop (entries.map (·.1))
    { count := fun _ => 0, unsupported := [], compressed := 0, uncompressed := 0, totalFiles := entries.length }
  let s ← a.extensionLoop lower (entries.map (·.1)) { extensions := [], count := fun _ _ => 0 }
  return some (r, s)

/-- Models `storm-cli/src/commands/archive.rs` 858 and 864: the number of files with an extension as printed in text. -/
def ExtensionStats.total (s : ExtensionStats) (ext : List Byte) : Nat := (allMethods.map (s.count ext)).sum

/-- Models `storm-cli/src/commands/archive.rs` 946-949 and 969: the counters in JSON. -/
def ExtensionStats.json (s : ExtensionStats) : Spec.Json :=
  jsonObject (s.extensions.map fun x =>
    (x, jsonObject ((allMethods.filter fun m => s.count x m ≠ 0).map fun m => (m.name, jsonNat (s.count x m)))))

/-- Models `storm-cli/src/commands/archive.rs` 924-976 (`print_json_analysis_results`): the value printed with figures by extension.
`analysisJson` is the same without them. -/
def extensionJson (percent : Nat → Nat → List Byte) (r : Analysis) (s : ExtensionStats) : Spec.Json :=
  jsonObject [(word "total_files", jsonNat r.totalFiles), (word "total_compressed_size", jsonNat r.compressed),
    (word "total_uncompressed_size", jsonNat r.uncompressed),
    (word "overall_compression_ratio",
      .num (if 0 < r.uncompressed then percent r.compressed r.uncompressed else word "100.0")),
    (word "compression_methods", jsonObject (r.methods.map fun m => (m.name,
      jsonObject [(word "count", jsonNat (r.count m)), (word "percentage", .num (percent (r.count m) r.totalFiles)),
        (word "supported", .bool (methodNameSupported m.name))]))),
    (word "by_extension", s.json),
    (word "unsupported_files", .arr (r.unsupported.map fun x =>
      jsonObject [(word "filename", .str x.1), (word "compression_method", .str x.2.name)])),
    (word "unsupported_count", jsonNat r.unsupported.length)]

/-- Models `storm-cli/src/commands/archive.rs` 615-738 (`analyze --by-extension`) on an open archive, for JSON: what is printed. -/
def cliAnalyzeByExtension (e : Env) (lower : List Byte → List Byte) (percent : Nat → Nat → List Byte) (a : Archive) :
    Res (List Byte) := do
  match ← a.analyzeByExtension e lower with
  | none => return []
  | some (r, s) => return printJson (extensionJson percent r s)

end Mopaq
