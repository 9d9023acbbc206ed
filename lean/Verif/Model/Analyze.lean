import Verif.Model.HashListing
import Verif.Model.Signature

/-!
# Analysis of compression methods by the command line tool

Models `storm-cli/src/commands/archive.rs` `analyze`: the figures that are printed. Not modelled: the formats they are
printed in, and the figures by file extension.
-/

namespace Mopaq

/-- Models `storm-cli/src/commands/archive.rs` 740-754 (`is_compression_supported`). -/
def Method.supported : Method → Bool
  | .none | .zlib | .bzip2 | .lzma | .sparse | .adpcmMono | .adpcmStereo => true
  | .huffman | .implode | .pkware | .multiple _ => false

/-- The figures of `storm-cli/src/commands/archive.rs` 640-645 and the number of files listed. The counters are kept by the
name of the method (756-770), and different methods have different names. -/
structure Analysis where
  count : Method → Nat
  unsupported : List (List Byte × Method)
  compressed : Nat
  uncompressed : Nat
  totalFiles : Nat

/-- Models `storm-cli/src/commands/archive.rs` 647-673: the loop over the files listed. Files that are not found are passed
over. -/
def Archive.analyzeLoop (a : Archive) : List FileEntry → Analysis → Res Analysis
  | [], r => .ok r
  | entry :: rest, r => do
    match ← a.findFile entry.name with
    | none => a.analyzeLoop rest r
    | some info =>
      let method := Method.fromFlags (info.flags.setWidth 8)
      let compressed ← addChecked r.compressed info.compressedSize
      let uncompressed ← addChecked r.uncompressed info.fileSize
      a.analyzeLoop rest
        { r with count := fun m => if m = method then r.count m + 1 else r.count m
                 unsupported := if method.supported then r.unsupported else r.unsupported ++ [(entry.name, method)]
                 compressed, uncompressed }

/-- Models `storm-cli/src/commands/archive.rs` 615-738 (`analyze`) on an open archive; `none` for "No files found". -/
def Archive.analyze (e : Env) (a : Archive) : Res (Option Analysis) := do
  let entries ← a.listWithHashes e
  if entries = [] then return none
  let r ← a.analyzeLoop (entries.map (·.1))
    { count := fun _ => 0, unsupported := [], compressed := 0, uncompressed := 0, totalFiles := entries.length }
  return some r

end Mopaq
