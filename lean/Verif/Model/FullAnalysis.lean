import Verif.Model.TextAnalysis
import Verif.Model.Extensions

/-!
# The analysis of an archive for people, with all options

Models the lines that `archive analyze` adds to the text with `--detailed` and `--by-extension`. The orders in which hash maps are gone
through are parameters.
-/

namespace Mopaq

/-- Models `storm-cli/src/commands/archive.rs` 675-699: the line about a file. -/
def detailLine (stats : Bool) (name : List Byte) (info : FileInfo) : List Byte :=
  let method := Method.fromFlags (info.flags.setWidth 8)
  (if method.supported then passMark else failMark) ++ word " " ++ name ++ word " " ++ method.name ++
    if stats then
      word " (" ++ decimal info.fileSize ++ word " -> " ++ decimal info.compressedSize ++ word " bytes, " ++
        decimal (shownRatio info.compressedSize info.fileSize) ++ word "%)"
    else []

/-- Models `storm-cli/src/commands/archive.rs` 647-704: the lines printed about the files. The rest of the loop is
`Archive.analyzeLoop`. The lines printed before an error are not modelled. -/
def Archive.detailLoop (a : Archive) (only stats : Bool) : List FileEntry → Res (List (List Byte))
  | [] => .ok []
  | entry :: rest => do
    match ← a.findFile entry.name with
    | none => a.detailLoop only stats rest
    | some info =>
      let lines ← a.detailLoop only stats rest
      if !only || !(Method.fromFlags (info.flags.setWidth 8)).supported then return detailLine stats entry.name info :: lines
      else return lines

/-- Models `storm-cli/src/commands/archive.rs` 856-861: the extensions, those with most files first. -/
def sortedExtensions (order : List (List Byte) → List (List Byte)) (s : ExtensionStats) : List (List Byte) :=
  (order s.extensions).mergeSort fun a b => decide (s.total b ≤ s.total a)

/-- Models `storm-cli/src/commands/archive.rs` 867-868: the methods of an extension, those with most files first. -/
def extensionMethods (order : List Method → List Method) (s : ExtensionStats) (ext : List Byte) : List Method :=
  (order (allMethods.filter fun m => s.count ext m ≠ 0)).mergeSort fun a b => decide (s.count ext b ≤ s.count ext a)

/-- Models `storm-cli/src/commands/archive.rs` 870-881. An extension in the table has files, so nothing is divided by zero. -/
def extensionRow (s : ExtensionStats) (ext : List Byte) (m : Method) : TextLine :=
  (word "  " ++ (if methodNameSupported m.name then passMark else failMark) ++ word " ",
    padRight 18 m.name ++ word " " ++ padLeft 4 (decimal (s.count ext m)) ++ word " files (" ++
      padLeft 3 (decimal (shownRatio (s.count ext m) (s.total ext))) ++ word "%)")

/-- Models `storm-cli/src/commands/archive.rs` 863-882: what is printed about an extension. -/
def extensionBlock (order : List Method → List Method) (s : ExtensionStats) (ext : List Byte) : List TextLine :=
  (ext, word " (" ++ decimal (s.total ext) ++ word " files):") :: (extensionMethods order s ext).map (extensionRow s ext)

/-- Models `storm-cli/src/commands/archive.rs` 852-884. -/
def extensionBlocks (order : List (List Byte) → List (List Byte)) (inner : List Byte → List Method → List Method)
    (byExtension : Bool) (s : ExtensionStats) : List (List TextLine) :=
  if byExtension && !s.extensions.isEmpty then
    heading (word "Compression by File Extension") doubleRule ::
      (sortedExtensions order s).map fun x => extensionBlock (inner x) s x
  else []

/-- Models `storm-cli/src/commands/archive.rs` 625-627, 673-704 and 807-922: all that is printed. It is `analysisBlocks` with the
lines about the files and the blocks by extension. -/
def fullBlocks (order : List Method → List Method) (outer : List (List Byte) → List (List Byte))
    (inner : List Byte → List Method → List Method) (quiet only stats byExtension : Bool) (path : List Byte)
    (details : List (List Byte)) (r : Analysis) (s : ExtensionStats) : List (List TextLine) :=
  ((if quiet then [] else [(word "Analyzing compression methods: ", path)]) ++ details.map fun l => (l, [])) ::
    ((if only then [] else [methodBlock order r]) ++ (if stats && !only then [statisticsBlock r] else []) ++
      extensionBlocks outer inner byExtension s ++
      if r.unsupported = [] then
        if only then [] else [[(passMark ++ word " ", word "All compression methods in this archive are supported!")]]
      else [unsupportedBlock only r, breakdownBlock order r])

/-- Models `storm-cli/src/commands/archive.rs` 615-738 (`analyze`) on an open archive, for text and with all options: what is
printed. -/
def cliAnalyzeFull (e : Env) (lower : List Byte → List Byte) (order : List Method → List Method)
    (outer : List (List Byte) → List (List Byte)) (inner : List Byte → List Method → List Method)
    (quiet only stats detailed byExtension : Bool) (path : List Byte) (a : Archive) : Res (List Byte) := do
  match ← a.analyzeByExtension e lower with
  | none =>
    return (if quiet then [] else outLine (word "Analyzing compression methods: " ++ path)) ++ outLine (word "No files found in archive")
  | some (r, s) =>
    let entries ← a.list e
    let details ← if detailed then a.detailLoop only stats entries else .ok []
    return printLines (blockLines (fullBlocks order outer inner quiet only stats byExtension path details r s))

end Mopaq
