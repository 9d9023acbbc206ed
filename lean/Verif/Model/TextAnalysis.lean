import Verif.Model.TextReport

/-!
# The analysis of an archive for people

Models the text that `archive analyze` prints, without colours, `--detailed` and `--by-extension`. The order in which a hash map is
gone through is a parameter.
-/

namespace Mopaq

/-- `{:w}` of a text and of a number. -/
def padRight (w : Nat) (t : List Byte) : List Byte := t ++ List.replicate (w - t.length) 0x20#8
def padLeft (w : Nat) (t : List Byte) : List Byte := List.replicate (w - t.length) 0x20#8 ++ t

/-- Models `storm-cli/src/commands/archive.rs` 812-813: the methods that occur, those with most files first; `order` is the order of
the hash map. -/
def sortedMethods (order : List Method → List Method) (r : Analysis) : List Method :=
  (order r.methods).mergeSort fun a b => decide (r.count b ≤ r.count a)

/-- Models `storm-cli/src/commands/archive.rs` 815-827. -/
def methodRow (r : Analysis) (m : Method) : TextLine :=
  ((if methodNameSupported m.name then passMark else failMark) ++ word " ",
    padRight 20 m.name ++ word " " ++ padLeft 6 (decimal (r.count m)) ++ word " files (" ++
      padLeft 3 (decimal (shownRatio (r.count m) r.totalFiles)) ++ word "%)")

/-- Models `storm-cli/src/commands/archive.rs` 808-828. -/
def methodBlock (order : List Method → List Method) (r : Analysis) : List TextLine :=
  heading (word "Compression Method Summary") doubleRule ++ (sortedMethods order r).map (methodRow r)

/-- Models `storm-cli/src/commands/archive.rs` 830-849. -/
def statisticsBlock (r : Analysis) : List TextLine :=
  heading (word "Archive Statistics") singleRule ++
    [(word "Total files:           ", decimal r.totalFiles),
      (word "Total uncompressed:    ", decimal r.uncompressed ++ word " bytes"),
      (word "Total compressed:      ", decimal r.compressed ++ word " bytes"),
      (word "Overall compression:   ", decimal (shownRatio r.compressed r.uncompressed) ++ word "%")]

/-- How many of the files with methods that are not supported have a method, `storm-cli/src/commands/archive.rs` 907-910. -/
def unsupportedWith (r : Analysis) (m : Method) : Nat := (r.unsupported.filter fun x => x.2 = m).length

/-- Models `storm-cli/src/commands/archive.rs` 887-904. -/
def unsupportedBlock (only : Bool) (r : Analysis) : List TextLine :=
  heading (word "Unsupported Compression Methods") doubleRule ++
    (word "Found ", decimal r.unsupported.length ++ word " files (" ++
      padLeft 3 (decimal (shownRatio r.unsupported.length r.totalFiles)) ++ word "%) using unsupported compression methods:") ::
    if only then r.unsupported.map fun x => (failMark ++ word " ", x.1 ++ word " " ++ x.2.name) else []

/-- Models `storm-cli/src/commands/archive.rs` 906-915. -/
def breakdownBlock (order : List Method → List Method) (r : Analysis) : List TextLine :=
  (word "Unsupported method breakdown:", []) ::
    (order (allMethods.filter fun m => unsupportedWith r m ≠ 0)).map fun m =>
      (word "  ", m.name ++ word " - " ++ decimal (unsupportedWith r m) ++ word " files")

/-- Models `storm-cli/src/commands/archive.rs` 625-627 and 807-922 (`print_text_analysis_results`): the first block is the line
printed before the archive is opened. -/
def analysisBlocks (order : List Method → List Method) (quiet only stats : Bool) (path : List Byte) (r : Analysis) :
    List (List TextLine) :=
  (if quiet then [] else [(word "Analyzing compression methods: ", path)]) ::
    ((if only then [] else [methodBlock order r]) ++ (if stats && !only then [statisticsBlock r] else []) ++
      if r.unsupported = [] then
        if only then [] else [[(passMark ++ word " ", word "All compression methods in this archive are supported!")]]
      else [unsupportedBlock only r, breakdownBlock order r])

/-- Models `storm-cli/src/commands/archive.rs` 615-738 (`analyze`) on an open archive, for text: what is printed. -/
def cliAnalyzeText (e : Env) (order : List Method → List Method) (quiet only stats : Bool) (path : List Byte) (a : Archive) :
    Res (List Byte) := do
  match ← a.analyze e with
  | none =>
    return (if quiet then [] else outLine (word "Analyzing compression methods: " ++ path)) ++ outLine (word "No files found in archive")
  | some r => return printLines (blockLines (analysisBlocks order quiet only stats path r))

end Mopaq
