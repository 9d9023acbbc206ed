import Verif.Model.VerboseList
import Verif.Model.Report

/-!
# What the list of files prints

Models `storm-cli/src/commands/file.rs` 17-72 (`list`) on an open archive with its output in every format, without colours. Lines printed
before a panic are not modelled.
-/

namespace Mopaq

/-- Models `storm-cli/src/output.rs` 307-311: the line of a file in the text with hashes. -/
def hashedLine (x : HashedEntry) : List Byte :=
  match x.2 with
  | some (h1, h2) => x.1.name ++ word " [" ++ hex8 h1 ++ word " " ++ hex8 h2 ++ word "]"
  | none => x.1.name

/-- Models `storm-cli/src/output.rs` 305-314: the entries with hashes as text. -/
def hashesText (entries : List HashedEntry) : List Byte :=
  printLines (entries.map hashedLine) ++ outLine [] ++ outLine (totalWord ++ decimal entries.length ++ filesWord)

/-- Models `storm-cli/src/output.rs` 300-352 (`print_file_list_with_hashes`). -/
def hashesOutput (format : OutputFormat) (entries : List HashedEntry) : List Byte :=
  match format with
  | .text => hashesText entries
  | .json => printJson (hashesJson entries)
  | .csv => hashesCsv entries

/-- Models `storm-cli/src/output.rs` 355-375 (`print_file_list`). -/
def namesOutput (format : OutputFormat) (names : List (List Byte)) : List Byte :=
  match format with
  | .text => listText names
  | .json => printJson (listJson names)
  | .csv => listCsv names

/-- Models `storm-cli/src/commands/file.rs` 17-72 (`list`) on an open archive: what is printed. `level` counts `-v`. -/
def cliListOutput (e : Env) (up : Nat → Bool) (level : Nat) (format : OutputFormat) (all showHashes : Bool) (pattern : Option Matcher)
    (a : Archive) : Res (List Byte) := do
  let entries ← cliList e a all showHashes pattern
  if 0 < level ∧ format = .text then cliListVerbose up level entries
  else if showHashes then return hashesOutput format entries
  else return namesOutput format (entries.map (·.1.name))

end Mopaq
