import Verif.Model.TextAnalysis

/-!
# The verbose table of files

Models the text of `file list -v` and `file list -vv` (`storm-cli/src/output.rs` 377-548), without colours. Lines printed before a panic
are not modelled.
-/

namespace Mopaq

/-- `{:<w}` of a text: the width counts characters, and every byte that does not continue a character begins one. -/
def padName (w : Nat) (t : List Byte) : List Byte := t ++ List.replicate (w - (t.filter fun b => !isCont b).length) 0x20#8

/-- Models `storm-cli/src/output.rs` 424-444: the names of the flags, in the order of `VerboseRow.flags`. -/
def flagNames : List (List Byte) :=
  [word "Compressed", word "Encrypted", word "Single Unit", word "Has CRC", word "Fix Key", word "Patch", word "Deleted"]

/-- Models `storm-cli/src/output.rs` 423-450. -/
def flagText (flags : List Bool) : List Byte :=
  let named := (flagNames.zip flags).filterMap fun x => if x.2 then some x.1 else none
  if named.isEmpty then word "-" else (word ", ").intercalate named

/-- Models `storm-cli/src/output.rs` 416-421 and 460-481: the line of a row. `hashes` is `none` if the column is not shown. -/
def tableLine (up : Nat → Bool) (row : VerboseRow) (hashes : Option (U32 × U32)) : List Byte :=
  padName 40 row.name ++ word " " ++ padLeft 12 (formatSize up row.size) ++ word " " ++
    padLeft 12 (formatSize up row.compressedSize) ++ word " " ++
    padLeft 6 (decimal (shownRatio row.compressedSize row.size)) ++ word "% " ++
    (match hashes with
      | some (h1, h2) => padLeft 10 (hexText h1.toNat) ++ word " " ++ padLeft 10 (hexText h2.toNat) ++ word " "
      | none => []) ++
    flagText row.flags

/-- Models `storm-cli/src/output.rs` 381-411. -/
def tableHead (hashes : Bool) : List (List Byte) :=
  [word "File Listing (Verbose Mode)", List.replicate 120 0x3D#8,
    padRight 40 (word "Name") ++ word " " ++ padLeft 12 (word "Size") ++ word " " ++ padLeft 12 (word "Compressed") ++ word " " ++
      padLeft 7 (word "Ratio") ++ word " " ++
      (if hashes then padLeft 10 (word "Hash1") ++ word " " ++ padLeft 10 (word "Hash2") ++ word " " else []) ++ word "Flags",
    List.replicate (if hashes then 120 else 100) 0x2D#8]

/-- Models `storm-cli/src/output.rs` 487-502. -/
def totalLine (up : Nat → Bool) (count total compressed : Nat) : List Byte :=
  padRight 40 (word "Total: " ++ decimal count ++ word " files") ++ word " " ++ padLeft 12 (formatSize up total) ++ word " " ++
    padLeft 12 (formatSize up compressed) ++ word " " ++ padLeft 6 (decimal (shownRatio compressed total)) ++ word "%"

/-- `{:.1}` of a share. -/
def shareText (up : Nat → Bool) (part whole : Nat) : List Byte :=
  match shownShare up part whole with
  | none => word "NaN"
  | some t => decimal (t / 10) ++ word "." ++ decimal (t % 10)

/-- Models `storm-cli/src/output.rs` 510-521. -/
def flagCount (entries : List HashedEntry) (flag : U32) : Nat := (entries.filter fun x => x.1.flags &&& flag != 0#32).length

/-- Models `storm-cli/src/output.rs` 504-545. -/
def listStatistics (up : Nat → Bool) (entries : List HashedEntry) (total compressed : Nat) : List (List Byte) :=
  let share (n : Nat) := decimal n ++ word " (" ++ shareText up n entries.length ++ word "%)"
  [[], word "Additional Statistics", List.replicate 50 0x2D#8,
    word "Compressed files:  " ++ share (flagCount entries 0x200#32),
    word "Encrypted files:   " ++ share (flagCount entries 0x10000#32),
    word "Single unit files: " ++ share (flagCount entries 0x1000000#32)] ++
  if compressed < total then
    [word "Space saved:       " ++ formatSize up (total - compressed) ++ word " (" ++ shareText up (total - compressed) total ++ word "%)"]
  else []

/-- Models `storm-cli/src/output.rs` 377-548 (`print_file_list_verbose`): what is printed. -/
def cliListVerbose (up : Nat → Bool) (level : Nat) (entries : List HashedEntry) : Res (List Byte) := do
  let (rows, total, compressed) ← verboseRows entries 0 0
  let hashes := entries.any fun x => x.2.isSome
  return printLines (tableHead hashes ++
    (rows.zip entries).map (fun x => tableLine up x.1 (if hashes then some (x.2.2.getD (0, 0)) else none)) ++
    [List.replicate (if hashes then 120 else 100) 0x2D#8, totalLine up entries.length total compressed] ++
    if 2 ≤ level then listStatistics up entries total compressed else [])

end Mopaq
