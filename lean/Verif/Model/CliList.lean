import Verif.Model.HashListing
import Verif.Model.Listfile

/-!
# Listing and finding files with the command line tool

Models `storm-cli/src/commands/file.rs` `list`, `find` and what they print (`storm-cli/src/output.rs`) in the formats text
and CSV. Patterns are what they match: compiling them (crates `glob` and `regex`) gives a predicate or fails. Not modelled:
JSON, colours, and the numbers of the verbose table that are computed with floating point (`Model/Figures`).
-/

namespace Mopaq

/-- What compiling a pattern gives. -/
abbrev Matcher := Res (List Byte → Bool)

/-- Models `storm-cli/src/commands/file.rs` 45-54: an optional pattern. -/
def applyPattern (pattern : Option Matcher) (entries : List HashedEntry) : Res (List HashedEntry) :=
  match pattern with
  | none => .ok entries
  | some (.error err) => .error err
  | some (.ok matches_) => .ok (entries.filter fun x => matches_ x.1.name)

/-- Models `storm-cli/src/commands/file.rs` 29-39: which listing of the archive is taken. -/
def listedEntries (e : Env) (a : Archive) (all showHashes : Bool) : Res (List HashedEntry) :=
  if all then
    if showHashes then a.listAllWithHashes else (a.listAll).map (·.map fun x => (x, none))
  else if showHashes then a.listWithHashes e else (a.list e).map (·.map fun x => (x, none))

/-- Models `storm-cli/src/commands/file.rs` 17-57 (`list`) on an open archive, up to the output. -/
def cliList (e : Env) (a : Archive) (all showHashes : Bool) (pattern : Option Matcher) : Res (List HashedEntry) := do
  let entries ← listedEntries e a all showHashes
  let entries ← applyPattern pattern entries
  return entries.mergeSort fun x y => nameLe x.1.name y.1.name

/-- Models `storm-cli/src/commands/file.rs` 168-201 (`find`) on an open archive, up to the output. The pattern is compiled
with case folding (or in lower case, for globs) when case is to be ignored; `fold` then is what happens to a name before it
is matched. -/
def cliFind (e : Env) (a : Archive) (pattern : Matcher) (fold : List Byte → List Byte) : Res (List (List Byte)) := do
  let entries ← a.list e
  let matches_ ← pattern
  return (entries.map (·.name)).filter fun n => matches_ (fold n)

/-- `println!`. -/
def outLine (l : List Byte) : List Byte := l ++ [0x0A#8]

/-- A number in decimal (`{}`). -/
def decimal (n : Nat) : List Byte := (Nat.toDigits 10 n).map fun c => BitVec.ofNat 8 c.toNat

/-- A digit of `{:08X}`. -/
def hexDigit (n : Nat) : Byte := BitVec.ofNat 8 (if n < 10 then 0x30 + n else 0x37 + n)

/-- `{:08X}`. -/
def hex8 (x : U32) : List Byte :=
  [x.toNat / 2 ^ 28 % 16, x.toNat / 2 ^ 24 % 16, x.toNat / 2 ^ 20 % 16, x.toNat / 2 ^ 16 % 16, x.toNat / 2 ^ 12 % 16,
    x.toNat / 2 ^ 8 % 16, x.toNat / 2 ^ 4 % 16, x.toNat % 16].map hexDigit

/-- "Total: ", " files" and "filename". -/
def totalWord : List Byte := [0x54, 0x6F, 0x74, 0x61, 0x6C, 0x3A, 0x20]
def filesWord : List Byte := [0x20, 0x66, 0x69, 0x6C, 0x65, 0x73]
def filenameWord : List Byte := [0x66, 0x69, 0x6C, 0x65, 0x6E, 0x61, 0x6D, 0x65]

/-- Models `storm-cli/src/output.rs` 358-363: the list of names as text. -/
def listText (names : List (List Byte)) : List Byte :=
  names.flatMap outLine ++ outLine [] ++ outLine (totalWord ++ decimal names.length ++ filesWord)

/-- Models `storm-cli/src/output.rs` 367-372: the list of names as CSV. -/
def listCsv (names : List (List Byte)) : List Byte := outLine filenameWord ++ names.flatMap outLine

/-- Models `storm-cli/src/output.rs` 338-342: one row of the CSV output with hashes. -/
def csvRow (x : HashedEntry) : List Byte :=
  match x.2 with
  | some (h1, h2) => x.1.name ++ [0x2C#8] ++ hex8 h1 ++ [0x2C#8] ++ hex8 h2
  | none => x.1.name ++ [0x2C, 0x4E, 0x41, 0x2C, 0x4E, 0x41]

/-- Models `storm-cli/src/output.rs` 334-350: the entries with hashes as CSV. -/
def hashesCsv (entries : List HashedEntry) : List Byte :=
  if entries.any (·.2.isSome) then
    outLine (filenameWord ++ [0x2C, 0x68, 0x61, 0x73, 0x68, 0x31, 0x2C, 0x68, 0x61, 0x73, 0x68, 0x32]) ++
      entries.flatMap fun x => outLine (csvRow x)
  else listCsv (entries.map (·.1.name))

/-- `str::is_char_boundary` (standard library). -/
def isCharBoundary (s : List Byte) (i : Nat) : Bool :=
  i == 0 || (match s[i]? with | some b => !isCont b | none => i == s.length)

/-- Models `storm-cli/src/output.rs` 453-458: names of more than 39 bytes are cut after 36, which panics in the middle of a
character. -/
def displayName (name : List Byte) : Res (List Byte) :=
  if 39 < name.length then
    if isCharBoundary name 36 then .ok (name.take 36 ++ [0x2E, 0x2E, 0x2E]) else .error .panic
  else .ok name

/-- A row of the verbose table: the name shown, the sizes and which flags are named, in the order "Compressed",
"Encrypted", "Single Unit", "Has CRC", "Fix Key", "Patch", "Deleted". -/
structure VerboseRow where
  name : List Byte
  size : Nat
  compressedSize : Nat
  flags : List Bool
  deriving DecidableEq, Repr

/-- Models `storm-cli/src/output.rs` 417-451: what a row shows of an entry. -/
def verboseRow (name : List Byte) (x : FileEntry) : VerboseRow :=
  { name, size := x.size, compressedSize := x.compressedSize
    flags := [0x200#32, 0x10000#32, 0x1000000#32, 0x4000000#32, 0x20000#32, 0x100000#32, 0x2000000#32].map
      fun f => x.flags &&& f != 0#32 }

/-- Models `storm-cli/src/output.rs` 416-485: the rows of the verbose table and the two sums. -/
def verboseRows : List HashedEntry → Nat → Nat → Res (List VerboseRow × Nat × Nat)
  | [], total, compressed => .ok ([], total, compressed)
  | x :: rest, total, compressed => do
    let name ← displayName x.1.name
    let row := verboseRow name x.1
    let total ← if total + x.1.size < 2 ^ 64 then pure (total + x.1.size) else throw .panic
    let compressed ← if compressed + x.1.compressedSize < 2 ^ 64 then pure (compressed + x.1.compressedSize) else throw .panic
    let (rows, total, compressed) ← verboseRows rest total compressed
    return (row :: rows, total, compressed)

end Mopaq
