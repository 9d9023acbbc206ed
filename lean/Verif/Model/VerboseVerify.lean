import Verif.Model.TextReport

/-!
# Verification of an archive, file by file

Models the lines that `archive verify --verbose` prints about the files, for text.
-/

namespace Mopaq

/-- Models `storm-cli/src/commands/archive.rs` 226-288: the line about a file. `message` is the text of the error about a file. -/
def fileLine (e : Env) (a : Archive) (message : List Byte → List Byte) (checkContents : Bool) (name : List Byte) :
    Res (List Byte) := do
  match ← a.findFile name with
  | some _ =>
    if checkContents then
      match caught (a.readFile e name) with
      | .error err => .error err
      | .ok (.ok data) => return passMark ++ word " " ++ name ++ word " (" ++ decimal data.length ++ word " bytes)"
      | .ok (.error _) => return failMark ++ word " " ++ name ++ word " - " ++ message name
    else return passMark ++ word " " ++ name
  | none => return failMark ++ word " " ++ name ++ word " - File not found"

/-- Models `storm-cli/src/commands/archive.rs` 225-289: the lines printed, and how the loop ends. What it counts is `verifyNames`. -/
def fileLines (e : Env) (a : Archive) (message : List Byte → List Byte) (checkContents : Bool) :
    List (List Byte) → List (List Byte) × Res Unit
  | [] => ([], .ok ())
  | name :: names =>
    match fileLine e a message checkContents name with
    | .error err => ([], .error err)
    | .ok line =>
      let (lines, result) := fileLines e a message checkContents names
      (line :: lines, result)

/-- Models `storm-cli/src/commands/archive.rs` 166-289: the lines printed about the files of the file named. There are none if the
archive cannot be opened, described or listed. -/
def verboseLines (e : Env) (s : SigEnv) (message : List Byte → List Byte) (f : List Byte) (checkContents : Bool) : List (List Byte) :=
  match (do
    let a ← openArchive e f
    let _ ← a.getInfo e s
    let entries ← a.list e
    return (a, entries) : Res (Archive × List FileEntry)) with
  | .error _ => []
  | .ok (a, entries) => (fileLines e a message checkContents (entries.map (·.name))).1

/-- Models `storm-cli/src/commands/archive.rs` 159-303 (`verify --verbose`) with 351-553, for text: what is printed, and how the
command ends. `--verbose` and `--quiet` exclude each other (`storm-cli/src/main.rs` 53). -/
def cliVerifyVerbose (e : Env) (s : SigEnv) (message : List Byte → List Byte) (path f : List Byte) (checkCrc checkContents : Bool) :
    List Byte × Res Unit :=
  let first := (word "Verifying archive: ", path) :: (verboseLines e s message f checkContents).map fun l => (l, [])
  match cliVerifyReport e s f checkCrc checkContents with
  | .error err => (printLines (blockLines [first]), .error err)
  | .ok r =>
    (printLines (blockLines (first :: (verifyBlocks message path r).tail)), if r.errors = [] then .ok () else .error .invalidFormat)

end Mopaq
