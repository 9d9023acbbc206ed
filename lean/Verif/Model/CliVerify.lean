import Verif.Model.Info
import Verif.Model.Ffi

/-!
# Verification by the command line tool

Models `storm-cli/src/commands/archive.rs` `verify`. What is printed is the report; the formats it is printed in are not modelled.
-/

namespace Mopaq

/-- Models `storm-cli/src/commands/archive.rs` 305-349 (`VerificationResults` and its parts). The header and table checks
are fields of the description, copied. Of an error only the file it is about is kept. -/
structure VerifyReport where
  info : ArchiveInfo
  totalFiles : Nat
  verifiedFiles : Nat
  errors : List (List Byte)
  warnings : List (List Byte)
  filesFound : Nat
  filesReadable : Nat
  filesMissing : Nat
  filesCorrupted : Nat

/-- Models `storm-cli/src/commands/archive.rs` 226-270: a file found. -/
def verifyFound (e : Env) (a : Archive) (checkCrc checkContents : Bool) (name : List Byte) (r : VerifyReport) :
    Res VerifyReport :=
  if checkContents then
    match caught (a.readFile e name) with
    | .error err => .error err
    | .ok (.ok _) =>
      .ok { r with verifiedFiles := r.verifiedFiles + 1, filesReadable := r.filesReadable + 1,
                   warnings := if checkCrc then r.warnings ++ [name] else r.warnings }
    | .ok (.error _) => .ok { r with errors := r.errors ++ [name], filesCorrupted := r.filesCorrupted + 1 }
  else .ok { r with verifiedFiles := r.verifiedFiles + 1 }

/-- Models `storm-cli/src/commands/archive.rs` 221-291: one file. -/
def verifyName (e : Env) (a : Archive) (checkCrc checkContents : Bool) (name : List Byte) (r : VerifyReport) :
    Res VerifyReport := do
  match ← a.findFile name with
  | some _ => verifyFound e a checkCrc checkContents name { r with filesFound := r.filesFound + 1 }
  | none => return { r with errors := r.errors ++ [name], filesMissing := r.filesMissing + 1 }

/-- Models `storm-cli/src/commands/archive.rs` 221-291: the loop over the files. -/
def verifyNames (e : Env) (a : Archive) (checkCrc checkContents : Bool) : List (List Byte) → VerifyReport → Res VerifyReport
  | [], r => .ok r
  | name :: names, r => do
    let r ← verifyName e a checkCrc checkContents name r
    verifyNames e a checkCrc checkContents names r

/-- Models `storm-cli/src/commands/archive.rs` 166-291: the report, for the bytes of the file named. -/
def cliVerifyReport (e : Env) (s : SigEnv) (f : List Byte) (checkCrc checkContents : Bool) : Res VerifyReport := do
  let a ← openArchive e f
  let info ← a.getInfo e s
  let entries ← a.list e
  verifyNames e a checkCrc checkContents (entries.map (·.name))
    { info, totalFiles := entries.length, verifiedFiles := 0, errors := [], warnings := [], filesFound := 0,
      filesReadable := 0, filesMissing := 0, filesCorrupted := 0 }

/-- Models `storm-cli/src/commands/archive.rs` 159-303 (`verify`): whether the command succeeds. The error of `bail!` is
`invalidFormat` here. -/
def cliVerify (e : Env) (s : SigEnv) (f : List Byte) (checkCrc checkContents : Bool) : Res Unit := do
  let r ← cliVerifyReport e s f checkCrc checkContents
  if r.errors = [] then return () else throw .invalidFormat

end Mopaq
