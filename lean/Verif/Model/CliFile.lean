import Verif.Model.Cli
import Verif.Model.CliList

/-!
# One file with the command line tool

Models `storm-cli/src/commands/file.rs` `extract` with a file name, `info`, and the text and CSV output of the latter
(`storm-cli/src/output.rs`). Writing works, as in `Model/Cli`; JSON is not modelled.
-/

namespace Mopaq

/-- Models `storm-cli/src/commands/file.rs` 91-97: where a single file goes. `none` stands for the panic of `unwrap`. -/
def extractOnePath (output : Option (List Byte)) (preserve : Bool) (name : List Byte) : Option (List Byte) :=
  match output with
  | some out => some out
  | none => if preserve then some name else fileName name

/-- Models `storm-cli/src/commands/file.rs` 75-108 (`extract`) with a file name, for an opened archive: the files written
and how it ends. -/
def extractOne (e : Env) (a : Archive) (output : Option (List Byte)) (preserve : Bool) (name : List Byte) :
    List (List Byte × List Byte) × Res Unit :=
  match a.readFile e name with
  | .error err => ([], .error err)
  | .ok data =>
    match extractOnePath output preserve name with
    | none => ([], .error .panic)
    | some path => ([(path, data)], .ok ())

/-- Models `storm-cli/src/commands/file.rs` 218-234 (`info`) up to the output: the size of a file. -/
def fileInfoSize (e : Env) (a : Archive) (name : List Byte) : Res Nat := do
  let data ← a.readFile e name
  return data.length

/-- "File Information", "Filename: ", "Size:     ", " bytes" and "filename,size". -/
def fileInformationWord : List Byte :=
  [0x46, 0x69, 0x6C, 0x65, 0x20, 0x49, 0x6E, 0x66, 0x6F, 0x72, 0x6D, 0x61, 0x74, 0x69, 0x6F, 0x6E]
def filenameLabel : List Byte := [0x46, 0x69, 0x6C, 0x65, 0x6E, 0x61, 0x6D, 0x65, 0x3A, 0x20]
def sizeLabel : List Byte := [0x53, 0x69, 0x7A, 0x65, 0x3A, 0x20, 0x20, 0x20, 0x20, 0x20]
def bytesWord : List Byte := [0x20, 0x62, 0x79, 0x74, 0x65, 0x73]
def filenameSizeWord : List Byte := filenameWord ++ [0x2C, 0x73, 0x69, 0x7A, 0x65]

/-- Models `storm-cli/src/output.rs` 555-560: the information as text (without colours). -/
def fileInfoText (name : List Byte) (size : Nat) : List Byte :=
  outLine fileInformationWord ++ outLine (List.replicate 50 0x3D#8) ++ outLine (filenameLabel ++ name) ++
    outLine (sizeLabel ++ decimal size ++ bytesWord)

/-- Models `storm-cli/src/output.rs` 568-571: the information as CSV. -/
def fileInfoCsv (name : List Byte) (size : Nat) : List Byte :=
  outLine filenameSizeWord ++ outLine (name ++ [0x2C#8] ++ decimal size)

/-- Models `storm-cli/src/commands/file.rs` 218-234 (`info`): what is printed. -/
def fileInfo (e : Env) (a : Archive) (csv : Bool) (name : List Byte) : Res (List Byte) := do
  let size ← fileInfoSize e a name
  return if csv then fileInfoCsv name size else fileInfoText name size

end Mopaq
