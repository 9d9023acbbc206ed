import Verif.Model.Ffi

/-!
# Extraction by the command line tool

Models `storm-cli/src/commands/file.rs` `extract` without a file name, and what it needs of `std::path` on Unix. A path is
its bytes. Not modelled: symbolic links, and the directories created on the way (the parents of the paths written).
-/

namespace Mopaq

/-- The parts of a path between slashes that count: `std::path::Components` on Unix drops empty parts and `.`
(a leading `.` counts as a component of its own kind there, which makes no difference here). -/
def pathParts (p : List Byte) : List (List Byte) :=
  (p.splitOn 0x2F#8).filter fun part => !(part == []) && !(part == [0x2E#8])

/-- `Path::is_absolute` on Unix. -/
def isAbsolute (p : List Byte) : Bool := p.head? == some 0x2F#8

/-- `Path::file_name` on Unix. -/
def fileName (p : List Byte) : Option (List Byte) :=
  match (pathParts p).getLast? with
  | some part => if part == [0x2E#8, 0x2E#8] then none else some part
  | none => none

/-- `PathBuf::join` on Unix. -/
def joinPath (base p : List Byte) : List Byte :=
  if isAbsolute p then p
  else if base = [] ∨ base.getLast? = some 0x2F#8 then base ++ p
  else base ++ [0x2F#8] ++ p

/-- Models `storm-cli/src/commands/file.rs` 124-128: where a file goes. `none` stands for the panic of `unwrap`. -/
def extractTarget (out : List Byte) (preserve : Bool) (name : List Byte) : Option (List Byte) :=
  if preserve then some (joinPath out name) else (fileName name).map fun last => joinPath out last

/-- Models `storm-cli/src/commands/file.rs` 115-140: the files written, in order, and how it ends. Writing itself works;
if it does not, the function ends with the writes made so far. -/
def extractNames (e : Env) (a : Archive) (out : List Byte) (preserve : Bool) :
    List (List Byte) → List (List Byte × List Byte) × Res Unit
  | [] => ([], .ok ())
  | name :: names =>
    match caught (a.readFile e name) with
    | .error err => ([], .error err)
    | .ok (.error _) => extractNames e a out preserve names
    | .ok (.ok data) =>
      match extractTarget out preserve name with
      | none => ([], .error .panic)
      | some path =>
        let (writes, r) := extractNames e a out preserve names
        ((path, data) :: writes, r)

/-- Models `storm-cli/src/commands/file.rs` 75-148 (`extract`) without a file name, for an opened archive. -/
def extractAll (e : Env) (a : Archive) (output : Option (List Byte)) (preserve : Bool) :
    List (List Byte × List Byte) × Res Unit :=
  match a.list e with
  | .error err => ([], .error err)
  | .ok entries => extractNames e a (output.getD [0x2E#8]) preserve (entries.map (·.name))

end Mopaq
