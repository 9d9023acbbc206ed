import Verif.Model.Ffi

/-!
# Creating an empty archive

Models `OpenOptions::create` of the library and `SFileCreateArchive` of the C API. The path is an ordinary file or missing;
directories and links are not modelled, and neither are null pointers and paths that are not UTF-8 (both are refused before
anything else happens, 200-219). How the archive reaches its path is modelled in `Verif.Model.Publish`; here it appears in one
step, or making it fails and the path is left alone (C40).
-/

namespace Mopaq

/-- `ERROR_ALREADY_EXISTS` (`storm-ffi/src/lib.rs` 55). -/
def errorAlreadyExists : U32 := 183

/-- `CREATE_NEW` to `TRUNCATE_EXISTING` (`storm-ffi/src/lib.rs` 95-99). -/
def createNew : U32 := 1
def createAlways : U32 := 2
def openExisting : U32 := 3
def openAlways : U32 := 4
def truncateExisting : U32 := 5

/-- The builder of an empty archive: `ArchiveBuilder::new().version(v)` (`mopaq/src/builder.rs` 167-184). -/
def emptyBuilder (v : FormatVersion) : Builder where
  version := v
  blockSize := 3
  pending := []
  listfile := .generate
  defaultCompression := 0x02
  generateCrcs := false
  tables := { compressTables := false, tableCompression := 0x02 }

/-- Models `mopaq/src/archive.rs` 243-255 (`OpenOptions::create`) when the disk works: the bytes at the path, and the archive
opened. -/
def createArchive (e : Env) (md5 : Md5) (version : Option FormatVersion) (load : Bool) : Res (List Byte × Archive) := do
  let f ← buildBytes e md5 (emptyBuilder (version.getD .v1))
  let a ← openArchive e f load
  return (f, a)

/-- Where a call to `SFileCreateArchive` is: before the look at the path, before making the archive, before opening it, or
finished, with the archive opened or the error code. -/
inductive CreateStage where
  | check (disposition size : U32)
  | build
  | openPath
  | done (result : Except U32 Archive)

/-- The code for an error while making the archive (`storm-ffi/src/lib.rs` 276-282). -/
def createErrorCode : Err → U32
  | .fileNotFound => errorFileNotFound
  | .invalidFormat => errorInvalidParameter
  | _ => errorAccessDenied

/-- Models `storm-ffi/src/lib.rs` 206-257: the checks of the parameters and the look at the path. -/
def createCheck (exists_ : Bool) (disposition size : U32) : CreateStage :=
  if !isPowerOfTwo size || size.toNat < 4 then .done (.error errorInvalidParameter)
  else if disposition = createNew then if exists_ then .done (.error errorAlreadyExists) else .build
  else if disposition = createAlways then .build
  else if disposition = openExisting then .done (.error errorInvalidParameter)
  else if disposition = openAlways then if exists_ then .openPath else .build
  else if disposition = truncateExisting then if exists_ then .build else .done (.error errorFileNotFound)
  else .done (.error errorInvalidParameter)

/-- Models `storm-ffi/src/lib.rs` 194-287 (`SFileCreateArchive`), one step at a time: the new content of the path and where
the call is then. `writable`: whether the disk lets the archive be made. The handle is modelled in `Verif.Model.Ffi`. -/
def createStep (e : Env) (md5 : Md5) (writable : Bool) (content : Option (List Byte)) :
    CreateStage → Res (Option (List Byte) × CreateStage)
  | .check disposition size => .ok (content, createCheck content.isSome disposition size)
  | .build => do
    match ← caught (if writable then buildBytes e md5 (emptyBuilder .v2) else .error .io) with
    | .ok f => return (some f, .openPath)
    | .error err => return (content, .done (.error (createErrorCode err)))
  | .openPath => do
    match ← caught (openPath e content) with
    | .ok a => return (content, .done (.ok a))
    | .error err => return (content, .done (.error (errorCode err)))
  | .done r => .ok (content, .done r)

/-- A call with nobody else at the path: all its steps. -/
def createAlone (e : Env) (md5 : Md5) (writable : Bool) (content : Option (List Byte)) (disposition size : U32) :
    Res (Option (List Byte) × CreateStage) := do
  let (content, stage) ← createStep e md5 writable content (.check disposition size)
  let (content, stage) ← createStep e md5 writable content stage
  createStep e md5 writable content stage

/-- Several calls for the same path: one step of any of them. -/
inductive CreateMove (e : Env) (md5 : Md5) :
    Option (List Byte) × List CreateStage → Option (List Byte) × List CreateStage → Prop where
  | step (writable : Bool) (before after : List CreateStage) (stage stage' : CreateStage)
      (content content' : Option (List Byte)) (h : createStep e md5 writable content stage = .ok (content', stage')) :
      CreateMove e md5 (content, before ++ stage :: after) (content', before ++ stage' :: after)

/-- Any number of such moves. -/
inductive CreateMoves (e : Env) (md5 : Md5) :
    Option (List Byte) × List CreateStage → Option (List Byte) × List CreateStage → Prop where
  | refl (s : Option (List Byte) × List CreateStage) : CreateMoves e md5 s s
  | tail {s t u : Option (List Byte) × List CreateStage} : CreateMoves e md5 s t → CreateMove e md5 t u →
      CreateMoves e md5 s u

end Mopaq
