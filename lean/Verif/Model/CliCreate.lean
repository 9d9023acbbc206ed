import Verif.Model.Builder
import Verif.Model.Cli

/-!
# Creating an archive by the command line tool

Models `storm-cli/src/commands/archive.rs` `create`. The source on disk is given by what the command sees of it. Paths are
UTF-8 (for others line 135 panics). Not modelled: symbolic links, and files that change while the command runs.
-/

namespace Mopaq

/-- Models `storm-cli/src/commands/archive.rs` 15-24 (`CreateOptions`), without `follow_symlinks`. -/
structure CreateOptions where
  version : FormatVersion
  compression : U16
  blockSize : U16
  listfile : ListfileOption
  recursive : Bool
  ignorePatterns : List (List Byte)
  deriving DecidableEq, Repr

/-- Models `storm-cli/src/commands/archive.rs` 26-38 (`default`). -/
def CreateOptions.default : CreateOptions where
  version := .v1
  compression := 0x02
  blockSize := 3
  listfile := .generate
  recursive := true
  ignorePatterns := []

/-- What is found under the source path: a file with its content (`none` if it cannot be read), or a directory with the
files below it at any depth, as `walkdir` enumerates them: path relative to the directory and content. -/
inductive Source where
  | missing
  | file (content : Option (List Byte))
  | dir (files : List (List Byte × Option (List Byte)))
  deriving DecidableEq, Repr

/-- `str::contains` with a string, on the bytes. -/
def containsText (text pattern : List Byte) : Bool :=
  match text with
  | [] => pattern.isPrefixOf []
  | c :: rest => pattern.isPrefixOf (c :: rest) || containsText rest pattern

/-- Models `storm-cli/src/commands/archive.rs` 111-118: whether a path is ignored. -/
def shouldIgnore (patterns : List (List Byte)) (path : List Byte) : Bool :=
  patterns.any fun pattern =>
    containsText path pattern || match fileName path with
      | some last => containsText last pattern
      | none => false

/-- Models `storm-cli/src/commands/archive.rs` 133: `replace('\\', "/")`. -/
def forwardSlashes (path : List Byte) : List Byte := path.map fun c => if c = 0x5C#8 then 0x2F#8 else c

/-- Models `mopaq/src/builder.rs` 329-340 (`add_file`): the file that becomes pending. -/
def addedFile (compression : Byte) (content : Option (List Byte)) (name : List Byte) : PendingFile :=
  { source := content, name, compression, encrypt := false, useFixKey := false, locale := 0 }

/-- Models `storm-cli/src/commands/archive.rs` 84-147 (`add_directory_to_archive`) with an empty prefix: the files added.
Without recursion `walkdir` stops at depth 1. -/
def directoryFiles (o : CreateOptions) (compression : Byte) (dir : List Byte) :
    List (List Byte × Option (List Byte)) → List PendingFile
  | [] => []
  | (rel, content) :: rest =>
    if !o.recursive && rel.contains 0x2F#8 then directoryFiles o compression dir rest
    else if shouldIgnore o.ignorePatterns (joinPath dir rel) then directoryFiles o compression dir rest
    else addedFile compression content (forwardSlashes rel) :: directoryFiles o compression dir rest

/-- Models `storm-cli/src/commands/archive.rs` 49-71 and `mopaq/src/builder.rs` 167-178 (`ArchiveBuilder::new`): the builder
before `build`. An error of the command itself is `io`. -/
def createBuilder (o : CreateOptions) (path : List Byte) (source : Source) : Res Builder := do
  let compression := BitVec.ofNat 8 o.compression.toNat
  let pending ← match source with
    | .missing => throw .io
    | .file content =>
      match fileName path with
      | none => throw .io
      | some name => pure [addedFile compression content name]
    | .dir files => pure (directoryFiles o compression path files)
  return { version := o.version, blockSize := o.blockSize, pending, listfile := o.listfile, defaultCompression := compression,
           generateCrcs := false, tables := { compressTables := false, tableCompression := 0x02 } }

/-- Models `storm-cli/src/commands/archive.rs` 41-82 (`create`): the content of the archive that is put in place. -/
def cliCreate (e : Env) (md5 : Md5) (o : CreateOptions) (path : List Byte) (source : Source) : Res (List Byte) := do
  let b ← createBuilder o path source
  buildBytes e md5 b

end Mopaq
