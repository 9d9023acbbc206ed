import Verif.Model.Builder

/-!
# The calls that prepare an archive

Models the construction interface of `ArchiveBuilder` in `mopaq/src/builder.rs` 165-505: a new builder, the option setters
and the calls that add files. Files named by a path are read when the archive is built; `Model/Builder.lean` starts with
what was read. Paths and names are given by their bytes.
-/

namespace Mopaq

/-- Models `mopaq/src/builder.rs` 53-57 (`FileSource`). -/
inductive FileSource where
  | path (p : List Byte)
  | data (content : List Byte)
  deriving DecidableEq, Repr

/-- Models `mopaq/src/builder.rs` 37-51 (`PendingFile`), as kept until the archive is built. -/
structure QueuedFile where
  source : FileSource
  name : List Byte
  compression : Byte
  encrypt : Bool
  useFixKey : Bool
  locale : U16
  deriving DecidableEq, Repr

/-- Models `mopaq/src/builder.rs` 95-104 (`ListfileOption`). -/
inductive ListfileSetting where
  | generate
  | external (path : List Byte)
  | none
  deriving DecidableEq, Repr

/-- Models `mopaq/src/builder.rs` 145-163 (`ArchiveBuilder`), before anything is read. -/
structure ArchiveBuilder where
  version : FormatVersion
  blockSize : U16
  pendingFiles : List QueuedFile
  listfileOption : ListfileSetting
  defaultCompression : Byte
  generateCrcs : Bool
  compressTables : Bool
  tableCompression : Byte
  deriving DecidableEq, Repr

/-- Models `mopaq/src/builder.rs` 167-178 (`ArchiveBuilder::new`) and 1882-1886 (`default`). -/
def ArchiveBuilder.new : ArchiveBuilder where
  version := .v1
  blockSize := 3
  pendingFiles := []
  listfileOption := .generate
  defaultCompression := 0x02
  generateCrcs := false
  compressTables := false
  tableCompression := 0x02

/-- The calls on a builder. -/
inductive BuilderCall where
  | version (v : FormatVersion)
  | blockSize (n : U16)
  | defaultCompression (m : Byte)
  | listfileOption (o : ListfileSetting)
  | generateCrcs (on : Bool)
  | compressTables (on : Bool)
  | tableCompression (m : Byte)
  | addFile (path name : List Byte)
  | addFileWithOptions (path name : List Byte) (compression : Byte) (encrypt : Bool) (locale : U16)
  | addFileData (data name : List Byte)
  | addFileDataWithOptions (data name : List Byte) (compression : Byte) (encrypt : Bool) (locale : U16)
  | addFileWithEncryption (path name : List Byte) (compression : Byte) (useFixKey : Bool) (locale : U16)
  | addFileDataWithEncryption (data name : List Byte) (compression : Byte) (useFixKey : Bool) (locale : U16)
  deriving DecidableEq, Repr

def ArchiveBuilder.push (b : ArchiveBuilder) (f : QueuedFile) : ArchiveBuilder :=
  { b with pendingFiles := b.pendingFiles ++ [f] }

/-- Models `mopaq/src/builder.rs` 181-505: the setters (181-301) and the six ways to add a file (329-340, 367-385, 410-420,
450-468, 471-488, 491-505). -/
def ArchiveBuilder.call (b : ArchiveBuilder) : BuilderCall → ArchiveBuilder
  | .version v => { b with version := v }
  | .blockSize n => { b with blockSize := n }
  | .defaultCompression m => { b with defaultCompression := m }
  | .listfileOption o => { b with listfileOption := o }
  | .generateCrcs on => { b with generateCrcs := on }
  | .compressTables on => { b with compressTables := on }
  | .tableCompression m => { b with tableCompression := m }
  | .addFile path name =>
    b.push { source := .path path, name, compression := b.defaultCompression, encrypt := false, useFixKey := false, locale := 0 }
  | .addFileWithOptions path name compression encrypt locale =>
    b.push { source := .path path, name, compression, encrypt, useFixKey := false, locale }
  | .addFileData data name =>
    b.push { source := .data data, name, compression := b.defaultCompression, encrypt := false, useFixKey := false, locale := 0 }
  | .addFileDataWithOptions data name compression encrypt locale =>
    b.push { source := .data data, name, compression, encrypt, useFixKey := false, locale }
  | .addFileWithEncryption path name compression useFixKey locale =>
    b.push { source := .path path, name, compression, encrypt := true, useFixKey, locale }
  | .addFileDataWithEncryption data name compression useFixKey locale =>
    b.push { source := .data data, name, compression, encrypt := true, useFixKey, locale }

/-- A chain of calls on a new builder. -/
def ArchiveBuilder.calls (cs : List BuilderCall) : ArchiveBuilder := cs.foldl ArchiveBuilder.call .new

/-- Models the reading in `mopaq/src/builder.rs` 590-592, 641-645 and 754-758: what there is under a path (`fs::read`;
`none` when it fails). The files on disk do not change while the archive is built. -/
def FileSource.read (disk : List Byte → Option (List Byte)) : FileSource → Option (List Byte)
  | .path p => disk p
  | .data content => some content

/-- A file once it has been read. -/
def QueuedFile.resolve (disk : List Byte → Option (List Byte)) (q : QueuedFile) : PendingFile where
  source := q.source.read disk
  name := q.name
  compression := q.compression
  encrypt := q.encrypt
  useFixKey := q.useFixKey
  locale := q.locale

/-- The listfile option once an external listfile has been read. -/
def ListfileSetting.resolve (disk : List Byte → Option (List Byte)) : ListfileSetting → ListfileOption
  | .generate => .generate
  | .external p => .external (disk p)
  | .none => .none

/-- What `Model/Builder.lean` starts with: the files are read when `build` is called. -/
def ArchiveBuilder.resolve (b : ArchiveBuilder) (disk : List Byte → Option (List Byte)) : Builder where
  version := b.version
  blockSize := b.blockSize
  pending := b.pendingFiles.map (QueuedFile.resolve disk)
  listfile := b.listfileOption.resolve disk
  defaultCompression := b.defaultCompression
  generateCrcs := b.generateCrcs
  tables := { compressTables := b.compressTables, tableCompression := b.tableCompression }

/-- Models `mopaq/src/builder.rs` 525-564 (`build`): the bytes of the finished archive. -/
def ArchiveBuilder.build (e : Env) (md5 : Md5) (disk : List Byte → Option (List Byte)) (b : ArchiveBuilder) : Res (List Byte) :=
  buildBytes e md5 (b.resolve disk)

end Mopaq
