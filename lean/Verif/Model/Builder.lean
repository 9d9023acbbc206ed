import Verif.Model.Archive

/-!
# Building an archive

Models `ArchiveBuilder::build` of `mopaq/src/builder.rs`: the bytes of the finished file. Files named by a path are given
by their content (`none` when they cannot be read). Writing to the temporary file never fails here; see
`Model/Publish.lean` for the temporary file itself.
-/

namespace Mopaq

/-- Models `mopaq/src/builder.rs` 37-57 (`PendingFile`, `FileSource`). -/
structure PendingFile where
  source : Option (List Byte)
  name : List Byte
  compression : Byte
  encrypt : Bool
  useFixKey : Bool
  locale : U16
  deriving DecidableEq, Repr

/-- Models `mopaq/src/builder.rs` 95-104 (`ListfileOption`); an external listfile is given by its content. -/
inductive ListfileOption where
  | generate
  | external (content : Option (List Byte))
  | none
  deriving DecidableEq, Repr

/-- Models `mopaq/src/builder.rs` 145-163 (`ArchiveBuilder`). -/
structure Builder where
  version : FormatVersion
  blockSize : U16
  pending : List PendingFile
  listfile : ListfileOption
  defaultCompression : Byte
  generateCrcs : Bool
  tables : TableOptions
  deriving DecidableEq, Repr

/-- The MD5 function (crate `md-5`), which is not modelled. -/
abbrev Md5 := List Byte → List Byte

/-- Models `mopaq/src/builder.rs` 567-607 (`prepare_listfile`): the pending files afterwards. -/
def prepareListfile (b : Builder) : Res (List PendingFile) :=
  let entry (content : List Byte) : PendingFile :=
    { source := some content, name := listfileName, compression := b.defaultCompression, encrypt := false,
      useFixKey := false, locale := 0 }
  match b.listfile with
  | .generate => .ok (b.pending ++ [entry (listfileText (b.pending.map (·.name)))])
  | .external none => .error .io
  | .external (some content) => .ok (b.pending ++ [entry content])
  | .none => .ok b.pending

/-- What one file leaves in the archive: its bytes, its block entry and the high part of its position. -/
structure Stored where
  bytes : List Byte
  block : BlockEntry
  hi : U16
  deriving DecidableEq, Repr

/-- Models `mopaq/src/builder.rs` 642-691 and 753-790, without the tables: one file written at `pos`. -/
def storeFile (e : Env) (crcs : Bool) (sectorSize pos : Nat) (p : PendingFile) : Res Stored := do
  let data ← match p.source with
    | none => throw .io
    | some data => pure data
  let w ← writeFile e crcs
    { data, name := p.name, compression := p.compression, encrypt := p.encrypt, useFixKey := p.useFixKey, sectorSize,
      filePos := pos }
  return { bytes := w.bytes
           block := { filePos := BitVec.ofNat 32 pos, compressedSize := BitVec.ofNat 32 w.size,
                      fileSize := BitVec.ofNat 32 data.length, flags := w.flags ||| flagExists }
           hi := BitVec.ofNat 16 (pos / 2 ^ 32) }

/-- Models `mopaq/src/builder.rs` 642-691 (with `hashing`) and 753-790 (without): the loop over the pending files. The
block table has `limit` entries. -/
def storeFiles (e : Env) (crcs hashing : Bool) (sectorSize limit : Nat) :
    Nat → Nat → HashTable → List PendingFile → Res (HashTable × List Stored)
  | _, _, t, [] => .ok (t, [])
  | index, pos, t, p :: rest => do
    let s ← storeFile e crcs sectorSize pos p
    let t ← if hashing then addToHashTable t p.name (BitVec.ofNat 32 index) p.locale else pure t
    if limit ≤ index then throw .invalidFormat
    let (t, more) ← storeFiles e crcs hashing sectorSize limit (index + 1) (pos + s.bytes.length) t rest
    return (t, s :: more)

/-- Models `mopaq/src/builder.rs` 807-815: the additions to the hash table. -/
def addAll : Nat → HashTable → List PendingFile → Res HashTable
  | _, t, [] => .ok t
  | index, t, p :: rest => do
    let t ← addToHashTable t p.name (BitVec.ofNat 32 index) p.locale
    addAll (index + 1) t rest

/-- `calculate_hash_table_size` counts the listfile once more, which is already pending (`mopaq/src/builder.rs` 508-522). -/
def hashSizeOf (b : Builder) (pending : List PendingFile) : Res Nat :=
  calculateHashTableSize pending.length (match b.listfile with | .none => false | _ => true)

/-- Models `mopaq/src/builder.rs` 610-733 (`write_archive`) for versions 1 and 2. The space for the header is skipped
and filled in at the end. -/
def writeArchiveClassic (e : Env) (b : Builder) (pending : List PendingFile) : Res (List Byte) := do
  let hashSize ← hashSizeOf b pending
  let limit := pending.length % 2 ^ 32
  let sectorSize ← sectorSizeOf b.blockSize
  let headerSize := b.version.headerSize.toNat
  let table ← HashTable.new hashSize
  let (table, stored) ← storeFiles e b.generateCrcs true sectorSize limit 0 headerSize table pending
  let files := stored.flatMap (·.bytes)
  let hash := hashTableBytes table
  let block := blockTableBytes (stored.map (·.block))
  let hashPos := headerSize + files.length
  let blockPos := hashPos + hash.length
  let hiPos := blockPos + block.length
  let his := stored.map (·.hi)
  let hiNeeded := b.version.ge .v2 && hiBlockNeeded his
  let hi := if hiNeeded then hiBlockTableBytes his else []
  let header ← writeHeader b.version b.blockSize
    { archiveSize := BitVec.ofNat 64 (hiPos + hi.length), hashTablePos := BitVec.ofNat 64 hashPos,
      blockTablePos := BitVec.ofNat 64 blockPos, hashTableSize := BitVec.ofNat 32 hashSize,
      blockTableSize := BitVec.ofNat 32 pending.length,
      hiBlockTablePos := if hiNeeded then some (BitVec.ofNat 64 hiPos) else none,
      hetTablePos := none, betTablePos := none, v4Data := none }
  return header ++ files ++ hash ++ block ++ hi

/-- Models `mopaq/src/builder.rs` 736-895 (`write_archive_with_het_bet`) and 1388-1406 (`finalize_v4_header_md5`). -/
def writeArchiveHetBet (e : Env) (md5 : Md5) (b : Builder) (pending : List PendingFile) : Res (List Byte) := do
  let limit := pending.length % 2 ^ 32
  let sectorSize ← sectorSizeOf b.blockSize
  let headerSize := b.version.headerSize.toNat
  let (_, stored) ← storeFiles e b.generateCrcs false sectorSize limit 0 headerSize [] pending
  let files := stored.flatMap (·.bytes)
  let hetPos := headerSize + files.length
  let names := pending.map (·.name)
  let hetData ← createHetTable names
  let het ← writeExtTable e.codecs b.tables hetData hashTableKey
  let betPos := hetPos + het.length
  let betData ← createBetTable names (stored.map (·.block))
  let bet ← writeExtTable e.codecs b.tables betData blockTableKey
  let hashSize ← hashSizeOf b pending
  let table ← HashTable.new hashSize
  let table ← addAll 0 table pending
  let hashPos := betPos + bet.length
  let hash := hashTableBytes table
  let blockPos := hashPos + hash.length
  let block := blockTableBytes (stored.map (·.block))
  let hiPos := blockPos + block.length
  let his := stored.map (·.hi)
  let hiNeeded := hiBlockNeeded his
  let hi := if hiNeeded then hiBlockTableBytes his else []
  let v4Data := if b.version = .v4 then
      some { hashTableSize64 := BitVec.ofNat 64 (hashSize * 16), blockTableSize64 := BitVec.ofNat 64 (pending.length * 16),
             hiBlockTableSize64 := BitVec.ofNat 64 (pending.length * 2), hetTableSize64 := BitVec.ofNat 64 het.length,
             betTableSize64 := BitVec.ofNat 64 bet.length, rawChunkSize := 0x4000, md5BlockTable := md5 block,
             md5HashTable := md5 hash, md5HiBlockTable := if hiNeeded then md5 hi else List.replicate 16 0,
             md5BetTable := md5 bet, md5HetTable := md5 het, md5MpqHeader := List.replicate 16 0 }
    else none
  let header ← writeHeader b.version b.blockSize
    { archiveSize := BitVec.ofNat 64 (hiPos + hi.length), hashTablePos := BitVec.ofNat 64 hashPos,
      blockTablePos := BitVec.ofNat 64 blockPos, hashTableSize := BitVec.ofNat 32 hashSize,
      blockTableSize := BitVec.ofNat 32 pending.length,
      hiBlockTablePos := if hiNeeded then some (BitVec.ofNat 64 hiPos) else none,
      hetTablePos := some (BitVec.ofNat 64 hetPos), betTablePos := some (BitVec.ofNat 64 betPos), v4Data }
  let header := if b.version = .v4 then header.take 192 ++ md5 (header.take 192) else header
  return header ++ files ++ het ++ bet ++ hash ++ block ++ hi

/-- Models `mopaq/src/builder.rs` 525-564 (`build`): the content of the finished file. -/
def buildBytes (e : Env) (md5 : Md5) (b : Builder) : Res (List Byte) := do
  let pending ← prepareListfile b
  if b.version.ge .v3 then writeArchiveHetBet e md5 b pending else writeArchiveClassic e b pending

end Mopaq
