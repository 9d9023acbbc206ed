import Verif.Model.FileIO
import Verif.Model.HetBet
import Verif.Model.Listfile
import Verif.Model.Attributes

/-!
# Opening an archive and finding, reading and listing files

Models `Archive` of `mopaq/src/archive.rs`. The file is a byte string that does not change while the archive is open.
Paths, logging and the buffering of the reader are dropped.
-/

namespace Mopaq

/-- Models `mopaq/src/archive.rs` 266-289 (`Archive`), without the path. -/
structure Archive where
  file : List Byte
  archiveOffset : Nat
  userData : Option UserDataHeader
  header : MpqHeader
  hashTable : Option HashTable
  blockTable : Option (List BlockEntry)
  hiBlockTable : Option (List U16)
  hetTable : Option HetTable
  betTable : Option BetTable
  attributes : Option Attributes

/-- `self.archive_offset + pos`, a checked `u64` addition. -/
def addPos (archiveOffset : Nat) (pos : U64) : Res Nat :=
  if archiveOffset + pos.toNat < 2 ^ 64 then .ok (archiveOffset + pos.toNat) else .error .panic

/-- A checked `u64` subtraction. -/
def sub64 (a b : U64) : Res U64 := if b.toNat ≤ a.toNat then .ok (a - b) else .error .panic

/-- `match result { Ok(v) => Some(v), Err(e) => log }`: errors are swallowed, panics and endless loops are not. -/
def tolerate {α : Type} (r : Res α) : Res (Option α) :=
  match r with
  | .ok v => .ok (some v)
  | .error .panic => .error .panic
  | .error .diverge => .error .diverge
  | .error _ => .ok none

/-- Models `mopaq/src/archive.rs` 1588-1613 (`read_het_table_size`). -/
def hetTableSizeOf (h : MpqHeader) (hetPos : U64) : Res U64 :=
  match h.betTablePos with
  | some betPos => if hetPos.toNat < betPos.toNat then sub64 betPos hetPos else sub64 h.getHashTablePos hetPos
  | none => sub64 h.getHashTablePos hetPos

/-- Models `mopaq/src/archive.rs` 1616-1630 (`read_bet_table_size`). -/
def betTableSizeOf (h : MpqHeader) (betPos : U64) : Res U64 := sub64 h.getHashTablePos betPos

/-- Models `mopaq/src/archive.rs` 338-391: the HET table, if the header points to one that can be read. -/
def loadHet (e : Env) (f : List Byte) (archiveOffset : Nat) (h : MpqHeader) : Res (Option HetTable) :=
  match h.hetTablePos with
  | none => .ok none
  | some pos =>
    if pos = 0#64 then .ok none
    else do
      let size := (h.v4Data.map (·.hetTableSize64)).getD 0#64
      let size ← if size = 0#64 && h.formatVersion == .v3 then hetTableSizeOf h pos else pure size
      if size = 0#64 then return none
      let offset ← addPos archiveOffset pos
      tolerate (readHetTable e.codecs f offset size.toNat hashTableKey)

/-- Models `mopaq/src/archive.rs` 393-447: the BET table, likewise. -/
def loadBet (e : Env) (f : List Byte) (archiveOffset : Nat) (h : MpqHeader) : Res (Option BetTable) :=
  match h.betTablePos with
  | none => .ok none
  | some pos =>
    if pos = 0#64 then .ok none
    else do
      let size := (h.v4Data.map (·.betTableSize64)).getD 0#64
      let size ← if size = 0#64 && h.formatVersion == .v3 then betTableSizeOf h pos else pure size
      if size = 0#64 then return none
      let offset ← addPos archiveOffset pos
      tolerate (readBetTable e.codecs f offset size.toNat blockTableKey)

/-- Both tables are there and have entries (`mopaq/src/archive.rs` 451-457, 877-879). -/
def usableHetBet (het : Option HetTable) (bet : Option BetTable) : Option (HetTable × BetTable) :=
  match het, bet with
  | some het, some bet =>
    if 0 < het.header.maxFileCount.toNat ∧ 0 < bet.header.fileCount.toNat then some (het, bet) else none
  | _, _ => none

/-- Models `mopaq/src/archive.rs` 910-947 (`find_file_classic`). -/
def Archive.findFileClassic (a : Archive) (name : List Byte) : Res (Option FileInfo) :=
  match a.hashTable with
  | none => .error .invalidFormat
  | some hashTable =>
    match a.blockTable with
    | none => .error .invalidFormat
    | some blockTable => do
      match ← findFileHash hashTable name 0 with
      | none => return none
      | some (hashIndex, entry) =>
        match blockTable[entry.blockIndex.toNat]? with
        | none => throw .blockTable
        | some block => do
          let filePos ← addPos a.archiveOffset (fullFilePos a.hiBlockTable entry.blockIndex.toNat block)
          return some { hashIndex, blockIndex := entry.blockIndex.toNat, filePos, compressedSize := block.compressedSize.toNat,
                        fileSize := block.fileSize.toNat, flags := block.flags, locale := entry.locale }

/-- Models `mopaq/src/archive.rs` 880-892: the lookup through the HET and BET tables. -/
def hetBetFind (archiveOffset : Nat) (het : HetTable) (bet : BetTable) (name : List Byte) : Res (Option FileInfo) := do
  match ← het.findFile name with
  | none => return none
  | some index =>
    match ← bet.getFileInfo index with
    | none => return none
    | some info => do
      let filePos ← addPos archiveOffset info.filePos
      return some { hashIndex := 0, blockIndex := index.toNat, filePos, compressedSize := info.compressedSize.toNat,
                    fileSize := info.fileSize.toNat, flags := info.flags, locale := 0 }

/-- Models `mopaq/src/archive.rs` 874-907 (`find_file`). -/
def Archive.findFile (a : Archive) (name : List Byte) : Res (Option FileInfo) :=
  match usableHetBet a.hetTable a.betTable with
  | none => a.findFileClassic name
  | some (het, bet) => do
    match ← hetBetFind a.archiveOffset het bet name with
    | some info => return some info
    | none => if a.hashTable.isNone || a.blockTable.isNone then return none else a.findFileClassic name

/-- Models `mopaq/src/archive.rs` 1213-1336 (`read_file`): the size for the key and the size to decompress to come from
the `FileInfo` when both HET and BET are loaded (even when the file was found through the classic tables), otherwise
from the block entry. -/
def Archive.readFile (e : Env) (a : Archive) (name : List Byte) : Res (List Byte) := do
  match ← a.findFile name with
  | none => throw .fileNotFound
  | some info =>
    if a.hetTable.isSome && a.betTable.isSome then
      readFileData e a.file a.archiveOffset a.header.blockSize name info (BitVec.ofNat 32 info.fileSize) info.fileSize
    else
      match a.blockTable with
      | none => throw .invalidFormat
      | some blockTable =>
        match blockTable[info.blockIndex]? with
        | none => throw .blockTable
        | some block =>
          readFileData e a.file a.archiveOffset a.header.blockSize name info block.fileSize block.fileSize.toNat

/-- The name `(attributes)`. -/
def attributesName : List Byte := [0x28, 0x61, 0x74, 0x74, 0x72, 0x69, 0x62, 0x75, 0x74, 0x65, 0x73, 0x29]

/-- Models `mopaq/src/archive.rs` 1518-1551: content that does not start like an attributes file may be compressed once
more. -/
def unwrapAttributes (e : Env) (data : List Byte) (blockCount : Nat) : Res (List Byte) :=
  match data with
  | b0 :: b1 :: b2 :: b3 :: rest =>
    if ofLe32 [b0, b1, b2, b3] ≠ 100#32 && b0 ≠ 0x64#8 then
      if b0 &&& 0x0F#8 ≠ 0#8 || b0 = 0x02#8 then
        (tolerate (decompress e.codecs (b1 :: b2 :: b3 :: rest) b0 (blockCount * 100))).map (·.getD data)
      else .ok data
    else .ok data
  | _ => .ok data

/-- Models `mopaq/src/archive.rs` 1498-1565 (`load_attributes`): the attributes afterwards. -/
def Archive.loadAttributes (e : Env) (a : Archive) : Res (Option Attributes) :=
  if a.attributes.isSome then .ok a.attributes
  else
    match a.readFile e attributesName with
    | .ok data => do
      let blockCount ← match a.blockTable with
        | some t => pure t.length
        | none => match a.betTable with
          | some bet => pure bet.header.fileCount.toNat
          | none => throw .invalidFormat
      let data ← unwrapAttributes e data blockCount
      let attributes ← parseAttributes data blockCount
      return some attributes
    | .error .fileNotFound => .ok a.attributes
    | .error err => .error err

/-- Models `mopaq/src/archive.rs` 449-480: the hash and block tables, read unless the HET and BET tables are usable and
the header states no hash table. -/
def loadClassic (f : List Byte) (archiveOffset : Nat) (h : MpqHeader) (usable : Bool) :
    Res (Option (HashTable × List BlockEntry)) :=
  if !usable || decide (0 < h.hashTableSize.toNat) then do
    let offset ← addPos archiveOffset h.getHashTablePos
    let hashTable ← readHashTable f offset h.hashTableSize
    let offset ← addPos archiveOffset h.getBlockTablePos
    let blockTable ← readBlockTable f offset h.blockTableSize
    return some (hashTable, blockTable)
  else return none

/-- Models `mopaq/src/archive.rs` 482-492: the hi-block table. -/
def loadHiBlock (f : List Byte) (archiveOffset : Nat) (h : MpqHeader) : Res (Option (List U16)) :=
  match h.hiBlockTablePos with
  | none => .ok none
  | some pos =>
    if pos = 0#64 then .ok none
    else do
      let offset ← addPos archiveOffset pos
      let t ← readHiBlockTable f offset h.blockTableSize.toNat
      return some t

/-- Models `mopaq/src/archive.rs` 329-498 (`load_tables`), for an archive whose tables have not been loaded yet. The HET
and BET tables are looked for from version 3 on. -/
def Archive.loadTables (e : Env) (a : Archive) : Res Archive := do
  let het ← if a.header.formatVersion.ge .v3 then loadHet e a.file a.archiveOffset a.header else pure none
  let bet ← if a.header.formatVersion.ge .v3 then loadBet e a.file a.archiveOffset a.header else pure none
  let classic ← loadClassic a.file a.archiveOffset a.header (usableHetBet het bet).isSome
  let hi ← loadHiBlock a.file a.archiveOffset a.header
  let a := { a with hetTable := het, betTable := bet, hashTable := classic.map Prod.fst, blockTable := classic.map Prod.snd,
                    hiBlockTable := hi }
  let attributes ← a.loadAttributes e
  return { a with attributes }

/-- Models `mopaq/src/archive.rs` 298-326 (`open_with_options`) on the bytes of the file. -/
def openArchive (e : Env) (f : List Byte) (load : Bool := true) : Res Archive := do
  let (archiveOffset, userData, header) ← findHeader f
  let a : Archive :=
    { file := f, archiveOffset, userData, header, hashTable := none, blockTable := none, hiBlockTable := none,
      hetTable := none, betTable := none, attributes := none }
  if load then a.loadTables e else return a

/-- Models `mopaq/src/archive.rs` 293-303 (`open`, and the start of `open_with_options`): what `File::open` finds at the path,
`none` if nothing is there. -/
def openPath (e : Env) (content : Option (List Byte)) : Res Archive := content.elim (.error .io) fun f => openArchive e f

/-- Models `mopaq/src/archive.rs` 1875-1886 (`FileEntry`); the hashes are `None` in `list` and `list_all`. -/
structure FileEntry where
  name : List Byte
  size : Nat
  compressedSize : Nat
  flags : U32
  deriving DecidableEq, Repr

/-- Decimal digits, most significant first, at least `width` of them (`{:08}`). `fuel` bounds the digits. -/
def digits : Nat → Nat → Nat → List Byte
  | 0, _, _ => []
  | fuel + 1, width, n =>
    if n < 10 ∧ width ≤ 1 then [BitVec.ofNat 8 (48 + n)]
    else digits fuel (width - 1) (n / 10) ++ [BitVec.ofNat 8 (48 + n % 10)]

/-- `format!("file_{:08}.dat", i)`; an index has at most 20 digits. -/
def anonymousName (i : Nat) : List Byte :=
  [0x66, 0x69, 0x6C, 0x65, 0x5F] ++ digits 20 8 i ++ [0x2E, 0x64, 0x61, 0x74]

/-- Models `mopaq/src/archive.rs` 961-982: every listed name that is found, in order. -/
def Archive.lookupAll (a : Archive) : List (List Byte) → Res (List FileEntry)
  | [] => .ok []
  | name :: rest => do
    let info ← a.findFile name
    let more ← a.lookupAll rest
    match info with
    | some info => return { name, size := info.fileSize, compressedSize := info.compressedSize, flags := info.flags } :: more
    | none => return more

/-- Models `mopaq/src/archive.rs` 993-1008: the existing records of a BET table from index `i` on, `n` of them. -/
def betEntries (bet : BetTable) : Nat → Nat → Res (List FileEntry)
  | _, 0 => .ok []
  | i, n + 1 => do
    let info ← bet.getFileInfo (BitVec.ofNat 32 i)
    let more ← betEntries bet (i + 1) n
    match info with
    | some info =>
      if info.flags &&& flagExists ≠ 0#32 then
        return { name := anonymousName i, size := info.fileSize.toNat, compressedSize := info.compressedSize.toNat,
                 flags := info.flags } :: more
      else return more
    | none => return more

/-- The entries found through the BET table, if any (`mopaq/src/archive.rs` 989-1014 and 1054-1079). -/
def Archive.betListing (a : Archive) : Res (List FileEntry) :=
  match usableHetBet a.hetTable a.betTable with
  | none => .ok []
  | some (_, bet) => betEntries bet 0 bet.header.fileCount.toNat

/-- An entry for an existing block (`mopaq/src/archive.rs` 1030-1040 and 1104-1112). -/
def blockEntryOf (blockTable : List BlockEntry) (block label : Nat) : Option FileEntry :=
  match blockTable[block]? with
  | none => none
  | some b =>
    if b.flags &&& flagExists ≠ 0#32 then
      some { name := anonymousName label, size := b.fileSize.toNat, compressedSize := b.compressedSize.toNat, flags := b.flags }
    else none

/-- Models `mopaq/src/archive.rs` 1028-1043: the valid hash entries with existing blocks, named by slot. -/
def slotEntries (blockTable : List BlockEntry) : Nat → HashTable → List FileEntry
  | _, [] => []
  | i, entry :: rest =>
    match (if entry.isValid then blockEntryOf blockTable entry.blockIndex.toNat i else none) with
    | some x => x :: slotEntries blockTable (i + 1) rest
    | none => slotEntries blockTable (i + 1) rest

/-- Models `mopaq/src/archive.rs` 950-1046 (`list`). -/
def Archive.list (e : Env) (a : Archive) : Res (List FileEntry) := do
  match ← a.findFile listfileName with
  | some _ => do
    let data ← a.readFile e listfileName
    a.lookupAll (parseListfile data)
  | none => do
    let entries ← a.betListing
    if entries ≠ [] then return entries
    match a.hashTable, a.blockTable with
    | some hashTable, some blockTable => return slotEntries blockTable 0 hashTable
    | _, _ => throw .invalidFormat

/-- Models `mopaq/src/archive.rs` 1095-1117: like `slotEntries`, each block once, named by block. -/
def blockEntries (blockTable : List BlockEntry) : List Nat → HashTable → List FileEntry
  | _, [] => []
  | seen, entry :: rest =>
    if entry.isValid then
      if entry.blockIndex.toNat ∈ seen then blockEntries blockTable seen rest
      else
        match blockEntryOf blockTable entry.blockIndex.toNat entry.blockIndex.toNat with
        | some x => x :: blockEntries blockTable (entry.blockIndex.toNat :: seen) rest
        | none => blockEntries blockTable (entry.blockIndex.toNat :: seen) rest
    else blockEntries blockTable seen rest

/-- String comparison (`str::cmp`): bytes, the shorter first. -/
def nameLe : List Byte → List Byte → Bool
  | [], _ => true
  | _ :: _, [] => false
  | x :: xs, y :: ys => decide (x.toNat < y.toNat) || (x == y && nameLe xs ys)

/-- Models `mopaq/src/archive.rs` 1050-1123 (`list_all`); `sort_by` is a stable sort. -/
def Archive.listAll (a : Archive) : Res (List FileEntry) := do
  let entries ← a.betListing
  if entries ≠ [] then return entries
  match a.hashTable, a.blockTable with
  | some hashTable, some blockTable =>
    return (blockEntries blockTable [] hashTable).mergeSort fun x y => nameLe x.name y.name
  | _, _ => throw .invalidFormat

end Mopaq
