import Verif.Model.FileIO

/-!
# HET and BET tables

Models `mopaq/src/tables/{het,bet}.rs` and the HET/BET parts of `mopaq/src/builder.rs`. `u32` quantities computed by
the builder are natural numbers with the overflow checks of a debug build written out (`u32Checked`); `usize` has 64
bits and its products stay below that. Log calls are left out.
-/

namespace Mopaq

/-- A `u32` result of checked arithmetic. -/
def u32Checked (n : Nat) : Res Nat := if n < 2 ^ 32 then .ok n else .error .panic

/-- Checked `u64` shift to the left: the amount is checked, bits shifted out are lost. -/
def shl64 (v : U64) (n : Nat) : Res U64 := if n < 64 then .ok (v <<< n) else .error .panic

/-- Checked `u64` shift to the right. -/
def shr64 (v : U64) (n : Nat) : Res U64 := if n < 64 then .ok (v >>> n) else .error .panic

/-- `if n >= 64 { u64::MAX } else { (1u64 << n) - 1 }` (`tables/het.rs` 231-240, 283-287, `builder.rs` 1570-1574). -/
def lowMask (n : Nat) : U64 := if n ≥ 64 then BitVec.allOnes 64 else (1#64 <<< n) - 1#64

/-- `value |= (data[off + i] as u64) << (i * 8)` for `i < n`, with `n ≤ 8` (`builder.rs` 1561-1567,
`tables/het.rs` 275-280, `tables/bet.rs` 285-289): a little-endian number. -/
def loadLe (data : List Byte) (off n : Nat) : U64 := BitVec.ofNat 64 (leNat (slice data off n))

/-- `data[off + i] = (value >> (i * 8)) as u8` for `i < n`, with `n ≤ 8` and the range inside the data
(`builder.rs` 1582-1587). -/
def storeLe (data : List Byte) (off n : Nat) (value : U64) : List Byte :=
  data.take off ++ leBytes n value.toNat ++ data.drop (off + n)

/-- Models `mopaq/src/builder.rs` 1533-1590 (`write_bit_entry`). -/
def writeBitEntry (data : List Byte) (index : Nat) (value : U64) (bitSize : Nat) : Res (List Byte) :=
  let bitOffset := index * bitSize
  let byteOffset := bitOffset / 8
  let bitShift := bitOffset % 8
  let bitsNeeded := bitShift + bitSize
  let bytesNeeded := (bitsNeeded + 7) / 8
  if data.length < byteOffset + bytesNeeded then .error .invalidFormat
  else
    let maxBytes := min bytesNeeded 8
    let existing := loadLe data byteOffset maxBytes
    let mask := lowMask bitSize <<< bitShift
    let existing := existing &&& ~~~mask
    let existing := existing ||| ((value &&& lowMask bitSize) <<< bitShift)
    .ok (storeLe data byteOffset maxBytes existing)

/-- Models `mopaq/src/builder.rs` 1593-1599 (`calculate_bits_needed`); `64 - leading_zeros` is one more than the
binary logarithm. -/
def bitsNeeded (maxValue : Nat) : Nat := if maxValue = 0 then 1 else max (Nat.log2 maxValue + 1) 1

/-- Models `mopaq/src/tables/het.rs` 36-53 (`HetHeader`). -/
structure HetHeader where
  tableSize : U32
  maxFileCount : U32
  hashTableSize : U32
  hashEntrySize : U32
  totalIndexSize : U32
  indexSizeExtra : U32
  indexSize : U32
  blockTableSize : U32
  deriving DecidableEq, Repr

/-- Models `mopaq/src/tables/het.rs` 10-18 (`HetTable`). -/
structure HetTable where
  header : HetHeader
  hashTable : List Byte
  fileIndices : List Byte
  deriving DecidableEq, Repr

/-- Models `mopaq/src/tables/het.rs` 210-226 (`parse_header`). -/
def parseHetHeader (data : List Byte) : Res HetHeader := do
  if data.length < 32 then throw .invalidFormat
  let (tableSize, data) ← rd32 data
  let (maxFileCount, data) ← rd32 data
  let (hashTableSize, data) ← rd32 data
  let (hashEntrySize, data) ← rd32 data
  let (totalIndexSize, data) ← rd32 data
  let (indexSizeExtra, data) ← rd32 data
  let (indexSize, data) ← rd32 data
  let (blockTableSize, _) ← rd32 data
  return { tableSize, maxFileCount, hashTableSize, hashEntrySize, totalIndexSize, indexSizeExtra, indexSize,
           blockTableSize }

/-- Models `mopaq/src/tables/het.rs` 66-144 and `tables/bet.rs` 76-154, which differ only in the signature: read the
raw table, check the signature, decrypt what follows the extended header, and decompress it when it is shorter than
announced. The result is the data after the extended header. -/
def readExtTable (e : Codecs) (f : List Byte) (offset size : Nat) (signature key : U32) : Res (List Byte) := do
  let data ← readVec f offset size
  if data.length < 12 then throw .invalidFormat
  if ofLe32 (slice data 0 4) ≠ signature then throw .invalidFormat
  let dataSize := (ofLe32 (slice data 8 4)).toNat
  let body := data.drop 12
  let body := if key ≠ 0 ∧ data.length > 12 then decryptTableData body key else body
  if dataSize + 12 > data.length then
    match body with
    | [] => throw .invalidFormat
    | m :: rest => decompress e rest m dataSize
  else return body

/-- Models `mopaq/src/tables/het.rs` 60-207 (`HetTable::read`). -/
def readHetTable (e : Codecs) (f : List Byte) (offset size : Nat) (key : U32) : Res HetTable := do
  let body ← readExtTable e f offset size 0x1A544548#32 key
  let header ← parseHetHeader body
  let indicesStart := 32 + header.hashTableSize.toNat
  let indicesSize := (header.totalIndexSize.toNat + 7) / 8
  if body.length < indicesStart + indicesSize then throw .invalidFormat
  return { header, hashTable := slice body 32 header.hashTableSize.toNat,
           fileIndices := slice body indicesStart indicesSize }

/-- Models `mopaq/src/tables/het.rs` 266-291 (`read_hash_entry`). -/
def HetTable.readHashEntry (t : HetTable) (index : Nat) : Option U64 :=
  let bitOffset := index * t.header.hashEntrySize.toNat
  let byteOffset := bitOffset / 8
  let bitShift := bitOffset % 8
  if byteOffset + 8 > t.hashTable.length then none
  else some ((loadLe t.hashTable byteOffset 8 >>> bitShift) &&& lowMask t.header.hashEntrySize.toNat)

/-- Models `mopaq/src/tables/het.rs` 229-263 (`HetTable::find_file`). Panics: `hash_table_size * 8` overflows, division
by an entry size of zero, `hash_table_entries - 1` underflows, a shift by 64 or more. -/
def HetTable.findFile (t : HetTable) (filename : List Byte) : Res (Option U32) := do
  let hash := jenkinsHash filename
  let hashMask := lowMask t.header.hashEntrySize.toNat
  let indexMask := lowMask t.header.indexSize.toNat
  let bits ← u32Checked (t.header.hashTableSize.toNat * 8)
  if t.header.hashEntrySize = 0#32 then throw .panic
  let entries := bits / t.header.hashEntrySize.toNat
  if entries = 0 then throw .panic
  let hashIndex := (hash &&& BitVec.ofNat 64 (entries - 1)).toNat
  match t.readHashEntry hashIndex with
  | none => return none
  | some entry =>
    if entry &&& hashMask ≠ hash &&& hashMask then return none
    let shifted ← shr64 entry t.header.hashEntrySize.toNat
    let fileIndex := shifted &&& indexMask
    if t.header.maxFileCount.toNat ≤ fileIndex.toNat then return none
    return some (fileIndex.setWidth 32)

/-- Models `mopaq/src/builder.rs` 1484-1507: the probing loop of `create_het_table`, over which slots are taken. The
fuel is the number of slots. -/
def hetProbe (taken : List Bool) (start : Nat) : Nat → Nat → Res Nat
  | 0, _ => .error .diverge
  | fuel + 1, index =>
    match taken[index]? with
    | none => .error .panic
    | some false => .ok index
    | some true =>
      let index := (index + 1) % taken.length
      if index = start then .error .invalidFormat else hetProbe taken start fuel index

/-- Models `mopaq/src/builder.rs` 1475-1508: one file is entered in the table. -/
def hetInsert (entries hashEntrySize indexSize : Nat) (state : List Bool × List Byte) (fileIndex : Nat)
    (name : List Byte) : Res (List Bool × List Byte) := do
  let (taken, table) := state
  let hash := jenkinsHash name
  let start := (hash &&& BitVec.ofNat 64 (entries - 1)).toNat
  let slot ← hetProbe taken start entries start
  let entry := (hash &&& lowMask hashEntrySize) ||| (BitVec.ofNat 64 fileIndex <<< hashEntrySize)
  let table ← writeBitEntry table slot entry (hashEntrySize + indexSize)
  return (taken.set slot true, table)

/-- Models `mopaq/src/builder.rs` 1475-1508: the loop over the pending files. -/
def hetInsertAll (entries hashEntrySize indexSize : Nat) : List Bool × List Byte → Nat → List (List Byte) →
    Res (List Bool × List Byte)
  | state, _, [] => .ok state
  | state, i, name :: rest => do
    let state ← hetInsert entries hashEntrySize indexSize state i name
    hetInsertAll entries hashEntrySize indexSize state (i + 1) rest

/-- Models `mopaq/src/builder.rs` 1513-1527: the HET header as bytes. -/
def HetHeader.toBytes (h : HetHeader) : List Byte :=
  le32 h.tableSize ++ (le32 h.maxFileCount ++ (le32 h.hashTableSize ++ (le32 h.hashEntrySize ++
  (le32 h.totalIndexSize ++ (le32 h.indexSizeExtra ++ (le32 h.indexSize ++ le32 h.blockTableSize))))))

/-- Models `mopaq/src/builder.rs` 1510-1523: the extended header as bytes. -/
def extHeaderBytes (signature : U32) (dataSize : Nat) : List Byte :=
  le32 signature ++ (le32 1#32 ++ le32 (BitVec.ofNat 32 dataSize))

/-- What `create_het_table` computes before it serialises: the header and the hash area. -/
structure HetContent where
  header : HetHeader
  dataSize : Nat
  hashArea : List Byte
  indexArea : List Byte
  deriving DecidableEq, Repr

/-- Models `mopaq/src/builder.rs` 1409-1511 (`create_het_table` up to the serialisation), from the names of the pending
files. -/
def hetContent (names : List (List Byte)) : Res HetContent := do
  let maxFileCount := names.length % 2 ^ 32
  let entries ← nextPowerOfTwo (← u32Checked (maxFileCount * 2))
  let hashEntrySize := bitsNeeded entries
  let indexSize := bitsNeeded maxFileCount
  let hashTableSize := ((← u32Checked (entries * hashEntrySize)) + 7) / 8
  let actualSize := ((← u32Checked (entries * (hashEntrySize + indexSize))) + 7) / 8
  let totalIndexSize ← u32Checked (entries * indexSize)
  let indicesSize := (totalIndexSize + 7) / 8
  let (_, hashArea) ← hetInsertAll entries hashEntrySize indexSize
    (List.replicate entries false, List.replicate actualSize 0#8) 0 names
  let dataSize ← u32Checked (32 + hashTableSize + indicesSize)
  let tableSize ← u32Checked (12 + dataSize)
  return {
    header := {
      tableSize := BitVec.ofNat 32 tableSize, maxFileCount := BitVec.ofNat 32 maxFileCount
      hashTableSize := BitVec.ofNat 32 hashTableSize, hashEntrySize := BitVec.ofNat 32 hashEntrySize
      totalIndexSize := BitVec.ofNat 32 totalIndexSize, indexSizeExtra := 0#32
      indexSize := BitVec.ofNat 32 indexSize, blockTableSize := 0#32 }
    dataSize, hashArea, indexArea := List.replicate indicesSize 0#8 }

/-- Models `mopaq/src/builder.rs` 1409-1530 (`create_het_table`): the serialised table. -/
def createHetTable (names : List (List Byte)) : Res (List Byte) := do
  let c ← hetContent names
  return extHeaderBytes 0x1A544548#32 c.dataSize ++ (c.header.toBytes ++ (c.hashArea ++ c.indexArea))

/-- The builder options that matter for tables (`mopaq/src/builder.rs` 130-140). -/
structure TableOptions where
  compressTables : Bool
  tableCompression : Byte
  deriving DecidableEq, Repr

/-- Models `mopaq/src/builder.rs` 1602-1654 and 1827-1879 (`write_het_table`, `write_bet_table`), which differ only in
the key: the bytes written. Only archives of version 3 and 4 have these tables, and `encrypt` is always true. -/
def writeExtTable (e : Codecs) (o : TableOptions) (data : List Byte) (key : U32) : Res (List Byte) := do
  if data.length < 12 then throw .invalidFormat
  let table := data.drop 12
  let processed ←
    if o.compressTables then do
      let compressed ← compress e table o.tableCompression
      pure (o.tableCompression :: compressed)
    else pure table
  return data.take 12 ++ encryptData processed key

/-- Models `mopaq/src/tables/bet.rs` 25-64 (`BetHeader`). -/
structure BetHeader where
  tableSize : U32
  fileCount : U32
  unknown08 : U32
  tableEntrySize : U32
  bitIndexFilePos : U32
  bitIndexFileSize : U32
  bitIndexCmpSize : U32
  bitIndexFlagIndex : U32
  bitIndexUnknown : U32
  bitCountFilePos : U32
  bitCountFileSize : U32
  bitCountCmpSize : U32
  bitCountFlagIndex : U32
  bitCountUnknown : U32
  totalBetHashSize : U32
  betHashSizeExtra : U32
  betHashSize : U32
  betHashArraySize : U32
  flagCount : U32
  deriving DecidableEq, Repr

/-- Models `mopaq/src/tables/bet.rs` 10-20 (`BetTable`). -/
structure BetTable where
  header : BetHeader
  fileFlags : List U32
  fileTable : List Byte
  betHashes : List U64
  deriving DecidableEq, Repr

/-- Models `mopaq/src/tables/bet.rs` 194-221 (`parse_header`). -/
def parseBetHeader (data : List Byte) : Res BetHeader := do
  if data.length < 76 then throw .invalidFormat
  let (tableSize, data) ← rd32 data
  let (fileCount, data) ← rd32 data
  let (unknown08, data) ← rd32 data
  let (tableEntrySize, data) ← rd32 data
  let (bitIndexFilePos, data) ← rd32 data
  let (bitIndexFileSize, data) ← rd32 data
  let (bitIndexCmpSize, data) ← rd32 data
  let (bitIndexFlagIndex, data) ← rd32 data
  let (bitIndexUnknown, data) ← rd32 data
  let (bitCountFilePos, data) ← rd32 data
  let (bitCountFileSize, data) ← rd32 data
  let (bitCountCmpSize, data) ← rd32 data
  let (bitCountFlagIndex, data) ← rd32 data
  let (bitCountUnknown, data) ← rd32 data
  let (totalBetHashSize, data) ← rd32 data
  let (betHashSizeExtra, data) ← rd32 data
  let (betHashSize, data) ← rd32 data
  let (betHashArraySize, data) ← rd32 data
  let (flagCount, _) ← rd32 data
  return { tableSize, fileCount, unknown08, tableEntrySize, bitIndexFilePos, bitIndexFileSize, bitIndexCmpSize,
           bitIndexFlagIndex, bitIndexUnknown, bitCountFilePos, bitCountFileSize, bitCountCmpSize, bitCountFlagIndex,
           bitCountUnknown, totalBetHashSize, betHashSizeExtra, betHashSize, betHashArraySize, flagCount }

/-- `n` times `read_u32_le` (`mopaq/src/tables/bet.rs` 166-169). -/
def rd32s : Nat → List Byte → Res (List U32 × List Byte)
  | 0, data => .ok ([], data)
  | n + 1, data => do
    let (v, data) ← rd32 data
    let (vs, data) ← rd32s n data
    return (v :: vs, data)

/-- `n` times `read_u64_le` (`mopaq/src/tables/bet.rs` 180-183). -/
def rd64s : Nat → List Byte → Res (List U64 × List Byte)
  | 0, data => .ok ([], data)
  | n + 1, data => do
    let (v, data) ← rd64 data
    let (vs, data) ← rd64s n data
    return (v :: vs, data)

/-- Models `mopaq/src/tables/bet.rs` 70-191 (`BetTable::read`). -/
def readBetTable (e : Codecs) (f : List Byte) (offset size : Nat) (key : U32) : Res BetTable := do
  let body ← readExtTable e f offset size 0x1A544542#32 key
  let header ← parseBetHeader body
  let (fileFlags, rest) ← rd32s header.flagCount.toNat (body.drop 76)
  let (fileTable, rest) ← rdBytes ((header.fileCount.toNat * header.tableEntrySize.toNat + 7) / 8) rest
  let (betHashes, _) ← rd64s (header.betHashArraySize.toNat / 8) rest
  return { header, fileFlags, fileTable, betHashes }

/-- Models `mopaq/src/tables/bet.rs` 270-294 (`read_table_entry`). `1u64 << table_entry_size` panics from 64 on. -/
def BetTable.readTableEntry (t : BetTable) (index : Nat) : Res (Option U64) :=
  let entrySize := t.header.tableEntrySize.toNat
  let bitOffset := index * entrySize
  let byteOffset := bitOffset / 8
  let bitShift := bitOffset % 8
  if byteOffset + 8 > t.fileTable.length then .ok none
  else do
    let value := loadLe t.fileTable byteOffset (min ((bitShift + entrySize + 7) / 8) 8)
    let bound ← shl64 1#64 entrySize
    return some ((value >>> bitShift) &&& (bound - 1#64))

/-- Models `mopaq/src/tables/bet.rs` 297-300 (`extract_bits`). -/
def extractBits (value : U64) (bitOffset bitCount : U32) : Res U64 := do
  let bound ← shl64 1#64 bitCount.toNat
  let shifted ← shr64 value bitOffset.toNat
  return shifted &&& (bound - 1#64)

/-- Models `mopaq/src/tables/bet.rs` 303-313 (`BetFileInfo`). -/
structure BetFileInfo where
  filePos : U64
  fileSize : U64
  compressedSize : U64
  flags : U32
  deriving DecidableEq, Repr

/-- Models `mopaq/src/tables/bet.rs` 224-267 (`get_file_info`). `file_flags[flag_index]` is in bounds: the array has
`flag_count` entries. -/
def BetTable.getFileInfo (t : BetTable) (index : U32) : Res (Option BetFileInfo) :=
  if t.header.fileCount.toNat ≤ index.toNat then .ok none
  else do
    match ← t.readTableEntry index.toNat with
    | none => return none
    | some entry =>
      let filePos ← extractBits entry t.header.bitIndexFilePos t.header.bitCountFilePos
      let fileSize ← extractBits entry t.header.bitIndexFileSize t.header.bitCountFileSize
      let compressedSize ← extractBits entry t.header.bitIndexCmpSize t.header.bitCountCmpSize
      let flagIndex ← extractBits entry t.header.bitIndexFlagIndex t.header.bitCountFlagIndex
      let flagIndex : U32 := flagIndex.setWidth 32
      let flags ←
        if flagIndex.toNat < t.header.flagCount.toNat then
          match t.fileFlags[flagIndex.toNat]? with
          | some v => pure v
          | none => throw .panic
        else pure 0#32
      return some { filePos, fileSize, compressedSize, flags }

/-- Insert a value into a strictly increasing list. -/
def insertFlag (v : U32) : List U32 → List U32
  | [] => [v]
  | w :: ws => if v = w then w :: ws else if v.toNat < w.toNat then v :: w :: ws else w :: insertFlag v ws

/-- Models `mopaq/src/builder.rs` 1664-1673 and 1700-1701: the distinct flag values (collected in a `HashSet`), sorted. -/
def flagArray (blocks : List BlockEntry) : List U32 := blocks.foldr (fun b acc => insertFlag b.flags acc) []

/-- Largest value of a field over the block table (`mopaq/src/builder.rs` 1661-1674). -/
def maxField (field : BlockEntry → U32) (blocks : List BlockEntry) : Nat :=
  blocks.foldl (fun m b => max m (field b).toNat) 0

/-- The field widths chosen by `create_bet_table` (`mopaq/src/builder.rs` 1676-1697). -/
structure BetWidths where
  pos : Nat
  size : Nat
  cmp : Nat
  flag : Nat
  deriving DecidableEq, Repr

/-- Models `mopaq/src/builder.rs` 1676-1685. -/
def betWidths (blocks : List BlockEntry) : BetWidths where
  pos := bitsNeeded (maxField (·.filePos) blocks)
  size := bitsNeeded (maxField (·.fileSize) blocks)
  cmp := bitsNeeded (maxField (·.compressedSize) blocks)
  flag := if flagArray blocks = [] then 0 else bitsNeeded ((flagArray blocks).length - 1)

/-- Models `mopaq/src/builder.rs` 1694-1697: the size of one entry. -/
def BetWidths.total (w : BetWidths) : Nat := w.pos + w.size + w.cmp + w.flag

/-- Models `mopaq/src/builder.rs` 1748-1758: one packed entry; the shifts are checked, bits shifted out are lost. -/
def packEntry (w : BetWidths) (flags : List U32) (b : BlockEntry) : Res U64 := do
  let size ← shl64 (b.fileSize.setWidth 64) w.pos
  let cmp ← shl64 (b.compressedSize.setWidth 64) (w.pos + w.size)
  let flag ← shl64 (BitVec.ofNat 64 (flags.idxOf b.flags)) (w.pos + w.size + w.cmp)
  return b.filePos.setWidth 64 ||| size ||| cmp ||| flag

/-- Models `mopaq/src/builder.rs` 1742-1761: the file table is filled entry by entry. -/
def fillFileTable (w : BetWidths) (flags : List U32) : List Byte → Nat → List BlockEntry → Res (List Byte)
  | table, _, [] => .ok table
  | table, i, b :: rest => do
    let entry ← packEntry w flags b
    let table ← writeBitEntry table i entry w.total
    fillFileTable w flags table (i + 1) rest

/-- Models `mopaq/src/builder.rs` 1815-1819: the name hashes, packed as 64-bit entries. -/
def fillHashes : List Byte → Nat → List U64 → Res (List Byte)
  | bytes, _, [] => .ok bytes
  | bytes, i, h :: rest => do
    let bytes ← writeBitEntry bytes i h 64
    fillHashes bytes (i + 1) rest

/-- Models `mopaq/src/builder.rs` 1784-1804: the BET header as bytes. -/
def BetHeader.toBytes (h : BetHeader) : List Byte :=
  le32 h.tableSize ++ (le32 h.fileCount ++ (le32 h.unknown08 ++ (le32 h.tableEntrySize ++ (le32 h.bitIndexFilePos ++
  (le32 h.bitIndexFileSize ++ (le32 h.bitIndexCmpSize ++ (le32 h.bitIndexFlagIndex ++ (le32 h.bitIndexUnknown ++
  (le32 h.bitCountFilePos ++ (le32 h.bitCountFileSize ++ (le32 h.bitCountCmpSize ++ (le32 h.bitCountFlagIndex ++
  (le32 h.bitCountUnknown ++ (le32 h.totalBetHashSize ++ (le32 h.betHashSizeExtra ++ (le32 h.betHashSize ++
  (le32 h.betHashArraySize ++ le32 h.flagCount)))))))))))))))))

/-- What `create_bet_table` computes before it serialises. -/
structure BetContent where
  header : BetHeader
  dataSize : Nat
  flags : List U32
  fileTable : List Byte
  hashBytes : List Byte
  deriving DecidableEq, Repr

/-- Models `mopaq/src/builder.rs` 1657-1819 (`create_bet_table` up to the serialisation) from the names of the pending
files and the block table, which has one entry per pending file. -/
def betContent (names : List (List Byte)) (blocks : List BlockEntry) : Res BetContent := do
  let fileCount := names.length % 2 ^ 32
  let used := blocks.take fileCount
  let w := betWidths used
  let flags := flagArray used
  let fileTableSize := ((← u32Checked (fileCount * w.total)) + 7) / 8
  let totalHashSize ← u32Checked (fileCount * 64)
  let hashArraySize := (totalHashSize + 7) / 8
  let fileTable ← fillFileTable w flags (List.replicate fileTableSize 0#8) 0 (blocks.take names.length)
  let dataSize ← u32Checked (76 + flags.length * 4 + fileTableSize + hashArraySize)
  let tableSize ← u32Checked (12 + dataSize)
  let hashBytes ← fillHashes (List.replicate hashArraySize 0#8) 0 ((names.take blocks.length).map jenkinsHash)
  return {
    header := {
      tableSize := BitVec.ofNat 32 tableSize, fileCount := BitVec.ofNat 32 fileCount, unknown08 := 0x10#32
      tableEntrySize := BitVec.ofNat 32 w.total, bitIndexFilePos := 0#32
      bitIndexFileSize := BitVec.ofNat 32 w.pos, bitIndexCmpSize := BitVec.ofNat 32 (w.pos + w.size)
      bitIndexFlagIndex := BitVec.ofNat 32 (w.pos + w.size + w.cmp)
      bitIndexUnknown := BitVec.ofNat 32 w.total
      bitCountFilePos := BitVec.ofNat 32 w.pos, bitCountFileSize := BitVec.ofNat 32 w.size
      bitCountCmpSize := BitVec.ofNat 32 w.cmp, bitCountFlagIndex := BitVec.ofNat 32 w.flag
      bitCountUnknown := 0#32, totalBetHashSize := BitVec.ofNat 32 totalHashSize, betHashSizeExtra := 0#32
      betHashSize := 64#32, betHashArraySize := BitVec.ofNat 32 hashArraySize
      flagCount := BitVec.ofNat 32 flags.length }
    dataSize, flags, fileTable, hashBytes }

/-- Models `mopaq/src/builder.rs` 1657-1824 (`create_bet_table`): the serialised table. -/
def createBetTable (names : List (List Byte)) (blocks : List BlockEntry) : Res (List Byte) := do
  let c ← betContent names blocks
  return extHeaderBytes 0x1A544542#32 c.dataSize ++
    (c.header.toBytes ++ (ofDwords c.flags ++ (c.fileTable ++ c.hashBytes)))

end Mopaq
