import Verif.Model.Crypto

/-!
# Hash table, block table and hi-block table

Models `mopaq/src/tables/{hash,block}.rs` and the table parts of `mopaq/src/builder.rs`.
-/

namespace Mopaq

/-- Models `mopaq/src/lib.rs` 104-107 (`is_power_of_two`). -/
def isPowerOfTwo (value : U32) : Bool := value != 0 && (value &&& (value - 1)) == 0

/-- Models `mopaq/src/tables/hash.rs` 11-22 (`HashEntry`). -/
structure HashEntry where
  name1 : U32
  name2 : U32
  locale : U16
  platform : U16
  blockIndex : U32
  deriving DecidableEq, Repr

/-- Models `mopaq/src/tables/hash.rs` 31-39 (`HashEntry::empty`). -/
def HashEntry.empty : HashEntry := ⟨0, 0, 0, 0, 0xFFFFFFFF⟩

/-- Models `mopaq/src/tables/hash.rs` 42-44 (`is_empty`). -/
def HashEntry.isEmpty (e : HashEntry) : Bool := e.blockIndex == 0xFFFFFFFF

/-- Models `mopaq/src/tables/hash.rs` 47-49 (`is_deleted`). -/
def HashEntry.isDeleted (e : HashEntry) : Bool := e.blockIndex == 0xFFFFFFFE

/-- Models `mopaq/src/tables/hash.rs` 52-54 (`is_valid`). -/
def HashEntry.isValid (e : HashEntry) : Bool := e.blockIndex.toNat < 0xFFFFFFFE

/-- Models `mopaq/src/tables/hash.rs` 74-76 (`HashTable`). -/
abbrev HashTable := List HashEntry

/-- Models `mopaq/src/tables/hash.rs` 81-89 and 186-194 (`HashTable::new`, `new_mut`). -/
def HashTable.new (size : Nat) : Res HashTable :=
  if isPowerOfTwo (BitVec.ofNat 32 size) then .ok (List.replicate size .empty) else .error .hashTable

/-- Models `mopaq/src/tables/hash.rs` 161-166: the test that an entry is the file asked for. -/
def HashEntry.isHit (e : HashEntry) (nameA nameB : U32) (locale : U16) : Bool :=
  (e.name1 == nameA && e.name2 == nameB) &&
    ((locale == 0 || e.locale == 0 || e.locale == locale) && e.isValid)

/-- Models `mopaq/src/tables/hash.rs` 157-183: the probing loop of `find_file`. `start` is the masked start
index. The Rust loop has no counter; `fuel` bounds it here and running out is the explicit value `diverge`. -/
def findLoop (t : HashTable) (nameA nameB : U32) (locale : U16) (start : Nat) : Nat → Nat → Res (Option (Nat × HashEntry))
  | 0, _ => .error .diverge
  | fuel + 1, index =>
    match t[index]? with
    | none => .error .panic
    | some entry =>
      if entry.isHit nameA nameB locale then .ok (some (index, entry))
      else if entry.isEmpty then .ok none
      else
        let index := (index + 1) &&& (t.length - 1)
        if index = start then .ok none
        else findLoop t nameA nameB locale start fuel index

/-- Models `mopaq/src/tables/hash.rs` 149-184 (`HashTable::find_file`). `table_size - 1` underflows on an empty
table (panic). -/
def findFileHash (t : HashTable) (filename : List Byte) (locale : U16) : Res (Option (Nat × HashEntry)) :=
  let nameA := hashString filename htNameA
  let nameB := hashString filename htNameB
  let startIndex := (hashString filename htTableOffset).toNat
  if t.length = 0 then .error .panic
  else
    let index := startIndex &&& (t.length - 1)
    findLoop t nameA nameB locale index t.length index

/-- Models `mopaq/src/builder.rs` 1129-1155: the probing loop of `add_to_hash_table`, with explicit fuel as in
`findLoop`. The Rust loop stops only at an empty slot or a duplicate. -/
def addLoop (t : HashTable) (nameA nameB : U32) (locale : U16) (blockIndex : U32) : Nat → Nat → Res HashTable
  | 0, _ => .error .diverge
  | fuel + 1, index =>
    match t[index]? with
    | none => .error .invalidFormat
    | some entry =>
      if entry.isEmpty then
        .ok (t.set index { name1 := nameA, name2 := nameB, locale, platform := 0, blockIndex })
      else if entry.name1 == nameA && entry.name2 == nameB && entry.locale == locale then
        .error .invalidFormat
      else addLoop t nameA nameB locale blockIndex fuel ((index + 1) &&& (t.length - 1))

/-- Models `mopaq/src/builder.rs` 1113-1158 (`add_to_hash_table`) with a given bound on the number of loop
iterations. -/
def addToHashTableFuel (fuel : Nat) (t : HashTable) (filename : List Byte) (blockIndex : U32) (locale : U16) :
    Res HashTable :=
  let tableOffset := (hashString filename htTableOffset).toNat
  let nameA := hashString filename htNameA
  let nameB := hashString filename htNameB
  if t.length = 0 then .error .panic
  else addLoop t nameA nameB locale blockIndex fuel (tableOffset &&& (t.length - 1))

/-- Models `mopaq/src/builder.rs` 1113-1158 (`add_to_hash_table`); one round over the table is enough whenever
the loop ends at all (`C07_add_terminates`, `C07_full_table_add_never_returns`). -/
def addToHashTable (t : HashTable) (filename : List Byte) (blockIndex : U32) (locale : U16) : Res HashTable :=
  addToHashTableFuel t.length t filename blockIndex locale

/-- `u32::next_power_of_two` (standard library): for `x ≥ 2` the power of two with the bit length of `x - 1`;
overflow (only for `x > 2^31`) panics in debug builds and is modelled as a panic. -/
def nextPowerOfTwo (x : Nat) : Res Nat :=
  let p := if x ≤ 1 then 1 else 2 ^ (Nat.log2 (x - 1) + 1)
  if p < 2 ^ 32 then .ok p else .error .panic

/-- Models `mopaq/src/builder.rs` 510-522 (`calculate_hash_table_size`) from the number of pending files and
whether a listfile option is set. -/
def calculateHashTableSize (pending : Nat) (hasListfile : Bool) : Res Nat :=
  let fileCount := pending + if hasListfile then 1 else 0
  let optimalSize := (max (fileCount * 2) 16) % 2 ^ 32
  nextPowerOfTwo optimalSize

/-- Models `mopaq/src/builder.rs` 1168-1174: one hash entry as bytes. -/
def HashEntry.toBytes (e : HashEntry) : List Byte :=
  le32 e.name1 ++ le32 e.name2 ++ le16 e.locale ++ le16 e.platform ++ le32 e.blockIndex

/-- Models `mopaq/src/tables/hash.rs` 57-70 (`HashEntry::from_bytes`). -/
def HashEntry.fromBytes (data : List Byte) : Res HashEntry :=
  if data.length < 16 then .error .invalidFormat
  else .ok {
    name1 := ofLe32 (slice data 0 4), name2 := ofLe32 (slice data 4 4),
    locale := ofLe16 (slice data 8 2), platform := ofLe16 (slice data 10 2),
    blockIndex := ofLe32 (slice data 12 4) }

/-- Models the table key expressions `hash_string("(hash table)", FILE_KEY)`
(`mopaq/src/builder.rs` 1177, `mopaq/src/tables/hash.rs` 107). -/
def hashTableKey : U32 := hashString [0x28,0x68,0x61,0x73,0x68,0x20,0x74,0x61,0x62,0x6C,0x65,0x29] htFileKey

/-- `hash_string("(block table)", FILE_KEY)` (`mopaq/src/builder.rs` 1206, `mopaq/src/tables/block.rs` 121). -/
def blockTableKey : U32 :=
  hashString [0x28,0x62,0x6C,0x6F,0x63,0x6B,0x20,0x74,0x61,0x62,0x6C,0x65,0x29] htFileKey

/-- Models `mopaq/src/builder.rs` 1161-1187 (`write_hash_table`): the bytes written (the MD5 of the same bytes is
returned by the code and modelled where it is used). -/
def hashTableBytes (t : HashTable) : List Byte :=
  encryptData (t.flatMap HashEntry.toBytes) hashTableKey

/-- Models `mopaq/src/tables/hash.rs` 122-128 and `block.rs` 136-142: parse `n` entries of 16 bytes each. -/
def parseEntries {α : Type} (parse : List Byte → Res α) : Nat → List Byte → Res (List α)
  | 0, _ => .ok []
  | n + 1, raw =>
    match parse (raw.take 16) with
    | .error e => .error e
    | .ok x =>
      match parseEntries parse n (raw.drop 16) with
      | .error e => .error e
      | .ok xs => .ok (x :: xs)

/-- Models `mopaq/src/tables/hash.rs` 92-131 (`HashTable::read`). -/
def readHashTable (f : List Byte) (offset : Nat) (size : U32) : Res HashTable :=
  if !isPowerOfTwo size then .error .hashTable
  else
    match readAt f offset (size.toNat * 16) with
    | .error e => .error e
    | .ok raw =>
      parseEntries HashEntry.fromBytes size.toNat (ofDwords (decryptBlock (toDwords raw) hashTableKey))

/-- Models `mopaq/src/tables/block.rs` 11-20 (`BlockEntry`). -/
structure BlockEntry where
  filePos : U32
  compressedSize : U32
  fileSize : U32
  flags : U32
  deriving DecidableEq, Repr

/-- `FLAG_IMPLODE` (`mopaq/src/tables/block.rs` 25). -/
def flagImplode : U32 := 0x00000100
/-- `FLAG_COMPRESS` (`mopaq/src/tables/block.rs` 27). -/
def flagCompress : U32 := 0x00000200
/-- `FLAG_ENCRYPTED` (`mopaq/src/tables/block.rs` 29). -/
def flagEncrypted : U32 := 0x00010000
/-- `FLAG_FIX_KEY` (`mopaq/src/tables/block.rs` 31). -/
def flagFixKey : U32 := 0x00020000
/-- `FLAG_PATCH_FILE` (`mopaq/src/tables/block.rs` 33). -/
def flagPatchFile : U32 := 0x00100000
/-- `FLAG_SINGLE_UNIT` (`mopaq/src/tables/block.rs` 35). -/
def flagSingleUnit : U32 := 0x01000000
/-- `FLAG_SECTOR_CRC` (`mopaq/src/tables/block.rs` 39). -/
def flagSectorCrc : U32 := 0x04000000
/-- `FLAG_EXISTS` (`mopaq/src/tables/block.rs` 41). -/
def flagExists : U32 := 0x80000000

/-- Models `mopaq/src/builder.rs` 1197-1203: one block entry as bytes. -/
def BlockEntry.toBytes (e : BlockEntry) : List Byte :=
  le32 e.filePos ++ le32 e.compressedSize ++ le32 e.fileSize ++ le32 e.flags

/-- Models `mopaq/src/tables/block.rs` 74-86 (`BlockEntry::from_bytes`). -/
def BlockEntry.fromBytes (data : List Byte) : Res BlockEntry :=
  if data.length < 16 then .error .invalidFormat
  else .ok {
    filePos := ofLe32 (slice data 0 4), compressedSize := ofLe32 (slice data 4 4),
    fileSize := ofLe32 (slice data 8 4), flags := ofLe32 (slice data 12 4) }

/-- Models `mopaq/src/builder.rs` 1190-1215 (`write_block_table`): the bytes written. -/
def blockTableBytes (t : List BlockEntry) : List Byte :=
  encryptData (t.flatMap BlockEntry.toBytes) blockTableKey

/-- Models `mopaq/src/tables/block.rs` 111-145 (`BlockTable::read`). -/
def readBlockTable (f : List Byte) (offset : Nat) (size : U32) : Res (List BlockEntry) :=
  match readAt f offset (size.toNat * 16) with
  | .error e => .error e
  | .ok raw =>
    parseEntries BlockEntry.fromBytes size.toNat (ofDwords (decryptBlock (toDwords raw) blockTableKey))

/-- Models `mopaq/src/builder.rs` 1218-1236 (`write_hi_block_table`): the bytes written, not encrypted. -/
def hiBlockTableBytes (t : List U16) : List Byte := t.flatMap le16

/-- Models `mopaq/src/tables/block.rs` 207-216 (`HiBlockTable::read`): `n` times `read_u16_le`. -/
def readHiBlockTable (f : List Byte) : Nat → Nat → Res (List U16)
  | _, 0 => .ok []
  | offset, n + 1 =>
    match readAt f offset 2 with
    | .error e => .error e
    | .ok b =>
      match readHiBlockTable f (offset + 2) n with
      | .error e => .error e
      | .ok rest => .ok (ofLe16 b :: rest)

/-- Models `mopaq/src/tables/block.rs` 224-226 (`get_file_pos_high`): a missing entry counts as 0. -/
def getFilePosHigh (t : List U16) (index : Nat) : U64 :=
  match t[index]? with
  | some v => v.setWidth 64
  | none => 0

/-- Models `mopaq/src/tables/block.rs` 248-250 (`is_needed`). -/
def hiBlockNeeded (t : List U16) : Bool := t.any (· != 0)

/-- Models `mopaq/src/archive.rs` 926-932: the full position of a file from its block entry and the optional
hi-block table. -/
def fullFilePos (hi : Option (List U16)) (blockIndex : Nat) (e : BlockEntry) : U64 :=
  match hi with
  | some t => (getFilePosHigh t blockIndex <<< 32) ||| e.filePos.setWidth 64
  | none => e.filePos.setWidth 64

end Mopaq
