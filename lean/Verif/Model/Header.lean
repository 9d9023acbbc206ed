import Verif.Model.Basic

/-!
# Archive headers

Models `mopaq/src/header.rs` and `ArchiveBuilder::write_header` of `mopaq/src/builder.rs`.
A reader standing somewhere in a file is modelled by the bytes from there to the end.
-/

namespace Mopaq

/-- `read_exact` of `n` bytes at the current position: the bytes and what follows. -/
def rdBytes (n : Nat) (rest : List Byte) : Res (List Byte × List Byte) :=
  if n ≤ rest.length then .ok (rest.take n, rest.drop n) else .error .io

/-- `read_u16_le` (`mopaq/src/header.rs` 8-27). -/
def rd16 (rest : List Byte) : Res (U16 × List Byte) := (rdBytes 2 rest).map fun r => (ofLe16 r.1, r.2)
/-- `read_u32_le` (`mopaq/src/header.rs` 8-27). -/
def rd32 (rest : List Byte) : Res (U32 × List Byte) := (rdBytes 4 rest).map fun r => (ofLe32 r.1, r.2)
/-- `read_u64_le` (`mopaq/src/header.rs` 8-27). -/
def rd64 (rest : List Byte) : Res (U64 × List Byte) := (rdBytes 8 rest).map fun r => (ofLe64 r.1, r.2)

/-- Models `mopaq/src/header.rs` 39-51 (`FormatVersion`). -/
inductive FormatVersion where
  | v1 | v2 | v3 | v4
  deriving DecidableEq, Repr

/-- Models `self.version as u16` (`mopaq/src/header.rs` 43-50). -/
def FormatVersion.raw : FormatVersion → U16
  | .v1 => 0 | .v2 => 1 | .v3 => 2 | .v4 => 3

/-- Models `mopaq/src/header.rs` 55-62 (`header_size`). -/
def FormatVersion.headerSize : FormatVersion → U32
  | .v1 => 0x20 | .v2 => 0x2C | .v3 => 0x44 | .v4 => 0xD0

/-- Models `mopaq/src/header.rs` 65-73 (`from_raw`). -/
def FormatVersion.fromRaw (raw : U16) : Option FormatVersion :=
  if raw = 0 then some .v1 else if raw = 1 then some .v2 else if raw = 2 then some .v3
  else if raw = 3 then some .v4 else none

/-- The derived order of the versions (`mopaq/src/header.rs` 40). -/
def FormatVersion.ge (a b : FormatVersion) : Bool := b.raw.toNat ≤ a.raw.toNat

/-- Models `mopaq/src/header.rs` 30 (`MPQ_HEADER_SIGNATURE`). -/
def mpqSignature : U32 := 0x1A51504D
/-- Models `mopaq/src/header.rs` 33 (`MPQ_USERDATA_SIGNATURE`). -/
def userDataSignature : U32 := 0x1B51504D

/-- Models `mopaq/src/header.rs` 77-86 (`UserDataHeader`). -/
structure UserDataHeader where
  userDataSize : U32
  headerOffset : U32
  userDataHeaderSize : U32
  deriving DecidableEq, Repr

/-- Models `mopaq/src/header.rs` 128-155 (`MpqHeaderV4Data`). MD5 values are lists of 16 bytes. -/
structure V4Data where
  hashTableSize64 : U64
  blockTableSize64 : U64
  hiBlockTableSize64 : U64
  hetTableSize64 : U64
  betTableSize64 : U64
  rawChunkSize : U32
  md5BlockTable : List Byte
  md5HashTable : List Byte
  md5HiBlockTable : List Byte
  md5BetTable : List Byte
  md5HetTable : List Byte
  md5MpqHeader : List Byte
  deriving DecidableEq, Repr

/-- Models `mopaq/src/header.rs` 89-125 (`MpqHeader`). -/
structure MpqHeader where
  headerSize : U32
  archiveSize : U32
  formatVersion : FormatVersion
  blockSize : U16
  hashTablePos : U32
  blockTablePos : U32
  hashTableSize : U32
  blockTableSize : U32
  hiBlockTablePos : Option U64
  hashTablePosHi : Option U16
  blockTablePosHi : Option U16
  archiveSize64 : Option U64
  betTablePos : Option U64
  hetTablePos : Option U64
  v4Data : Option V4Data
  deriving DecidableEq, Repr

/-- Models `mopaq/src/header.rs` 207-212: the version 2 fields. -/
def readV2 (rest : List Byte) : Res ((U64 × U16 × U16) × List Byte) := do
  let (hi, rest) ← rd64 rest
  let (hashHi, rest) ← rd16 rest
  let (blockHi, rest) ← rd16 rest
  return ((hi, hashHi, blockHi), rest)

/-- Models `mopaq/src/header.rs` 214-219: the version 3 fields. -/
def readV3 (rest : List Byte) : Res ((U64 × U64 × U64) × List Byte) := do
  let (archiveSize64, rest) ← rd64 rest
  let (betPos, rest) ← rd64 rest
  let (hetPos, rest) ← rd64 rest
  return ((archiveSize64, betPos, hetPos), rest)

/-- Models `mopaq/src/header.rs` 221-247: the version 4 fields. -/
def readV4 (rest : List Byte) : Res (V4Data × List Byte) := do
  let (hashTableSize64, rest) ← rd64 rest
  let (blockTableSize64, rest) ← rd64 rest
  let (hiBlockTableSize64, rest) ← rd64 rest
  let (hetTableSize64, rest) ← rd64 rest
  let (betTableSize64, rest) ← rd64 rest
  let (rawChunkSize, rest) ← rd32 rest
  let (md5BlockTable, rest) ← rdBytes 16 rest
  let (md5HashTable, rest) ← rdBytes 16 rest
  let (md5HiBlockTable, rest) ← rdBytes 16 rest
  let (md5BetTable, rest) ← rdBytes 16 rest
  let (md5HetTable, rest) ← rdBytes 16 rest
  let (md5MpqHeader, rest) ← rdBytes 16 rest
  return ({ hashTableSize64, blockTableSize64, hiBlockTableSize64, hetTableSize64, betTableSize64, rawChunkSize,
            md5BlockTable, md5HashTable, md5HiBlockTable, md5BetTable, md5HetTable, md5MpqHeader }, rest)

/-- Models `mopaq/src/header.rs` 158-247 (`MpqHeader::read`) on the bytes from the header to the end of the file. -/
def readHeader (rest : List Byte) : Res MpqHeader := do
  let (signature, rest) ← rd32 rest
  if signature ≠ mpqSignature then throw .invalidFormat
  let (headerSize, rest) ← rd32 rest
  let (archiveSize, rest) ← rd32 rest
  let (versionRaw, rest) ← rd16 rest
  let (blockSize, rest) ← rd16 rest
  let (hashTablePos, rest) ← rd32 rest
  let (blockTablePos, rest) ← rd32 rest
  let (hashTableSize, rest) ← rd32 rest
  let (blockTableSize, rest) ← rd32 rest
  match FormatVersion.fromRaw versionRaw with
  | none => throw .unsupportedVersion
  | some formatVersion =>
    if headerSize.toNat < formatVersion.headerSize.toNat then throw .invalidFormat
    let header : MpqHeader :=
      { headerSize, archiveSize, formatVersion, blockSize, hashTablePos, blockTablePos, hashTableSize, blockTableSize,
        hiBlockTablePos := none, hashTablePosHi := none, blockTablePosHi := none,
        archiveSize64 := none, betTablePos := none, hetTablePos := none, v4Data := none }
    if !formatVersion.ge .v2 then return header
    let ((hi, hashHi, blockHi), rest) ← readV2 rest
    let header := { header with hiBlockTablePos := some hi, hashTablePosHi := some hashHi, blockTablePosHi := some blockHi }
    if !formatVersion.ge .v3 then return header
    let ((size64, betPos, hetPos), rest) ← readV3 rest
    let header := { header with archiveSize64 := some size64, betTablePos := some betPos, hetTablePos := some hetPos }
    if !formatVersion.ge .v4 then return header
    let (v4, _) ← readV4 rest
    return { header with v4Data := some v4 }

/-- Models `mopaq/src/header.rs` 250-252 (`get_archive_size`). -/
def MpqHeader.getArchiveSize (h : MpqHeader) : U64 :=
  match h.archiveSize64 with
  | some v => v
  | none => h.archiveSize.setWidth 64

/-- Models `mopaq/src/header.rs` 255-261 (`get_hash_table_pos`). -/
def MpqHeader.getHashTablePos (h : MpqHeader) : U64 :=
  match h.hashTablePosHi with
  | some hi => (hi.setWidth 64 <<< 32) ||| h.hashTablePos.setWidth 64
  | none => h.hashTablePos.setWidth 64

/-- Models `mopaq/src/header.rs` 264-270 (`get_block_table_pos`). -/
def MpqHeader.getBlockTablePos (h : MpqHeader) : U64 :=
  match h.blockTablePosHi with
  | some hi => (hi.setWidth 64 <<< 32) ||| h.blockTablePos.setWidth 64
  | none => h.blockTablePos.setWidth 64

/-- Models `mopaq/src/builder.rs` `HeaderWriteParams` (structs at 36-163). -/
structure HeaderParams where
  archiveSize : U64
  hashTablePos : U64
  blockTablePos : U64
  hashTableSize : U32
  blockTableSize : U32
  hiBlockTablePos : Option U64
  hetTablePos : Option U64
  betTablePos : Option U64
  v4Data : Option V4Data
  deriving DecidableEq, Repr

/-- Models `mopaq/src/builder.rs` 1244-1266: the fields common to all versions. -/
def headerCommonBytes (version : FormatVersion) (blockSize : U16) (p : HeaderParams) : List Byte :=
  le32 mpqSignature ++ (le32 version.headerSize ++ (le32 (BitVec.ofNat 32 (min p.archiveSize.toNat 0xFFFFFFFF)) ++
  (le16 version.raw ++ (le16 blockSize ++ (le32 (p.hashTablePos.setWidth 32) ++ (le32 (p.blockTablePos.setWidth 32) ++
  (le32 p.hashTableSize ++ le32 p.blockTableSize)))))))

/-- Models `mopaq/src/builder.rs` 1273-1280 (and 1282-1285, 1293-1296): the version 2 fields. -/
def headerV2Bytes (p : HeaderParams) : List Byte :=
  le64 (p.hiBlockTablePos.getD 0) ++ (le16 ((p.hashTablePos >>> 32).setWidth 16) ++
    le16 ((p.blockTablePos >>> 32).setWidth 16))

/-- Models `mopaq/src/builder.rs` 1287-1290 and 1298-1301: the version 3 fields. -/
def headerV3Bytes (p : HeaderParams) : List Byte :=
  le64 p.archiveSize ++ (le64 (p.betTablePos.getD 0) ++ le64 (p.hetTablePos.getD 0))

/-- Models `mopaq/src/builder.rs` 1304-1318: the version 4 fields. -/
def headerV4Bytes (v : V4Data) : List Byte :=
  le64 v.hashTableSize64 ++ (le64 v.blockTableSize64 ++ (le64 v.hiBlockTableSize64 ++ (le64 v.hetTableSize64 ++
  (le64 v.betTableSize64 ++ (le32 v.rawChunkSize ++ (v.md5BlockTable ++ (v.md5HashTable ++ (v.md5HiBlockTable ++
  (v.md5BetTable ++ (v.md5HetTable ++ v.md5MpqHeader))))))))))

/-- Models `mopaq/src/builder.rs` 1239-1323 (`write_header`): the bytes written. -/
def writeHeader (version : FormatVersion) (blockSize : U16) (p : HeaderParams) : Res (List Byte) :=
  match version with
  | .v1 => .ok (headerCommonBytes version blockSize p)
  | .v2 => .ok (headerCommonBytes version blockSize p ++ headerV2Bytes p)
  | .v3 => .ok (headerCommonBytes version blockSize p ++ (headerV2Bytes p ++ headerV3Bytes p))
  | .v4 =>
    match p.v4Data with
    | some v => .ok (headerCommonBytes version blockSize p ++ (headerV2Bytes p ++ (headerV3Bytes p ++ headerV4Bytes v)))
    | none => .error .invalidFormat

/-- Models `mopaq/src/header.rs` 286-340: the search loop of `find_header`. The Rust loop has no counter; `fuel`
bounds it here and running out is the explicit value `diverge` (`C13_search_terminates`). -/
def findHeaderLoop (f : List Byte) : Nat → Nat → Res (Nat × Option UserDataHeader × MpqHeader)
  | 0, _ => .error .diverge
  | fuel + 1, offset =>
    if f.length ≤ offset then .error .invalidFormat
    else
      match rd32 (f.drop offset) with
      | .error _ => findHeaderLoop f fuel (offset + 0x200)
      | .ok (signature, rest) =>
        if signature = mpqSignature then
          (readHeader (f.drop offset)).map fun h => (offset, none, h)
        else if signature = userDataSignature then do
          let (userDataSize, rest) ← rd32 rest
          let (headerOffset, rest) ← rd32 rest
          let (userDataHeaderSize, _) ← rd32 rest
          let mpqOffset := offset + headerOffset.toNat
          if mpqOffset < f.length then
            let (sig, _) ← rd32 (f.drop mpqOffset)
            if sig = mpqSignature then
              let h ← readHeader (f.drop mpqOffset)
              return (mpqOffset, some ⟨userDataSize, headerOffset, userDataHeaderSize⟩, h)
            else findHeaderLoop f fuel (offset + 0x200)
          else findHeaderLoop f fuel (offset + 0x200)
        else findHeaderLoop f fuel (offset + 0x200)

/-- Models `mopaq/src/header.rs` 279-341 (`find_header`): at most one round per 512 bytes of the file, and one more
to notice the end. -/
def findHeader (f : List Byte) : Res (Nat × Option UserDataHeader × MpqHeader) :=
  findHeaderLoop f (f.length / 0x200 + 2) 0

end Mopaq
