import Verif.Model.Tables
import Verif.Model.Header
import Verif.Model.Compression

/-!
# Writing and reading the data of one file

Models `ArchiveBuilder::write_file` and `calculate_file_key` of `mopaq/src/builder.rs`, and the data part of
`Archive::read_file` and `read_sectored_file` of `mopaq/src/archive.rs`. `usize` has 64 bits. Allocation never
fails here. Log calls are left out.
-/

namespace Mopaq

/-- External code the archive uses: the codecs and `adler::adler32_slice`. -/
structure Env where
  codecs : Codecs
  adler : List Byte → U32

/-- `(flags & mask) != 0`. -/
def hasBits (flags mask : U32) : Bool := flags &&& mask != 0#32

/-- Models `mopaq/src/lib.rs` 99-101 (`calculate_sector_size`) and `mopaq/src/header.rs` 273-275 (`sector_size`):
`512 << shift` on `usize`. The shift is checked, bits shifted out are lost. -/
def sectorSizeOf (shift : U16) : Res Nat :=
  if shift.toNat < 64 then .ok (512 * 2 ^ shift.toNat % 2 ^ 64) else .error .panic

/-- `usize::div_ceil`, which panics on zero. -/
def divCeil (a b : Nat) : Res Nat := if b = 0 then .error .panic else .ok ((a + b - 1) / b)

/-- Checked `u32` subtraction. -/
def sub32 (a b : U32) : Res Nat := if b.toNat ≤ a.toNat then .ok (a.toNat - b.toNat) else .error .panic

/-- `&data[start..end]`. -/
def sliceRange (data : List Byte) (start stop : Nat) : Res (List Byte) :=
  if start ≤ stop ∧ stop ≤ data.length then .ok (slice data start (stop - start)) else .error .panic

/-- Models `mopaq/src/builder.rs` 1326-1335 (`calculate_file_key`). -/
def calculateFileKey (name : List Byte) (filePos : Nat) (fileSize flags : U32) : U32 :=
  let base := hashString name htFileKey
  if hasBits flags flagFixKey then (base + BitVec.ofNat 32 filePos) ^^^ fileSize else base

/-- Models `mopaq/src/builder.rs` 143-152 (`FileWriteParams`). -/
structure FileWriteParams where
  data : List Byte
  name : List Byte
  compression : Byte
  encrypt : Bool
  useFixKey : Bool
  sectorSize : Nat
  filePos : Nat
  deriving DecidableEq, Repr

/-- What `write_file` does: the bytes it writes and the pair it returns. -/
structure Written where
  bytes : List Byte
  size : Nat
  flags : U32
  deriving DecidableEq, Repr

/-- Models `mopaq/src/builder.rs` 926-951 and 1021-1036: compression of one unit (the whole file or a sector);
the flag says whether the result differs from the data. -/
def storeUnit (e : Env) (method : Byte) (data : List Byte) : Res (List Byte × Bool) :=
  if method ≠ 0#8 ∧ data ≠ [] then do
    let compressed ← compress e.codecs data method
    if compressed ≠ data then return (compressed, true) else return (data, false)
  else .ok (data, false)

/-- Models `mopaq/src/builder.rs` 917-983: a file of at most one sector. -/
def writeSingle (e : Env) (crcs : Bool) (p : FileWriteParams) : Res Written := do
  let flags := flagSingleUnit ||| (if crcs then flagSectorCrc else 0#32)
  let (stored, compressed) ← storeUnit e p.compression p.data
  let flags := if compressed then flags ||| flagCompress else flags
  let flags := if p.encrypt then flags ||| flagEncrypted ||| (if p.useFixKey then flagFixKey else 0#32) else flags
  let key := calculateFileKey p.name p.filePos (BitVec.ofNat 32 p.data.length) flags
  let final := if p.encrypt then encryptData stored key else stored
  return { bytes := final ++ (if crcs then le32 (e.adler p.data) else []), size := final.length, flags }

/-- Models `mopaq/src/builder.rs` 1007-1010: the sectors of the data. -/
def sectorsOf (data : List Byte) (sectorSize count : Nat) : List (List Byte) :=
  (List.range count).map fun i => slice data (i * sectorSize) sectorSize

/-- Models `mopaq/src/builder.rs` 1012, 1042: the offsets of the stored sectors and of their end, as `u32`. -/
def offsetsFrom (start : Nat) : List (List Byte) → List U32
  | [] => [BitVec.ofNat 32 start]
  | b :: bs => BitVec.ofNat 32 start :: offsetsFrom (start + b.length) bs

/-- Models `mopaq/src/builder.rs` 1070-1080: every sector, cut out by the original offsets, is encrypted with the
key plus its number. -/
def encryptSectors (dataStart : U32) (key : U32) (sectorData : List Byte) : Nat → List U32 → Res (List Byte)
  | i, o0 :: o1 :: rest => do
    let start ← sub32 o0 dataStart
    let stop ← sub32 o1 dataStart
    let sector ← sliceRange sectorData start stop
    let more ← encryptSectors dataStart key sectorData (i + 1) (o1 :: rest)
    return encryptData sector (key + BitVec.ofNat 32 i) ++ more
  | _, _ => .ok []

/-- Models `mopaq/src/builder.rs` 984-1109: a file of several sectors. -/
def writeSectored (e : Env) (crcs : Bool) (p : FileWriteParams) : Res Written := do
  let count ← divCeil p.data.length p.sectorSize
  let flags := if crcs then flagSectorCrc else 0#32
  let offsetTableSize := (count + 1) * 4
  let dataStart := offsetTableSize + (if crcs then count * 4 else 0)
  let sectors := sectorsOf p.data p.sectorSize count
  let stored ← sectors.mapM (storeUnit e p.compression)
  let flags := if stored.any (·.2) then flags ||| flagCompress else flags
  let blobs := stored.map (·.1)
  let sectorData := blobs.flatten
  let offsets := offsetsFrom dataStart blobs
  let crcBytes := if crcs then ofDwords (sectors.map e.adler) else []
  if p.encrypt then do
    let flags := flags ||| flagEncrypted ||| (if p.useFixKey then flagFixKey else 0#32)
    let key := calculateFileKey p.name p.filePos (BitVec.ofNat 32 p.data.length) flags
    let encrypted ← encryptSectors (BitVec.ofNat 32 dataStart) key sectorData 0 offsets
    return { bytes := ofDwords (encryptBlock offsets (key - 1)) ++ crcBytes ++ encrypted,
             size := offsetTableSize + encrypted.length, flags }
  else
    return { bytes := ofDwords offsets ++ crcBytes ++ sectorData, size := offsetTableSize + sectorData.length, flags }

/-- Models `mopaq/src/builder.rs` 898-1110 (`write_file`). -/
def writeFile (e : Env) (crcs : Bool) (p : FileWriteParams) : Res Written :=
  if p.data.length ≤ p.sectorSize then writeSingle e crcs p else writeSectored e crcs p

/-- Models `mopaq/src/archive.rs` 1822-1839 (`FileInfo`), without the name. -/
structure FileInfo where
  hashIndex : Nat
  blockIndex : Nat
  filePos : Nat
  compressedSize : Nat
  fileSize : Nat
  flags : U32
  locale : U16
  deriving DecidableEq, Repr

/-- Models `mopaq/src/archive.rs` 1843-1846 (`is_compressed`). -/
def FileInfo.isCompressed (i : FileInfo) : Bool := hasBits i.flags (flagImplode ||| flagCompress)
/-- Models `mopaq/src/archive.rs` 1849-1852 (`is_encrypted`). -/
def FileInfo.isEncrypted (i : FileInfo) : Bool := hasBits i.flags flagEncrypted
/-- Models `mopaq/src/archive.rs` 1855-1858 (`has_fix_key`). -/
def FileInfo.hasFixKey (i : FileInfo) : Bool := hasBits i.flags flagFixKey
/-- Models `mopaq/src/archive.rs` 1861-1864 (`is_single_unit`). -/
def FileInfo.isSingleUnit (i : FileInfo) : Bool := hasBits i.flags flagSingleUnit
/-- Models `mopaq/src/archive.rs` 1867-1870 (`has_sector_crc`). -/
def FileInfo.hasSectorCrc (i : FileInfo) : Bool := hasBits i.flags flagSectorCrc

/-- `data[0]` and `&data[1..]`, with the bounds check. -/
def splitMethod (data : List Byte) : Res (Byte × List Byte) :=
  match data with
  | [] => .error .panic
  | m :: body => .ok (m, body)

/-- Models `mopaq/src/archive.rs` 1455-1490: reading one stored sector of `stored` bytes at `at_`, of which `expected`
bytes of data are wanted. The checksum comparison only logs. -/
def readSector (e : Env) (f : List Byte) (info : FileInfo) (key : U32) (i at_ stored expected : Nat) :
    Res (List Byte) := do
  let raw ← readAt f at_ stored
  let data := if info.isEncrypted then decryptFileData raw (key + BitVec.ofNat 32 i) else raw
  if info.isCompressed && decide (stored < expected) then
    if data ≠ [] then do
      let (m, body) ← splitMethod data
      decompress e.codecs body m expected
    else throw .compression
  else return data.take (min expected data.length)

/-- Models `mopaq/src/archive.rs` 1421-1493: the loop over the sectors; `i` counts up, `done` is
`decompressed_data.len()`, the offsets are those from sector `i` on. `file_size - decompressed_data.len()` is a
checked subtraction. -/
def readSectors (e : Env) (f : List Byte) (info : FileInfo) (key : U32) (sectorSize : Nat) :
    Nat → Nat → List U32 → Res (List Byte)
  | i, done, o0 :: o1 :: rest =>
    if o1.toNat < o0.toNat then .error .invalidFormat
    else if info.fileSize < done then .error .panic
    else do
      let sector ← readSector e f info key i (info.filePos + o0.toNat) (o1.toNat - o0.toNat)
        (min (info.fileSize - done) sectorSize)
      let more ← readSectors e f info key sectorSize (i + 1) (done + sector.length) (o1 :: rest)
      return sector ++ more
  | _, _, _ => .ok []

/-- Models `mopaq/src/archive.rs` 1339-1495 (`read_sectored_file`). The checksum table is read when there is room for
it, and otherwise unused. -/
def readSectoredFile (e : Env) (f : List Byte) (shift : U16) (info : FileInfo) (key : U32) : Res (List Byte) := do
  let sectorSize ← sectorSizeOf shift
  let count ← divCeil info.fileSize sectorSize
  let raw ← readAt f info.filePos ((count + 1) * 4)
  let table := if info.isEncrypted then decryptFileData raw (key - 1) else raw
  let offsets := toDwords table
  if info.hasSectorCrc && decide ((count + 1) * 4 + count * 4 ≤ (offsets.headD 0).toNat) then
    let _ ← readAt f (info.filePos + (count + 1) * 4) (count * 4)
    readSectors e f info key sectorSize 0 0 offsets
  else readSectors e f info key sectorSize 0 0 offsets

/-- Models `mopaq/src/archive.rs` 1236-1249: the key the reader computes. -/
def readerKey (name : List Byte) (archiveOffset : Nat) (info : FileInfo) (sizeForKey : U32) : U32 :=
  if info.isEncrypted then
    let base := hashString name htFileKey
    if info.hasFixKey then (base + BitVec.ofNat 32 (info.filePos - archiveOffset)) ^^^ sizeForKey else base
  else 0

/-- Models `mopaq/src/archive.rs` 1251-1335: reading the data once the file has been found. -/
def readFileData (e : Env) (f : List Byte) (archiveOffset : Nat) (shift : U16) (name : List Byte) (info : FileInfo)
    (sizeForKey : U32) (actualSize : Nat) : Res (List Byte) :=
  let key := readerKey name archiveOffset info sizeForKey
  if info.isSingleUnit || !info.isCompressed then do
    let raw ← readAt f info.filePos info.compressedSize
    let data := if info.isEncrypted then decryptFileData raw key else raw
    if info.hasSectorCrc && info.isSingleUnit then
      let crcBytes ← readAt f (info.filePos + info.compressedSize) 4
      let toCheck ←
        if info.isCompressed then do
          let (m, body) ← splitMethod data
          decompress e.codecs body m actualSize
        else pure data
      if e.adler toCheck ≠ ofLe32 crcBytes then throw .checksumMismatch
    if info.isCompressed then
      if data ≠ [] then do
        let (m, body) ← splitMethod data
        decompress e.codecs body m actualSize
      else throw .compression
    else return data
  else readSectoredFile e f shift info key

end Mopaq
