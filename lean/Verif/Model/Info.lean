import Verif.Model.Archive
import Verif.Model.Md5
import Verif.Model.Signature

/-!
# The description of an archive

Models `Archive::get_info` of `mopaq/src/archive.rs`, without the path. The size of the file is the number of its bytes.
-/

namespace Mopaq

/-- Models `mopaq/src/archive.rs` 80-89 (`TableInfo`). -/
structure TableInfo where
  size : Option U32
  offset : U64
  compressedSize : Option U64
  failedToLoad : Bool
  deriving DecidableEq, Repr

/-- Models `mopaq/src/archive.rs` 37-76 (`ArchiveInfo`), without the path. The user data is `(header_size, data_size)`. -/
structure ArchiveInfo where
  fileSize : Nat
  archiveOffset : Nat
  formatVersion : FormatVersion
  fileCount : Nat
  maxFileCount : U32
  sectorSize : Nat
  isEncrypted : Bool
  hasSignature : Bool
  signatureStatus : SignatureStatus
  hashTableInfo : TableInfo
  blockTableInfo : TableInfo
  hetTableInfo : Option TableInfo
  betTableInfo : Option TableInfo
  hiBlockTableInfo : Option TableInfo
  hasAttributes : Bool
  hasListfile : Bool
  userDataInfo : Option (U32 × U32)
  md5Status : Option Md5Status

/-- Models `mopaq/src/archive.rs` 634-637: the tables are loaded when they were not. -/
def Archive.ensureLoaded (e : Env) (a : Archive) : Res Archive :=
  if a.hashTable.isNone && a.hetTable.isNone then a.loadTables e else .ok a

/-- Models `mopaq/src/archive.rs` 643-655: the number of files. -/
def Archive.fileCount (a : Archive) : Nat :=
  match a.betTable, a.blockTable with
  | some bet, _ => bet.header.fileCount.toNat
  | none, some blockTable => (blockTable.filter fun entry => entry.fileSize ≠ 0#32).length
  | none, none => 0

/-- Models `mopaq/src/archive.rs` 657-662. -/
def Archive.maxFileCount (a : Archive) : U32 :=
  match a.hetTable with
  | some het => het.header.maxFileCount
  | none => a.header.hashTableSize

/-- Models `mopaq/src/archive.rs` 667: the attributes are there or can be found. -/
def Archive.hasAttributes (a : Archive) : Res Bool :=
  if a.attributes.isSome then .ok true else (a.findFile attributesName).map (·.isSome)

/-- Models `mopaq/src/archive.rs` 1568-1573 (`get_file_attributes`): the record of the block with the given index. -/
def Archive.fileAttributes (a : Archive) (blockIndex : Nat) : Option FileAttributes :=
  a.attributes.bind fun t => t.files[blockIndex]?

/-- Models `mopaq/src/archive.rs` 669-678. -/
def Archive.isEncrypted (a : Archive) : Bool :=
  match a.blockTable with
  | some blockTable => blockTable.any fun entry => hasBits entry.flags flagEncrypted
  | none => false

/-- Models `mopaq/src/archive.rs` 680-691: errors of the check count as an invalid weak signature. -/
def Archive.signatureStatus (e : Env) (s : SigEnv) (a : Archive) (hasSignature : Bool) : Res SignatureStatus :=
  if hasSignature then (tolerate (a.verifySignature e s)).map (·.getD .weakInvalid) else .ok .none

/-- Models `mopaq/src/archive.rs` 693-699. -/
def Archive.hashTableInfo (a : Archive) : TableInfo where
  size := some a.header.hashTableSize
  offset := a.header.getHashTablePos
  compressedSize := a.header.v4Data.map (·.hashTableSize64)
  failedToLoad := a.hashTable.isNone && decide (0 < a.header.hashTableSize.toNat)

/-- Models `mopaq/src/archive.rs` 701-710. -/
def Archive.blockTableInfo (a : Archive) : TableInfo where
  size := some a.header.blockTableSize
  offset := a.header.getBlockTablePos
  compressedSize := a.header.v4Data.map (·.blockTableSize64)
  failedToLoad := a.blockTable.isNone && decide (0 < a.header.blockTableSize.toNat)

/-- The size of an extended table: from the version 4 header, or worked out in version 3
(`mopaq/src/archive.rs` 717-745 and 760-788). `read_het_table_size` never fails; its overflow panics. -/
def extendedSize (recorded : Option U64) (version : FormatVersion) (workedOut : Res U64) : Res (Option U64) :=
  match recorded with
  | some size => .ok (some size)
  | none => if version == .v3 then tolerate workedOut else .ok none

/-- Models `mopaq/src/archive.rs` 712-753. -/
def Archive.hetTableInfo (a : Archive) : Res (Option TableInfo) :=
  match a.header.hetTablePos with
  | none => .ok none
  | some pos =>
    if pos = 0#64 then .ok none
    else do
      let compressedSize ← extendedSize (a.header.v4Data.map (·.hetTableSize64)) a.header.formatVersion
        (hetTableSizeOf a.header pos)
      return some { size := a.hetTable.map (·.header.maxFileCount), offset := pos, compressedSize,
                    failedToLoad := a.hetTable.isNone }

/-- Models `mopaq/src/archive.rs` 755-796. -/
def Archive.betTableInfo (a : Archive) : Res (Option TableInfo) :=
  match a.header.betTablePos with
  | none => .ok none
  | some pos =>
    if pos = 0#64 then .ok none
    else do
      let compressedSize ← extendedSize (a.header.v4Data.map (·.betTableSize64)) a.header.formatVersion
        (betTableSizeOf a.header pos)
      return some { size := a.betTable.map (·.header.fileCount), offset := pos, compressedSize,
                    failedToLoad := a.betTable.isNone }

/-- Models `mopaq/src/archive.rs` 798-817. -/
def Archive.hiBlockTableInfo (a : Archive) : Option TableInfo :=
  match a.header.hiBlockTablePos with
  | none => none
  | some pos =>
    if pos = 0#64 then none
    else some { size := if a.hiBlockTable.isSome then some a.header.blockTableSize else none, offset := pos,
                compressedSize := a.header.v4Data.map (·.hiBlockTableSize64), failedToLoad := a.hiBlockTable.isNone }

/-- Models `mopaq/src/archive.rs` 633-850 (`get_info`). -/
def Archive.getInfo (e : Env) (s : SigEnv) (a : Archive) : Res ArchiveInfo := do
  let a ← a.ensureLoaded e
  let hasListfile := (← a.findFile listfileName).isSome
  let hasSignature := (← a.findFile signatureName).isSome
  let hasAttributes ← a.hasAttributes
  let signatureStatus ← a.signatureStatus e s hasSignature
  let hetTableInfo ← a.hetTableInfo
  let betTableInfo ← a.betTableInfo
  let md5Status ← validateMd5 s.md5 a.file a.archiveOffset a.header
  let sectorSize ← sectorSizeOf a.header.blockSize
  return { fileSize := a.file.length, archiveOffset := a.archiveOffset, formatVersion := a.header.formatVersion,
           fileCount := a.fileCount, maxFileCount := a.maxFileCount, sectorSize, isEncrypted := a.isEncrypted,
           hasSignature, signatureStatus, hashTableInfo := a.hashTableInfo, blockTableInfo := a.blockTableInfo,
           hetTableInfo, betTableInfo, hiBlockTableInfo := a.hiBlockTableInfo, hasAttributes, hasListfile,
           userDataInfo := a.userData.map fun u => (u.userDataHeaderSize, u.userDataSize), md5Status }

end Mopaq
