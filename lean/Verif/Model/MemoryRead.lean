import Verif.Model.Memory

/-! # The memory that reading a file asks for

The buffers that `read_file` reserves, in bytes and in the order in which it asks for them. Which of them are reached is decided by
the functions of `Model/FileIO` and `Model/Archive`. Not counted: what decompressing asks for, and the copies made of what has been
read. -/

namespace Mopaq

/-- Models `mopaq/src/archive.rs` 1416-1494: the buffer of every sector (line 1438), up to the one that cannot be read. -/
def sectorsAsked (e : Env) (f : List Byte) (info : FileInfo) (key : U32) (sectorSize : Nat) : Nat → Nat → List U32 → List Nat
  | i, done, o0 :: o1 :: rest =>
    if o1.toNat < o0.toNat then []
    else if info.fileSize < done then []
    else
      (o1.toNat - o0.toNat) ::
      Res.after (readSector e f info key i (info.filePos + o0.toNat) (o1.toNat - o0.toNat) (min (info.fileSize - done) sectorSize))
        fun sector => sectorsAsked e f info key sectorSize (i + 1) (done + sector.length) (o1 :: rest)
  | _, _, _ => []

/-- Models `mopaq/src/archive.rs` 1339-1495 (`read_sectored_file`): the table of offsets as bytes (line 1352) and as numbers (1362),
the checksums, if there are any, likewise (1385, 1389), the content (1414), and the sectors. -/
def sectoredAsked (e : Env) (f : List Byte) (shift : U16) (info : FileInfo) (key : U32) : List Nat :=
  Res.after (sectorSizeOf shift) fun sectorSize =>
  Res.after (divCeil info.fileSize sectorSize) fun count =>
  (count + 1) * 4 :: Res.after (readAt f info.filePos ((count + 1) * 4)) fun raw =>
    let offsets := toDwords (if info.isEncrypted then decryptFileData raw (key - 1) else raw)
    (count + 1) * 4 ::
    if info.hasSectorCrc && decide ((count + 1) * 4 + count * 4 ≤ (offsets.headD 0).toNat) then
      count * 4 :: Res.after (readAt f (info.filePos + (count + 1) * 4) (count * 4)) fun _ =>
        count * 4 :: info.fileSize :: sectorsAsked e f info key sectorSize 0 0 offsets
    else info.fileSize :: sectorsAsked e f info key sectorSize 0 0 offsets

/-- Models `mopaq/src/archive.rs` 1251-1335: one buffer for a file in one piece (line 1255), otherwise those for its sectors. -/
def fileDataAsked (e : Env) (f : List Byte) (archiveOffset : Nat) (shift : U16) (name : List Byte) (info : FileInfo)
    (sizeForKey : U32) : List Nat :=
  if info.isSingleUnit || !info.isCompressed then [info.compressedSize]
  else sectoredAsked e f shift info (readerKey name archiveOffset info sizeForKey)

/-- Models `mopaq/src/archive.rs` 1213-1336 (`read_file`): all that it asks for. -/
def Archive.readAsked (e : Env) (a : Archive) (name : List Byte) : List Nat :=
  Res.after (a.findFile name) fun
  | none => []
  | some info =>
    if a.hetTable.isSome && a.betTable.isSome then
      fileDataAsked e a.file a.archiveOffset a.header.blockSize name info (BitVec.ofNat 32 info.fileSize)
    else
      match a.blockTable with
      | none => []
      | some blockTable =>
        match blockTable[info.blockIndex]? with
        | none => []
        | some block => fileDataAsked e a.file a.archiveOffset a.header.blockSize name info block.fileSize

end Mopaq
