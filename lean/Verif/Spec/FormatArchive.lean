import Verif.Spec.Format
import Verif.Spec.Header
import Verif.Spec.Attributes

/-!
# Specification: an archive of the format

Written from `docs/mopaq-format.md` of the repository (sections "Locating MPQ Headers", "Hash Table Structure and Contents", "Block
Table Structure", "Hi-Block Table"), for versions 1 and 2. Where it is silent on what a search for no particular language finds, the
first entry of the name counts. Nothing here refers to the model.
-/

namespace Spec

/-- The header, as it stands in the file. In version 1 the last three are not there. -/
structure Header where
  headerSize : BitVec 32
  archiveSize : BitVec 32
  version : BitVec 16
  shift : BitVec 16
  hashPosition : BitVec 32
  blockPosition : BitVec 32
  hashCount : BitVec 32
  blockCount : BitVec 32
  hiPosition : BitVec 64
  hashPositionHigh : BitVec 16
  blockPositionHigh : BitVec 16

/-- The bytes of the header; the number for version 1 is 0, that for version 2 is 1. -/
def Header.bytes (h : Header) : List (BitVec 8) :=
  layout ([(4, 0x1A51504D), (4, h.headerSize.toNat), (4, h.archiveSize.toNat), (2, h.version.toNat), (2, h.shift.toNat),
    (4, h.hashPosition.toNat), (4, h.blockPosition.toNat), (4, h.hashCount.toNat), (4, h.blockCount.toNat)] ++
    if h.version = 0#16 then []
    else [(8, h.hiPosition.toNat), (2, h.hashPositionHigh.toNat), (2, h.blockPositionHigh.toNat)])

/-- Where the hash table is, from the start of the archive. -/
def Header.hashPlace (h : Header) : Nat :=
  h.hashPosition.toNat + if h.version = 0#16 then 0 else 2 ^ 32 * h.hashPositionHigh.toNat

/-- Where the block table is. -/
def Header.blockPlace (h : Header) : Nat :=
  h.blockPosition.toNat + if h.version = 0#16 then 0 else 2 ^ 32 * h.blockPositionHigh.toNat

/-- There is a table of the high parts of the positions. -/
def Header.hasHigh (h : Header) : Prop := h.version ≠ 0#16 ∧ h.hiPosition ≠ 0#64

/-- An entry of the hash table. -/
structure HashRow where
  nameA : BitVec 32
  nameB : BitVec 32
  language : BitVec 16
  platform : BitVec 16
  block : BitVec 32

/-- An entry of the block table. -/
structure BlockRow where
  position : BitVec 32
  storedSize : BitVec 32
  size : BitVec 32
  flags : BitVec 32

def HashRow.bytes (r : HashRow) : List (BitVec 8) :=
  layout [(4, r.nameA.toNat), (4, r.nameB.toNat), (2, r.language.toNat), (2, r.platform.toNat), (4, r.block.toNat)]

def BlockRow.bytes (r : BlockRow) : List (BitVec 8) :=
  layout [(4, r.position.toNat), (4, r.storedSize.toNat), (4, r.size.toNat), (4, r.flags.toNat)]

/-- The key of a table is the hash of its name. -/
def tableKey (name : String) : Nat := nameHash 3 (name.toList.map Char.toNat)

/-- The bytes `plain` stand in the file encrypted with `key`. -/
def StandsEncrypted (f : List (BitVec 8)) (key place : Nat) (plain : List (BitVec 8)) : Prop :=
  ∃ cipher, Enciphers key plain cipher ∧ StandsAt f place cipher

/-- The file is an archive in version 1 or 2: at the first multiple of 512 bytes at which there is a mark, or where the user data
found there say, is the header; the tables are where it says, encrypted; the high parts of the positions are not encrypted, and 0
if there is no table of them. -/
structure IsArchive (f : List (BitVec 8)) (start : Nat) (h : Header) (hashes : List HashRow) (blocks : List BlockRow)
    (highs : List (BitVec 16)) : Prop where
  first : ∃ o, o % 512 = 0 ∧ startsAt f o start ∧
    ∀ o' < o, o' % 512 = 0 → ¬ archiveMark f o' ∧ ¬ userDataMark f o'
  header : StandsAt f start h.bytes
  version : h.version = 0#16 ∧ 32 ≤ h.headerSize.toNat ∨ h.version = 1#16 ∧ 44 ≤ h.headerSize.toNat
  powerOfTwo : ∃ k, hashes.length = 2 ^ k
  hashCount : h.hashCount.toNat = hashes.length
  blockCount : h.blockCount.toNat = blocks.length
  highCount : highs.length = blocks.length
  hashTable : StandsEncrypted f (tableKey "(hash table)") (start + h.hashPlace) (hashes.flatMap HashRow.bytes)
  blockTable : StandsEncrypted f (tableKey "(block table)") (start + h.blockPlace) (blocks.flatMap BlockRow.bytes)
  highTable : h.hasHigh → StandsAt f (start + h.hiPosition.toNat) (highs.flatMap fun x => putLe 2 x.toNat)
  noHighs : ¬ h.hasHigh → ∀ x ∈ highs, x = 0#16
  inside : start + h.blockPlace ≤ f.length ∧ (h.hasHigh → start + h.hiPosition.toNat ≤ f.length)

/-- Slot number `j` of those to be looked at for a name, beginning with its hash and going round at the end of the table. -/
def slot (hashes : List HashRow) (name : List (BitVec 8)) (j : Nat) : Nat :=
  (nameHash 0 (name.map BitVec.toNat) + j) % hashes.length

/-- The entry is one of the name, and neither unused nor deleted. -/
def HashRow.IsFor (r : HashRow) (name : List (BitVec 8)) : Prop :=
  r.nameA.toNat = nameHash 1 (name.map BitVec.toNat) ∧ r.nameB.toNat = nameHash 2 (name.map BitVec.toNat) ∧
    r.block.toNat < 0xFFFFFFFE

/-- Looking for the name in the hash table ends at this entry: it is the first one of the name, and no entry that was never used
comes before it. -/
def Finds (hashes : List HashRow) (name : List (BitVec 8)) (r : HashRow) : Prop :=
  ∃ j < hashes.length, hashes[slot hashes name j]? = some r ∧ r.IsFor name ∧
    ∀ i < j, ∀ q, hashes[slot hashes name i]? = some q → ¬ q.IsFor name ∧ q.block ≠ 0xFFFFFFFF#32

/-- The entry of a file: what its hash entry, its block entry and the high part of its position say. -/
def fileEntry (start : Nat) (name : List (BitVec 8)) (b : BlockRow) (high : BitVec 16) : Stored :=
  let position := b.position.toNat + 2 ^ 32 * high.toNat
  { place := start + position, storedSize := b.storedSize.toNat, size := b.size.toNat, flags := b.flags,
    key := fileKey name b.flags position b.size.toNat }

/-- The archive has a file of this name with the content `data`, stored in the way its entry `s` says, each piece as `packed`
has it. -/
def HasFile (m : Methods) (f : List (BitVec 8)) (start : Nat) (h : Header) (hashes : List HashRow) (blocks : List BlockRow)
    (highs : List (BitVec 16)) (name : List (BitVec 8)) (s : Stored) (data : List (BitVec 8))
    (packed : Nat → List (BitVec 8)) : Prop :=
  ∃ r b high, Finds hashes name r ∧ blocks[r.block.toNat]? = some b ∧ highs[r.block.toNat]? = some high ∧
    b.flags.toNat.testBit 31 = true ∧ s = fileEntry start name b high ∧
    Stores m (512 * 2 ^ h.shift.toNat) f s data packed

/-- The name of the file with the attributes of all files. -/
def attributesFile : List (BitVec 8) := "(attributes)".toList.map fun c => BitVec.ofNat 8 c.toNat

/-- `data` is a file with the attributes of `count` files: version 100, and long enough for the tables it announces. -/
def IsAttributes (data : List (BitVec 8)) (count : Nat) : Prop :=
  8 ≤ data.length ∧ numAt 4 data 0 = 100 ∧ attributesLength (numAt 4 data 4) count ≤ data.length

/-- Files other than these five kinds: imploded ones; encrypted ones of which a part has a length that is not a multiple of four;
encrypted ones of several sectors that are not compressed; and files stored as one unit with the flag for checksums, or with that
for compression though not compressed. -/
structure Ordinary (sectorSize : Nat) (s : Stored) (data : List (BitVec 8)) (packed : Nat → List (BitVec 8)) : Prop where
  notImploded : imploded s.flags = false
  wholeDwords : encrypted s.flags = true → ∀ i, (packed i).length % 4 = 0
  oneSector : encrypted s.flags = true → compressed s.flags = false → singleUnit s.flags = false → s.size ≤ sectorSize
  noChecksum : singleUnit s.flags = true → checksums s.flags = false
  smaller : singleUnit s.flags = true → compressed s.flags = true → packed 0 ≠ data

end Spec
