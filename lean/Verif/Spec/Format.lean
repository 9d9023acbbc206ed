import Verif.Spec.Crypto

/-!
# Specification: how the format stores a file

Written from `docs/mopaq-format.md` of the repository (sections "File Data Storage", "Encryption Order", "Computing Encryption
Keys", "Block Table Flags"). Where this is silent it follows the published description of the format: sectors and whole files that
compression would not make smaller are stored as they are; sectors have the key plus their number, the table has the key minus one;
encryption works on whole dwords and leaves one to three bytes at the end alone. The key comes from the name as it was given to the
archive, as the document has it; some other software takes only the part behind the last backslash, which for names with
directories is a different key and is not considered here. Nothing here refers to the model.
-/

namespace Spec

/-- Four bytes each, the lowest first; a rest of one to three bytes is left out. -/
def dwords : List (BitVec 8) → List Nat
  | a :: b :: c :: d :: rest =>
    (a.toNat + 256 * (b.toNat + 256 * (c.toNat + 256 * d.toNat))) :: dwords rest
  | _ => []

/-- `cipher` is `plain` encrypted with `key`: four bytes at a time, a rest of one to three bytes stays as it is. With key 0 nothing
is encrypted. -/
def Enciphers (key : Nat) (plain cipher : List (BitVec 8)) : Prop :=
  cipher.length = plain.length ∧
  cipher.drop (plain.length / 4 * 4) = plain.drop (plain.length / 4 * 4) ∧
  if key = 0 then dwords cipher = dwords plain else Encrypts (Stream.start key) (dwords plain) (dwords cipher)

/-- The flags of a file. -/
def imploded (flags : BitVec 32) : Bool := flags.toNat.testBit 8
def compressed (flags : BitVec 32) : Bool := flags.toNat.testBit 9
def encrypted (flags : BitVec 32) : Bool := flags.toNat.testBit 16
def fixKey (flags : BitVec 32) : Bool := flags.toNat.testBit 17
def singleUnit (flags : BitVec 32) : Bool := flags.toNat.testBit 24
def checksums (flags : BitVec 32) : Bool := flags.toNat.testBit 26

/-- The key of a file: the hash of its name, with the flag "fix key" changed by its position in the archive and its size. -/
def fileKey (name : List (BitVec 8)) (flags : BitVec 32) (position size : Nat) : Nat :=
  let base := nameHash 3 (name.map BitVec.toNat)
  if fixKey flags then ((base + position) % 2 ^ 32) ^^^ (size % 2 ^ 32) else base

/-- The bytes `b` stand in the file `f` from `place` on. -/
def StandsAt (f : List (BitVec 8)) (place : Nat) (b : List (BitVec 8)) : Prop :=
  (f.drop place).take b.length = b

/-- What the compression methods make of the bytes behind the method byte, and of imploded data, when so many bytes are to come
out. -/
structure Methods where
  unpack : BitVec 8 → List (BitVec 8) → Nat → Option (List (BitVec 8))
  explode : List (BitVec 8) → Nat → Option (List (BitVec 8))

/-- `packed` is stored for the piece `x` of a file: `x` itself, or something shorter. Compressed data begin with a byte that names
the method, imploded data do not. -/
def Packs (m : Methods) (flags : BitVec 32) (x packed : List (BitVec 8)) : Prop :=
  packed = x ∨ packed.length < x.length ∧
    (compressed flags = true ∧ (∃ method body, packed = method :: body ∧ m.unpack method body x.length = some x) ∨
      compressed flags = false ∧ imploded flags = true ∧ m.explode packed x.length = some x)

/-- The bytes `packed` stand in the file, encrypted if the flags say so. -/
def Stands (f : List (BitVec 8)) (flags : BitVec 32) (key place : Nat) (packed : List (BitVec 8)) : Prop :=
  if encrypted flags then ∃ cipher, Enciphers key packed cipher ∧ StandsAt f place cipher else StandsAt f place packed

/-- A file as its entry describes it: where it stands in `f`, how long it is there and in itself, its flags and its key. -/
structure Stored where
  place : Nat
  storedSize : Nat
  size : Nat
  flags : BitVec 32
  key : Nat

/-- Piece number `i` of the data. -/
def piece (sectorSize : Nat) (data : List (BitVec 8)) (i : Nat) : List (BitVec 8) := (data.drop (i * sectorSize)).take sectorSize

/-- The file `f` stores `data` in the way the entry `s` says. `packed i` is what stands there for piece number `i` before encryption:
the whole file is one piece if it is a single unit; otherwise it is cut into sectors, and if any of these may be compressed there
is a table in front of them that says where each begins and where the last one ends. Sectors are encrypted with the key plus their
number, the table with the key minus one. -/
def Stores (m : Methods) (sectorSize : Nat) (f : List (BitVec 8)) (s : Stored) (data : List (BitVec 8))
    (packed : Nat → List (BitVec 8)) : Prop :=
  data.length = s.size ∧
  if singleUnit s.flags then
    Packs m s.flags data (packed 0) ∧ (packed 0).length = s.storedSize ∧ Stands f s.flags s.key s.place (packed 0)
  else if compressed s.flags || imploded s.flags then
    ∃ table, table.length = 4 * ((s.size + sectorSize - 1) / sectorSize + 1) ∧
      Stands f s.flags ((s.key + (2 ^ 32 - 1)) % 2 ^ 32) s.place table ∧
      ∀ i, i * sectorSize < s.size → Packs m s.flags (piece sectorSize data i) (packed i) ∧
        (dwords table).getD (i + 1) 0 = (dwords table).getD i 0 + (packed i).length ∧
        Stands f s.flags ((s.key + i) % 2 ^ 32) (s.place + (dwords table).getD i 0) (packed i)
  else
    s.storedSize = s.size ∧ ∀ i, i * sectorSize < s.size → packed i = piece sectorSize data i ∧
      Stands f s.flags ((s.key + i) % 2 ^ 32) (s.place + i * sectorSize) (packed i)

end Spec
