/-! # Specification: digital signatures -/

namespace Spec

/-- A big-endian number. -/
def beNumber : List (BitVec 8) → Nat
  | [] => 0
  | b :: rest => b.toNat * 256 ^ rest.length + beNumber rest

/-- The bytes from `first` up to `last` (or the end of the file) with those from `exFirst` up to `exLast` replaced by
zeros. -/
def maskedRange (f : List (BitVec 8)) (first last exFirst exLast : Nat) : List (BitVec 8) :=
  ((f.mapIdx fun i b => if exFirst ≤ i ∧ i < exLast then 0#8 else b).take last).drop first

/-- The block of `len` bytes that PKCS#1 v1.5 prescribes for an MD5 digest: 00 01, at least eight bytes FF, 00, the
prefix naming MD5, the digest. -/
def weakBlock (len : Nat) (digest : List (BitVec 8)) : List (BitVec 8) :=
  [0x00#8, 0x01#8] ++ List.replicate (len - 37) 0xFF#8 ++ [0x00#8] ++
    [0x30, 0x20, 0x30, 0x0C, 0x06, 0x08, 0x2A, 0x86, 0x48, 0x86, 0xF7, 0x0D, 0x02, 0x05, 0x05, 0x00, 0x04, 0x10] ++ digest

/-- The block of 256 bytes of a strong signature. -/
def strongBlock (digest : List (BitVec 8)) : List (BitVec 8) :=
  0x0B#8 :: List.replicate 235 0xBB#8 ++ digest

/-- A strong signature follows the archive that ends at `last`: 260 bytes, starting with "NGIS", and the 256 bytes after
that are not all zero. -/
def strongPresent (f : List (BitVec 8)) (last : Nat) : Prop :=
  last + 260 ≤ f.length ∧ (f.drop last).take 4 = [0x4E#8, 0x47#8, 0x49#8, 0x53#8] ∧
    ∃ b ∈ (f.drop (last + 4)).take 256, b ≠ 0#8

/-- The strong signature after the archive, a number whose least significant byte comes first. -/
def strongValue (f : List (BitVec 8)) (last : Nat) : Nat := beNumber ((f.drop (last + 4)).take 256).reverse

/-- The content of a signature file holds a weak signature: 64 bytes after the first eight, not all zero. -/
def weakPresent (content : List (BitVec 8)) : Prop :=
  72 ≤ content.length ∧ ∃ b ∈ (content.drop 8).take 64, b ≠ 0#8

end Spec
