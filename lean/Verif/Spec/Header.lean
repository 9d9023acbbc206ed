/-!
# Specification: where an MPQ archive starts

Written from the published description of the format. Nothing here refers to the model.
-/

namespace Spec

/-- The little-endian 32-bit number at offset `o`, if four bytes are there. -/
def u32At (f : List (BitVec 8)) (o : Nat) : Option Nat :=
  match f.drop o with
  | a :: b :: c :: d :: _ => some (a.toNat + 256 * (b.toNat + 256 * (c.toNat + 256 * d.toNat)))
  | _ => none

/-- "MPQ\x1A" is at offset `o`. -/
def archiveMark (f : List (BitVec 8)) (o : Nat) : Prop := u32At f o = some 0x1A51504D

/-- "MPQ\x1B" is at offset `o`. -/
def userDataMark (f : List (BitVec 8)) (o : Nat) : Prop := u32At f o = some 0x1B51504D

/-- A complete user data block at `o` points to `target`. -/
def pointsTo (f : List (BitVec 8)) (o target : Nat) : Prop :=
  userDataMark f o ∧ (∃ s, u32At f (o + 4) = some s) ∧ (∃ d, u32At f (o + 8) = some d ∧ target = o + d) ∧
    ∃ h, u32At f (o + 12) = some h

/-- The archive belonging to the 512-byte boundary `o` starts at `start`: either right here, or where the user data
block found here points to, provided an archive mark is there. -/
def startsAt (f : List (BitVec 8)) (o start : Nat) : Prop :=
  (archiveMark f o ∧ start = o) ∨ (pointsTo f o start ∧ archiveMark f start)

/-- The user data block at `o` is cut off by the end of the file, or points to the last three bytes of the file. -/
def cutOff (f : List (BitVec 8)) (o : Nat) : Prop :=
  userDataMark f o ∧ ((∀ target, ¬ pointsTo f o target) ∨
    ∃ target, pointsTo f o target ∧ target < f.length ∧ u32At f target = none)

/-- `w` little-endian bytes of `v`. -/
def putLe : Nat → Nat → List (BitVec 8)
  | 0, _ => []
  | w + 1, v => BitVec.ofNat 8 v :: putLe w (v / 256)

/-- A structure on disk: little-endian fields, given as (width in bytes, value), one after the other. -/
def layout (fields : List (Nat × Nat)) : List (BitVec 8) := fields.flatMap fun f => putLe f.1 f.2

/-- The header size of format version `v`. -/
def headerBytes : Nat → Option Nat
  | 0 => some 32 | 1 => some 44 | 2 => some 68 | 3 => some 208 | _ => none

/-- An acceptable header: the mark, a known version, a header size field no smaller than that version needs, and that
many bytes there. -/
def acceptableHeader (f : List (BitVec 8)) : Prop :=
  archiveMark f 0 ∧ ∃ size word n, u32At f 4 = some size ∧ u32At f 12 = some word ∧
    headerBytes (word % 65536) = some n ∧ n ≤ size ∧ n ≤ f.length

end Spec
