import Verif.Model.FfiMemory

/-! # Specification: which memory a call of the C API may change -/

namespace Mopaq.Spec

/-- Address `a` is one of the `n` from `p` on. -/
def Within (a p n : Nat) : Prop := p ≤ a ∧ a < p + n

/-- The bytes stand at `p`. -/
def At (m : Nat → Byte) (p : Nat) (bytes : List Byte) : Prop := ∀ i b, bytes[i]? = some b → m (p + i) = b

/-- The little-endian number of `n` bytes at `p`. -/
def numberAt (m : Nat → Byte) (p : Nat) : Nat → Nat
  | 0 => 0
  | n + 1 => (m p).toNat + 256 * numberAt m (p + 1) n

/-- The addresses that the caller of a function lends to it: the buffer with the size it names, and what the other
pointers (unless they are null) point to: 4 bytes, 8 for a handle. `SFileGetFileName` is not told the size of its
buffer; for it the caller's buffer of `room` bytes is meant. -/
def Lent (room : Nat) (c : PtrCall) (a : Nat) : Prop :=
  match c with
  | .openFile _ _ out => Within a out 8
  | .readFile _ buffer toRead read => Within a buffer toRead.toNat ∨ read ≠ 0 ∧ Within a read 4
  | .fileSize _ high => high ≠ 0 ∧ Within a high 4
  | .setPointer _ _ high _ => high ≠ 0 ∧ Within a high 4
  | .info _ _ buffer size needed => Within a buffer size.toNat ∨ needed ≠ 0 ∧ Within a needed 4
  | .archiveName _ buffer size => Within a buffer size.toNat
  | .fileName _ buffer => Within a buffer room

/-- The addresses that a call may change although it fails: where it tells the size it would have needed. -/
def LentOnFailure (c : PtrCall) (a : Nat) : Prop :=
  match c with
  | .info _ _ _ _ needed => needed ≠ 0 ∧ Within a needed 4
  | _ => False

/-- The information of each class: its size and the number. 7 and 10 are the size and the position of an open file;
1, 2, 3 and 4 the size of an archive, the entries of its hash and block tables, and its sector size. -/
def informationOf (s : Client) (h : Nat) (cls : U32) : Option (Nat × Nat) :=
  match s.files h, s.archives h with
  | some f, _ => if cls = 7#32 then some (8, f.size) else if cls = 10#32 then some (8, f.position) else none
  | none, some a =>
    let header := a.archive.header
    if cls = 1#32 then some (8, header.getArchiveSize.toNat)
    else if cls = 2#32 then some (4, header.hashTableSize.toNat)
    else if cls = 3#32 then some (4, header.blockTableSize.toNat)
    else if cls = 4#32 then some (4, 512 * 2 ^ header.blockSize.toNat)
    else none
  | none, none => none

end Mopaq.Spec
