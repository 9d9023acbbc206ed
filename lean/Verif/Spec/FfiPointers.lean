import Verif.Spec.FfiMemory
import Verif.Spec.FfiSession

/-! # Specification: how a call of the C API takes its arguments from memory and gives its answer -/

namespace Mopaq.Spec

/-- What is asked for: the high half of a distance is the number at the address given for it. -/
def asked (m : Nat → Byte) : PtrCall → Call
  | .openFile archive name _ => .openFile archive name
  | .readFile file _ toRead _ => .onFile file (.read toRead)
  | .fileSize file _ => .onFile file .size
  | .setPointer file low high method =>
    .onFile file (.seek low (if high = 0 then none else some (BitVec.ofNat 32 (numberAt m high 4))) method)
  | .info h cls _ size _ => .getInfo h cls size
  | .archiveName archive _ size => .onArchive archive (.archiveName size)
  | .fileName file _ => .onFile file .name

/-- The bytes of the number for each class of information. -/
def widthOf (cls : U32) : Nat := if cls = 1#32 ∨ cls = 7#32 ∨ cls = 10#32 then 8 else 4

/-- What a correct caller gives: buffers and results that are not null where they may not be, at multiples of their
alignment, and apart from each other. -/
def Proper : PtrCall → Prop
  | .openFile _ _ out => out ≠ 0 ∧ out % 8 = 0
  | .readFile _ buffer toRead read => buffer ≠ 0 ∧ read % 4 = 0 ∧ ∀ a, Within a read 4 → ¬ Within a buffer toRead.toNat
  | .fileSize _ high => high % 4 = 0
  | .setPointer _ _ high _ => high % 4 = 0
  | .info _ cls buffer size needed => (buffer = 0 → size = 0#32) ∧ buffer % widthOf cls = 0 ∧ needed % 4 = 0 ∧
      ∀ a, Within a needed 4 → ¬ Within a buffer (widthOf cls)
  | .archiveName _ buffer _ => buffer ≠ 0
  | .fileName _ buffer => buffer ≠ 0

/-- How the answer `o` reaches the caller: the value returned (1 is `true`), the last error, and the memory. -/
def Delivered (c : PtrCall) (o : Outcome) (v error : U32) (m : Nat → Byte) : Prop :=
  match o with
  | .error code => error = code ∧ v = match c with
      | .fileSize .. | .setPointer .. => 0xFFFFFFFF#32
      | _ => 0#32
  | .ok out => error = 0#32 ∧ match c, out with
    | .openFile _ _ place, .handle id => v = 1#32 ∧ numberAt m place 8 = id
    | .readFile _ buffer _ read, .bytes data => v = 1#32 ∧ At m buffer data ∧ (read ≠ 0 → numberAt m read 4 = data.length)
    | .fileSize _ high, .value n => v.toNat = n % 2 ^ 32 ∧ (high ≠ 0 → numberAt m high 4 = n / 2 ^ 32)
    | .setPointer _ _ high _, .value n => v.toNat = n % 2 ^ 32 ∧ (high ≠ 0 → numberAt m high 4 = n / 2 ^ 32)
    | .info _ cls buffer _ needed, .value n => v = 1#32 ∧ numberAt m buffer (widthOf cls) = n ∧
        (needed ≠ 0 → numberAt m needed 4 = widthOf cls)
    | .archiveName _ buffer _, .bytes path => v = 1#32 ∧ At m buffer (path ++ [0#8])
    | .fileName _ buffer, .bytes name => v = 1#32 ∧ At m buffer (name ++ [0#8])
    | _, _ => False

/-- What is open. -/
def sessionOf (s : Client) : Session := { next := s.next, archives := s.archives, files := s.files }

/-- What holds of what is open: handles are given in order from 1 on, each once; names and paths are C strings, positions are
within the files and sizes are numbers of 64 bits. -/
structure Tidy (σ : Session) : Prop where
  positive : 0 < σ.next
  archiveNew : ∀ h, (h = 0 ∨ σ.next ≤ h) → σ.archives h = none
  fileNew : ∀ h, (h = 0 ∨ σ.next ≤ h) → σ.files h = none
  apart : ∀ h, σ.files h = none ∨ σ.archives h = none
  within : ∀ h f, σ.files h = some f → f.position ≤ f.data.length ∧ f.data.length < 2 ^ 63 ∧ f.size < 2 ^ 64 ∧ 0#8 ∉ f.filename
  paths : ∀ h a, σ.archives h = some a → 0#8 ∉ a.path

end Mopaq.Spec
