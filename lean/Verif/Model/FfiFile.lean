import Verif.Model.Archive

/-!
# File handles of the C API

Models the calls of `storm-ffi/src/lib.rs` that work on one open file. Pointers are valid, as the safety comments ask;
checks for null pointers are dropped, except for the optional high half of a file position.
-/

namespace Mopaq

/-- `ERROR_INVALID_PARAMETER` (`storm-ffi/src/lib.rs` 53). -/
def errorInvalidParameter : U32 := 87

/-- Models `storm-ffi/src/lib.rs` 39-45 (`FileHandle`). -/
structure FileHandle where
  archiveHandle : Nat
  filename : List Byte
  data : List Byte
  position : Nat
  size : Nat
  deriving DecidableEq, Repr

/-- Models `storm-ffi/src/lib.rs` 448-473 (`SFileReadFile`): what is copied to the buffer, and the handle afterwards. -/
def FileHandle.read (f : FileHandle) (toRead : U32) : Res (List Byte × FileHandle) :=
  let remaining := f.data.length - f.position
  let count := min toRead.toNat remaining
  if count = 0 then .ok ([], f)
  else if f.position + count ≤ f.data.length then
    .ok (slice f.data f.position count, { f with position := f.position + count })
  else .error .panic

/-- Models `storm-ffi/src/lib.rs` 528-533: the offset, an `i64`. -/
def seekOffset (low : BitVec 32) (high : Option (BitVec 32)) : BitVec 64 :=
  match high with
  | some h => low.signExtend 64 ||| (h.signExtend 64 <<< 32)
  | none => low.signExtend 64

/-- `(origin as i64 + offset) as usize`, a checked addition. -/
def addI64 (origin : Nat) (offset : BitVec 64) : Res Nat :=
  let sum := (BitVec.ofNat 64 origin).toInt + offset.toInt
  if -2 ^ 63 ≤ sum ∧ sum < 2 ^ 63 then .ok (BitVec.ofInt 64 sum).toNat else .error .panic

/-- Models `storm-ffi/src/lib.rs` 535-544: the new position before clamping, `none` for an unknown method. -/
def FileHandle.seekTarget (f : FileHandle) (offset : BitVec 64) : Nat → Res (Option Nat)
  | 0 => .ok (some offset.toNat)
  | 1 => (addI64 f.position offset).map some
  | 2 => (addI64 f.data.length offset).map some
  | _ => .ok none

/-- Models `storm-ffi/src/lib.rs` 511-557 (`SFileSetFilePointer`): the handle afterwards, or the error code. -/
def FileHandle.seek (f : FileHandle) (low : BitVec 32) (high : Option (BitVec 32)) (method : U32) :
    Res (Except U32 FileHandle) := do
  match ← f.seekTarget (seekOffset low high) method.toNat with
  | none => return .error errorInvalidParameter
  | some pos => return .ok { f with position := min pos f.data.length }

end Mopaq
