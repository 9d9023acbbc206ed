import Verif.Model.Builder

/-!
# Checking the MD5 values of version 4

Models `validate_v4_md5_checksums` of `mopaq/src/archive.rs`. MD5 itself is a parameter.
-/

namespace Mopaq

/-- Models `mopaq/src/archive.rs` 117-132 (`Md5Status`). -/
structure Md5Status where
  hashTableValid : Bool
  blockTableValid : Bool
  hiBlockTableValid : Bool
  hetTableValid : Bool
  betTableValid : Bool
  headerValid : Bool
  deriving DecidableEq, Repr

/-- Models `mopaq/src/archive.rs` 536-554 (the closure `validate_table_md5`). -/
def validTable (md5 : Md5) (f : List Byte) (archiveOffset : Nat) (expected : List Byte) (offset size : U64) : Res Bool :=
  if size = 0#64 then .ok true
  else do
    let pos ← addPos archiveOffset offset
    let data ← readVec f pos size.toNat
    return md5 data = expected

/-- The same for a table the header may not point to (`mopaq/src/archive.rs` 575-607). -/
def validOptional (md5 : Md5) (f : List Byte) (archiveOffset : Nat) (expected : List Byte) (offset : Option U64)
    (size : U64) : Res Bool :=
  match offset with
  | none => .ok true
  | some pos => if pos ≠ 0#64 then validTable md5 f archiveOffset expected pos size else .ok true

/-- Models `mopaq/src/archive.rs` 526-630 (`validate_v4_md5_checksums`). -/
def validateMd5 (md5 : Md5) (f : List Byte) (archiveOffset : Nat) (h : MpqHeader) : Res (Option Md5Status) :=
  match h.v4Data with
  | none => .ok none
  | some v => do
    let hashTableValid ← if 0 < h.hashTableSize.toNat then
        validTable md5 f archiveOffset v.md5HashTable h.getHashTablePos v.hashTableSize64
      else pure true
    let blockTableValid ← if 0 < h.blockTableSize.toNat then
        validTable md5 f archiveOffset v.md5BlockTable h.getBlockTablePos v.blockTableSize64
      else pure true
    let hiBlockTableValid ← validOptional md5 f archiveOffset v.md5HiBlockTable h.hiBlockTablePos v.hiBlockTableSize64
    let hetTableValid ← validOptional md5 f archiveOffset v.md5HetTable h.hetTablePos v.hetTableSize64
    let betTableValid ← validOptional md5 f archiveOffset v.md5BetTable h.betTablePos v.betTableSize64
    let header ← readAt f archiveOffset 192
    return some { hashTableValid, blockTableValid, hiBlockTableValid, hetTableValid, betTableValid,
                  headerValid := md5 header = v.md5MpqHeader }

end Mopaq
