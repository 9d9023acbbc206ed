import Verif.Model.Archive

/-! # The memory that opening an archive asks for

The buffers that are reserved for the tables before they are read, in bytes and in the order in which they are asked for. Which
of them are reached is decided by the functions of `Model/Archive`. Not counted: buffers of fixed size, what decompressing a
table and reading `(attributes)` ask for, and the copies made of what has been read. Requests of 2^63 bytes and more are not
made (they panic, see `readVec`). -/

namespace Mopaq

/-- What stands behind a step that may fail. -/
def Res.after {α : Type} (r : Res α) (next : α → List Nat) : List Nat :=
  match r with
  | .ok x => next x
  | .error _ => []

/-- Models `mopaq/src/tables/het.rs` 66-70 and `tables/bet.rs` 76-80: the buffer for the whole table. -/
def extTableAsked (offset size : Nat) : List Nat := if offset < 2 ^ 63 ∧ size < 2 ^ 63 then [size] else []

/-- Models `mopaq/src/archive.rs` 338-391: for the HET table. -/
def hetAsked (archiveOffset : Nat) (h : MpqHeader) : List Nat :=
  match h.hetTablePos with
  | none => []
  | some pos =>
    if pos = 0#64 then []
    else
      let size := (h.v4Data.map (·.hetTableSize64)).getD 0#64
      Res.after (if size = 0#64 && h.formatVersion == .v3 then hetTableSizeOf h pos else pure size) fun size =>
        if size = 0#64 then [] else Res.after (addPos archiveOffset pos) fun offset => extTableAsked offset size.toNat

/-- Models `mopaq/src/tables/bet.rs` 76-183: for the BET table, its flags (line 167), its records (175) and its hashes (180). -/
def betTableAsked (e : Codecs) (f : List Byte) (offset size : Nat) (key : U32) : List Nat :=
  extTableAsked offset size ++
    Res.after (readExtTable e f offset size 0x1A544542#32 key) fun body =>
    Res.after (parseBetHeader body) fun header =>
      header.flagCount.toNat * 4 :: Res.after (rd32s header.flagCount.toNat (body.drop 76)) fun (_, rest) =>
      (header.fileCount.toNat * header.tableEntrySize.toNat + 7) / 8 ::
      Res.after (rdBytes ((header.fileCount.toNat * header.tableEntrySize.toNat + 7) / 8) rest) fun _ =>
      [header.betHashArraySize.toNat / 8 * 8]

/-- Models `mopaq/src/archive.rs` 393-447: for the BET table. -/
def betAsked (e : Env) (f : List Byte) (archiveOffset : Nat) (h : MpqHeader) : List Nat :=
  match h.betTablePos with
  | none => []
  | some pos =>
    if pos = 0#64 then []
    else
      let size := (h.v4Data.map (·.betTableSize64)).getD 0#64
      Res.after (if size = 0#64 && h.formatVersion == .v3 then betTableSizeOf h pos else pure size) fun size =>
        if size = 0#64 then []
        else Res.after (addPos archiveOffset pos) fun offset => betTableAsked e.codecs f offset size.toNat blockTableKey

/-- Models `mopaq/src/archive.rs` 449-480 with `tables/hash.rs` 95-103 and `tables/block.rs` 113-117: for the hash table and the
block table. -/
def classicAsked (f : List Byte) (archiveOffset : Nat) (h : MpqHeader) (usable : Bool) : List Nat :=
  if !usable || decide (0 < h.hashTableSize.toNat) then
    Res.after (addPos archiveOffset h.getHashTablePos) fun offset =>
    if !isPowerOfTwo h.hashTableSize then []
    else
      h.hashTableSize.toNat * 16 :: Res.after (readHashTable f offset h.hashTableSize) fun _ =>
      Res.after (addPos archiveOffset h.getBlockTablePos) fun _ => [h.blockTableSize.toNat * 16]
  else []

/-- Models `mopaq/src/archive.rs` 482-492 with `tables/block.rs` 207-210: for the hi-block table. -/
def hiBlockAsked (archiveOffset : Nat) (h : MpqHeader) : List Nat :=
  match h.hiBlockTablePos with
  | none => []
  | some pos => if pos = 0#64 then [] else Res.after (addPos archiveOffset pos) fun _ => [h.blockTableSize.toNat * 2]

/-- Models `mopaq/src/archive.rs` 298-326 and 329-492: all that opening asks for. -/
def openAsked (e : Env) (f : List Byte) : List Nat :=
  Res.after (findHeader f) fun (archiveOffset, _, h) =>
    let extended := h.formatVersion.ge .v3
    (if extended then hetAsked archiveOffset h else []) ++
    Res.after (if extended then loadHet e f archiveOffset h else pure none) fun het =>
    (if extended then betAsked e f archiveOffset h else []) ++
    Res.after (if extended then loadBet e f archiveOffset h else pure none) fun bet =>
    classicAsked f archiveOffset h (usableHetBet het bet).isSome ++
    Res.after (loadClassic f archiveOffset h (usableHetBet het bet).isSome) fun _ => hiBlockAsked archiveOffset h

end Mopaq
