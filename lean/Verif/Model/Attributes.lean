import Verif.Model.Header

/-!
# File attributes

Models `mopaq/src/special_files/attributes.rs`. `usize` has 64 bits; allocation never fails here.
-/

namespace Mopaq

/-- Models `mopaq/src/special_files/attributes.rs` 58-68 (`FileAttributes`). -/
structure FileAttributes where
  crc32 : Option U32
  filetime : Option U64
  md5 : Option (List Byte)
  isPatch : Option Bool
  deriving DecidableEq, Repr

/-- Models `mopaq/src/special_files/attributes.rs` 89-97 (`Attributes`), the flags as their raw value. -/
structure Attributes where
  version : U32
  flags : U32
  files : List FileAttributes
  deriving DecidableEq, Repr

/-- Models `mopaq/src/special_files/attributes.rs` 32-34 (`has_crc32`). -/
def hasCrc32 (flags : U32) : Bool := flags &&& 1#32 != 0#32
/-- Models `mopaq/src/special_files/attributes.rs` 37-39 (`has_filetime`). -/
def hasFiletime (flags : U32) : Bool := flags &&& 2#32 != 0#32
/-- Models `mopaq/src/special_files/attributes.rs` 42-44 (`has_md5`). -/
def hasMd5 (flags : U32) : Bool := flags &&& 4#32 != 0#32
/-- Models `mopaq/src/special_files/attributes.rs` 47-49 (`has_patch_bit`). -/
def hasPatchBit (flags : U32) : Bool := flags &&& 8#32 != 0#32

/-- Checked `usize` arithmetic. -/
def usizeChecked (n : Nat) : Res Nat := if n < 2 ^ 64 then .ok n else .error .panic

/-- `count` values read one after the other (`mopaq/src/special_files/attributes.rs` 152-194). -/
def readMany {α : Type} (read : List Byte → Res (α × List Byte)) : Nat → List Byte → Res (List α × List Byte)
  | 0, rest => .ok ([], rest)
  | n + 1, rest => do
    let (v, rest) ← read rest
    let (vs, rest) ← readMany read n rest
    return (v :: vs, rest)

/-- An optional column of the file (`mopaq/src/special_files/attributes.rs` 152-194). -/
def readColumn {α : Type} (present : Bool) (read : List Byte → Res (α × List Byte)) (rest : List Byte) :
    Res (Option α × List Byte) :=
  if present then (read rest).map fun r => (some r.1, r.2) else .ok (none, rest)

/-- `values[i]` on an optional column, with the bounds check (`mopaq/src/special_files/attributes.rs` 200-210). -/
def column {α : Type} (values : Option (List α)) (i : Nat) : Res (Option α) :=
  match values with
  | none => .ok none
  | some vs => match vs[i]? with
    | some v => .ok (some v)
    | none => .error .panic

/-- Models `mopaq/src/special_files/attributes.rs` 212-216: the patch bit of one file. -/
def patchBit (bits : Option (List Byte)) (i : Nat) : Res (Option Bool) :=
  match bits with
  | none => .ok none
  | some bs => match bs[i / 8]? with
    | some b => .ok (some (b &&& (1#8 <<< (i % 8)) != 0#8))
    | none => .error .panic

/-- Models `mopaq/src/special_files/attributes.rs` 196-219: the columns are combined to one record per file. -/
def combineColumns (crcs : Option (List U32)) (times : Option (List U64)) (md5s : Option (List (List Byte)))
    (bits : Option (List Byte)) (count : Nat) : Res (List FileAttributes) :=
  (List.range count).mapM fun i => do
    let crc32 ← column crcs i
    let filetime ← column times i
    let md5 ← column md5s i
    let isPatch ← patchBit bits i
    return { crc32, filetime, md5, isPatch }

/-- Models `mopaq/src/special_files/attributes.rs` 125-138: the size the file must have; `usize` arithmetic. -/
def attributesSize (flags : U32) (count : Nat) : Res Nat := do
  let size := 8
  let size ← if hasCrc32 flags then usizeChecked (size + (← usizeChecked (count * 4))) else pure size
  let size ← if hasFiletime flags then usizeChecked (size + (← usizeChecked (count * 8))) else pure size
  let size ← if hasMd5 flags then usizeChecked (size + (← usizeChecked (count * 16))) else pure size
  if hasPatchBit flags then usizeChecked (size + (count + 7) / 8) else pure size

/-- Models `mopaq/src/special_files/attributes.rs` 104-226 (`Attributes::parse`). -/
def parseAttributes (data : List Byte) (count : Nat) : Res Attributes := do
  if data.length < 8 then throw .invalidFormat
  let (version, rest) ← rd32 data
  if version ≠ 100#32 then throw .invalidFormat
  let (flags, rest) ← rd32 rest
  let size ← attributesSize flags count
  if data.length < size then throw .invalidFormat
  let (crcs, rest) ← readColumn (hasCrc32 flags) (readMany rd32 count) rest
  let (times, rest) ← readColumn (hasFiletime flags) (readMany rd64 count) rest
  let (md5s, rest) ← readColumn (hasMd5 flags) (readMany (rdBytes 16) count) rest
  let (bits, _) ← readColumn (hasPatchBit flags) (rdBytes ((count + 7) / 8)) rest
  let files ← combineColumns crcs times md5s bits count
  return { version, flags, files }

/-- Models `mopaq/src/special_files/attributes.rs` 271-277: `bits[i / 8] |= 1 << (i % 8)` for every patch file. -/
def setPatchBits : List Byte → Nat → List FileAttributes → List Byte
  | bits, _, [] => bits
  | bits, i, a :: rest =>
    let bits := if a.isPatch.getD false then bits.modify (i / 8) (· ||| (1#8 <<< (i % 8))) else bits
    setPatchBits bits (i + 1) rest

/-- Models `mopaq/src/special_files/attributes.rs` 234-283 (`to_bytes`). -/
def Attributes.toBytes (a : Attributes) : List Byte :=
  le32 a.version ++ (le32 a.flags ++
  ((if hasCrc32 a.flags then a.files.flatMap fun f => le32 (f.crc32.getD 0) else []) ++
  ((if hasFiletime a.flags then a.files.flatMap fun f => le64 (f.filetime.getD 0) else []) ++
  ((if hasMd5 a.flags then a.files.flatMap fun f => f.md5.getD (List.replicate 16 0) else []) ++
  (if hasPatchBit a.flags then setPatchBits (List.replicate ((a.files.length + 7) / 8) 0) 0 a.files else [])))))

end Mopaq
