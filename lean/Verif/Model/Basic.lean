/-!
# Bytes, errors and positioned reads

Shared vocabulary of the model. Nothing here models one particular function except where cited.
-/

namespace Mopaq

/-- `u8`. -/
abbrev Byte := BitVec 8
/-- `u16`. -/
abbrev U16 := BitVec 16
/-- `u32`. -/
abbrev U32 := BitVec 32
/-- `u64`. -/
abbrev U64 := BitVec 64

/-- Models `mopaq/src/error.rs` 9-103 (`enum Error`): one constructor per kind of error, message
strings dropped. `panic` is not an error of the code: it stands for a Rust panic (index out of
bounds, failed overflow check, division by zero, `unwrap` on `None`). `diverge` stands for a loop
that never ends. -/
inductive Err where
  | io | invalidFormat | unsupportedVersion | fileNotFound | hashTable | blockTable | crypto
  | compression | signatureVerification | invalidHeader | readOnly | operationNotSupported
  | invalidFileSize | memoryMap | invalidUtf8 | capacityExceeded | checksumMismatch | md5Mismatch
  | panic | diverge
  deriving DecidableEq, Repr, Inhabited

/-- Models `mopaq/src/error.rs` 7 (`type Result`). -/
abbrev Res := Except Err

deriving instance DecidableEq for Except

/-- `n` little-endian bytes of a number (`to_le_bytes` for the width `8 * n`; higher bits are cut
as an `as` cast would). -/
def leBytes : Nat → Nat → List Byte
  | 0, _ => []
  | n + 1, v => BitVec.ofNat 8 v :: leBytes n (v / 256)

/-- Value of little-endian bytes (`from_le_bytes`). -/
def leNat : List Byte → Nat
  | [] => 0
  | b :: bs => b.toNat + 256 * leNat bs

/-- `u16::to_le_bytes`. -/
def le16 (v : U16) : List Byte := leBytes 2 v.toNat
/-- `u32::to_le_bytes`. -/
def le32 (v : U32) : List Byte := leBytes 4 v.toNat
/-- `u64::to_le_bytes`. -/
def le64 (v : U64) : List Byte := leBytes 8 v.toNat

/-- `u16::from_le_bytes` (on two bytes). -/
def ofLe16 (bs : List Byte) : U16 := BitVec.ofNat 16 (leNat bs)
/-- `u32::from_le_bytes` (on four bytes). -/
def ofLe32 (bs : List Byte) : U32 := BitVec.ofNat 32 (leNat bs)
/-- `u64::from_le_bytes` (on eight bytes). -/
def ofLe64 (bs : List Byte) : U64 := BitVec.ofNat 64 (leNat bs)

/-- `slice[off .. off+n]` of a byte list, without a bounds check (shorter when out of range). -/
def slice (bs : List Byte) (off n : Nat) : List Byte := (bs.drop off).take n

/-- `seek(SeekFrom::Start(off))` followed by `read_exact` of `n` bytes on a file or cursor. Seeking
beyond the end succeeds; reading nothing succeeds anywhere; otherwise all `n` bytes must exist. -/
def readAt (f : List Byte) (off n : Nat) : Res (List Byte) :=
  if n = 0 then .ok []
  else if off + n ≤ f.length then .ok (slice f off n)
  else .error .io

/-- `seek` to a place, then `vec![0u8; n]` and `read_exact`, for an `n` with 64 bits: a vector of 2^63 bytes and more is a panic
("capacity overflow"), unless the seek fails before, which it does from 2^63 on. -/
def readVec (f : List Byte) (off n : Nat) : Res (List Byte) :=
  if off < 2 ^ 63 ∧ 2 ^ 63 ≤ n then .error .panic else readAt f off n

/-- `chunks_exact(4)` mapped through `u32::from_le_bytes`: whole dwords, a tail of 1-3 bytes is
dropped. -/
def toDwords : List Byte → List U32
  | a :: b :: c :: d :: rest => ofLe32 [a, b, c, d] :: toDwords rest
  | _ => []

/-- Concatenated `to_le_bytes` of dwords. -/
def ofDwords : List U32 → List Byte
  | [] => []
  | v :: vs => le32 v ++ ofDwords vs

end Mopaq
