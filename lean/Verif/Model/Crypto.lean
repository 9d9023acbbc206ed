import Verif.Model.Basic

/-!
# Encryption table, block cipher and name hashes

Models `mopaq/src/crypto/{keys,encryption,decryption,hash}.rs` and the two byte-level wrappers
`ArchiveBuilder::encrypt_data` and `decrypt_file_data`.
-/

namespace Mopaq

/-- Models `mopaq/src/crypto/keys.rs` 16, 19: one update of the generator's seed (all `u32`). -/
def tableSeedStep (seed : U32) : U32 := (seed * 125 + 3) % 0x2AAAAB

/-- Models `mopaq/src/crypto/keys.rs` 11-25: the loop body, which draws two seeds and stores one
entry at `table_index`. -/
def tableStep (st : U32 × List U32) (tableIndex : Nat) : U32 × List U32 :=
  let s1 := tableSeedStep st.1
  let temp1 := (s1 &&& 0xFFFF) <<< 0x10
  let s2 := tableSeedStep s1
  let temp2 := s2 &&& 0xFFFF
  (s2, st.2.set tableIndex (temp1 ||| temp2))

/-- Models `mopaq/src/crypto/keys.rs` 8-13: the table indices in the order of the nested loops
(`index1` outer, `index2` inner). -/
def tableOrder : List Nat :=
  (List.range 0x100).flatMap fun index1 => (List.range 5).map fun index2 => index1 + index2 * 0x100

/-- Models `mopaq/src/crypto/keys.rs` 4-31 (`generate_encryption_table`, `ENCRYPTION_TABLE`). -/
@[irreducible] def encTable : List U32 :=
  (tableOrder.foldl tableStep (0x00100001, List.replicate 0x500 0)).2

/-- `ENCRYPTION_TABLE[i]` without the bounds check. The check is modelled by `encTChecked`. -/
@[irreducible] def encT (i : Nat) : U32 := encTable[i]?.getD 0

/-- `ENCRYPTION_TABLE[i]` with Rust's bounds check. -/
def encTChecked (i : Nat) : Res U32 :=
  match encTable[i]? with
  | some v => .ok v
  | none => .error .panic

/-- Models `mopaq/src/crypto/keys.rs` 34-67 (`ASCII_TO_UPPER`), copied literally. -/
def asciiToUpper : List Byte := [
    0x00, 0x01, 0x02, 0x03, 0x04, 0x05, 0x06, 0x07, 0x08, 0x09, 0x0A, 0x0B, 0x0C, 0x0D, 0x0E, 0x0F,
    0x10, 0x11, 0x12, 0x13, 0x14, 0x15, 0x16, 0x17, 0x18, 0x19, 0x1A, 0x1B, 0x1C, 0x1D, 0x1E, 0x1F,
    0x20, 0x21, 0x22, 0x23, 0x24, 0x25, 0x26, 0x27, 0x28, 0x29, 0x2A, 0x2B, 0x2C, 0x2D, 0x2E, 0x2F,
    0x30, 0x31, 0x32, 0x33, 0x34, 0x35, 0x36, 0x37, 0x38, 0x39, 0x3A, 0x3B, 0x3C, 0x3D, 0x3E, 0x3F,
    0x40, 0x41, 0x42, 0x43, 0x44, 0x45, 0x46, 0x47, 0x48, 0x49, 0x4A, 0x4B, 0x4C, 0x4D, 0x4E, 0x4F,
    0x50, 0x51, 0x52, 0x53, 0x54, 0x55, 0x56, 0x57, 0x58, 0x59, 0x5A, 0x5B, 0x5C, 0x5D, 0x5E, 0x5F,
    0x60, 0x41, 0x42, 0x43, 0x44, 0x45, 0x46, 0x47, 0x48, 0x49, 0x4A, 0x4B, 0x4C, 0x4D, 0x4E, 0x4F,
    0x50, 0x51, 0x52, 0x53, 0x54, 0x55, 0x56, 0x57, 0x58, 0x59, 0x5A, 0x7B, 0x7C, 0x7D, 0x7E, 0x7F,
    0x80, 0x81, 0x82, 0x83, 0x84, 0x85, 0x86, 0x87, 0x88, 0x89, 0x8A, 0x8B, 0x8C, 0x8D, 0x8E, 0x8F,
    0x90, 0x91, 0x92, 0x93, 0x94, 0x95, 0x96, 0x97, 0x98, 0x99, 0x9A, 0x9B, 0x9C, 0x9D, 0x9E, 0x9F,
    0xA0, 0xA1, 0xA2, 0xA3, 0xA4, 0xA5, 0xA6, 0xA7, 0xA8, 0xA9, 0xAA, 0xAB, 0xAC, 0xAD, 0xAE, 0xAF,
    0xB0, 0xB1, 0xB2, 0xB3, 0xB4, 0xB5, 0xB6, 0xB7, 0xB8, 0xB9, 0xBA, 0xBB, 0xBC, 0xBD, 0xBE, 0xBF,
    0xC0, 0xC1, 0xC2, 0xC3, 0xC4, 0xC5, 0xC6, 0xC7, 0xC8, 0xC9, 0xCA, 0xCB, 0xCC, 0xCD, 0xCE, 0xCF,
    0xD0, 0xD1, 0xD2, 0xD3, 0xD4, 0xD5, 0xD6, 0xD7, 0xD8, 0xD9, 0xDA, 0xDB, 0xDC, 0xDD, 0xDE, 0xDF,
    0xE0, 0xE1, 0xE2, 0xE3, 0xE4, 0xE5, 0xE6, 0xE7, 0xE8, 0xE9, 0xEA, 0xEB, 0xEC, 0xED, 0xEE, 0xEF,
    0xF0, 0xF1, 0xF2, 0xF3, 0xF4, 0xF5, 0xF6, 0xF7, 0xF8, 0xF9, 0xFA, 0xFB, 0xFC, 0xFD, 0xFE, 0xFF]

/-- Models `mopaq/src/crypto/keys.rs` 70-103 (`ASCII_TO_LOWER`), copied literally. -/
def asciiToLower : List Byte := [
    0x00, 0x01, 0x02, 0x03, 0x04, 0x05, 0x06, 0x07, 0x08, 0x09, 0x0A, 0x0B, 0x0C, 0x0D, 0x0E, 0x0F,
    0x10, 0x11, 0x12, 0x13, 0x14, 0x15, 0x16, 0x17, 0x18, 0x19, 0x1A, 0x1B, 0x1C, 0x1D, 0x1E, 0x1F,
    0x20, 0x21, 0x22, 0x23, 0x24, 0x25, 0x26, 0x27, 0x28, 0x29, 0x2A, 0x2B, 0x2C, 0x2D, 0x2E, 0x2F,
    0x30, 0x31, 0x32, 0x33, 0x34, 0x35, 0x36, 0x37, 0x38, 0x39, 0x3A, 0x3B, 0x3C, 0x3D, 0x3E, 0x3F,
    0x40, 0x61, 0x62, 0x63, 0x64, 0x65, 0x66, 0x67, 0x68, 0x69, 0x6A, 0x6B, 0x6C, 0x6D, 0x6E, 0x6F,
    0x70, 0x71, 0x72, 0x73, 0x74, 0x75, 0x76, 0x77, 0x78, 0x79, 0x7A, 0x5B, 0x5C, 0x5D, 0x5E, 0x5F,
    0x60, 0x61, 0x62, 0x63, 0x64, 0x65, 0x66, 0x67, 0x68, 0x69, 0x6A, 0x6B, 0x6C, 0x6D, 0x6E, 0x6F,
    0x70, 0x71, 0x72, 0x73, 0x74, 0x75, 0x76, 0x77, 0x78, 0x79, 0x7A, 0x7B, 0x7C, 0x7D, 0x7E, 0x7F,
    0x80, 0x81, 0x82, 0x83, 0x84, 0x85, 0x86, 0x87, 0x88, 0x89, 0x8A, 0x8B, 0x8C, 0x8D, 0x8E, 0x8F,
    0x90, 0x91, 0x92, 0x93, 0x94, 0x95, 0x96, 0x97, 0x98, 0x99, 0x9A, 0x9B, 0x9C, 0x9D, 0x9E, 0x9F,
    0xA0, 0xA1, 0xA2, 0xA3, 0xA4, 0xA5, 0xA6, 0xA7, 0xA8, 0xA9, 0xAA, 0xAB, 0xAC, 0xAD, 0xAE, 0xAF,
    0xB0, 0xB1, 0xB2, 0xB3, 0xB4, 0xB5, 0xB6, 0xB7, 0xB8, 0xB9, 0xBA, 0xBB, 0xBC, 0xBD, 0xBE, 0xBF,
    0xC0, 0xC1, 0xC2, 0xC3, 0xC4, 0xC5, 0xC6, 0xC7, 0xC8, 0xC9, 0xCA, 0xCB, 0xCC, 0xCD, 0xCE, 0xCF,
    0xD0, 0xD1, 0xD2, 0xD3, 0xD4, 0xD5, 0xD6, 0xD7, 0xD8, 0xD9, 0xDA, 0xDB, 0xDC, 0xDD, 0xDE, 0xDF,
    0xE0, 0xE1, 0xE2, 0xE3, 0xE4, 0xE5, 0xE6, 0xE7, 0xE8, 0xE9, 0xEA, 0xEB, 0xEC, 0xED, 0xEE, 0xEF,
    0xF0, 0xF1, 0xF2, 0xF3, 0xF4, 0xF5, 0xF6, 0xF7, 0xF8, 0xF9, 0xFA, 0xFB, 0xFC, 0xFD, 0xFE, 0xFF]

/-- Models `mopaq/src/crypto/encryption.rs` 15 and `decryption.rs` 15: the seed after adding the
table entry for the key. -/
def seedAdd (key seed : U32) : U32 := seed + encT (0x400 + (key &&& 0xFF).toNat)

/-- Models `mopaq/src/crypto/encryption.rs` 24 and `decryption.rs` 22: the key for the next round. -/
def nextKey (key : U32) : U32 := ((~~~key <<< 0x15) + 0x11111111) ||| (key >>> 0x0B)

/-- Models `mopaq/src/crypto/encryption.rs` 27-30 and `decryption.rs` 25-28: the seed for the next
round, from the plain dword and the current seed. -/
def nextSeed (ch seed : U32) : U32 := ch + seed + (seed <<< 5) + 3

/-- Models `mopaq/src/crypto/encryption.rs` 13-31: the loop of `encrypt_block`. -/
def encryptLoop (key seed : U32) : List U32 → List U32
  | [] => []
  | ch :: rest =>
    let seed := seedAdd key seed
    (ch ^^^ (key + seed)) :: encryptLoop (nextKey key) (nextSeed ch seed) rest

/-- Models `mopaq/src/crypto/encryption.rs` 6-32 (`encrypt_block`). -/
def encryptBlock (data : List U32) (key : U32) : List U32 :=
  if key = 0 then data else encryptLoop key 0xEEEEEEEE data

/-- Models `mopaq/src/crypto/decryption.rs` 13-29: the loop of `decrypt_block`. -/
def decryptLoop (key seed : U32) : List U32 → List U32
  | [] => []
  | value :: rest =>
    let seed := seedAdd key seed
    let ch := value ^^^ (key + seed)
    ch :: decryptLoop (nextKey key) (nextSeed ch seed) rest

/-- Models `mopaq/src/crypto/decryption.rs` 6-30 (`decrypt_block`). -/
def decryptBlock (data : List U32) (key : U32) : List U32 :=
  if key = 0 then data else decryptLoop key 0xEEEEEEEE data

/-- Models `mopaq/src/crypto/decryption.rs` 33-42 (`decrypt_dword`). -/
def decryptDword (value key : U32) : U32 :=
  if key = 0 then value else value ^^^ (key + seedAdd key 0xEEEEEEEE)

/-- Models `mopaq/src/crypto/hash.rs` 13-21: separator and case normalisation of one byte. The
index is below 256, so the table access cannot fail. -/
def foldUpper (byte : Byte) : Byte :=
  let ch := if byte = 0x2F then 0x5C else byte
  asciiToUpper[ch.toNat]?.getD 0

/-- Models `mopaq/src/crypto/hash.rs` 41-49: the same with the lower-case table. -/
def foldLower (byte : Byte) : Byte :=
  let ch := if byte = 0x2F then 0x5C else byte
  asciiToLower[ch.toNat]?.getD 0

/-- Models `mopaq/src/crypto/hash.rs` 10-30: the loop of `hash_string` for a hash type whose table
indices are in range; see `hashStringChecked` for the bounds check. -/
def hashLoop (hashType : Nat) : U32 × U32 → List Byte → U32 × U32
  | s, [] => s
  | (seed1, seed2), byte :: rest =>
    let ch := foldUpper byte
    let seed1' := encT (hashType * 0x100 + ch.toNat) ^^^ (seed1 + seed2)
    let seed2' := ch.setWidth 32 + seed1' + seed2 + (seed2 <<< 5) + 3
    hashLoop hashType (seed1', seed2') rest

/-- Models `mopaq/src/crypto/hash.rs` 6-33 (`hash_string`) on the bytes of the name. -/
def hashString (name : List Byte) (hashType : Nat) : U32 :=
  (hashLoop hashType (0x7FED7FED, 0xEEEEEEEE) name).1

/-- Models `mopaq/src/crypto/hash.rs` 24: `(hash_type * 0x100 + ch as u32) as usize` in `u32`
arithmetic. With overflow checks (debug profile) an overflow panics, without them it wraps. -/
def hashIndex (overflowChecks : Bool) (hashType : U32) (ch : Byte) : Res Nat :=
  let exact := hashType.toNat * 0x100 + ch.toNat
  if exact < 2 ^ 32 then .ok exact
  else if overflowChecks then .error .panic
  else .ok (exact % 2 ^ 32)

/-- Models `mopaq/src/crypto/hash.rs` 10-30 with every check that can panic. -/
def hashLoopChecked (oc : Bool) (hashType : U32) : U32 × U32 → List Byte → Res (U32 × U32)
  | s, [] => .ok s
  | (seed1, seed2), byte :: rest =>
    let ch0 : Byte := if byte = 0x2F then 0x5C else byte
    match asciiToUpper[ch0.toNat]? with
    | none => .error .panic
    | some ch =>
      match hashIndex oc hashType ch with
      | .error e => .error e
      | .ok i =>
        match encTChecked i with
        | .error e => .error e
        | .ok t =>
          let seed1' := t ^^^ (seed1 + seed2)
          let seed2' := ch.setWidth 32 + seed1' + seed2 + (seed2 <<< 5) + 3
          hashLoopChecked oc hashType (seed1', seed2') rest

/-- Models `mopaq/src/crypto/hash.rs` 6-33 (`hash_string`) for any `u32` hash type, with panics. -/
def hashStringChecked (oc : Bool) (name : List Byte) (hashType : U32) : Res U32 :=
  (hashLoopChecked oc hashType (0x7FED7FED, 0xEEEEEEEE) name).map (·.1)

/-- Models `mopaq/src/crypto/encryption.rs` 13-31 with the bounds check of the table access. -/
def encryptLoopChecked (key seed : U32) : List U32 → Res (List U32)
  | [] => .ok []
  | ch :: rest =>
    match encTChecked (0x400 + (key &&& 0xFF).toNat) with
    | .error e => .error e
    | .ok t =>
      let seed := seed + t
      (encryptLoopChecked (nextKey key) (nextSeed ch seed) rest).map ((ch ^^^ (key + seed)) :: ·)

/-- Models `mopaq/src/crypto/encryption.rs` 6-32 with panics. -/
def encryptBlockChecked (data : List U32) (key : U32) : Res (List U32) :=
  if key = 0 then .ok data else encryptLoopChecked key 0xEEEEEEEE data

/-- Models `mopaq/src/crypto/decryption.rs` 13-29 with the bounds check of the table access. -/
def decryptLoopChecked (key seed : U32) : List U32 → Res (List U32)
  | [] => .ok []
  | value :: rest =>
    match encTChecked (0x400 + (key &&& 0xFF).toNat) with
    | .error e => .error e
    | .ok t =>
      let seed := seed + t
      let ch := value ^^^ (key + seed)
      (decryptLoopChecked (nextKey key) (nextSeed ch seed) rest).map (ch :: ·)

/-- Models `mopaq/src/crypto/decryption.rs` 6-30 with panics. -/
def decryptBlockChecked (data : List U32) (key : U32) : Res (List U32) :=
  if key = 0 then .ok data else decryptLoopChecked key 0xEEEEEEEE data

/-- Models `mopaq/src/crypto/hash.rs` 39-55: the loop of `jenkins_hash`. -/
def jenkinsLoop : U64 → List Byte → U64
  | h, [] => h
  | h, byte :: rest =>
    let ch := foldLower byte
    let h := h + ch.setWidth 64
    let h := h + (h <<< 10)
    let h := h ^^^ (h >>> 6)
    jenkinsLoop h rest

/-- Models `mopaq/src/crypto/hash.rs` 36-62 (`jenkins_hash`). -/
def jenkinsHash (name : List Byte) : U64 :=
  let h := jenkinsLoop 0 name
  let h := h + (h <<< 3)
  let h := h ^^^ (h >>> 11)
  h + (h <<< 15)

/-- `hash_type::TABLE_OFFSET` (`mopaq/src/crypto/types.rs`). -/
def htTableOffset : Nat := 0
/-- `hash_type::NAME_A` (`mopaq/src/crypto/types.rs`). -/
def htNameA : Nat := 1
/-- `hash_type::NAME_B` (`mopaq/src/crypto/types.rs`). -/
def htNameB : Nat := 2
/-- `hash_type::FILE_KEY` (`mopaq/src/crypto/types.rs`). -/
def htFileKey : Nat := 3

/-- Zero padding of a 1-3 byte tail to a dword, as `last_dword[..n].copy_from_slice(tail)`. -/
def padDword (tail : List Byte) : U32 := ofLe32 (tail ++ List.replicate (4 - tail.length) 0)

/-- Models `mopaq/src/builder.rs` 1338-1374 (`encrypt_data`): whole dwords through
`encrypt_block`, a tail of 1-3 bytes zero-padded and encrypted on its own with `key + dwords`. -/
def encryptData (data : List Byte) (key : U32) : List Byte :=
  if data = [] ∨ key = 0 then data
  else
    let n := data.length / 4
    let chunks := data.take (n * 4)
    let rem := data.drop (n * 4)
    let head := ofDwords (encryptBlock (toDwords chunks) key)
    if rem = [] then head
    else head ++ (ofDwords (encryptBlock [padDword rem] (key + BitVec.ofNat 32 n))).take rem.length

/-- Models `mopaq/src/archive.rs` 1764-1818 (`decrypt_file_data`). -/
def decryptFileData (data : List Byte) (key : U32) : List Byte :=
  if data = [] ∨ key = 0 then data
  else
    let chunks := data.length / 4
    let head :=
      if chunks > 0 then ofDwords (decryptBlock (toDwords (data.take (chunks * 4))) key) else []
    let rem := data.drop (chunks * 4)
    if data.length % 4 > 0 then
      head ++ (le32 (decryptDword (padDword rem) (key + BitVec.ofNat 32 chunks))).take rem.length
    else head

/-- Models `mopaq/src/tables/common.rs` 30-46 (`decrypt_table_data`): whole dwords are decrypted,
a tail of 1-3 bytes is left as it is. -/
def decryptTableData (data : List Byte) (key : U32) : List Byte :=
  ofDwords (decryptBlock (toDwords data) key) ++ data.drop (data.length / 4 * 4)

end Mopaq
