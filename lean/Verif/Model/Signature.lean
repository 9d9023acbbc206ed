import Verif.Model.Builder

/-!
# Digital signatures

Models `mopaq/src/crypto/signature.rs` and the signature checks of `mopaq/src/archive.rs`. MD5 and SHA-1 are parameters
(functions of all the bytes passed to `update`, in order). RSA (`BigUint::modpow`, `from_bytes_be`, `to_bytes_be`) is
modelled exactly, in natural numbers. The key is a parameter of the checks; the two keys of the code are given below.

What the operating system decides is a parameter as well: `Reads` says, for every call to `read`, how many bytes are
delivered at most, or that the call fails.
-/

namespace Mopaq

/-- The outcome of the k-th call to `Read::read`: at most so many bytes (and at least one, before the end of the file),
or a failure. -/
abbrev Reads := Nat → Option Nat

/-- One call to `Read::read` at position `pos` of the file, with room for `room` bytes. At the end of the file, or
without room, it returns no bytes. -/
def readSome (sched : Reads) (k : Nat) (f : List Byte) (pos room : Nat) : Res (List Byte) :=
  match sched k with
  | none => .error .io
  | some n => .ok (slice f pos (min room (max n 1)))

/-- An RSA public key. -/
structure PublicKey where
  n : Nat
  e : Nat

/-- Models `mopaq/src/crypto/signature.rs` 89-92: the weak public key. -/
def weakKey : PublicKey where
  n := 0x92627704BFB882CC0523B90CB1AC0459272175968D025EDA47DD7C49371BF8FAEB0E0A92167557AD51B78CCB68C5426290EE9FB14BC118E430349EA4ED6AD837
  e := 0x10001

/-- Models `mopaq/src/crypto/signature.rs` 96-99: the strong public key. -/
def strongKey : PublicKey where
  n := 0xB1067ECE24F687C87E27F88C42981DB47D47689CCE044DDA823538C8C3DCAE2C5A3CE668038B7C6F07DECBBA9CCDF5B2C28718A37A657B2B4517E22E0F81C3165F4E5CDD52172BA94A0331D441999606C50289A76EAF4C409C8CA90B4C8510231608384E7752ED835BF893120042A991736A636F27FC45411C3E53B0CB9508BE7BF6021E9DBAFAD5D23DD830C4772EFDD08CC81B454A58B87F28E4DC4C97E60ECFFB1D04E41A8B955BE594B1F7A4BAA350A3B343F4306784B8CB8E9B71785136019A98700D5AA374BD2CDDC62F5B569555C5217F5CEDF5AA6954D0959DA836C23F011540A4E2B782B360AAFC07E98A156155E3349128E6C409B0FB1D57F86477
  e := 0x10001

/-- Models `mopaq/src/crypto/signature.rs` 42-60 (`SignatureInfo`): the fields that are read. -/
structure SignatureInfo where
  beginMpqData : Nat
  beginExclude : Nat
  endExclude : Nat
  endMpqData : Nat

/-- A checked `u64` addition. -/
def addChecked (a b : Nat) : Res Nat := if a + b < 2 ^ 64 then .ok (a + b) else .error .panic

/-- Models `mopaq/src/crypto/signature.rs` 64-81 (`SignatureInfo::new_weak`). -/
def newWeak (archiveStart archiveSize sigPos sigSize : Nat) : Res SignatureInfo := do
  let endExclude ← addChecked sigPos sigSize
  let endMpqData ← addChecked archiveStart archiveSize
  return { beginMpqData := archiveStart, beginExclude := sigPos, endExclude, endMpqData }

/-- Models `mopaq/src/crypto/signature.rs` 125-144 (`parse_weak_signature`). -/
def parseWeakSignature (data : List Byte) : Res (List Byte) :=
  if data.length < 72 then .error .invalidFormat
  else if (slice data 8 64).all (· == 0#8) then .error .invalidFormat
  else .ok (slice data 8 64)

/-- Models `mopaq/src/crypto/signature.rs` 147-174 (`parse_strong_signature`); "NGIS". -/
def parseStrongSignature (data : List Byte) : Res (List Byte) :=
  if data.length < 260 then .error .invalidFormat
  else if slice data 0 4 ≠ [0x4E#8, 0x47#8, 0x49#8, 0x53#8] then .error .invalidFormat
  else if (slice data 4 256).all (· == 0#8) then .error .invalidFormat
  else .ok (slice data 4 256)

/-- Models `mopaq/src/crypto/signature.rs` 210-232: the chunk read at `pos` with its part of the excluded area zeroed.
The range of the buffer that is zeroed must not end before it starts. -/
def zeroExcluded (info : SignatureInfo) (pos : Nat) (chunk : List Byte) : Res (List Byte) :=
  let chunkEnd := pos + chunk.length
  if pos < info.endExclude ∧ info.beginExclude < chunkEnd then
    let start := if pos < info.beginExclude then info.beginExclude - pos else 0
    let stop := if info.endExclude < chunkEnd then info.endExclude - pos else chunk.length
    if start ≤ stop then
      .ok (chunk.take start ++ List.replicate (stop - start) 0#8 ++ chunk.drop stop)
    else .error .panic
  else .ok chunk

/-- Models `mopaq/src/crypto/signature.rs` 197-247: the loop of `calculate_mpq_hash_md5`. `k` counts the reads, `hashed`
is what the digest has been given so far. -/
def mpqHashLoop (sched : Reads) (f : List Byte) (info : SignatureInfo) :
    Nat → Nat → Nat → List Byte → Res (List Byte)
  | 0, _, _, _ => .error .diverge
  | fuel + 1, k, pos, hashed =>
    if pos < info.endMpqData then do
      let chunk ← readSome sched k f pos (min (info.endMpqData - pos) 0x10000)
      if chunk.length = 0 then return hashed
      let zeroed ← zeroExcluded info pos chunk
      mpqHashLoop sched f info fuel (k + 1) (pos + chunk.length) (hashed ++ zeroed)
    else return hashed

/-- Models `mopaq/src/crypto/signature.rs` 181-252 (`calculate_mpq_hash_md5`). -/
def calculateMpqHashMd5 (md5 : Md5) (sched : Reads) (f : List Byte) (info : SignatureInfo) : Res (List Byte) := do
  let hashed ← mpqHashLoop sched f info (info.endMpqData - info.beginMpqData + 1) 0 info.beginMpqData []
  return md5 hashed

/-- `BigUint::from_bytes_be`. -/
def beNat (bs : List Byte) : Nat := bs.foldl (fun acc b => acc * 256 + b.toNat) 0

/-- The big-endian digits of a number without leading zeros, `fuel` of them at most. -/
def beDigits : Nat → Nat → List Byte
  | 0, _ => []
  | fuel + 1, n => if n = 0 then [] else beDigits fuel (n / 256) ++ [BitVec.ofNat 8 (n % 256)]

/-- `BigUint::to_bytes_be`: no leading zeros, and one zero byte for zero. -/
def toBytesBe (n : Nat) : List Byte := if n = 0 then [0#8] else beDigits n n

/-- `BigUint::modpow`, by squaring; `fuel` bounds the bits of the exponent. -/
def modpowLoop (n : Nat) : Nat → Nat → Nat → Nat → Nat
  | 0, _, _, acc => acc
  | fuel + 1, b, e, acc =>
    if e = 0 then acc
    else modpowLoop n fuel (b * b % n) (e / 2) (if e % 2 = 1 then acc * b % n else acc)

/-- `base.modpow(e, n)`. -/
def modpow (b e n : Nat) : Nat := modpowLoop n e (b % n) e (1 % n)

/-- Models `mopaq/src/crypto/signature.rs` 268-276 (and 310-318, 353-361): the decrypted signature. `reverse_bytes` is
469-471. -/
def decryptSignature (key : PublicKey) (signature : List Byte) : List Byte :=
  toBytesBe (modpow (beNat signature.reverse) key.e key.n)

/-- Models `mopaq/src/crypto/signature.rs` 385-393: the first zero byte from index `i` on, preceded by 0xFF only. `.ok
none` is the `return Ok(false)`. -/
def findSeparator : Nat → List Byte → Res (Option Nat)
  | _, [] => .error .invalidFormat
  | i, b :: rest => if b = 0#8 then .ok (some i) else if b ≠ 0xFF#8 then .ok none else findSeparator (i + 1) rest

/-- Models `mopaq/src/crypto/signature.rs` 399-407 (`md5_digest_info`). -/
def md5DigestInfo : List Byte :=
  [0x30, 0x20, 0x30, 0x0C, 0x06, 0x08, 0x2A, 0x86, 0x48, 0x86, 0xF7, 0x0D, 0x02, 0x05, 0x05, 0x00, 0x04, 0x10]

/-- Models `mopaq/src/crypto/signature.rs` 369-421 (`verify_pkcs1_v15_md5`). -/
def verifyPkcs1Md5 (decrypted expected : List Byte) : Res Bool :=
  if decrypted.length < 11 + 16 + 18 then .ok false
  else if decrypted[0]? ≠ some 0x00#8 ∨ decrypted[1]? ≠ some 0x01#8 then .ok false
  else do
    match ← findSeparator 2 (decrypted.drop 2) with
    | none => return false
    | some separator =>
      let digestStart := separator + 1
      if digestStart + 18 + 16 ≠ decrypted.length then return false
      if slice decrypted digestStart 18 ≠ md5DigestInfo then return false
      return decrypted.drop (digestStart + 18) = expected

/-- Models `mopaq/src/crypto/signature.rs` 424-466 (`verify_mpq_strong_signature_padding`). -/
def verifyStrongPadding (decrypted expected : List Byte) : Res Bool :=
  if decrypted.length ≠ 256 then .ok false
  else if decrypted[0]? ≠ some 0x0B#8 then .ok false
  else if ((decrypted.take 236).drop 1).any (· != 0xBB#8) then .ok false
  else if slice decrypted 236 20 ≠ expected then .ok false
  else .ok true

/-- Models `mopaq/src/crypto/signature.rs` 255-280 (`verify_weak_signature_stormlib`). The constant keys always load. -/
def verifyWeakStormlib (md5 : Md5) (key : PublicKey) (sched : Reads) (f signature : List Byte) (info : SignatureInfo) :
    Res Bool := do
  let hash ← calculateMpqHashMd5 md5 sched f info
  verifyPkcs1Md5 (decryptSignature key signature) hash

/-- Models `mopaq/src/crypto/signature.rs` 292-305 and 335-348: what is read from the reader, which is at `pos`, until
`size` bytes have been read. -/
def rangeLoop (sched : Reads) (f : List Byte) (size : Nat) : Nat → Nat → Nat → Nat → List Byte → Res (List Byte)
  | 0, _, _, _, _ => .error .diverge
  | fuel + 1, k, pos, done, hashed =>
    if done < size then do
      let chunk ← readSome sched k f pos (min (size - done) 65536)
      if chunk.length = 0 then return hashed
      rangeLoop sched f size fuel (k + 1) (pos + chunk.length) (done + chunk.length) (hashed ++ chunk)
    else return hashed

/-- Models `mopaq/src/crypto/signature.rs` 283-323 (`verify_weak_signature`, the legacy function). -/
def verifyWeakLegacy (md5 : Md5) (key : PublicKey) (sched : Reads) (f : List Byte) (pos : Nat) (signature : List Byte)
    (size : Nat) : Res Bool := do
  let hashed ← rangeLoop sched f size (size + 1) 0 pos 0 []
  verifyPkcs1Md5 (decryptSignature key signature) (md5 hashed)

/-- SHA-1, a parameter. -/
abbrev Sha1 := List Byte → List Byte

/-- Models `mopaq/src/crypto/signature.rs` 326-366 (`verify_strong_signature`). -/
def verifyStrong (sha1 : Sha1) (key : PublicKey) (sched : Reads) (f : List Byte) (pos : Nat) (signature : List Byte)
    (size : Nat) : Res Bool := do
  let hashed ← rangeLoop sched f size (size + 1) 0 pos 0 []
  verifyStrongPadding (decryptSignature key signature) (sha1 hashed)

/-- Models `mopaq/src/archive.rs` 102-115 (`SignatureStatus`). -/
inductive SignatureStatus where
  | none | weakValid | weakInvalid | strongValid | strongInvalid | strongNoKey
  deriving DecidableEq, Repr

/-- The name `(signature)`. -/
def signatureName : List Byte := [0x28, 0x73, 0x69, 0x67, 0x6E, 0x61, 0x74, 0x75, 0x72, 0x65, 0x29]

/-- What the signature checks depend on besides the archive: the digests, the public keys and the reads. -/
structure SigEnv where
  md5 : Md5
  sha1 : Sha1
  weakKey : PublicKey
  strongKey : PublicKey
  reads : Reads

/-- Models `mopaq/src/archive.rs` 1646-1692 (`verify_weak_signature`). -/
def Archive.verifyWeakSignature (e : Env) (s : SigEnv) (a : Archive) : Res SignatureStatus := do
  match ← a.findFile signatureName with
  | none => return .none
  | some info => do
    let data ← a.readFile e signatureName
    match ← tolerate (parseWeakSignature data) with
    | none => return .none
    | some weakSig => do
      let sigInfo ← newWeak a.archiveOffset a.header.archiveSize.toNat info.filePos info.compressedSize
      match ← tolerate (verifyWeakStormlib s.md5 s.weakKey s.reads a.file weakSig sigInfo) with
      | some true => return .weakValid
      | _ => return .weakInvalid

/-- Models `mopaq/src/archive.rs` 1695-1760 (`verify_strong_signature`). -/
def Archive.verifyStrongSignature (s : SigEnv) (a : Archive) : Res SignatureStatus := do
  let archiveEnd ← addChecked a.archiveOffset a.header.getArchiveSize.toNat
  let needed ← addChecked archiveEnd 260
  if a.file.length < needed then return .none
  match ← tolerate (readAt a.file archiveEnd 260) with
  | none => return .none
  | some data =>
    match ← tolerate (parseStrongSignature data) with
    | none => return .none
    | some strongSig =>
      match ← tolerate (verifyStrong s.sha1 s.strongKey s.reads a.file a.archiveOffset strongSig
          (archiveEnd - a.archiveOffset)) with
      | some true => return .strongValid
      | _ => return .strongInvalid

/-- Models `mopaq/src/archive.rs` 1633-1643 (`verify_signature`). -/
def Archive.verifySignature (e : Env) (s : SigEnv) (a : Archive) : Res SignatureStatus := do
  match ← tolerate (a.verifyStrongSignature s) with
  | some status => if status ≠ .none then return status else a.verifyWeakSignature e s
  | none => a.verifyWeakSignature e s

end Mopaq
