import Verif.Lemmas.Crypto
import Verif.Lemmas.CryptoEval

/-! # Properties C01-C05: cipher and hashes -/

namespace Mopaq

/-! ## C01 block cipher round trip -/

/-- C01: for every key and every list of dwords, decryption undoes encryption, encryption undoes decryption,
and both keep the number of dwords. -/
theorem C01_block_round_trip (key : U32) (data : List U32) :
    decryptBlock (encryptBlock data key) key = data ∧
    encryptBlock (decryptBlock data key) key = data ∧
    (encryptBlock data key).length = data.length ∧
    (decryptBlock data key).length = data.length :=
  ⟨decryptBlock_encryptBlock .., encryptBlock_decryptBlock .., encryptBlock_length .., decryptBlock_length ..⟩

/-- The cipher really changes data: the round trip is not that of the identity. -/
example : encryptBlock [0] 1 = [BitVec.ofNat 32 ((1 + (0xEEEEEEEE + entryLit 0x401)) % 2 ^ 32)]
    ∧ (1 + (0xEEEEEEEE + entryLit 0x401)) % 2 ^ 32 ≠ 0 := by
  constructor
  · rw [encryptBlock_single, if_neg (by decide)]
    simp only [seedAdd]
    rw [encT_lit _ (by decide)]
    apply congrArg (fun x => [x])
    apply BitVec.eq_of_toNat_eq
    decide +kernel
  · decide +kernel

/-! ## C02 byte cipher round trip -/

/-- C02: what the builder's byte encryption produces, the reader's byte decryption restores, for every key
and every length (also lengths that are not a multiple of four), and neither changes the length. -/
theorem C02_byte_round_trip (key : U32) (data : List Byte) :
    decryptFileData (encryptData data key) key = data ∧
    encryptData (decryptFileData data key) key = data ∧
    (encryptData data key).length = data.length ∧
    (decryptFileData data key).length = data.length :=
  ⟨decryptFileData_encryptData .., encryptData_decryptFileData .., encryptData_length ..,
    decryptFileData_length ..⟩

/-! ## C03 conformance to the published algorithms -/

/-- C03 (table): the encryption table has 0x500 entries and each is the published one. -/
theorem C03_table (i : Nat) (h : i < 0x500) :
    encTable.length = 0x500 ∧ encTable[i]?.map BitVec.toNat = some (Spec.cryptTable i) := by
  refine ⟨encTable_length, ?_⟩
  rw [encTable_getElem? i h]
  simp [Nat.mod_eq_of_lt (cryptTable_lt i)]

/-- C03 (cipher): for every non-zero key, `encryptBlock` is the published encryption and `decryptBlock` the
published decryption. -/
theorem C03_cipher (key : U32) (hk : key ≠ 0) (data : List U32) :
    Spec.Encrypts (Spec.Stream.start key.toNat) (data.map BitVec.toNat)
      ((encryptBlock data key).map BitVec.toNat) ∧
    Spec.Encrypts (Spec.Stream.start key.toNat) ((decryptBlock data key).map BitVec.toNat)
      (data.map BitVec.toNat) := by
  unfold encryptBlock decryptBlock
  rw [if_neg hk, if_neg hk]
  exact ⟨encryptLoop_spec data key 0xEEEEEEEE, decryptLoop_spec data key 0xEEEEEEEE⟩

/-- C03 (cipher, converse): the published relation has no other solution, so `encryptBlock` is *the* published
encryption and not merely one of several. -/
theorem C03_cipher_unique (key : U32) (hk : key ≠ 0) (data : List U32) (cipher : List Nat)
    (h : Spec.Encrypts (Spec.Stream.start key.toNat) (data.map BitVec.toNat) cipher) :
    cipher = (encryptBlock data key).map BitVec.toNat :=
  encrypts_unique h (C03_cipher key hk data).1

/-- C03 (cipher, excluded key): with key 0 the code leaves data alone, while the published cipher does not.
This is a deviation of the code, reached when a name's key (plus a sector number) is 0. -/
theorem C03_cipher_key_zero_deviates :
    encryptBlock [0] 0 = [0] ∧ ¬ Spec.Encrypts (Spec.Stream.start 0) [0] [0] := by
  refine ⟨rfl, ?_⟩
  intro h
  have h1 : (0 : Nat) = 0 ^^^ (Spec.Stream.start 0).mask := encrypts_head h
  rw [Nat.zero_xor] at h1
  unfold Spec.Stream.mask Spec.Stream.mixed Spec.Stream.start at h1
  simp only [] at h1
  rw [← entryLit_eq _ (by decide)] at h1
  revert h1
  decide +kernel

/-- C03 (files and tables): the whole dwords at the front of an encrypted byte buffer are the published encryption of
the plain ones. -/
theorem C03_byte_cipher (key : U32) (hk : key ≠ 0) (data : List Byte) :
    Spec.Encrypts (Spec.Stream.start key.toNat) ((toDwords data).map BitVec.toNat)
      ((toDwords (encryptData data key)).map BitVec.toNat) := by
  have h : toDwords (encryptData data key) = encryptBlock (toDwords data) key := by
    have hsplit : toDwords (data.take (data.length / 4 * 4)) = toDwords data := by
      have h1 := ofDwords_toDwords data
      rw [← h1, toDwords_ofDwords]
    rw [encryptData_eq _ _ hk, hsplit, toDwords_ofDwords_append]
    simp; omega
  rw [h]
  exact (C03_cipher key hk _).1

/-- C03 (name hash): for the five hash types the hash is the published one. -/
theorem C03_name_hash (name : List Byte) (hashType : Nat) (h : hashType < 5) :
    (hashString name hashType).toNat = Spec.nameHash hashType (name.map BitVec.toNat) :=
  hashString_spec hashType h name

/-- C03 (Jenkins): the HET hash is the 64-bit one-at-a-time hash of the normalised name. -/
theorem C03_jenkins (name : List Byte) :
    (jenkinsHash name).toNat = Spec.jenkins (name.map BitVec.toNat) :=
  jenkinsHash_spec name

/-- Known answers of the MPQ documentation (tests, also used by the repository's own unit tests). -/
example : hashString (ascii "(hash table)") 3 = 0xC3AF3770 := by
  rw [hashString_lit _ (by decide)]; decide +kernel
example : hashString (ascii "(block table)") 3 = 0xEC83B3A3 := by
  rw [hashString_lit _ (by decide)]; decide +kernel
example : hashString (ascii "(listfile)") 0 = 0x5F3DE859 := by
  rw [hashString_lit _ (by decide)]; decide +kernel
example : hashString (ascii "path\\to\\file") 0 = 0x534CC8EE := by
  rw [hashString_lit _ (by decide)]; decide +kernel

/-! ## C04 case and separator insensitivity -/

/-- C04: names equal up to ASCII case and separator have equal hashes of every type and equal Jenkins
hashes. -/
theorem C04_case_and_separator (a b : List Byte)
    (h : Spec.sameName (a.map BitVec.toNat) (b.map BitVec.toNat)) :
    (∀ hashType, hashType < 5 → hashString a hashType = hashString b hashType) ∧
    jenkinsHash a = jenkinsHash b := by
  constructor
  · intro t ht
    apply BitVec.eq_of_toNat_eq
    rw [hashString_spec t ht, hashString_spec t ht]
    unfold Spec.nameHash
    rw [nameHash_sameName t _ _ _ h]
  · apply BitVec.eq_of_toNat_eq
    rw [jenkinsHash_spec, jenkinsHash_spec]
    unfold Spec.jenkins
    rw [jenkins_sameName _ _ _ h]

example : Spec.sameName ((ascii "Path/To\\File.TXT").map BitVec.toNat)
    ((ascii "pATH\\tO/fILE.txt").map BitVec.toNat) := by
  simp [ascii, Spec.sameName, Spec.sameChar]

/-! ## C05 bounds -/

/-- C05 (cipher): encryption and decryption never index outside the table, for every key and buffer. -/
theorem C05_cipher_in_bounds (key : U32) (data : List U32) :
    encryptBlockChecked data key = .ok (encryptBlock data key) ∧
    decryptBlockChecked data key = .ok (decryptBlock data key) := by
  unfold encryptBlockChecked encryptBlock decryptBlockChecked decryptBlock
  split
  · exact ⟨rfl, rfl⟩
  · exact ⟨encryptLoopChecked_ok .., decryptLoopChecked_ok ..⟩

/-- C05 (hash types 0 to 4): no panic, in either build profile, for every name. -/
theorem C05_hash_in_bounds (overflowChecks : Bool) (name : List Byte) (hashType : U32)
    (h : hashType.toNat < 5) :
    hashStringChecked overflowChecks name hashType = .ok (hashString name hashType.toNat) := by
  unfold hashStringChecked hashString
  rw [hashLoopChecked_ok _ _ h]; rfl

/-- C05 (other hash types): on every non-empty name the hash panics, except that without overflow checks the
product wraps, so that types congruent to 0..4 modulo 2^24 do not. -/
theorem C05_hash_panics (overflowChecks : Bool) (b : Byte) (rest : List Byte) (hashType : U32)
    (h : if overflowChecks then 5 ≤ hashType.toNat else 5 ≤ hashType.toNat % 2 ^ 24) :
    hashStringChecked overflowChecks (b :: rest) hashType = .error .panic := by
  unfold hashStringChecked
  rw [hashLoopChecked_panic]
  · rfl
  · have hb := (foldUpper b).isLt
    unfold hashIndex
    simp only []
    split
    · right
      refine ⟨_, rfl, ?_⟩
      cases overflowChecks <;> simp at h <;> omega
    · cases overflowChecks
      · right
        refine ⟨_, rfl, ?_⟩
        simp at h; omega
      · left; rfl

example : hashStringChecked true (ascii "a") 5 = .error .panic :=
  C05_hash_panics true _ _ _ (by decide)
example : hashStringChecked false (ascii "a") 0xFFFFFFFF = .error .panic :=
  C05_hash_panics false _ _ _ (by decide)

end Mopaq
