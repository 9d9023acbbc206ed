import Verif.Lemmas.Tables
import Verif.Lemmas.HashTableInv
import Verif.Props.Crypto

/-! # Properties C10-C11: tables on disk and file positions -/

namespace Mopaq

/-! ## C10 -/

/-- C10 (hash table): written anywhere in a file, a table of any power-of-two size with any entries is read back
unchanged. -/
theorem C10_hash_table_round_trip (before after : List Byte) (t : HashTable) (k : Nat) (hk : k < 32)
    (hn : t.length = 2 ^ k) :
    readHashTable (before ++ hashTableBytes t ++ after) before.length (BitVec.ofNat 32 t.length) = .ok t := by
  refine readHashTable_written before after t ?_ ?_
  · rw [hn]; exact Nat.pow_lt_pow_right (by decide) hk
  · rw [hn]; exact isPowerOfTwo_of_two_pow k hk

/-- C10 (block table): likewise, for any number of entries. -/
theorem C10_block_table_round_trip (before after : List Byte) (t : List BlockEntry) (hn : t.length < 2 ^ 32) :
    readBlockTable (before ++ blockTableBytes t ++ after) before.length (BitVec.ofNat 32 t.length) = .ok t :=
  readBlockTable_written before after t hn

/-- C10 (hi-block table): likewise. -/
theorem C10_hi_block_table_round_trip (before after : List Byte) (t : List U16) :
    readHiBlockTable (before ++ hiBlockTableBytes t ++ after) before.length t.length = .ok t :=
  readHiBlockTable_written t before after

/-- C10 (format): the bytes written are the published form. Each hash entry is four dwords (the two name hashes,
locale and platform in one dword, the block index), and the table is their encryption with the published key, which
is the file-key hash of "(hash table)". -/
theorem C10_hash_table_format (t : HashTable) :
    ∃ cipher : List U32, hashTableBytes t = ofDwords cipher ∧
      Spec.Encrypts (Spec.Stream.start (Spec.nameHash 3 ("(hash table)".toList.map Char.toNat)))
        (t.flatMap fun e => [e.name1.toNat, e.name2.toNat, e.locale.toNat + 65536 * e.platform.toNat,
          e.blockIndex.toNat]) (cipher.map BitVec.toNat) := by
  have hplain : toDwords (t.flatMap HashEntry.toBytes) = t.flatMap fun e =>
      [e.name1, e.name2, BitVec.ofNat 32 (e.locale.toNat + 65536 * e.platform.toNat), e.blockIndex] := by
    induction t with
    | nil => rfl
    | cons e t ih =>
      simp only [List.flatMap_cons, HashEntry.toBytes, List.append_assoc]
      rw [toDwords_le32_append, toDwords_le32_append, ← List.append_assoc (le16 e.locale), le16_le16,
        toDwords_le32_append, toDwords_le32_append, ih]
      rfl
  have hkey : hashTableKey ≠ 0 := by rw [hashTableKey_eq]; decide
  have h16 := flatMap_length_16 _ HashEntry.toBytes_length t
  refine ⟨encryptBlock (toDwords (t.flatMap HashEntry.toBytes)) hashTableKey, ?_, ?_⟩
  · unfold hashTableBytes
    rw [encryptData_eq _ _ hkey]
    have h0 : (t.flatMap HashEntry.toBytes).length % 4 = 0 := by omega
    have h1 : (t.flatMap HashEntry.toBytes).length / 4 * 4 = (t.flatMap HashEntry.toBytes).length := by omega
    rw [h0, List.take_zero, List.append_nil, h1, List.take_length]
  · have := (C03_cipher hashTableKey hkey (toDwords (t.flatMap HashEntry.toBytes))).1
    have hk : hashTableKey.toNat = Spec.nameHash 3 ("(hash table)".toList.map Char.toNat) := by
      unfold hashTableKey htFileKey
      rw [C03_name_hash _ _ (by decide)]
      rfl
    rw [← hk]
    have he : (t.flatMap fun e => [e.name1.toNat, e.name2.toNat, e.locale.toNat + 65536 * e.platform.toNat,
        e.blockIndex.toNat]) = (toDwords (t.flatMap HashEntry.toBytes)).map BitVec.toNat := by
      rw [hplain, List.map_flatMap]
      congr 1
      funext e
      have := e.locale.isLt
      have := e.platform.isLt
      simp only [List.map_cons, List.map_nil, BitVec.toNat_ofNat]
      rw [Nat.mod_eq_of_lt (a := e.locale.toNat + _) (by omega)]
    rw [he]
    exact this

/-- C10 (format): likewise for the block table: position, stored size, size, flags, key "(block table)". -/
theorem C10_block_table_format (t : List BlockEntry) :
    ∃ cipher : List U32, blockTableBytes t = ofDwords cipher ∧
      Spec.Encrypts (Spec.Stream.start (Spec.nameHash 3 ("(block table)".toList.map Char.toNat)))
        (t.flatMap fun e => [e.filePos.toNat, e.compressedSize.toNat, e.fileSize.toNat, e.flags.toNat])
        (cipher.map BitVec.toNat) := by
  have hplain : toDwords (t.flatMap BlockEntry.toBytes) = t.flatMap fun e =>
      [e.filePos, e.compressedSize, e.fileSize, e.flags] := by
    induction t with
    | nil => rfl
    | cons e t ih =>
      simp only [List.flatMap_cons, BlockEntry.toBytes, List.append_assoc]
      rw [toDwords_le32_append, toDwords_le32_append, toDwords_le32_append, toDwords_le32_append, ih]
      rfl
  have hkey : blockTableKey ≠ 0 := by rw [blockTableKey_eq]; decide
  have h16 := flatMap_length_16 _ BlockEntry.toBytes_length t
  refine ⟨encryptBlock (toDwords (t.flatMap BlockEntry.toBytes)) blockTableKey, ?_, ?_⟩
  · unfold blockTableBytes
    rw [encryptData_eq _ _ hkey]
    have h0 : (t.flatMap BlockEntry.toBytes).length % 4 = 0 := by omega
    have h1 : (t.flatMap BlockEntry.toBytes).length / 4 * 4 = (t.flatMap BlockEntry.toBytes).length := by omega
    rw [h0, List.take_zero, List.append_nil, h1, List.take_length]
  · have := (C03_cipher blockTableKey hkey (toDwords (t.flatMap BlockEntry.toBytes))).1
    have hk : blockTableKey.toNat = Spec.nameHash 3 ("(block table)".toList.map Char.toNat) := by
      unfold blockTableKey htFileKey
      rw [C03_name_hash _ _ (by decide)]
      rfl
    rw [← hk]
    have he : (t.flatMap fun e => [e.filePos.toNat, e.compressedSize.toNat, e.fileSize.toNat, e.flags.toNat])
        = (toDwords (t.flatMap BlockEntry.toBytes)).map BitVec.toNat := by
      rw [hplain, List.map_flatMap]; rfl
    rw [he]
    exact this

/-- C10 (safety of what is read): a hash table that reads without error, from any bytes whatsoever, has exactly the
requested number of slots and that number is a power of two, so that lookups in it terminate
(`C07_lookup_returns`). -/
theorem C10_read_hash_table_size (f : List Byte) (offset : Nat) (size : U32) (t : HashTable)
    (h : readHashTable f offset size = .ok t) : t.length = size.toNat ∧ ∃ k, k < 32 ∧ size.toNat = 2 ^ k := by
  unfold readHashTable at h
  split at h
  · cases h
  · rename_i hp
    split at h
    · cases h
    · refine ⟨parseEntries_length h, ?_⟩
      simp only [Bool.not_eq_true, Bool.not_eq_false'] at hp
      have := isPowerOfTwo_two_pow size.toNat size.isLt
      rw [BitVec.ofNat_toNat, BitVec.setWidth_eq] at this
      obtain ⟨k, hk⟩ := this hp
      have hlt := size.isLt
      rw [hk] at hlt
      exact ⟨k, (Nat.pow_lt_pow_iff_right (by decide)).1 hlt, hk⟩

/-- The hypotheses of the round trips are met, e.g. by a four-slot table with two files. -/
example : ([⟨1, 2, 0, 0, 0⟩, .empty, ⟨3, 4, 0x409, 0, 1⟩, .empty] : HashTable).length = 2 ^ 2 := rfl

/-! ## C11 -/

/-- C11 (V2 and later, with the hi-block table): whatever 48-bit position a file is written at, splitting it into
the low 32 bits of its block entry and its hi-block entry and joining them on reading gives the position back. -/
theorem C11_positions_48_bit (hi : List U16) (i : Nat) (pos : Nat) (e : BlockEntry) (hpos : pos < 2 ^ 48)
    (hlow : e.filePos = BitVec.ofNat 32 pos) (hhi : hi[i]? = some (BitVec.ofNat 16 (pos / 2 ^ 32))) :
    (fullFilePos (some hi) i e).toNat = pos := by
  simp only [fullFilePos, getFilePosHigh, hhi, hlow]
  rw [BitVec.toNat_or, BitVec.toNat_shiftLeft, BitVec.toNat_setWidth, BitVec.toNat_setWidth, BitVec.toNat_ofNat,
    BitVec.toNat_ofNat]
  have h1 : pos / 2 ^ 32 % 2 ^ 16 % 2 ^ 64 = pos / 2 ^ 32 := by omega
  have h2 : pos % 2 ^ 32 % 2 ^ 64 = pos % 2 ^ 32 := by omega
  rw [h1, h2, Nat.shiftLeft_eq, Nat.mod_eq_of_lt (by omega), Nat.mul_comm,
    ← Nat.two_pow_add_eq_or_of_lt (by omega)]
  omega

/-- C11 (no hi-block table): positions below 4 GiB are given back. -/
theorem C11_positions_32_bit (hi : Option (List U16)) (i : Nat) (pos : Nat) (e : BlockEntry) (hpos : pos < 2 ^ 32)
    (hlow : e.filePos = BitVec.ofNat 32 pos) (hhi : ∀ t, hi = some t → ∀ v, t[i]? = some v → v = 0) :
    (fullFilePos hi i e).toNat = pos := by
  cases hi with
  | none =>
    simp only [fullFilePos, hlow, BitVec.toNat_setWidth, BitVec.toNat_ofNat]
    omega
  | some t =>
    have : getFilePosHigh t i = 0 := by
      unfold getFilePosHigh
      cases h : t[i]? with
      | none => rfl
      | some v => rw [hhi t rfl v h]; rfl
    simp only [fullFilePos, this, hlow]
    rw [BitVec.toNat_or, BitVec.toNat_shiftLeft, BitVec.toNat_setWidth, BitVec.toNat_ofNat]
    simp
    omega

/-- C11 (the limit): without a hi-block table two positions 4 GiB apart are indistinguishable, so a V1 archive
cannot represent positions beyond 4 GiB. -/
theorem C11_no_hi_table_truncates (i : Nat) (pos : Nat) (e : BlockEntry) (hlow : e.filePos = BitVec.ofNat 32 pos) :
    (fullFilePos none i e).toNat = pos % 2 ^ 32 := by
  simp only [fullFilePos, hlow, BitVec.toNat_setWidth, BitVec.toNat_ofNat]
  omega

/-- A position above 4 GiB meets the hypotheses of `C11_positions_48_bit`. -/
example : (fullFilePos (some [0, 3]) 1 ⟨5, 0, 0, 0⟩).toNat = 3 * 2 ^ 32 + 5 :=
  C11_positions_48_bit [0, 3] 1 _ _ (by decide) (by decide) (by decide)

end Mopaq
