import Verif.Lemmas.HetBet
import Verif.Lemmas.CryptoEval
import Verif.Props.Compression

/-!
# C30-C33: bit-packed entries, HET and BET tables
-/

namespace Mopaq
open Spec (bitAt field)

/-- C30: exactly what writing a bit-packed entry does. It is refused exactly when the entry does not lie inside the
array; otherwise the array keeps its length, the bits of the entry up to 64 bits after the start of its first byte
become those of the value, and every other bit is unchanged. -/
theorem C30_write_exact (data : List Byte) (index : Nat) (value : U64) (w : Nat) :
    (writeBitEntry data index value w = .error .invalidFormat ∧
      data.length < index * w / 8 + (index * w % 8 + w + 7) / 8) ∨
    ∃ out, writeBitEntry data index value w = .ok out ∧ out.length = data.length ∧
      index * w + w ≤ 8 * data.length ∧
      ∀ j, bitAt out j =
        if index * w ≤ j ∧ j < index * w + w ∧ j < index * w / 8 * 8 + 64 then value.getLsbD (j - index * w)
        else bitAt data j := by
  by_cases h : data.length < index * w / 8 + (index * w % 8 + w + 7) / 8
  · left
    refine ⟨?_, h⟩
    unfold writeBitEntry
    dsimp only
    rw [if_pos h]
  · right
    obtain ⟨out, ho⟩ := (writeBitEntry_ok_iff data index value w).2 (by omega)
    exact ⟨out, ho, writeBitEntry_length _ _ _ _ _ ho, by omega, writeBitEntry_bits _ _ _ _ _ ho⟩

example : ∃ out, writeBitEntry [0xFF#8, 0xFF#8, 0xFF#8] 2 0x15#64 5 = .ok out ∧ out ≠ [0xFF#8, 0xFF#8, 0xFF#8] :=
  ⟨_, rfl, by decide⟩
example : writeBitEntry [0xFF#8, 0xFF#8, 0xFF#8] 5 0x15#64 5 = .error .invalidFormat := by decide

/-- C30 (partial): an entry that, counted from the start of its first byte, takes at most 64 bits reads back as
written, modulo its width. Missing: wider entries, which lose their upper bits (`C30_wide_entry_loses_bits`). Every
entry of at most 57 bits is covered. -/
theorem C30_round_trip_partial (data : List Byte) (index : Nat) (value : U64) (w : Nat) (out : List Byte)
    (h : writeBitEntry data index value w = .ok out) (hw : index * w % 8 + w ≤ 64) :
    field out (index * w) w = value.toNat % 2 ^ w := by
  apply Nat.eq_of_testBit_eq
  intro j
  rw [field_testBit, Nat.testBit_mod_two_pow, writeBitEntry_bits _ _ _ _ _ h, BitVec.testBit_toNat]
  by_cases hj : j < w
  · rw [if_pos (by omega)]
    simp [hj]
  · simp [hj]

example : ∃ out, writeBitEntry [0xFF#8, 0xFF#8, 0xFF#8] 2 0x15#64 5 = .ok out ∧ (2 * 5) % 8 + 5 ≤ 64 ∧
    field out (2 * 5) 5 = 0x15 := ⟨_, rfl, by decide, by decide⟩

/-- C30: writing one entry leaves every other entry of the same width as it was, whatever the width. -/
theorem C30_other_entries_unchanged (data : List Byte) (index other : Nat) (value : U64) (w : Nat) (out : List Byte)
    (h : writeBitEntry data index value w = .ok out) (hne : other ≠ index) :
    field out (other * w) w = field data (other * w) w := by
  apply Nat.eq_of_testBit_eq
  intro j
  rw [field_testBit, field_testBit, writeBitEntry_bits _ _ _ _ _ h]
  by_cases hj : j < w
  · rw [if_neg]
    intro hc
    obtain ⟨h1, h2, _⟩ := hc
    rcases Nat.lt_or_gt_of_ne hne with hlt | hgt
    · have := Nat.mul_le_mul_right w (show other + 1 ≤ index by omega)
      rw [Nat.add_mul] at this
      omega
    · have := Nat.mul_le_mul_right w (show index + 1 ≤ other by omega)
      rw [Nat.add_mul] at this
      omega
  · simp [hj]

example : ∃ out, writeBitEntry [0xFF#8, 0xFF#8, 0xFF#8] 2 0x15#64 5 = .ok out ∧
    field out (3 * 5) 5 = 31 ∧ field out (1 * 5) 5 = 31 := ⟨_, rfl, by decide, by decide⟩

/-- C30 does not hold for wide entries: when an entry of at most 64 bits ends more than 64 bits after the start of its
first byte, its last bit is never stored, so a value with that bit set does not read back from a cleared array. -/
theorem C30_wide_entry_loses_bits (data : List Byte) (index : Nat) (value : U64) (w : Nat) (out : List Byte)
    (h : writeBitEntry data index value w = .ok out) (hw : 64 < index * w % 8 + w)
    (hclear : bitAt data (index * w + w - 1) = false) (hset : value.getLsbD (w - 1) = true) :
    field out (index * w) w ≠ value.toNat % 2 ^ w := by
  intro he
  have h0 : 0 < w := by omega
  have hb := congrArg (fun n => n.testBit (w - 1)) he
  rw [field_testBit, Nat.testBit_mod_two_pow, writeBitEntry_bits _ _ _ _ _ h, BitVec.testBit_toNat] at hb
  rw [if_neg (by omega), show index * w + (w - 1) = index * w + w - 1 from by omega, hclear, hset] at hb
  have : w - 1 < w := by omega
  simp [this] at hb

example : ∃ out, writeBitEntry (List.replicate 16 0#8) 1 (1#64 <<< 60) 61 = .ok out ∧ field out 61 61 = 0 :=
  ⟨_, rfl, by decide +kernel⟩

/-! ## C31 -/

theorem entry_shift_zero (v : U64) (n : Nat) : (v &&& lowMask n) >>> n = 0#64 := by
  apply BitVec.eq_of_getLsbD_eq
  intro i hi
  rw [BitVec.getLsbD_ushiftRight, BitVec.getLsbD_and, lowMask_getLsbD]
  have : ¬ n + i < n := by omega
  simp [this]

/-- C31 does not hold: looking up a name through HET never gives any index but 0, for any table and name. -/
theorem C31_lookup_only_index_zero (t : HetTable) (name : List Byte) (i : U32)
    (h : t.findFile name = .ok (some i)) : i = 0#32 := by
  unfold HetTable.findFile at h
  obtain ⟨bits, _, h⟩ := bind_eq_ok.1 h
  dsimp only at h
  split at h
  · cases h
  simp only [pure, Except.pure, bind, Except.bind] at h
  split at h
  · cases h
  split at h
  · cases h
  rename_i entry he
  unfold HetTable.readHashEntry at he
  dsimp only at he
  split at he
  · cases he
  injection he with he
  split at h
  · cases h
  unfold shr64 at h
  by_cases hs : t.header.hashEntrySize.toNat < 64
  · rw [if_pos hs] at h
    dsimp only at h
    split at h
    · cases h
    rw [← he, entry_shift_zero] at h
    simp at h
    exact h.symm
  · rw [if_neg hs] at h
    cases h

/-! ## C33 -/

/-- C33 (partial): a HET table for at least two files that is written without table compression is read back with the
same header and the same hash area, as far as the header announces it, wherever it is stored. Missing: compressed
tables (`C33_compressed_tables_do_not_load`) and the file indices (`C33_het_indices_wrong`). -/
theorem C33_het_uncompressed_partial (e : Codecs) (o : TableOptions) (ho : o.compressTables = false) (pre post : List Byte)
    (names : List (List Byte)) (hn : 2 ≤ names.length) (h31 : names.length < 2 ^ 32) (c : HetContent)
    (hc : hetContent names = .ok c) (data written : List Byte)
    (hd : createHetTable names = .ok data) (hw : writeExtTable e o data hashTableKey = .ok written) :
    ∃ t, readHetTable e (pre ++ written ++ post) pre.length written.length hashTableKey = .ok t ∧
      t.header = c.header ∧ t.hashTable = c.hashArea.take c.header.hashTableSize.toNat := by
  have hk : hashTableKey ≠ 0 := by rw [hashTableKey_eq]; decide
  have hd' : data = extHeaderBytes 0x1A544548#32 c.dataSize ++ (c.header.toBytes ++ (c.hashArea ++ c.indexArea)) := by
    unfold createHetTable at hd
    rw [hc] at hd
    injection hd with hd
    exact hd.symm
  obtain ⟨⟨k, hk32, hnp, hts, hes, htot, hha⟩, hmax, hidx, hsize, hbound, hsm⟩ := hetContent_facts hc
  have hmod : names.length % 2 ^ 32 = names.length := Nat.mod_eq_of_lt h31
  rw [hmod] at hnp htot hha
  have hb32 : 2 ^ 32 = 4294967296 := rfl
  have hadd : c.hashArea.length = (2 ^ k * bitsNeeded (2 ^ k) + 2 ^ k * bitsNeeded names.length + 7) / 8 := by
    rw [hha, Nat.mul_add]
  -- the hash area lies in front of the last partial dword
  have hfit : c.header.hashTableSize.toNat ≤ (c.hashArea.length + c.indexArea.length) / 4 * 4 := by
    obtain ⟨k', _, hk', hle⟩ := nextPowerOfTwo_ok hnp
    by_cases h2 : names.length = 2
    · rw [h2] at hnp htot hha hadd
      have h4 : nextPowerOfTwo (2 * 2) = .ok 4 := by decide
      rw [h4] at hnp
      injection hnp with hnp
      rw [← hnp] at hts hadd htot
      have b4 : bitsNeeded 4 = 3 := by decide
      have b2 : bitsNeeded 2 = 2 := by decide
      rw [b4] at hts hadd
      rw [b2] at htot hadd
      omega
    · have h3 : 8 ≤ 2 ^ k := by
        have : 6 ≤ 2 ^ k := by omega
        have h2k : 2 < k := by
          apply Classical.byContradiction
          intro hc
          have := Nat.pow_le_pow_right (show 0 < 2 by omega) (show k ≤ 2 by omega)
          omega
        have := Nat.pow_le_pow_right (show 0 < 2 by omega) (show 3 ≤ k by omega)
        omega
      have hb : 2 ≤ bitsNeeded names.length := by
        have := lt_bitsNeeded names.length
        have h0 := bitsNeeded_pos names.length
        apply Classical.byContradiction
        intro hc
        have h1 : bitsNeeded names.length = 1 := by omega
        rw [h1] at this
        omega
      have := Nat.mul_le_mul h3 hb
      omega
  have hle : c.header.hashTableSize.toNat ≤ c.hashArea.length := by
    rw [hts, hadd]
    exact Nat.div_le_div_right (by omega)
  have hsplit : c.hashArea ++ c.indexArea =
      c.hashArea.take c.header.hashTableSize.toNat ++ (c.hashArea.drop c.header.hashTableSize.toNat ++ c.indexArea) := by
    rw [← List.append_assoc, List.take_append_drop]
  have hlen : (c.hashArea.take c.header.hashTableSize.toNat).length = c.header.hashTableSize.toNat := by
    rw [List.length_take]; omega
  have hhl := c.header.toBytes_length
  obtain ⟨b', hb', hasr⟩ := asRead_prefix (c.header.toBytes ++ c.hashArea.take c.header.hashTableSize.toNat)
    (c.hashArea.drop c.header.hashTableSize.toNat ++ c.indexArea) hashTableKey hk (by
      simp only [List.length_append, List.length_take, List.length_drop, hhl]
      omega)
  have htl : (c.header.toBytes ++ (c.hashArea ++ c.indexArea)).length =
      32 + c.hashArea.length + c.indexArea.length := by
    simp only [List.length_append, hhl]; omega
  have hwr : written = extHeaderBytes 0x1A544548#32 c.dataSize ++
      encryptData (c.header.toBytes ++ (c.hashArea ++ c.indexArea)) hashTableKey := by
    rw [hd', writeExt_plain e o ho] at hw
    injection hw with hw
    exact hw.symm
  have hwl : written.length = 12 + (c.header.toBytes ++ (c.hashArea ++ c.indexArea)).length := by
    rw [hwr, List.length_append, extHeaderBytes_length, encryptData_length]
  have hsmall : c.hashArea.length ≤ c.header.hashTableSize.toNat + c.indexArea.length := by
    rw [hadd, hts, hidx, htot]; omega
  have hrd := readExt_written e pre post 0x1A544548#32 c.dataSize (c.header.toBytes ++ (c.hashArea ++ c.indexArea))
    hashTableKey hk (by rw [htl]; omega) (by
      rw [htl]
      have h2 := c.header.totalIndexSize.isLt
      have : 2 ^ 29 = 536870912 := rfl
      omega) (by
      intro h0
      have := congrArg List.length h0
      rw [htl] at this
      simp at this)
  rw [← hwl, ← hwr] at hrd
  unfold readHetTable
  rw [hrd, hsplit, ← List.append_assoc, hasr, List.append_assoc]
  simp only [bind, Except.bind, parseHetHeader_toBytes, pure, Except.pure]
  have hnl : ¬ (c.header.toBytes ++ (c.hashArea.take c.header.hashTableSize.toNat ++ b')).length <
      32 + c.header.hashTableSize.toNat + (c.header.totalIndexSize.toNat + 7) / 8 := by
    rw [List.length_append, List.length_append, hhl, hlen, hb', List.length_append, List.length_drop, ← hidx]
    omega
  rw [if_neg hnl]
  refine ⟨_, rfl, rfl, ?_⟩
  dsimp only
  unfold slice
  rw [List.drop_left' hhl, List.take_left' hlen]

/-- Five files: `a.txt`, `b.txt`, `c.txt`, `d.txt` and the generated listfile. -/
def fiveNames : List (List Byte) := [ascii "a.txt", ascii "b.txt", ascii "c.txt", ascii "d.txt", ascii "(listfile)"]

/-- The HET table the builder makes for `fiveNames`. -/
def fiveHet : HetContent where
  header := { tableSize := 60#32, maxFileCount := 5#32, hashTableSize := 10#32, hashEntrySize := 5#32,
              totalIndexSize := 48#32, indexSizeExtra := 0#32, indexSize := 3#32, blockTableSize := 0#32 }
  dataSize := 48
  hashArea := [64#8, 0#8, 0#8, 51#8, 0#8, 0#8, 22#8, 0#8, 136#8, 0#8, 0#8, 0#8, 0#8, 0#8, 110#8, 0#8]
  indexArea := [0#8, 0#8, 0#8, 0#8, 0#8, 0#8]

theorem fiveHet_eq : hetContent fiveNames = .ok fiveHet := by decide +kernel

example : 2 ≤ fiveNames.length ∧ hetContent fiveNames = .ok fiveHet := ⟨by decide, fiveHet_eq⟩

/-- The lookup only depends on the header and the hash area. -/
theorem findFile_congr (t u : HetTable) (name : List Byte) (hh : t.header = u.header) (ht : t.hashTable = u.hashTable) :
    t.findFile name = u.findFile name := by
  unfold HetTable.findFile HetTable.readHashEntry
  rw [hh, ht]

/-- C31 does not hold: for the files `a.txt`, `b.txt`, `c.txt`, `d.txt` and the listfile, whatever surrounds the table
in the archive, looking up `c.txt` in the table that was written gives index 0, which is `a.txt`; so does looking up
`x.txt`, which is not in the archive. -/
theorem C31_wrong_file (e : Codecs) (o : TableOptions) (ho : o.compressTables = false) (pre post : List Byte) :
    ∃ data written t, createHetTable fiveNames = .ok data ∧ writeExtTable e o data hashTableKey = .ok written ∧
      readHetTable e (pre ++ written ++ post) pre.length written.length hashTableKey = .ok t ∧
      fiveNames[2]? = some (ascii "c.txt") ∧ t.findFile (ascii "c.txt") = .ok (some 0#32) ∧
      ascii "x.txt" ∉ fiveNames ∧ t.findFile (ascii "x.txt") = .ok (some 0#32) := by
  have hd : createHetTable fiveNames = .ok (extHeaderBytes 0x1A544548#32 fiveHet.dataSize ++
      (fiveHet.header.toBytes ++ (fiveHet.hashArea ++ fiveHet.indexArea))) := by
    unfold createHetTable
    rw [fiveHet_eq]
    rfl
  obtain ⟨t, hr, hh, hta⟩ := C33_het_uncompressed_partial e o ho pre post fiveNames (by decide) (by decide) fiveHet
    fiveHet_eq _ _ hd (writeExt_plain e o ho _ _ _ _)
  refine ⟨_, _, t, hd, writeExt_plain e o ho _ _ _ _, hr, rfl, ?_, by decide, ?_⟩
  · rw [findFile_congr t ⟨fiveHet.header, fiveHet.hashArea.take 10, []⟩ _ hh hta]
    decide +kernel
  · rw [findFile_congr t ⟨fiveHet.header, fiveHet.hashArea.take 10, []⟩ _ hh hta]
    decide +kernel

/-- C31 (partial): in the table written for at most four files no name is resolved to any file, so lookups fall back
to the hash table and never give another file. Missing: larger archives, where C31 fails (`C31_wrong_file`). -/
theorem C31_small_tables_resolve_nothing_partial (names : List (List Byte)) (hn : names.length ≤ 4) (c : HetContent)
    (hc : hetContent names = .ok c) (t : HetTable) (hh : t.header = c.header)
    (ht : t.hashTable.length = c.header.hashTableSize.toNat) (name : List Byte) : t.findFile name = .ok none := by
  obtain ⟨⟨k, hk32, hnp, hts, hes, htot, hha⟩, hmax, hidx, hsize, hbound, hsm⟩ := hetContent_facts hc
  have hmod : names.length % 2 ^ 32 = names.length := Nat.mod_eq_of_lt (by have : 2 ^ 32 = 4294967296 := rfl; omega)
  rw [hmod] at hnp
  have hen : ∃ en, nextPowerOfTwo (names.length * 2) = .ok en ∧ (en * bitsNeeded en + 7) / 8 < 8 ∧
      0 < (en * bitsNeeded en + 7) / 8 * 8 / bitsNeeded en ∧ bitsNeeded en ≠ 0 := by
    have : names.length = 0 ∨ names.length = 1 ∨ names.length = 2 ∨ names.length = 3 ∨ names.length = 4 := by omega
    rcases this with h | h | h | h | h <;> rw [h]
    · exact ⟨1, by decide, by decide, by decide, by decide⟩
    · exact ⟨2, by decide, by decide, by decide, by decide⟩
    · exact ⟨4, by decide, by decide, by decide, by decide⟩
    · exact ⟨8, by decide, by decide, by decide, by decide⟩
    · exact ⟨8, by decide, by decide, by decide, by decide⟩
  obtain ⟨en, he, h8, hpos, hb0⟩ := hen
  rw [he] at hnp
  injection hnp with hnp
  rw [← hnp] at hts hes
  unfold HetTable.findFile u32Checked
  rw [hh, hes, hts, if_pos (by have : 2 ^ 32 = 4294967296 := rfl; omega)]
  have hne : c.header.hashEntrySize ≠ 0#32 := by
    intro h0
    rw [h0] at hes
    exact hb0 hes.symm
  simp only [bind, Except.bind, pure, Except.pure, if_neg hne]
  rw [if_neg (by omega)]
  have : ∀ i, t.readHashEntry i = none := by
    intro i
    unfold HetTable.readHashEntry
    dsimp only
    rw [if_pos (by omega)]
  rw [this]

example : ∃ c, hetContent (fiveNames.take 4) = .ok c := by
  have h : (hetContent (fiveNames.take 4)).isOk = true := by decide +kernel
  revert h
  cases hetContent (fiveNames.take 4) with
  | ok c => intro _; exact ⟨c, rfl⟩
  | error e => intro h; cases h

/-- C33 does not hold for the file indices of a HET table: for `fiveNames`, what is read back as file indices is not
what was written as file indices. -/
theorem C33_het_indices_wrong (e : Codecs) (o : TableOptions) (ho : o.compressTables = false) (pre post : List Byte) :
    ∃ data written t, createHetTable fiveNames = .ok data ∧ writeExtTable e o data hashTableKey = .ok written ∧
      readHetTable e (pre ++ written ++ post) pre.length written.length hashTableKey = .ok t ∧
      t.fileIndices ≠ fiveHet.indexArea := by
  have hk : hashTableKey ≠ 0 := by rw [hashTableKey_eq]; decide
  have hd : createHetTable fiveNames = .ok (extHeaderBytes 0x1A544548#32 fiveHet.dataSize ++
      (fiveHet.header.toBytes ++ (fiveHet.hashArea ++ fiveHet.indexArea))) := by
    unfold createHetTable
    rw [fiveHet_eq]
    rfl
  have hw := writeExt_plain e o ho 0x1A544548#32 fiveHet.dataSize
    (fiveHet.header.toBytes ++ (fiveHet.hashArea ++ fiveHet.indexArea)) hashTableKey
  have hrd := readExt_written e pre post 0x1A544548#32 fiveHet.dataSize
    (fiveHet.header.toBytes ++ (fiveHet.hashArea ++ fiveHet.indexArea)) hashTableKey hk (by decide) (by decide)
    (by decide)
  obtain ⟨b', hb', hasr⟩ := asRead_prefix (fiveHet.header.toBytes ++ fiveHet.hashArea) fiveHet.indexArea hashTableKey hk
    (by decide)
  refine ⟨_, _, ⟨fiveHet.header, slice fiveHet.hashArea 0 10, slice fiveHet.hashArea 10 6⟩, hd, hw, ?_, by decide⟩
  have hlen : (extHeaderBytes 0x1A544548#32 fiveHet.dataSize ++ encryptData (fiveHet.header.toBytes ++
      (fiveHet.hashArea ++ fiveHet.indexArea)) hashTableKey).length =
      12 + (fiveHet.header.toBytes ++ (fiveHet.hashArea ++ fiveHet.indexArea)).length := by
    rw [List.length_append, extHeaderBytes_length, encryptData_length]
  unfold readHetTable
  rw [hlen, hrd, ← List.append_assoc, hasr, List.append_assoc]
  simp only [bind, Except.bind, parseHetHeader_toBytes, pure, Except.pure]
  have hl6 : b'.length = 6 := hb'
  rw [if_neg (by
    simp only [List.length_append, fiveHet.header.toBytes_length, hl6]
    decide)]
  rfl

/-- C33 (partial): a BET table written without table compression is read back with the same header, flags and file
records, and the same name hashes except possibly the last one; that one too if the length of the table is a multiple of
four. Missing: compressed tables (`C33_compressed_tables_do_not_load`) and the last hash of other tables, whose last
bytes are not decrypted. -/
theorem C33_bet_uncompressed_partial (e : Codecs) (o : TableOptions) (ho : o.compressTables = false)
    (pre post : List Byte) (names : List (List Byte)) (blocks : List BlockEntry) (hl : blocks.length = names.length)
    (hn : names.length < 2 ^ 32) (c : BetContent) (hc : betContent names blocks = .ok c) (data written : List Byte)
    (hd : createBetTable names blocks = .ok data) (hw : writeExtTable e o data blockTableKey = .ok written) :
    ∃ t, readBetTable e (pre ++ written ++ post) pre.length written.length blockTableKey = .ok t ∧
      t.header = c.header ∧ t.fileFlags = c.flags ∧ t.fileTable = c.fileTable ∧
      t.betHashes.length = names.length ∧
      (∀ i, i + 1 < names.length → t.betHashes[i]? = names[i]?.map jenkinsHash) ∧
      (written.length % 4 = 0 → t.betHashes = names.map jenkinsHash) := by
  have hk : blockTableKey ≠ 0 := by rw [blockTableKey_eq]; decide
  have hf := betContent_facts hl hn hc
  have hd' : data = extHeaderBytes 0x1A544542#32 c.dataSize ++
      (c.header.toBytes ++ (ofDwords c.flags ++ (c.fileTable ++ c.hashBytes))) := by
    unfold createBetTable at hd
    rw [hc] at hd
    injection hd with hd
    exact hd.symm
  have hwr : written = extHeaderBytes 0x1A544542#32 c.dataSize ++
      encryptData (c.header.toBytes ++ (ofDwords c.flags ++ (c.fileTable ++ c.hashBytes))) blockTableKey := by
    rw [hd', writeExt_plain e o ho] at hw
    injection hw with hw
    exact hw.symm
  have hhl := c.header.toBytes_length
  have hfl : (ofDwords c.flags).length = 4 * c.flags.length := ofDwords_length _
  have htl : (c.header.toBytes ++ (ofDwords c.flags ++ (c.fileTable ++ c.hashBytes))).length = c.dataSize := by
    simp only [List.length_append, hhl, hfl, hf.size]; omega
  have hwl : written.length = 12 + (c.header.toBytes ++ (ofDwords c.flags ++ (c.fileTable ++ c.hashBytes))).length := by
    rw [hwr, List.length_append, extHeaderBytes_length, encryptData_length]
  have hb := hf.bound
  have hrd := readExt_written e pre post 0x1A544542#32 c.dataSize
    (c.header.toBytes ++ (ofDwords c.flags ++ (c.fileTable ++ c.hashBytes)))
    blockTableKey hk (by omega) (by omega) (by
      intro h0
      have := congrArg List.length h0
      rw [List.length_append, hhl] at this
      simp at this)
  rw [← hwl, ← hwr] at hrd
  -- the parts of the table after decryption
  have hparts : ∃ hb', asRead (c.header.toBytes ++ (ofDwords c.flags ++ (c.fileTable ++ c.hashBytes))) blockTableKey =
      c.header.toBytes ++ (ofDwords c.flags ++ (c.fileTable ++ hb')) ∧
      ∃ hs, rd64s names.length hb' = .ok (hs, []) ∧ hs.length = names.length ∧
      (∀ i, i + 1 < names.length → hs[i]? = names[i]?.map jenkinsHash) ∧
      (written.length % 4 = 0 → hs = names.map jenkinsHash) := by
    by_cases hal : written.length % 4 = 0
    · refine ⟨c.hashBytes, asRead_aligned _ _ hk (by omega), names.map jenkinsHash, ?_, by simp, by simp, fun _ => rfl⟩
      rw [hf.hashBytes]
      have := rd64s_le64 (names.map jenkinsHash) []
      rwa [List.length_map, List.append_nil] at this
    · -- split off the last hash
      rcases List.eq_nil_or_concat names with rfl | ⟨init, last, rfl⟩
      · refine ⟨[], ?_, [], rfl, rfl, by simp, fun _ => rfl⟩
        have h0 : c.hashBytes = [] := by rw [hf.hashBytes]; rfl
        have h1 : c.fileTable = [] := by
          apply List.eq_nil_of_length_eq_zero
          rw [hf.tableLength]
          simp
        have hb0 : blocks = [] := List.eq_nil_of_length_eq_zero (by simpa using hl)
        have h2 : c.flags = [] := by rw [hf.flags, hb0]; rfl
        rw [h0, h1, h2] at hwl
        simp [ofDwords, hhl] at hwl
        omega
      · have hbytes : c.hashBytes = (init.map jenkinsHash).flatMap le64 ++ le64 (jenkinsHash last) := by
          rw [hf.hashBytes, List.concat_eq_append]
          simp
        obtain ⟨b', hb', hasr⟩ := asRead_prefix
          (c.header.toBytes ++ (ofDwords c.flags ++ (c.fileTable ++ (init.map jenkinsHash).flatMap le64)))
          (le64 (jenkinsHash last)) blockTableKey hk (by
            rw [List.length_append (bs := le64 _), le64_length]
            omega)
        obtain ⟨vs, hvs⟩ := rd64s_total 1 b' (by rw [hb', le64_length]; decide)
        have hvl : ∃ v, vs = [v] := by
          unfold rd64s at hvs
          obtain ⟨⟨v, r⟩, _, hvs⟩ := bind_eq_ok.1 hvs
          simp only [rd64s, bind, Except.bind, pure, Except.pure] at hvs
          injection hvs with hvs
          injection hvs with hvs _
          exact ⟨v, hvs.symm⟩
        obtain ⟨v, rfl⟩ := hvl
        have hdrop : b'.drop (8 * 1) = [] := List.drop_eq_nil_of_le (by rw [hb', le64_length]; decide)
        rw [hdrop] at hvs
        refine ⟨(init.map jenkinsHash).flatMap le64 ++ b', ?_, init.map jenkinsHash ++ [v], ?_, by simp, ?_, ?_⟩
        · rw [hbytes]
          simp only [List.append_assoc] at hasr ⊢
          exact hasr
        · have key : ∀ (us : List U64), rd64s (us.length + 1) (us.flatMap le64 ++ b') = .ok (us ++ [v], []) := by
            intro us
            induction us with
            | nil => exact hvs
            | cons u us ih =>
              rw [List.length_cons, rd64s, List.flatMap_cons, List.append_assoc, rd64_le64]
              simp only [bind, Except.bind, ih, pure, Except.pure, List.cons_append]
          have := key (init.map jenkinsHash)
          rw [List.length_map] at this
          rw [List.concat_eq_append, List.length_append]
          exact this
        · intro i hi
          have hi' : i < init.length := by
            rw [List.concat_eq_append, List.length_append, List.length_singleton] at hi
            omega
          rw [List.concat_eq_append, List.getElem?_append_left (by simpa using hi'), List.getElem?_append_left hi',
            List.getElem?_map]
        · intro h; exact absurd h hal
  obtain ⟨hb', hasr, hs, hrs, hsl, hs1, hs2⟩ := hparts
  unfold readBetTable
  rw [hrd, hasr]
  simp only [bind, Except.bind, parseBetHeader_toBytes, pure, Except.pure]
  rw [List.drop_left' hhl, hf.flagCount, rd32s_ofDwords]
  dsimp only
  rw [hf.count, hf.entrySize, ← hf.tableLength, rdBytes_append _ _ _ rfl]
  dsimp only
  rw [hf.hashSize, Nat.mul_div_cancel_left _ (by omega), hrs]
  exact ⟨_, rfl, rfl, rfl, rfl, hsl, hs1, hs2⟩

/-- Two files with their block table entries. -/
def twoBlocks : List BlockEntry :=
  [⟨32#32, 100#32, 200#32, 0x84000200#32⟩, ⟨132#32, 7#32, 7#32, 0x80000000#32⟩]

example : (betContent [ascii "a.txt", ascii "b.txt"] twoBlocks).isOk = true := by decide +kernel

/-! ## C32 -/

/-- C32 (partial): when a record takes fewer than 64 bits, does not reach beyond 64 bits from the start of its first
byte, and eight bytes of the record area remain from there on, the position, sizes and flags stored for the file are
returned exactly. Missing: the other records, for which C32 fails (`C32_last_record_unreadable`,
`C32_wide_records_panic`, `C32_build_panics`). -/
theorem C32_record_round_trip_partial (names : List (List Byte)) (blocks : List BlockEntry)
    (hl : blocks.length = names.length) (hn : names.length < 2 ^ 32) (c : BetContent)
    (hc : betContent names blocks = .ok c) (t : BetTable) (hh : t.header = c.header) (hfl : t.fileFlags = c.flags)
    (hft : t.fileTable = c.fileTable) (i : Nat) (hi : i < blocks.length) (w : Nat) (hw : w = c.header.tableEntrySize.toNat)
    (h64 : w < 64) (hspan : i * w % 8 + w ≤ 64) (hroom : i * w / 8 + 8 ≤ c.fileTable.length) :
    t.getFileInfo (BitVec.ofNat 32 i) = .ok (some {
      filePos := blocks[i].filePos.setWidth 64, fileSize := blocks[i].fileSize.setWidth 64,
      compressedSize := blocks[i].compressedSize.setWidth 64, flags := blocks[i].flags }) := by
  have hf := betContent_facts hl hn hc
  have hmem : blocks[i] ∈ blocks := List.getElem_mem hi
  obtain ⟨fp, fs, fc, ff, hflag⟩ := betWidths_fit blocks blocks[i] hmem
  obtain ⟨v, hv, hbits⟩ := hf.entries i hi
  rw [hf.flags] at hv
  have hwt : (betWidths blocks).total = w := by rw [hw, hf.entrySize]
  have htot : (betWidths blocks).total = (betWidths blocks).pos + (betWidths blocks).size + (betWidths blocks).cmp +
    (betWidths blocks).flag := rfl
  have hpb := packed_bits hv fp fs fc ff (by omega)
  rw [hwt] at hbits
  have hin : (BitVec.ofNat 32 i).toNat = i := by rw [BitVec.toNat_ofNat, Nat.mod_eq_of_lt (by omega)]
  -- the entry is the packed value
  have hentry : t.readTableEntry i = .ok (some v) := by
    unfold BetTable.readTableEntry
    dsimp only
    rw [hh, hft, ← hw, if_neg (by omega)]
    unfold shl64
    rw [if_pos h64]
    simp only [bind, Except.bind, pure, Except.pure, lowBound_sub _ h64]
    congr 2
    apply BitVec.eq_of_getLsbD_eq
    intro j hj
    rw [BitVec.getLsbD_and, BitVec.getLsbD_ushiftRight, lowMask_getLsbD, loadLe_getLsbD _ _ _ _ (by omega)]
    by_cases hjw : j < w
    · have e1 : i * w % 8 + j < 8 * min ((i * w % 8 + w + 7) / 8) 8 := by omega
      have e2 : 8 * (i * w / 8) + (i * w % 8 + j) = i * w + j := by omega
      rw [e2, hbits (i * w + j) (by omega) (by omega) (by omega)]
      have e3 : i * w + j - i * w = j := by omega
      rw [e3]
      simp [e1, hj, hjw]
    · have : v.getLsbD j = false := by
        rw [hpb j, if_neg (by omega), if_neg (by omega), if_neg (by omega), if_neg (by omega)]
      simp [hjw, this]
  unfold BetTable.getFileInfo
  rw [hin, hh, hf.count, if_neg (by omega), hentry]
  obtain ⟨r0, hr0, hb0⟩ := extractBits_ok (v := v) (off := c.header.bitIndexFilePos) (cnt := c.header.bitCountFilePos)
    (by rw [hf.i0]; omega) (by rw [hf.c0]; omega)
  obtain ⟨r1, hr1, hb1⟩ := extractBits_ok (v := v) (off := c.header.bitIndexFileSize) (cnt := c.header.bitCountFileSize)
    (by rw [hf.i1]; omega) (by rw [hf.c1]; omega)
  obtain ⟨r2, hr2, hb2⟩ := extractBits_ok (v := v) (off := c.header.bitIndexCmpSize) (cnt := c.header.bitCountCmpSize)
    (by rw [hf.i2]; omega) (by rw [hf.c2]; omega)
  have hpos := (betWidths_le blocks).2.2.2
  have h64' := (packEntry_ok hv).1
  obtain ⟨r3, hr3, hb3⟩ := extractBits_ok (v := v) (off := c.header.bitIndexFlagIndex)
    (cnt := c.header.bitCountFlagIndex) (by rw [hf.i3]; omega) (by rw [hf.c3]; omega)
  have q0 : r0 = blocks[i].filePos.setWidth 64 := by
    apply BitVec.eq_of_getLsbD_eq
    intro j hj
    rw [hb0, hf.c0, hf.i0, Nat.zero_add, BitVec.getLsbD_setWidth]
    by_cases h : j < (betWidths blocks).pos
    · rw [hpb j, if_pos h]; simp [h, hj]
    · rw [getLsbD_of_lt _ fp (by omega)]; simp [h]
  have q1 : r1 = blocks[i].fileSize.setWidth 64 := by
    apply BitVec.eq_of_getLsbD_eq
    intro j hj
    rw [hb1, hf.c1, hf.i1, BitVec.getLsbD_setWidth]
    by_cases h : j < (betWidths blocks).size
    · rw [hpb _, if_neg (by omega), if_pos (by omega), Nat.add_sub_cancel_left]; simp [h, hj]
    · rw [getLsbD_of_lt blocks[i].fileSize fs (by omega)]; simp [h]
  have q2 : r2 = blocks[i].compressedSize.setWidth 64 := by
    apply BitVec.eq_of_getLsbD_eq
    intro j hj
    rw [hb2, hf.c2, hf.i2, BitVec.getLsbD_setWidth]
    by_cases h : j < (betWidths blocks).cmp
    · rw [hpb _, if_neg (by omega), if_neg (by omega), if_pos (by omega), Nat.add_sub_cancel_left]; simp [h, hj]
    · rw [getLsbD_of_lt blocks[i].compressedSize fc (by omega)]; simp [h]
  have q3 : r3 = BitVec.ofNat 64 ((flagArray blocks).idxOf blocks[i].flags) := by
    apply BitVec.eq_of_getLsbD_eq
    intro j hj
    rw [hb3, hf.c3, hf.i3, BitVec.getLsbD_ofNat]
    by_cases h : j < (betWidths blocks).flag
    · rw [hpb _, if_neg (by omega), if_neg (by omega), if_neg (by omega), if_pos (by omega), Nat.add_sub_cancel_left]
      simp [h, hj]
    · rw [Nat.testBit_lt_two_pow (Nat.lt_of_lt_of_le ff (Nat.pow_le_pow_right (by omega) (by omega)))]; simp [h]
  have hidx : (flagArray blocks).idxOf blocks[i].flags < (flagArray blocks).length :=
    List.idxOf_lt_length_of_mem ((mem_flagArray _ _).2 ⟨_, hmem, rfl⟩)
  have hfl2 := flagArray_length_le blocks
  have q4 : ((BitVec.ofNat 64 ((flagArray blocks).idxOf blocks[i].flags)).setWidth 32).toNat =
      (flagArray blocks).idxOf blocks[i].flags := by
    rw [BitVec.toNat_setWidth, BitVec.toNat_ofNat]
    have h32 : 2 ^ 32 = 4294967296 := rfl
    have h64 : 2 ^ 64 = 18446744073709551616 := rfl
    rw [Nat.mod_eq_of_lt (a := (flagArray blocks).idxOf blocks[i].flags) (by omega), Nat.mod_eq_of_lt (by omega)]
  simp only [bind, Except.bind, pure, Except.pure, hr0, hr1, hr2, hr3]
  rw [q3, q4, hf.flagCount, hf.flags, if_pos hidx, hfl, hf.flags, hflag]
  simp only [q0, q1, q2]

/-- Eight files of the shape of `twoBlocks`: the record area is long enough for the first few records to be read. -/
def eightBlocks : List BlockEntry := twoBlocks ++ twoBlocks ++ twoBlocks ++ twoBlocks
def eightNames : List (List Byte) := fiveNames ++ [ascii "e.txt", ascii "f.txt", ascii "g.txt"]

example : ∃ c, betContent eightNames eightBlocks = .ok c ∧ eightBlocks.length = eightNames.length ∧
    c.header.tableEntrySize.toNat = 24 ∧ 1 * 24 % 8 + 24 ≤ 64 ∧ 1 * 24 / 8 + 8 ≤ c.fileTable.length := by
  have h : (match betContent eightNames eightBlocks with
      | .ok c => decide (c.header.tableEntrySize.toNat = 24 ∧ 1 * 24 / 8 + 8 ≤ c.fileTable.length)
      | .error _ => false) = true := by decide +kernel
  revert h
  cases betContent eightNames eightBlocks with
  | ok c => intro h; exact ⟨c, rfl, by decide, (of_decide_eq_true h).1, by decide, (of_decide_eq_true h).2⟩
  | error e => intro h; cases h

/-- C32 does not hold: whenever the record of the last file ends at most 56 bits after the start of its first byte, in
particular whenever records take at most 49 bits, that record cannot be read at all. -/
theorem C32_last_record_unreadable (names : List (List Byte)) (blocks : List BlockEntry)
    (hl : blocks.length = names.length) (hn : names.length < 2 ^ 32) (hpos : 0 < names.length) (c : BetContent)
    (hc : betContent names blocks = .ok c) (t : BetTable) (hh : t.header = c.header) (hft : t.fileTable = c.fileTable)
    (hw : (names.length - 1) * c.header.tableEntrySize.toNat % 8 + c.header.tableEntrySize.toNat ≤ 56) :
    t.getFileInfo (BitVec.ofNat 32 (names.length - 1)) = .ok none := by
  have hf := betContent_facts hl hn hc
  have hin : (BitVec.ofNat 32 (names.length - 1)).toNat = names.length - 1 := by
    rw [BitVec.toNat_ofNat, Nat.mod_eq_of_lt (by omega)]
  unfold BetTable.getFileInfo
  rw [hin, hh, hf.count, if_neg (by omega)]
  have : t.readTableEntry (names.length - 1) = .ok none := by
    unfold BetTable.readTableEntry
    dsimp only
    rw [hh, hft, hf.tableLength, hf.entrySize]
    rw [hf.entrySize] at hw
    have hmul : names.length * (betWidths blocks).total =
        (names.length - 1) * (betWidths blocks).total + (betWidths blocks).total := by
      rw [← Nat.add_one_mul]
      congr 1
      omega
    rw [if_pos (by omega)]
  rw [this]
  rfl

example : ∃ c, betContent [ascii "a.txt", ascii "b.txt"] twoBlocks = .ok c ∧
    (2 - 1) * c.header.tableEntrySize.toNat % 8 + c.header.tableEntrySize.toNat ≤ 56 := by
  have h : (match betContent [ascii "a.txt", ascii "b.txt"] twoBlocks with
      | .ok c => decide ((2 - 1) * c.header.tableEntrySize.toNat % 8 + c.header.tableEntrySize.toNat ≤ 56)
      | .error _ => false) = true := by decide +kernel
  revert h
  cases betContent [ascii "a.txt", ascii "b.txt"] twoBlocks with
  | ok c => intro h; exact ⟨c, rfl, of_decide_eq_true h⟩
  | error e => intro h; cases h

/-- C32 does not hold: when records take 64 bits or more, reading one of them panics, in every table. -/
theorem C32_wide_records_panic (t : BetTable) (i : U32) (hi : i.toNat < t.header.fileCount.toNat)
    (hw : 64 ≤ t.header.tableEntrySize.toNat)
    (hroom : i.toNat * t.header.tableEntrySize.toNat / 8 + 8 ≤ t.fileTable.length) :
    t.getFileInfo i = .error .panic := by
  unfold BetTable.getFileInfo
  rw [if_neg (by omega)]
  unfold BetTable.readTableEntry
  dsimp only
  rw [if_neg (by omega)]
  unfold shl64
  rw [if_neg (by omega)]
  rfl

/-- Entries of files between one and two MiB and two flag values. -/
def wideBlocks : List BlockEntry :=
  [⟨0x20#32, 0x180000#32, 0x180000#32, 0x80000200#32⟩, ⟨0x100020#32, 0x100000#32, 0x180000#32, 0x80000000#32⟩]

/-- Such records are made by the builder. -/
example : ∃ c, betContent [ascii "a.txt", ascii "b.txt"] wideBlocks = .ok c ∧ c.header.tableEntrySize.toNat = 64 ∧
    0 * 64 / 8 + 8 ≤ c.fileTable.length := by
  have h : (match betContent [ascii "a.txt", ascii "b.txt"] wideBlocks with
      | .ok c => decide (c.header.tableEntrySize.toNat = 64 ∧ 0 * 64 / 8 + 8 ≤ c.fileTable.length)
      | .error _ => false) = true := by decide +kernel
  revert h
  cases betContent [ascii "a.txt", ascii "b.txt"] wideBlocks with
  | ok c => intro h; exact ⟨c, rfl, (of_decide_eq_true h).1, (of_decide_eq_true h).2⟩
  | error e => intro h; cases h

/-- C32 does not hold: when the widths needed for the largest position and the two largest sizes add up to 64 bits or
more, the table of a non-empty archive cannot be built, the builder panics. -/
theorem C32_build_panics (names : List (List Byte)) (blocks : List BlockEntry) (hl : blocks.length = names.length)
    (hpos : 0 < names.length) (hn : names.length < 2 ^ 32) (p s z : Nat)
    (hp : ∃ b ∈ blocks, 2 ^ p ≤ b.filePos.toNat) (hs : ∃ b ∈ blocks, 2 ^ s ≤ b.fileSize.toNat)
    (hz : ∃ b ∈ blocks, 2 ^ z ≤ b.compressedSize.toNat) (h : 64 ≤ (p + 1) + (s + 1) + (z + 1)) :
    betContent names blocks = .error .panic := by
  have wide : ∀ (field : BlockEntry → U32) (n : Nat), (∃ b ∈ blocks, 2 ^ n ≤ (field b).toNat) →
      n + 1 ≤ bitsNeeded (maxField field blocks) := by
    intro field n ⟨b, hb, hbn⟩
    have h1 := le_maxField field blocks b hb
    have h2 := lt_bitsNeeded (maxField field blocks)
    exact (Nat.pow_lt_pow_iff_right (a := 2) (by omega)).1 (by omega)
  have w1 := wide (·.filePos) p hp
  have w2 := wide (·.fileSize) s hs
  have w3 := wide (·.compressedSize) z hz
  have hpack : ∀ b, packEntry (betWidths blocks) (flagArray blocks) b = .error .panic := by
    intro b
    unfold packEntry shl64
    have h3 : ¬ (betWidths blocks).pos + (betWidths blocks).size + (betWidths blocks).cmp < 64 := by
      unfold betWidths; dsimp only at w1 w2 w3 ⊢; omega
    rw [if_neg h3]
    split
    · split <;> rfl
    · rfl
  have hmod : names.length % 2 ^ 32 = names.length := Nat.mod_eq_of_lt hn
  have htake : blocks.take names.length = blocks := by rw [← hl, List.take_length]
  unfold betContent u32Checked
  dsimp only
  simp only [hmod, htake]
  obtain ⟨b, bs, rfl⟩ : ∃ b bs, blocks = b :: bs := by
    cases blocks with
    | nil => simp at hl; omega
    | cons b bs => exact ⟨b, bs, rfl⟩
  split
  · split
    · simp only [bind, Except.bind, fillFileTable, hpack]
    · rfl
  · rfl

/-- A file of 2 MiB that does not compress, followed by any file, is enough. -/
example : (∃ b ∈ [⟨0x20#32, 0x200000#32, 0x200000#32, 0#32⟩, (⟨0x200020#32, 3#32, 3#32, 0#32⟩ : BlockEntry)],
      2 ^ 21 ≤ b.filePos.toNat) ∧
    (∃ b ∈ [⟨0x20#32, 0x200000#32, 0x200000#32, 0#32⟩, (⟨0x200020#32, 3#32, 3#32, 0#32⟩ : BlockEntry)],
      2 ^ 21 ≤ b.fileSize.toNat) ∧ 64 ≤ (21 + 1) + (21 + 1) + (21 + 1) := by
  refine ⟨⟨_, List.mem_cons_of_mem _ (List.mem_singleton.2 rfl), by decide⟩, ⟨_, List.mem_cons_self, by decide⟩, by decide⟩

/-- A table written with zlib table compression is not readable (see `C33_compressed_tables_do_not_load`). -/
theorem readExt_compressed (e : Codecs) (pre post table stream written : List Byte) (s key : U32)
    (hk : key ≠ 0) (n : Nat) (hn : n + 12 < 2 ^ 32)
    (hdef : e.deflate table = some stream) (hshort : stream.length < table.length) (hfit : stream.length + 2 < n)
    (htwo : 2 ≤ stream.length) (hrej : ∀ r, e.inflate (0x02#8 :: r) = none)
    (hw : writeExtTable e ⟨true, 0x02#8⟩ (extHeaderBytes s n ++ table) key = .ok written) :
    readExtTable e (pre ++ written ++ post) pre.length written.length s key = .error .compression := by
  have h12 := extHeaderBytes_length s n
  have hcomp : compress e table 0x02#8 = .ok (0x02#8 :: stream) := by
    unfold compress compressInternal
    rw [show Method.fromFlags 0x02#8 = .zlib by decide]
    unfold zlibCompress
    rw [hdef]
    simp only [liftCodec, bind, Except.bind, pure, Except.pure]
    rw [if_neg (by omega)]
  have hwr : written = extHeaderBytes s n ++ encryptData (0x02#8 :: 0x02#8 :: stream) key := by
    unfold writeExtTable at hw
    rw [if_neg (by rw [List.length_append]; omega), List.drop_left' h12, List.take_left' h12] at hw
    simp only [if_true, hcomp, bind, Except.bind, pure, Except.pure] at hw
    injection hw with hw
    exact hw.symm
  have hel := encryptData_length (0x02#8 :: 0x02#8 :: stream) key
  have hwl : written.length = 12 + (stream.length + 2) := by
    rw [hwr, List.length_append, h12, hel]; simp
  have hr := readAt_mid pre written post pre.length written.length rfl rfl
  unfold readExtTable
  rw [readVec_eq _ _ _ (by omega), hr]
  simp only [bind, Except.bind]
  have hsig : ofLe32 (slice written 0 4) = s := by
    have h : slice written 0 4 = le32 s := by
      rw [hwr]
      unfold extHeaderBytes slice
      rw [List.drop_zero, List.append_assoc, List.take_left' (by simp)]
    rw [h, ofLe32_le32]
  have hsz : ofLe32 (slice written 8 4) = BitVec.ofNat 32 n := by
    have h : slice written 8 4 = le32 (BitVec.ofNat 32 n) := by
      have : written = (le32 s ++ le32 1#32) ++ (le32 (BitVec.ofNat 32 n) ++
          encryptData (0x02#8 :: 0x02#8 :: stream) key) := by
        rw [hwr]; unfold extHeaderBytes; simp only [List.append_assoc]
      rw [this]
      unfold slice
      rw [List.drop_left' (by simp), List.take_left' (by simp)]
    rw [h, ofLe32_le32]
  rw [if_neg (by omega), if_neg (by rw [hsig]; exact fun hc => hc rfl), hsz, BitVec.toNat_ofNat,
    Nat.mod_eq_of_lt (by omega)]
  have hd : key ≠ 0 ∧ written.length > 12 := ⟨hk, by omega⟩
  have hc : n + 12 > written.length := by omega
  have hbody : written.drop 12 = encryptData (0x02#8 :: 0x02#8 :: stream) key := by rw [hwr, List.drop_left' h12]
  simp only [if_pos hd, if_pos hc, hbody]
  obtain ⟨b', hb', this⟩ := asRead_prefix [0x02#8, 0x02#8] stream key hk (by simp; omega)
  unfold asRead at this
  simp only [List.cons_append, List.nil_append] at this
  rw [this]
  dsimp only
  unfold decompress
  rw [if_neg (by simp), if_neg (by decide), if_neg (fits _ (by omega)), show Method.fromFlags 0x02#8 = .zlib by decide]
  unfold zlibDecompress
  simp only [hrej]
  rfl

/-- C33 does not hold for compressed tables: a table that the compressor really shortens is written with its method
byte twice, so what reaches the decompressor starts with the method byte; if zlib rejects streams starting with that
byte (as it does: `0x02` is not a zlib header), the table does not load, whatever else is in the archive. -/
theorem C33_compressed_tables_do_not_load (e : Codecs) (pre post table stream written : List Byte) (s key : U32)
    (hk : key ≠ 0) (n : Nat) (hn : n + 12 < 2 ^ 32)
    (hdef : e.deflate table = some stream) (hshort : stream.length < table.length) (hfit : stream.length + 2 < n)
    (htwo : 2 ≤ stream.length) (hrej : ∀ r, e.inflate (0x02#8 :: r) = none)
    (hw : writeExtTable e ⟨true, 0x02#8⟩ (extHeaderBytes s n ++ table) key = .ok written) :
    (s = 0x1A544548#32 → readHetTable e (pre ++ written ++ post) pre.length written.length key = .error .compression) ∧
    (s = 0x1A544542#32 → readBetTable e (pre ++ written ++ post) pre.length written.length key = .error .compression) := by
  have h := readExt_compressed e pre post table stream written s key hk n hn hdef hshort hfit htwo hrej hw
  constructor
  · rintro rfl
    unfold readHetTable
    rw [h]
    rfl
  · rintro rfl
    unfold readBetTable
    rw [h]
    rfl

/-- A stand-in for zlib whose streams start with `0x78`, as those of zlib do. -/
def zlibLike : Codecs :=
  { toyCodecs with
    deflate := fun d => (toyPack d).map (0x78#8 :: ·)
    inflate := fun c => match c with
      | b :: r => if b = 0x78#8 then toyUnpack r else none
      | [] => none }

theorem zlibLike_lawful : zlibLike.Lawful := by
  refine ⟨?_, toy_round_trip, toy_round_trip, fun d c _ => toy_round_trip d c⟩
  intro d c h
  simp only [zlibLike, Option.map_eq_some_iff] at h
  obtain ⟨c', hc', rfl⟩ := h
  exact ⟨by simp, (toy_round_trip d c' hc').2⟩

example : (∀ r, zlibLike.inflate (0x02#8 :: r) = none) ∧
    ∃ stream, zlibLike.deflate (List.replicate 48 7#8) = some stream ∧ stream.length < 48 ∧ stream.length + 2 < 48 ∧
      2 ≤ stream.length :=
  ⟨fun _ => rfl, _, rfl, by decide, by decide, by decide⟩

/-- C32: an index that is not below the recorded number of files gives no record, in any table; an index the table has
no bytes for gives none either. -/
theorem C32_out_of_range (t : BetTable) (i : U32) (h : t.header.fileCount.toNat ≤ i.toNat) :
    t.getFileInfo i = .ok none := by
  unfold BetTable.getFileInfo
  rw [if_pos h]

/-- A table of two files, asked for its third. -/
example (t : BetTable) (h : t.header.fileCount = 2#32) : t.getFileInfo 2#32 = .ok none :=
  C32_out_of_range _ _ (by rw [h]; decide)

/-- C33: a table (of a size below 2^63) that does not start with the mark of its kind is refused, whatever follows. -/
theorem C33_wrong_mark_refused (e : Codecs) (f : List Byte) (offset size : Nat) (key : U32) (raw : List Byte)
    (hsize : size < 2 ^ 63) (hr : readAt f offset size = .ok raw) :
    (ofLe32 (raw.take 4) ≠ 0x1A544548#32 → readHetTable e f offset size key = .error .invalidFormat) ∧
    (ofLe32 (raw.take 4) ≠ 0x1A544542#32 → readBetTable e f offset size key = .error .invalidFormat) := by
  have h : ∀ s, ofLe32 (raw.take 4) ≠ s → readExtTable e f offset size s key = .error .invalidFormat := by
    intro s hs
    unfold readExtTable
    rw [readVec_eq _ _ _ hsize, hr]
    simp only [bind, Except.bind, pure, Except.pure, throw, throwThe, MonadExceptOf.throw]
    split
    · rfl
    · rw [if_pos (by unfold slice; rw [List.drop_zero]; exact hs)]
  constructor
  · intro hs; unfold readHetTable; rw [h _ hs]; rfl
  · intro hs; unfold readBetTable; rw [h _ hs]; rfl

/-- Sixteen zero bytes are no table. -/
example (e : Codecs) : readHetTable e (List.replicate 16 0) 0 16 0 = .error .invalidFormat :=
  (C33_wrong_mark_refused e _ _ _ _ (List.replicate 16 0) (by decide) (by decide)).1 (by decide)

end Mopaq
