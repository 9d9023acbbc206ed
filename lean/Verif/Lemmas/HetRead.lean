import Verif.Lemmas.ArchiveOpen

/-! # The extended tables of a finished archive, as opened -/

namespace Mopaq

/-- A HET table written without compression is read back with the same header and a hash area of the stated size. -/
theorem het_read (e : Codecs) (o : TableOptions) (ho : o.compressTables = false) (pre post : List Byte)
    (names : List (List Byte)) (h31 : names.length < 2 ^ 32) (c : HetContent)
    (hc : hetContent names = .ok c) (data written : List Byte)
    (hd : createHetTable names = .ok data) (hw : writeExtTable e o data hashTableKey = .ok written) :
    ∃ t, readHetTable e (pre ++ written ++ post) pre.length written.length hashTableKey = .ok t ∧
      t.header = c.header ∧ t.hashTable.length = c.header.hashTableSize.toNat := by
  have hk : hashTableKey ≠ 0 := by rw [hashTableKey_eq]; decide
  have hd' : data = extHeaderBytes 0x1A544548#32 c.dataSize ++ (c.header.toBytes ++ (c.hashArea ++ c.indexArea)) := by
    unfold createHetTable at hd
    rw [hc] at hd
    injection hd with hd
    exact hd.symm
  obtain ⟨⟨k, hk32, hnp, hts, hes, htot, hha⟩, hmax, hidx, hsize, hbound, hsm⟩ := hetContent_facts hc
  have hmod : names.length % 2 ^ 32 = names.length := Nat.mod_eq_of_lt h31
  rw [hmod] at hnp htot hha
  have hb32 : 2 ^ 32 = 4294967296 := rfl
  have hadd : c.hashArea.length = (2 ^ k * bitsNeeded (2 ^ k) + 2 ^ k * bitsNeeded names.length + 7) / 8 := by
    rw [hha, Nat.mul_add]
  have hle : c.header.hashTableSize.toNat ≤ c.hashArea.length := by
    rw [hts, hadd]
    exact Nat.div_le_div_right (by omega)
  have hhl := c.header.toBytes_length
  have htl : (c.header.toBytes ++ (c.hashArea ++ c.indexArea)).length =
      32 + c.hashArea.length + c.indexArea.length := by
    simp only [List.length_append, hhl]; omega
  have hwr : written = extHeaderBytes 0x1A544548#32 c.dataSize ++
      encryptData (c.header.toBytes ++ (c.hashArea ++ c.indexArea)) hashTableKey := by
    rw [hd', writeExt_plain e o ho] at hw
    injection hw with hw
    exact hw.symm
  have hwl : written.length = 12 + (c.header.toBytes ++ (c.hashArea ++ c.indexArea)).length := by
    rw [hwr, List.length_append, extHeaderBytes_length, encryptData_length]
  have hsmall : c.hashArea.length ≤ c.header.hashTableSize.toNat + c.indexArea.length := by
    rw [hadd, hts, hidx, htot]; omega
  have hrd := readExt_written e pre post 0x1A544548#32 c.dataSize (c.header.toBytes ++ (c.hashArea ++ c.indexArea))
    hashTableKey hk (by rw [htl]; omega) (by
      rw [htl]
      have h2 := c.header.totalIndexSize.isLt
      have : 2 ^ 29 = 536870912 := rfl
      omega) (by
      intro h0
      have := congrArg List.length h0
      rw [htl] at this
      simp at this)
  rw [← hwl, ← hwr] at hrd
  obtain ⟨b', hb', hasr⟩ := asRead_prefix c.header.toBytes (c.hashArea ++ c.indexArea) hashTableKey hk (by
      rw [List.length_append, hhl]; omega)
  unfold readHetTable
  rw [hrd, hasr]
  simp only [bind, Except.bind, parseHetHeader_toBytes, pure, Except.pure]
  rw [List.length_append] at hb'
  have hnl : ¬ (c.header.toBytes ++ b').length <
      32 + c.header.hashTableSize.toNat + (c.header.totalIndexSize.toNat + 7) / 8 := by
    rw [List.length_append, hhl, hb', ← hidx]
    omega
  rw [if_neg hnl]
  refine ⟨_, rfl, rfl, ?_⟩
  dsimp only
  apply slice_length
  rw [List.length_append, hhl, hb']; omega

variable {e : Env} {md5 : Md5} {b : Builder} {f : List Byte}

theorem createHet_content {names : List (List Byte)} {hd : List Byte} (h : createHetTable names = .ok hd) :
    ∃ c, hetContent names = .ok c := by
  unfold createHetTable at h
  obtain ⟨c, hc, _⟩ := bind_eq_ok.1 h
  exact ⟨c, hc⟩

theorem createBet_content {names : List (List Byte)} {blocks : List BlockEntry} {hd : List Byte}
    (h : createBetTable names blocks = .ok hd) : ∃ c, betContent names blocks = .ok c := by
  unfold createBetTable at h
  obtain ⟨c, hc, _⟩ := bind_eq_ok.1 h
  exact ⟨c, hc⟩

theorem writeExt_long {e : Codecs} {o : TableOptions} {data written : List Byte} {key : U32}
    (h : writeExtTable e o data key = .ok written) : 12 ≤ written.length := by
  unfold writeExtTable at h
  by_cases hl : data.length < 12
  · rw [if_pos hl] at h; cases h
  · rw [if_neg hl] at h
    have key : ∃ processed, written = data.take 12 ++ encryptData processed key := by
      cases ho : o.compressTables with
      | true =>
        rw [ho] at h
        obtain ⟨x, _, h⟩ := bind_eq_ok.1 h
        injection h with h
        exact ⟨_, h.symm⟩
      | false =>
        rw [ho] at h
        injection h with h
        exact ⟨_, h.symm⟩
    obtain ⟨processed, rfl⟩ := key
    rw [List.length_append, List.length_take]; omega

theorem Layout.v4Data_eq (L : Layout e md5 b f) : L.hdr.v4Data = L.v4Data := by
  unfold Layout.hdr parsedHeader
  dsimp only
  by_cases h4 : b.version = .v4
  · rw [if_pos h4, L.params_eq]
  · rw [if_neg h4, L.v4_none h4]

/-- The place and size of the HET table that the reader works out are those of the bytes written. -/
theorem Layout.loadHet (L : Layout e md5 b f) (hmd : ∀ x, (md5 x).length = 16) (before after : List Byte)
    (hlen : f.length < addressable b.version) (hfit : before.length + f.length < 2 ^ 64) (hv : b.version.ge .v3 = true) :
    ∃ pre post, before ++ f ++ after = pre ++ L.het ++ post ∧
      loadHet e (before ++ f ++ after) before.length L.hdr =
        tolerate (readHetTable e.codecs (before ++ f ++ after) pre.length L.het.length hashTableKey) := by
  have e48 : 2 ^ 48 = 281474976710656 := rfl
  have e64 : 2 ^ 64 = 18446744073709551616 := rfl
  have h48 := addressable_le b.version
  have hfl := L.f_length hmd
  have hhdr := L.header_length hmd
  obtain ⟨p1, _⟩ := L.positions hmd hlen
  obtain ⟨hd, bd, hhd, hwh, hbd, hwb⟩ := L.extended hv
  have h12 := writeExt_long hwh
  have h34 : b.version = .v3 ∨ b.version = .v4 := by revert hv; cases b.version <;> decide
  refine ⟨before ++ L.header ++ L.files, L.bet ++ L.hash ++ L.block ++ L.hi ++ after, ?_, ?_⟩
  · conv => lhs; rw [L.bytes]
    simp only [List.append_assoc]
  have hhet : L.hdr.hetTablePos = some (BitVec.ofNat 64 (b.version.headerSize.toNat + L.files.length)) := by
    unfold Layout.hdr parsedHeader
    dsimp only
    rw [if_pos h34, L.params_eq]
    dsimp only
    rw [if_pos hv]; rfl
  have hbet : L.hdr.betTablePos = some (BitVec.ofNat 64 (b.version.headerSize.toNat + L.files.length + L.het.length)) := by
    unfold Layout.hdr parsedHeader
    dsimp only
    rw [if_pos h34, L.params_eq]
    dsimp only
    rw [if_pos hv]; rfl
  have t1 : (BitVec.ofNat 64 (b.version.headerSize.toNat + L.files.length) : U64).toNat =
      b.version.headerSize.toNat + L.files.length := by rw [BitVec.toNat_ofNat, Nat.mod_eq_of_lt (by omega)]
  have t2 : (BitVec.ofNat 64 (b.version.headerSize.toNat + L.files.length + L.het.length) : U64).toNat =
      b.version.headerSize.toNat + L.files.length + L.het.length := by
    rw [BitVec.toNat_ofNat, Nat.mod_eq_of_lt (by omega)]
  have hne : BitVec.ofNat 64 (b.version.headerSize.toNat + L.files.length) ≠ 0#64 := by
    intro h0
    rw [h0] at t1
    have h00 : (0#64).toNat = 0 := rfl
    have : 32 ≤ b.version.headerSize.toNat := by cases b.version <;> decide
    omega
  have hsize : hetTableSizeOf L.hdr (BitVec.ofNat 64 (b.version.headerSize.toNat + L.files.length)) =
      .ok (BitVec.ofNat 64 L.het.length) := by
    unfold hetTableSizeOf
    rw [hbet]
    dsimp only
    rw [if_pos (by omega)]
    unfold sub64
    rw [if_pos (by omega)]
    congr 1
    apply BitVec.eq_of_toNat_eq
    rw [BitVec.toNat_sub_of_le (by rw [BitVec.le_def]; omega), t1, t2, BitVec.toNat_ofNat, Nat.mod_eq_of_lt (by omega)]
    omega
  have hln : (BitVec.ofNat 64 L.het.length : U64).toNat = L.het.length := by
    rw [BitVec.toNat_ofNat, Nat.mod_eq_of_lt (by omega)]
  have hl0 : (BitVec.ofNat 64 L.het.length : U64) ≠ 0#64 := by
    intro h0
    rw [h0] at hln
    have h00 : (0#64).toNat = 0 := rfl
    omega
  have hfv : L.hdr.formatVersion = b.version := rfl
  have hend : (do
      let offset ← addPos before.length (BitVec.ofNat 64 (b.version.headerSize.toNat + L.files.length))
      tolerate (readHetTable e.codecs (before ++ f ++ after) offset (BitVec.ofNat 64 L.het.length : U64).toNat
        hashTableKey)) = tolerate (readHetTable e.codecs (before ++ f ++ after)
        (before ++ L.header ++ L.files).length L.het.length hashTableKey) := by
    rw [addPos_ok (by omega), t1, hln]
    simp only [List.length_append, hhdr, bind, Except.bind]
    rw [show before.length + (b.version.headerSize.toNat + L.files.length) = before.length + b.version.headerSize.toNat + L.files.length by omega]
  rw [← hend]
  unfold Mopaq.loadHet
  rw [hhet]
  dsimp only
  rw [if_neg hne, hfv]
  rcases h34 with h3 | h4
  · have hc : (L.hdr.v4Data.map (·.hetTableSize64)).getD 0#64 = 0#64 := by
      rw [L.v4Data_eq, L.v4_none (by rw [h3]; decide)]; rfl
    have hb : (decide ((L.hdr.v4Data.map (·.hetTableSize64)).getD 0#64 = 0#64) && b.version == .v3) = true := by
      rw [hc, h3]; rfl
    simp only [hb, if_true, hsize, bind, Except.bind]
    rw [if_neg hl0]
  · have hc : (L.hdr.v4Data.map (·.hetTableSize64)).getD 0#64 = BitVec.ofNat 64 L.het.length := by
      rw [L.v4Data_eq, L.v4_some h4]; rfl
    have hb : (decide ((L.hdr.v4Data.map (·.hetTableSize64)).getD 0#64 = 0#64) && b.version == .v3) = false := by
      rw [h4]; exact Bool.and_false _
    rw [hb, hc]
    simp only [Bool.false_eq_true, if_false, bind, Except.bind, pure, Except.pure]
    rw [if_neg hl0]

/-- The same for the BET table. -/
theorem Layout.loadBet (L : Layout e md5 b f) (hmd : ∀ x, (md5 x).length = 16) (before after : List Byte)
    (hlen : f.length < addressable b.version) (hfit : before.length + f.length < 2 ^ 64) (hv : b.version.ge .v3 = true) :
    ∃ pre post, before ++ f ++ after = pre ++ L.bet ++ post ∧
      loadBet e (before ++ f ++ after) before.length L.hdr =
        tolerate (readBetTable e.codecs (before ++ f ++ after) pre.length L.bet.length blockTableKey) := by
  have e48 : 2 ^ 48 = 281474976710656 := rfl
  have e64 : 2 ^ 64 = 18446744073709551616 := rfl
  have h48 := addressable_le b.version
  have hfl := L.f_length hmd
  have hhdr := L.header_length hmd
  obtain ⟨p1, _⟩ := L.positions hmd hlen
  obtain ⟨hd, bd, hhd, hwh, hbd, hwb⟩ := L.extended hv
  have h12 := writeExt_long hwb
  have h34 : b.version = .v3 ∨ b.version = .v4 := by revert hv; cases b.version <;> decide
  refine ⟨before ++ L.header ++ L.files ++ L.het, L.hash ++ L.block ++ L.hi ++ after, ?_, ?_⟩
  · conv => lhs; rw [L.bytes]
    simp only [List.append_assoc]
  have hbet : L.hdr.betTablePos = some (BitVec.ofNat 64 (b.version.headerSize.toNat + L.files.length + L.het.length)) := by
    unfold Layout.hdr parsedHeader
    dsimp only
    rw [if_pos h34, L.params_eq]
    dsimp only
    rw [if_pos hv]; rfl
  have t2 : (BitVec.ofNat 64 (b.version.headerSize.toNat + L.files.length + L.het.length) : U64).toNat =
      b.version.headerSize.toNat + L.files.length + L.het.length := by
    rw [BitVec.toNat_ofNat, Nat.mod_eq_of_lt (by omega)]
  have hne : BitVec.ofNat 64 (b.version.headerSize.toNat + L.files.length + L.het.length) ≠ 0#64 := by
    intro h0
    rw [h0] at t2
    have h00 : (0#64).toNat = 0 := rfl
    have : 32 ≤ b.version.headerSize.toNat := by cases b.version <;> decide
    omega
  have hsize : betTableSizeOf L.hdr (BitVec.ofNat 64 (b.version.headerSize.toNat + L.files.length + L.het.length)) =
      .ok (BitVec.ofNat 64 L.bet.length) := by
    unfold betTableSizeOf sub64
    rw [if_pos (by omega)]
    congr 1
    apply BitVec.eq_of_toNat_eq
    rw [BitVec.toNat_sub_of_le (by rw [BitVec.le_def]; omega), p1, t2, BitVec.toNat_ofNat, Nat.mod_eq_of_lt (by omega)]
    omega
  have hln : (BitVec.ofNat 64 L.bet.length : U64).toNat = L.bet.length := by
    rw [BitVec.toNat_ofNat, Nat.mod_eq_of_lt (by omega)]
  have hl0 : (BitVec.ofNat 64 L.bet.length : U64) ≠ 0#64 := by
    intro h0
    rw [h0] at hln
    have h00 : (0#64).toNat = 0 := rfl
    omega
  have hfv : L.hdr.formatVersion = b.version := rfl
  have hend : (do
      let offset ← addPos before.length (BitVec.ofNat 64 (b.version.headerSize.toNat + L.files.length + L.het.length))
      tolerate (readBetTable e.codecs (before ++ f ++ after) offset (BitVec.ofNat 64 L.bet.length : U64).toNat
        blockTableKey)) = tolerate (readBetTable e.codecs (before ++ f ++ after)
        (before ++ L.header ++ L.files ++ L.het).length L.bet.length blockTableKey) := by
    rw [addPos_ok (by omega), t2, hln]
    simp only [List.length_append, hhdr, bind, Except.bind]
    rw [show before.length + (b.version.headerSize.toNat + L.files.length + L.het.length) = before.length + b.version.headerSize.toNat + L.files.length + L.het.length by omega]
  rw [← hend]
  unfold Mopaq.loadBet
  rw [hbet]
  dsimp only
  rw [if_neg hne, hfv]
  rcases h34 with h3 | h4
  · have hc : (L.hdr.v4Data.map (·.betTableSize64)).getD 0#64 = 0#64 := by
      rw [L.v4Data_eq, L.v4_none (by rw [h3]; decide)]; rfl
    have hb : (decide ((L.hdr.v4Data.map (·.betTableSize64)).getD 0#64 = 0#64) && b.version == .v3) = true := by
      rw [hc, h3]; rfl
    simp only [hb, if_true, hsize, bind, Except.bind]
    rw [if_neg hl0]
  · have hc : (L.hdr.v4Data.map (·.betTableSize64)).getD 0#64 = BitVec.ofNat 64 L.bet.length := by
      rw [L.v4Data_eq, L.v4_some h4]; rfl
    have hb : (decide ((L.hdr.v4Data.map (·.betTableSize64)).getD 0#64 = 0#64) && b.version == .v3) = false := by
      rw [h4]; exact Bool.and_false _
    rw [hb, hc]
    simp only [Bool.false_eq_true, if_false, bind, Except.bind, pure, Except.pure]
    rw [if_neg hl0]

end Mopaq
