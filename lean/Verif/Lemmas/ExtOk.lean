import Verif.Lemmas.BuildOk

/-! # When the extended tables can be made -/

namespace Mopaq

/-- The probing loop finds a free slot if there is one. -/
theorem hetProbe_returns (taken : List Bool) (start : Nat) (hs : start < taken.length) (hfree : false ∈ taken) :
    ∀ (fuel d : Nat), fuel + d = taken.length → (∀ j < d, taken[(start + j) % taken.length]? = some true) →
    ∃ i, hetProbe taken start fuel ((start + d) % taken.length) = .ok i ∧ taken[i]? = some false := by
  intro fuel
  induction fuel with
  | zero =>
    intro d hd hall
    exfalso
    obtain ⟨i, hi⟩ := List.mem_iff_getElem?.1 hfree
    have hil := (List.getElem?_eq_some_iff.1 hi).1
    have := hall ((i + taken.length - start) % taken.length) (by
      rw [← hd, Nat.zero_add]; exact Nat.mod_lt _ (by omega))
    rw [Nat.add_mod_mod, show start + (i + taken.length - start) = i + taken.length by omega, Nat.add_mod_right,
      Nat.mod_eq_of_lt hil, hi] at this
    cases this
  | succ fuel ih =>
    intro d hd hall
    rw [hetProbe]
    have hlt : (start + d) % taken.length < taken.length := Nat.mod_lt _ (by omega)
    cases hg : taken[(start + d) % taken.length]? with
    | none => rw [List.getElem?_eq_none_iff] at hg; omega
    | some b =>
      cases b with
      | false => exact ⟨_, rfl, hg⟩
      | true =>
        dsimp only
        have hall' : ∀ j < d + 1, taken[(start + j) % taken.length]? = some true := by
          intro j hj
          by_cases h : j = d
          · rw [h]; exact hg
          · exact hall j (by omega)
        rw [Nat.mod_add_mod]
        have hne : (start + d + 1) % taken.length ≠ start := by
          intro h
          have hdl : d + 1 = taken.length := by
            by_cases hw : start + d + 1 < taken.length
            · rw [Nat.mod_eq_of_lt hw] at h; omega
            · have h2 : (start + d + 1) % taken.length = start + d + 1 - taken.length := by
                rw [Nat.mod_eq_sub_mod (by omega), Nat.mod_eq_of_lt (by omega)]
              omega
          obtain ⟨i, hi⟩ := List.mem_iff_getElem?.1 hfree
          have hil := (List.getElem?_eq_some_iff.1 hi).1
          have := hall' ((i + taken.length - start) % taken.length) (by rw [hdl]; exact Nat.mod_lt _ (by omega))
          rw [Nat.add_mod_mod, show start + (i + taken.length - start) = i + taken.length by omega, Nat.add_mod_right,
            Nat.mod_eq_of_lt hil, hi] at this
          cases this
        rw [if_neg hne]
        exact ih (d + 1) (by omega) hall'

theorem writeBit_inside (data : List Byte) (slot entries w : Nat) (v : U64) (hs : slot < entries)
    (hl : data.length = (entries * w + 7) / 8) : ∃ out, writeBitEntry data slot v w = .ok out := by
  rw [writeBitEntry_ok_iff, hl]
  have : (slot + 1) * w ≤ entries * w := Nat.mul_le_mul_right _ hs
  rw [Nat.add_mul, Nat.one_mul] at this
  omega

theorem hetInsertAll_returns (entries hs is : Nat) (k : Nat) (hk : entries = 2 ^ k) (hk64 : k < 64) :
    ∀ (names : List (List Byte)) (taken : List Bool) (table : List Byte) (i : Nat), taken.length = entries →
    table.length = (entries * (hs + is) + 7) / 8 → taken.count true + names.length ≤ entries →
    ∃ r, hetInsertAll entries hs is (taken, table) i names = .ok r := by
  intro names
  induction names with
  | nil => intro taken table i _ _ _; exact ⟨_, rfl⟩
  | cons name names ih =>
    intro taken table i hl ht hc
    rw [List.length_cons] at hc
    have hpos : 0 < entries := by rw [hk]; exact Nat.two_pow_pos _
    have hstart : (jenkinsHash name &&& BitVec.ofNat 64 (entries - 1)).toNat < entries := by
      rw [BitVec.toNat_and, BitVec.toNat_ofNat]
      have h64 : entries - 1 < 2 ^ 64 := by
        have : entries < 2 ^ 64 := by rw [hk]; exact Nat.pow_lt_pow_right (by decide) hk64
        omega
      rw [Nat.mod_eq_of_lt h64]
      have := Nat.and_le_right (n := (jenkinsHash name).toNat) (m := entries - 1)
      omega
    have hfree : false ∈ taken := by
      apply Classical.byContradiction
      intro hn
      have : taken.count true = taken.length := by
        rw [List.count_eq_length]
        intro b hb
        cases b with
        | true => rfl
        | false => exact absurd hb hn
      omega
    obtain ⟨slot, hslot, hf⟩ := hetProbe_returns taken _ (by rw [hl]; exact hstart) hfree entries 0 (by omega)
      (fun j hj => absurd hj (by omega))
    rw [Nat.add_zero, Nat.mod_eq_of_lt (by rw [hl]; exact hstart)] at hslot
    have hsl : slot < taken.length := (List.getElem?_eq_some_iff.1 hf).1
    obtain ⟨out, hout⟩ := writeBit_inside table slot entries (hs + is)
      ((jenkinsHash name &&& lowMask hs) ||| (BitVec.ofNat 64 i <<< hs)) (by omega) ht
    have hlo := writeBitEntry_length _ _ _ _ _ hout
    obtain ⟨r, hr⟩ := ih (taken.set slot true) out (i + 1) (by rw [List.length_set]; exact hl) (by rw [hlo]; exact ht) (by
      rw [List.count_set hsl]
      have := (List.getElem?_eq_some_iff.1 hf).2
      rw [this]
      simp
      omega)
    refine ⟨r, ?_⟩
    rw [hetInsertAll]
    unfold hetInsert
    dsimp only
    rw [hslot]
    simp only [bind, Except.bind]
    rw [hout]
    exact hr

theorem u32Checked_small {n : Nat} (h : n < 2 ^ 32) : u32Checked n = .ok n := by
  unfold u32Checked; rw [if_pos h]

theorem hetContent_returns (names : List (List Byte)) (hn : names.length ≤ 2 ^ 22) : ∃ c, hetContent names = .ok c := by
  have h22 : (2 : Nat) ^ 22 = 4194304 := rfl
  have h32 : (2 : Nat) ^ 32 = 4294967296 := rfl
  unfold hetContent
  dsimp only
  rw [Nat.mod_eq_of_lt (show names.length < 2 ^ 32 by omega)]
  rw [u32Checked_small (by omega)]
  simp only [bind, Except.bind]
  have hnp : ∃ k, k ≤ 23 ∧ nextPowerOfTwo (names.length * 2) = .ok (2 ^ k) ∧ names.length * 2 ≤ 2 ^ k := by
    unfold nextPowerOfTwo
    dsimp only
    by_cases h1 : names.length * 2 ≤ 1
    · rw [if_pos h1]
      exact ⟨0, by omega, by rw [if_pos (by decide)], by omega⟩
    · rw [if_neg h1]
      have hlog : names.length * 2 - 1 < 2 ^ (Nat.log2 (names.length * 2 - 1) + 1) := Nat.lt_log2_self
      have hle : Nat.log2 (names.length * 2 - 1) < 23 := (Nat.log2_lt (by omega)).2 (by omega)
      refine ⟨Nat.log2 (names.length * 2 - 1) + 1, by omega, ?_, by omega⟩
      rw [if_pos (Nat.pow_lt_pow_right (by decide) (by omega))]
  obtain ⟨k, hk, hne, hle⟩ := hnp
  rw [hne]
  dsimp only
  have hb1 : bitsNeeded (2 ^ k) ≤ 24 := bitsNeeded_le (by omega) (Nat.pow_lt_pow_right (by decide) (by omega))
  have hb2 : bitsNeeded names.length ≤ 23 := bitsNeeded_le (by omega) (by omega)
  have hk2 : 2 ^ k ≤ 2 ^ 23 := Nat.pow_le_pow_right (by decide) hk
  have h23 : (2 : Nat) ^ 23 = 8388608 := rfl
  have m1 : 2 ^ k * bitsNeeded (2 ^ k) ≤ 2 ^ 23 * 24 := Nat.mul_le_mul hk2 hb1
  have m2 : 2 ^ k * bitsNeeded names.length ≤ 2 ^ 23 * 23 := Nat.mul_le_mul hk2 hb2
  have m3 : 2 ^ k * (bitsNeeded (2 ^ k) + bitsNeeded names.length) ≤ 2 ^ 23 * 47 := Nat.mul_le_mul hk2 (by omega)
  rw [u32Checked_small (by omega)]
  dsimp only
  rw [u32Checked_small (by omega)]
  dsimp only
  rw [u32Checked_small (by omega)]
  dsimp only
  obtain ⟨r, hr⟩ := hetInsertAll_returns (2 ^ k) (bitsNeeded (2 ^ k)) (bitsNeeded names.length) k rfl (by omega) names
    (List.replicate (2 ^ k) false)
    (List.replicate ((2 ^ k * (bitsNeeded (2 ^ k) + bitsNeeded names.length) + 7) / 8) 0#8) 0 List.length_replicate
    List.length_replicate (by
      have hc : (List.replicate (2 ^ k) false).count true = 0 := by rw [List.count_replicate]; rfl
      rw [hc]; omega)
  rw [hr]
  dsimp only
  rw [u32Checked_small (by omega)]
  dsimp only
  rw [u32Checked_small (by omega)]
  exact ⟨_, rfl⟩

theorem packEntry_returns {w : BetWidths} (h : w.pos + w.size + w.cmp < 64) (flags : List U32) (b : BlockEntry) :
    ∃ v, packEntry w flags b = .ok v := by
  unfold packEntry shl64
  rw [if_pos (by omega), if_pos (by omega), if_pos (by omega)]
  exact ⟨_, rfl⟩

theorem fillFileTable_returns {w : BetWidths} (h : w.pos + w.size + w.cmp < 64) (flags : List U32) (n : Nat) :
    ∀ (bs : List BlockEntry) (table : List Byte) (i : Nat), table.length = (n * w.total + 7) / 8 → i + bs.length ≤ n →
    ∃ out, fillFileTable w flags table i bs = .ok out
  | [], _, _, _, _ => ⟨_, rfl⟩
  | b :: bs, table, i, hl, hb => by
    rw [List.length_cons] at hb
    obtain ⟨v, hv⟩ := packEntry_returns h flags b
    obtain ⟨out, hout⟩ := writeBit_inside table i n w.total v (by omega) hl
    obtain ⟨r, hr⟩ := fillFileTable_returns h flags n bs out (i + 1) (by rw [writeBitEntry_length _ _ _ _ _ hout]; exact hl)
      (by omega)
    exact ⟨r, by rw [fillFileTable, hv]; simp only [bind, Except.bind]; rw [hout]; exact hr⟩

theorem betContent_returns (names : List (List Byte)) (blocks : List BlockEntry) (hl : blocks.length = names.length)
    (hn : names.length ≤ 2 ^ 22)
    (hw : (betWidths blocks).pos + (betWidths blocks).size + (betWidths blocks).cmp < 64) :
    ∃ c, betContent names blocks = .ok c := by
  have h22 : (2 : Nat) ^ 22 = 4194304 := rfl
  have h32 : (2 : Nat) ^ 32 = 4294967296 := rfl
  have hmod : names.length % 2 ^ 32 = names.length := Nat.mod_eq_of_lt (by omega)
  have htake : blocks.take names.length = blocks := by rw [← hl, List.take_length]
  have htn : names.take blocks.length = names := by rw [hl, List.take_length]
  have hfl := flagArray_length_le blocks
  have hflag : (betWidths blocks).flag ≤ 32 := by
    unfold betWidths
    dsimp only
    split
    · omega
    · exact bitsNeeded_le (by omega) (by omega)
  have htot : (betWidths blocks).total ≤ 96 := by unfold BetWidths.total; omega
  have m1 : names.length * (betWidths blocks).total ≤ 2 ^ 22 * 96 := Nat.mul_le_mul hn htot
  obtain ⟨ft, hft⟩ := fillFileTable_returns hw (flagArray blocks) names.length blocks
    (List.replicate ((names.length * (betWidths blocks).total + 7) / 8) 0#8) 0 List.length_replicate (by omega)
  have hfh := fillHashes_spec (names.map jenkinsHash) [] 0 rfl
  rw [List.length_map, List.nil_append] at hfh
  unfold betContent
  dsimp only
  simp only [hmod, htake, htn]
  rw [u32Checked_small (by omega), u32Checked_small (by omega)]
  simp only [bind, Except.bind]
  rw [hft]
  dsimp only
  rw [u32Checked_small (by omega)]
  dsimp only
  rw [u32Checked_small (by omega)]
  dsimp only
  rw [show (names.length * 64 + 7) / 8 = 8 * names.length by omega, hfh]
  exact ⟨_, rfl⟩

/-- A bound on the bytes a file takes. -/
def storedBound (p : PendingFile) : Nat :=
  match p.source with
  | none => 0
  | some data => data.length + data.length / 64 + 12

theorem storeFile_bound {e : Env} {crcs : Bool} {shift : U16} {ss pos : Nat} {p : PendingFile} {s : Stored}
    (hss : sectorSizeOf shift = .ok ss) (h : storeFile e crcs ss pos p = .ok s) (hb : storedBound p < 2 ^ 32) :
    s.bytes.length ≤ storedBound p ∧ s.block.fileSize.toNat ≤ storedBound p ∧
    s.block.compressedSize.toNat ≤ storedBound p ∧ s.block.filePos.toNat ≤ pos := by
  obtain ⟨data, w, hd, hw, hs⟩ := storeFile_ok h
  have hsb : storedBound p = data.length + data.length / 64 + 12 := by unfold storedBound; rw [hd]
  rw [hsb] at hb ⊢
  have h32 : (2 : Nat) ^ 32 = 4294967296 := rfl
  obtain ⟨hsz, hbytes⟩ := writeFile_facts hw hss hb
  have hsize : w.size + (if crcs then 4 * checksumCount ss data.length else 0) ≤ data.length + data.length / 64 + 12 := by
    rw [← hbytes]
    unfold writeFile at hw
    dsimp only at hw
    by_cases hlen : data.length ≤ ss
    · rw [if_pos hlen] at hw
      obtain ⟨x, b, hx, hf, hsz, hbytes⟩ := writeSingle_eq hw
      have hle : x.length ≤ data.length := by
        rcases storeUnit_cases hx with ⟨_, h⟩ | ⟨_, hne, _, _, hc⟩
        · rw [h]; exact Nat.le_refl _
        · rcases C14_never_grows _ _ _ _ hc with h | ⟨h, _⟩
          · exact absurd h hne
          · exact h
      rw [hbytes, List.length_append, final_length]
      have : (if crcs then le32 (e.adler data) else []).length ≤ 4 := by split <;> simp
      dsimp only at this ⊢
      omega
    · rw [if_neg hlen] at hw
      obtain ⟨count, stored, hc, hst, hf, hread⟩ := writeSectored_eq hw
      obtain ⟨hss0, hcount, hle, hpos, hge⟩ := divCeil_ok hc
      have h512 := sectorSizeOf_512 hss hss0
      have hpw := mapM_ok hst
      obtain ⟨hflat, _⟩ := sectorsOf_spec ss count data 0 hle
      have htot := flatten_stored_le hpw
      dsimp only at htot hge hcount hread
      rw [hflat] at htot
      have hcb : (count - 1) * 512 ≤ data.length := Nat.le_trans (Nat.mul_le_mul_left _ h512) hge
      have hbound : (count + 1) * 4 + (if crcs then count * 4 else 0) + (stored.map (·.1)).flatten.length < 2 ^ 32 := by
        split <;> omega
      obtain ⟨hz, _⟩ := hread hbound
      rw [hbytes, hz]
      unfold checksumCount
      dsimp only
      rw [if_neg hlen, ← hcount]
      split <;> omega
  have e1 : s.block.fileSize = BitVec.ofNat 32 data.length := by rw [hs]
  have e2 : s.block.compressedSize = BitVec.ofNat 32 w.size := by rw [hs]
  have e3 : s.block.filePos = BitVec.ofNat 32 pos := by rw [hs]
  have e4 : s.bytes = w.bytes := by rw [hs]
  refine ⟨?_, ?_, ?_, ?_⟩
  · rw [e4, hbytes]; exact hsize
  · rw [e1, BitVec.toNat_ofNat]; exact Nat.le_trans (Nat.mod_le _ _) (by omega)
  · rw [e2, BitVec.toNat_ofNat]; exact Nat.le_trans (Nat.mod_le _ _) (by omega)
  · rw [e3, BitVec.toNat_ofNat]; exact Nat.mod_le _ _

theorem storedAt_bound {e : Env} {crcs : Bool} {shift : U16} {ss : Nat} (hss : sectorSizeOf shift = .ok ss) :
    ∀ {ps : List PendingFile} {st : List Stored} {pos : Nat}, StoredAt e crcs ss pos ps st →
    (∀ p ∈ ps, storedBound p < 2 ^ 32) → ∀ s ∈ st, s.block.filePos.toNat ≤ pos + (ps.map storedBound).sum ∧
      s.block.fileSize.toNat ≤ pos + (ps.map storedBound).sum ∧ s.block.compressedSize.toNat ≤ pos + (ps.map storedBound).sum
  | [], [], _, _, _, s, hs => by cases hs
  | [], _ :: _, _, h, _, _, _ => h.elim
  | _ :: _, [], _, h, _, _, _ => h.elim
  | p :: ps, s' :: st, pos, h, hb, s, hs => by
    obtain ⟨b1, b2, b3, b4⟩ := storeFile_bound hss h.1 (hb p List.mem_cons_self)
    rw [List.map_cons, List.sum_cons]
    rcases List.mem_cons.1 hs with rfl | hs
    · omega
    · obtain ⟨c1, c2, c3⟩ := storedAt_bound hss h.2 (fun q hq => hb q (List.mem_cons_of_mem _ hq)) s hs
      omega

theorem maxField_le (field : BlockEntry → U32) (n : Nat) (bs : List BlockEntry) (h : ∀ b ∈ bs, (field b).toNat ≤ n) :
    maxField field bs ≤ n := by
  have : ∀ (l : List BlockEntry) (m : Nat), m ≤ n → (∀ b ∈ l, (field b).toNat ≤ n) →
      l.foldl (fun m b => max m (field b).toNat) m ≤ n := by
    intro l
    induction l with
    | nil => intro m h _; exact h
    | cons b l ih =>
      intro m h hb
      rw [List.foldl_cons]
      exact ih _ (Nat.max_le.2 ⟨h, hb b List.mem_cons_self⟩) fun b' hb' => hb b' (List.mem_cons_of_mem _ hb')
  exact this bs 0 (Nat.zero_le _) h

/-- A table is written whenever it can be compressed, if it is to be. -/
theorem writeExt_returns (e : Codecs) (o : TableOptions) (data : List Byte) (key : U32) (hl : 12 ≤ data.length)
    (ho : o.compressTables = false ∨ ∀ x, ∃ c, compress e x o.tableCompression = .ok c) :
    ∃ w, writeExtTable e o data key = .ok w := by
  unfold writeExtTable
  rw [if_neg (by omega)]
  cases hc : o.compressTables with
  | false => exact ⟨_, rfl⟩
  | true =>
    obtain ⟨c, hcc⟩ := (ho.resolve_left (by rw [hc]; decide)) (data.drop 12)
    dsimp only
    rw [if_pos rfl, hcc]
    exact ⟨_, rfl⟩

/-- Compressing a table adds at most one byte. -/
theorem writeExt_length {e : Codecs} {o : TableOptions} {data w : List Byte} {key : U32}
    (h : writeExtTable e o data key = .ok w) : w.length ≤ data.length + 1 := by
  unfold writeExtTable at h
  by_cases hl : data.length < 12
  · rw [if_pos hl] at h; cases h
  rw [if_neg hl] at h
  cases hc : o.compressTables with
  | false =>
    rw [hc] at h
    have h := Except.ok.inj h
    rw [← h, List.length_append, encryptData_length, List.length_take, List.length_drop]
    omega
  | true =>
    rw [hc] at h
    obtain ⟨c, hcc, h⟩ := bind_eq_ok.1 h
    have h := Except.ok.inj h
    have hcl : c.length ≤ (data.drop 12).length := by
      rcases C14_never_grows _ _ _ _ hcc with h | ⟨h, _⟩
      · rw [h]; exact Nat.le_refl _
      · exact h
    rw [List.length_drop] at hcl
    rw [← h, List.length_append, encryptData_length, List.length_take, List.length_cons]
    omega

/-- Versions 3 and 4 build when everything fits in 2 MiB and the tables can be compressed, if they are to be. -/
theorem build_extended_small {e : Env} {md5 : Md5} {b : Builder} {pending : List PendingFile} (h : Buildable e b pending)
    (hv : b.version.ge .v3 = true)
    (ho : b.tables.compressTables = false ∨ ∀ x, ∃ c, compress e.codecs x b.tables.tableCompression = .ok c)
    (hsum : (pending.map storedBound).sum + b.version.headerSize.toNat < 2 ^ 21) : ∃ f, buildBytes e md5 b = .ok f := by
  have h21 : (2 : Nat) ^ 21 = 2097152 := rfl
  have h22 : (2 : Nat) ^ 22 = 4194304 := rfl
  have hbound : ∀ p ∈ pending, storedBound p < 2 ^ 32 := by
    intro p hp
    obtain ⟨data, hd, hs, _⟩ := h.readable p hp
    unfold storedBound; rw [hd]; exact hs
  have hcount : pending.length ≤ (pending.map storedBound).sum := by
    have : ∀ l : List PendingFile, (∀ p ∈ l, ∃ data, p.source = some data) → l.length ≤ (l.map storedBound).sum := by
      intro l
      induction l with
      | nil => intro _; simp
      | cons p l ih =>
        intro hl
        obtain ⟨data, hd⟩ := hl p List.mem_cons_self
        have := ih fun q hq => hl q (List.mem_cons_of_mem _ hq)
        rw [List.length_cons, List.map_cons, List.sum_cons]
        have : storedBound p = data.length + data.length / 64 + 12 := by unfold storedBound; rw [hd]
        omega
    exact this pending fun p hp => by obtain ⟨d, hd, _⟩ := h.readable p hp; exact ⟨d, hd⟩
  refine build_extended h hv ?_ ?_
  · obtain ⟨c, hc⟩ := hetContent_returns (pending.map (·.name)) (by rw [List.length_map]; omega)
    obtain ⟨w, hw⟩ := writeExt_returns e.codecs b.tables
      (extHeaderBytes 0x1A544548#32 c.dataSize ++ (c.header.toBytes ++ (c.hashArea ++ c.indexArea))) hashTableKey (by rw [List.length_append, extHeaderBytes_length]; omega) ho
    exact ⟨_, w, by unfold createHetTable; rw [hc]; rfl, hw⟩
  · intro stored hst
    have hall := storedAt_bound h.sector hst hbound
    have hbits : ∀ field : BlockEntry → U32, (∀ s ∈ stored, (field s.block).toNat < 2 ^ 21) →
        bitsNeeded (maxField field (stored.map (·.block))) ≤ 21 := by
      intro field hf
      refine bitsNeeded_le (by omega) ?_
      have := maxField_le field (2 ^ 21 - 1) (stored.map (·.block)) (by
        intro b' hb'
        obtain ⟨s, hs, rfl⟩ := List.mem_map.1 hb'
        have := hf s hs
        omega)
      omega
    obtain ⟨c, hc⟩ := betContent_returns (pending.map (·.name)) (stored.map (·.block))
      (by rw [List.length_map, List.length_map, hst.length]) (by rw [List.length_map]; omega) (by
        have w1 := hbits (·.filePos) (fun s hs => by have := (hall s hs).1; omega)
        have w2 := hbits (·.fileSize) (fun s hs => by have := (hall s hs).2.1; omega)
        have w3 := hbits (·.compressedSize) (fun s hs => by have := (hall s hs).2.2; omega)
        unfold betWidths
        dsimp only
        omega)
    obtain ⟨w, hw⟩ := writeExt_returns e.codecs b.tables
      (extHeaderBytes 0x1A544542#32 c.dataSize ++
        (c.header.toBytes ++ (ofDwords c.flags ++ (c.fileTable ++ c.hashBytes)))) blockTableKey (by rw [List.length_append, extHeaderBytes_length]; omega) ho
    exact ⟨_, w, by unfold createBetTable; rw [hc]; rfl, hw⟩

variable {e : Env} {md5 : Md5} {b : Builder} {f : List Byte}

theorem storedAt_length {e : Env} {crcs : Bool} {shift : U16} {ss : Nat} (hss : sectorSizeOf shift = .ok ss) :
    ∀ {ps : List PendingFile} {st : List Stored} {pos : Nat}, StoredAt e crcs ss pos ps st →
    (∀ p ∈ ps, storedBound p < 2 ^ 32) → (st.flatMap (·.bytes)).length ≤ (ps.map storedBound).sum
  | [], [], _, _, _ => by simp
  | [], _ :: _, _, h, _ => h.elim
  | _ :: _, [], _, h, _ => h.elim
  | p :: ps, s :: st, pos, h, hb => by
    have h1 := (storeFile_bound hss h.1 (hb p List.mem_cons_self)).1
    have h2 := storedAt_length hss h.2 fun q hq => hb q (List.mem_cons_of_mem _ hq)
    rw [List.flatMap_cons, List.length_append, List.map_cons, List.sum_cons]
    omega

/-- The archive is not much longer than its files. -/
theorem Layout.length_lt (L : Layout e md5 b f) (hmd : ∀ x, (md5 x).length = 16) (hn : L.pending.length < 0xFFFFFFFE)
    (hb : ∀ p ∈ L.pending, storedBound p < 2 ^ 32)
    (hsum : (L.pending.map storedBound).sum < 2 ^ 47) : f.length < 2 ^ 48 := by
  have e47 : (2 : Nat) ^ 47 = 140737488355328 := rfl
  have e48 : (2 : Nat) ^ 48 = 281474976710656 := rfl
  have h32 : (2 : Nat) ^ 32 = 4294967296 := rfl
  have h29 : (2 : Nat) ^ 29 = 536870912 := rfl
  have hk : 2 ^ L.k < 2 ^ 32 := Nat.pow_lt_pow_right (by decide) L.hk
  have h1 := storedAt_length L.sector L.placed hb
  rw [← L.files_eq] at h1
  have h2 : L.hash.length = 16 * 2 ^ L.k := by rw [L.hash_eq, hashTableBytes_length, L.table_length hn]
  have h3 : L.block.length = 16 * L.pending.length := by
    rw [L.block_eq, blockTableBytes_length, List.length_map, L.placed.length]
  have h4 : L.hi.length ≤ 2 * L.pending.length := by
    rw [L.hi_eq]
    split
    · rw [hiBlockTableBytes_length, List.length_map, L.placed.length]; omega
    · simp
  have h5 : L.het.length ≤ 2 ^ 34 ∧ L.bet.length ≤ 2 ^ 34 := by
    by_cases hv : b.version.ge .v3 = true
    · obtain ⟨hd, bd, hhd, hwh, hbd, hwb⟩ := L.extended hv
      obtain ⟨hc, hcc⟩ := createHet_content hhd
      obtain ⟨bc, hbc⟩ := createBet_content hbd
      have hf := hetContent_facts hcc
      have hg := betContent_facts (by rw [List.length_map, List.length_map, L.placed.length])
        (by rw [List.length_map]; exact L.count) hbc
      constructor
      · unfold createHetTable at hhd
        rw [hcc] at hhd
        injection hhd with hhd
        have hwl := writeExt_length hwh
        rw [← hhd, List.length_append, extHeaderBytes_length, List.length_append,
          HetHeader.toBytes_length, List.length_append] at hwl
        have := hf.size
        have := hf.bound
        have := hf.small
        omega
      · unfold createBetTable at hbd
        rw [hbc] at hbd
        injection hbd with hbd
        have hwl := writeExt_length hwb
        rw [← hbd, List.length_append, extHeaderBytes_length, List.length_append,
          BetHeader.toBytes_length, List.length_append, List.length_append, ofDwords_length] at hwl
        have := hg.size
        have := hg.bound
        omega
    · obtain ⟨h1, h2⟩ := L.classic (by simpa using hv)
      rw [h1, h2]; exact ⟨by simp, by simp⟩
  have h34 : (2 : Nat) ^ 34 = 17179869184 := rfl
  have hc := L.count
  have hh : b.version.headerSize.toNat ≤ 208 := by cases b.version <;> decide
  rw [L.f_length hmd]
  omega

end Mopaq
