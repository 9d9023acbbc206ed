import Verif.Lemmas.Bits
import Verif.Lemmas.Crypto
import Verif.Lemmas.Tables
import Verif.Lemmas.HeaderAccept

/-!
# Writing and reading HET and BET tables
-/

namespace Mopaq

/-- Decrypting a written table gives all whole dwords back; the last one to three bytes are something else. -/
theorem decryptTable_encrypt (t : List Byte) (key : U32) (hk : key ≠ 0) :
    decryptTableData (encryptData t key) key =
      t.take (t.length / 4 * 4) ++ (encryptData t key).drop (t.length / 4 * 4) := by
  have hlen := encryptData_length t key
  unfold decryptTableData
  rw [hlen]
  congr 1
  rw [encryptData_eq t key hk]
  have htl : ((ofDwords (encryptBlock [padDword (t.drop (t.length / 4 * 4))]
        (key + BitVec.ofNat 32 (t.length / 4)))).take (t.length % 4)).length < 4 := by
    rw [List.length_take]; omega
  rw [toDwords_ofDwords_append _ _ htl, decryptBlock_encryptBlock, ofDwords_toDwords]
  have hmin : (t.take (t.length / 4 * 4)).length / 4 * 4 = t.length / 4 * 4 := by
    rw [List.length_take]; omega
  rw [hmin, List.take_take, Nat.min_self]

/-- What a reader finds of a table `t` that was written with `key`. -/
def asRead (t : List Byte) (key : U32) : List Byte := decryptTableData (encryptData t key) key

theorem asRead_length (t : List Byte) (key : U32) (hk : key ≠ 0) : (asRead t key).length = t.length := by
  have := encryptData_length t key
  rw [asRead, decryptTable_encrypt t key hk, List.length_append, List.length_take, List.length_drop, this]
  omega

/-- The part of a table that is read back exactly. -/
theorem asRead_prefix (a b : List Byte) (key : U32) (hk : key ≠ 0) (h : a.length ≤ (a ++ b).length / 4 * 4) :
    ∃ b', b'.length = b.length ∧ asRead (a ++ b) key = a ++ b' := by
  have hl := asRead_length (a ++ b) key hk
  have ht : (asRead (a ++ b) key).take a.length = a := by
    rw [asRead, decryptTable_encrypt _ key hk, List.take_append_of_le_length (by rw [List.length_take]; omega),
      List.take_take, Nat.min_eq_left h, List.take_left]
  refine ⟨(asRead (a ++ b) key).drop a.length, ?_, ?_⟩
  · rw [List.length_drop, hl, List.length_append]; omega
  · conv => lhs; rw [← List.take_append_drop a.length (asRead (a ++ b) key), ht]

/-- A table whose length is a multiple of four is read back exactly. -/
theorem asRead_aligned (t : List Byte) (key : U32) (hk : key ≠ 0) (h : t.length % 4 = 0) : asRead t key = t := by
  have h4 : t.length / 4 * 4 = t.length := by omega
  have hl := encryptData_length t key
  rw [asRead, decryptTable_encrypt t key hk, h4, List.take_length, List.drop_of_length_le (by omega), List.append_nil]

theorem extHeaderBytes_length (s : U32) (n : Nat) : (extHeaderBytes s n).length = 12 := by
  simp [extHeaderBytes]

theorem writeExt_plain (e : Codecs) (o : TableOptions) (ho : o.compressTables = false) (s : U32) (n : Nat)
    (t : List Byte) (key : U32) :
    writeExtTable e o (extHeaderBytes s n ++ t) key = .ok (extHeaderBytes s n ++ encryptData t key) := by
  have h12 := extHeaderBytes_length s n
  unfold writeExtTable
  rw [if_neg (by rw [List.length_append]; omega), ho, List.drop_left' h12, List.take_left' h12]
  rfl

/-- Reading a table that was written without compression. -/
theorem readExt_written (e : Codecs) (pre post : List Byte) (s : U32) (n : Nat) (t : List Byte) (key : U32)
    (hk : key ≠ 0) (hn : n ≤ t.length) (ht : t.length + 12 < 2 ^ 32) (hne : t ≠ []) :
    readExtTable e (pre ++ (extHeaderBytes s n ++ encryptData t key) ++ post) pre.length (12 + t.length) s key =
      .ok (asRead t key) := by
  have h12 := extHeaderBytes_length s n
  have hel := encryptData_length t key
  have hr := readAt_mid pre (extHeaderBytes s n ++ encryptData t key) post pre.length (12 + t.length) rfl
    (by rw [List.length_append, h12, hel])
  unfold readExtTable
  rw [readVec_eq _ _ _ (by omega), hr]
  simp only [bind, Except.bind]
  have hlen : (extHeaderBytes s n ++ encryptData t key).length = 12 + t.length := by
    rw [List.length_append, h12, hel]
  have hsig : ofLe32 (slice (extHeaderBytes s n ++ encryptData t key) 0 4) = s := by
    have h : slice (extHeaderBytes s n ++ encryptData t key) 0 4 = le32 s := by
      unfold extHeaderBytes slice
      rw [List.drop_zero, List.append_assoc, List.take_left' (by simp)]
    rw [h, ofLe32_le32]
  have hsz : ofLe32 (slice (extHeaderBytes s n ++ encryptData t key) 8 4) = BitVec.ofNat 32 n := by
    have h : slice (extHeaderBytes s n ++ encryptData t key) 8 4 = le32 (BitVec.ofNat 32 n) := by
      have : extHeaderBytes s n ++ encryptData t key =
          (le32 s ++ le32 1#32) ++ (le32 (BitVec.ofNat 32 n) ++ encryptData t key) := by
        unfold extHeaderBytes; simp only [List.append_assoc]
      rw [this]
      unfold slice
      rw [List.drop_left' (by simp), List.take_left' (by simp)]
    rw [h, ofLe32_le32]
  have h32 : 2 ^ 32 = 4294967296 := rfl
  have hpos : 0 < t.length := List.length_pos_iff.2 hne
  rw [if_neg (by rw [hlen]; omega), if_neg (by rw [hsig]; exact fun hc => hc rfl), hsz, hlen,
    BitVec.toNat_ofNat, Nat.mod_eq_of_lt (by omega), List.drop_left' h12]
  have hc : ¬ (n + 12 > 12 + t.length) := by omega
  have hd : key ≠ 0 ∧ 12 + t.length > 12 := ⟨hk, by omega⟩
  simp only [if_neg hc, if_pos hd]
  rfl

theorem HetHeader.toBytes_length (h : HetHeader) : h.toBytes.length = 32 := by simp [HetHeader.toBytes]
theorem BetHeader.toBytes_length (h : BetHeader) : h.toBytes.length = 76 := by simp [BetHeader.toBytes]

theorem rd32_step {β : Type} (v : U32) (r : List Byte) (k : U32 × List Byte → Res β) :
    (rd32 (le32 v ++ r) >>= k) = k (v, r) := by rw [rd32_le32]; rfl

theorem rd32_step' {β : Type} (v : U32) (k : U32 × List Byte → Res β) :
    (rd32 (le32 v) >>= k) = k (v, []) := by
  have := rd32_step v [] k
  rwa [List.append_nil] at this

theorem parseHetHeader_toBytes (h : HetHeader) (rest : List Byte) :
    parseHetHeader (h.toBytes ++ rest) = .ok h := by
  have hl := h.toBytes_length
  unfold parseHetHeader
  rw [if_neg (by rw [List.length_append]; omega)]
  unfold HetHeader.toBytes
  simp only [List.append_assoc]
  iterate 8 refine (rd32_step _ _ _).trans ?_
  rfl

theorem parseBetHeader_toBytes (h : BetHeader) (rest : List Byte) :
    parseBetHeader (h.toBytes ++ rest) = .ok h := by
  have hl := h.toBytes_length
  unfold parseBetHeader
  rw [if_neg (by rw [List.length_append]; omega)]
  unfold BetHeader.toBytes
  simp only [List.append_assoc]
  iterate 19 refine (rd32_step _ _ _).trans ?_
  rfl

theorem rd32s_ofDwords : ∀ (vs : List U32) (rest : List Byte), rd32s vs.length (ofDwords vs ++ rest) = .ok (vs, rest)
  | [], rest => rfl
  | v :: vs, rest => by
    simp only [ofDwords, List.length_cons, rd32s, List.append_assoc, rd32_le32, bind, Except.bind,
      rd32s_ofDwords vs rest, pure, Except.pure]

/-- `n` eight-byte words can be read from at least `8 * n` bytes. -/
theorem rd64s_total : ∀ (n : Nat) (bs : List Byte), 8 * n ≤ bs.length → ∃ vs, rd64s n bs = .ok (vs, bs.drop (8 * n))
  | 0, bs, _ => ⟨[], by simp [rd64s]⟩
  | n + 1, bs, h => by
    obtain ⟨vs, hv⟩ := rd64s_total n (bs.drop 8) (by rw [List.length_drop]; omega)
    have h1 : rd64 bs = .ok (ofLe64 (bs.take 8), bs.drop 8) := (rd64_ok_iff _ _).2 ⟨by omega, rfl⟩
    refine ⟨ofLe64 (bs.take 8) :: vs, ?_⟩
    simp only [rd64s, h1, bind, Except.bind, hv, pure, Except.pure, List.drop_drop]
    have : 8 + 8 * n = 8 * (n + 1) := by omega
    rw [this]

theorem u32Checked_ok {n m : Nat} (h : u32Checked n = .ok m) : m = n ∧ n < 2 ^ 32 := by
  unfold u32Checked at h
  split at h
  · cases h; exact ⟨rfl, by assumption⟩
  · cases h

theorem hetInsert_length {entries hs is : Nat} {st st' : List Bool × List Byte} {i : Nat} {name : List Byte}
    (h : hetInsert entries hs is st i name = .ok st') : st'.2.length = st.2.length ∧ st'.1.length = st.1.length := by
  unfold hetInsert at h
  obtain ⟨slot, _, h⟩ := bind_eq_ok.1 h
  obtain ⟨table, ht, h⟩ := bind_eq_ok.1 h
  cases h
  exact ⟨writeBitEntry_length _ _ _ _ _ ht, by simp⟩

theorem hetInsertAll_length {entries hs is : Nat} : ∀ {names : List (List Byte)} {st st' : List Bool × List Byte} {i : Nat},
    hetInsertAll entries hs is st i names = .ok st' → st'.2.length = st.2.length
  | [], st, st', i, h => by cases h; rfl
  | n :: names, st, st', i, h => by
    unfold hetInsertAll at h
    obtain ⟨st1, h1, h⟩ := bind_eq_ok.1 h
    rw [hetInsertAll_length h, (hetInsert_length h1).1]

/-- What is known about the parts of a HET table made by the builder. -/
structure HetFacts (names : List (List Byte)) (c : HetContent) : Prop where
  entries : ∃ k, k < 32 ∧ nextPowerOfTwo (names.length % 2 ^ 32 * 2) = .ok (2 ^ k) ∧
    c.header.hashTableSize.toNat = (2 ^ k * bitsNeeded (2 ^ k) + 7) / 8 ∧
    c.header.hashEntrySize.toNat = bitsNeeded (2 ^ k) ∧
    c.header.totalIndexSize.toNat = 2 ^ k * bitsNeeded (names.length % 2 ^ 32) ∧
    c.hashArea.length = (2 ^ k * (bitsNeeded (2 ^ k) + bitsNeeded (names.length % 2 ^ 32)) + 7) / 8
  max : c.header.maxFileCount.toNat = names.length % 2 ^ 32
  index : c.indexArea.length = (c.header.totalIndexSize.toNat + 7) / 8
  size : c.dataSize = 32 + c.header.hashTableSize.toNat + c.indexArea.length
  bound : 12 + c.dataSize < 2 ^ 32
  small : c.hashArea.length ≤ 2 ^ 29

theorem nextPowerOfTwo_ok {x n : Nat} (h : nextPowerOfTwo x = .ok n) : ∃ k, k < 32 ∧ n = 2 ^ k ∧ x ≤ n := by
  unfold nextPowerOfTwo at h
  dsimp only at h
  by_cases hx : x ≤ 1
  · rw [if_pos hx, if_pos (by decide)] at h
    cases h
    exact ⟨0, by omega, rfl, hx⟩
  · rw [if_neg hx] at h
    by_cases hp : 2 ^ (Nat.log2 (x - 1) + 1) < 2 ^ 32
    · rw [if_pos hp] at h
      cases h
      refine ⟨_, (Nat.pow_lt_pow_iff_right (by omega)).1 hp, rfl, ?_⟩
      have := Nat.lt_log2_self (n := x - 1)
      omega
    · rw [if_neg hp] at h
      cases h

theorem bitsNeeded_pos (v : Nat) : 0 < bitsNeeded v := by
  unfold bitsNeeded; split <;> omega

theorem lt_bitsNeeded (v : Nat) : v < 2 ^ bitsNeeded v := by
  unfold bitsNeeded
  split
  · rename_i h; rw [h]; decide
  · rw [Nat.max_eq_left (by omega)]
    exact Nat.lt_log2_self

theorem bitsNeeded_le {v n : Nat} (hn : 0 < n) (h : v < 2 ^ n) : bitsNeeded v ≤ n := by
  unfold bitsNeeded
  split
  · exact hn
  · rename_i h0
    rw [Nat.max_eq_left (by omega)]
    have := (Nat.log2_lt h0).2 h
    omega

theorem hetContent_facts {names : List (List Byte)} {c : HetContent} (h : hetContent names = .ok c) : HetFacts names c := by
  unfold hetContent at h
  obtain ⟨n2, hn2, h⟩ := bind_eq_ok.1 h
  obtain ⟨rfl, h2⟩ := u32Checked_ok hn2
  obtain ⟨en, hen, h⟩ := bind_eq_ok.1 h
  obtain ⟨k, hk, rfl, hle⟩ := nextPowerOfTwo_ok hen
  obtain ⟨a, ha', h⟩ := bind_eq_ok.1 h
  obtain ⟨rfl, ha⟩ := u32Checked_ok ha'
  obtain ⟨b, hb', h⟩ := bind_eq_ok.1 h
  obtain ⟨rfl, hb⟩ := u32Checked_ok hb'
  obtain ⟨d, hd', h⟩ := bind_eq_ok.1 h
  obtain ⟨rfl, hd⟩ := u32Checked_ok hd'
  obtain ⟨st, hst, h⟩ := bind_eq_ok.1 h
  obtain ⟨ds, hds', h⟩ := bind_eq_ok.1 h
  obtain ⟨rfl, hds⟩ := u32Checked_ok hds'
  obtain ⟨ts, hts', h⟩ := bind_eq_ok.1 h
  obtain ⟨rfl, hts⟩ := u32Checked_ok hts'
  injection h with h
  subst h
  have hbits : bitsNeeded (2 ^ k) ≤ 33 := bitsNeeded_le (by omega) (Nat.pow_lt_pow_right (by omega) (by omega))
  have h32 : 2 ^ 32 = 4294967296 := rfl
  have hl := hetInsertAll_length hst
  simp only [List.length_replicate] at hl
  constructor
  · refine ⟨k, hk, hen, ?_, ?_, ?_, hl⟩
    · exact BitVec.toNat_ofNat .. |>.trans (Nat.mod_eq_of_lt (by omega))
    · exact BitVec.toNat_ofNat .. |>.trans (Nat.mod_eq_of_lt (by omega))
    · exact BitVec.toNat_ofNat .. |>.trans (Nat.mod_eq_of_lt (by omega))
  · exact BitVec.toNat_ofNat .. |>.trans (Nat.mod_eq_of_lt (Nat.mod_lt _ (by omega)))
  · dsimp only
    rw [List.length_replicate, BitVec.toNat_ofNat,
      Nat.mod_eq_of_lt (a := 2 ^ k * bitsNeeded (names.length % 2 ^ 32)) hd]
  · dsimp only
    rw [List.length_replicate, BitVec.toNat_ofNat,
      Nat.mod_eq_of_lt (a := (2 ^ k * bitsNeeded (2 ^ k) + 7) / 8) (by omega)]
  · exact hts
  · dsimp only
    rw [hl]
    omega

/-! ## BET -/

theorem mem_insertFlag (v x : U32) : ∀ l : List U32, x ∈ insertFlag v l ↔ x = v ∨ x ∈ l
  | [] => by simp [insertFlag]
  | w :: ws => by
    unfold insertFlag
    split
    · rename_i h; subst h; simp
    · split
      · simp
      · simp only [List.mem_cons, mem_insertFlag v x ws]
        constructor
        · rintro (h | h | h) <;> simp [h]
        · rintro (h | h | h) <;> simp [h]

theorem mem_flagArray (x : U32) : ∀ bs : List BlockEntry, x ∈ flagArray bs ↔ ∃ b ∈ bs, b.flags = x
  | [] => by simp [flagArray]
  | b :: bs => by
    have ih := mem_flagArray x bs
    unfold flagArray at ih ⊢
    rw [List.foldr_cons, mem_insertFlag, ih]
    simp [eq_comm]

theorem foldl_max_ge (field : BlockEntry → U32) : ∀ (bs : List BlockEntry) (m : Nat),
    m ≤ bs.foldl (fun m b => max m (field b).toNat) m ∧
    ∀ b ∈ bs, (field b).toNat ≤ bs.foldl (fun m b => max m (field b).toNat) m
  | [], m => by simp
  | b :: bs, m => by
    obtain ⟨h1, h2⟩ := foldl_max_ge field bs (max m (field b).toNat)
    simp only [List.foldl_cons]
    refine ⟨by omega, ?_⟩
    intro x hx
    rcases List.mem_cons.1 hx with rfl | hx
    · omega
    · exact h2 x hx

theorem le_maxField (field : BlockEntry → U32) (bs : List BlockEntry) (b : BlockEntry) (hb : b ∈ bs) :
    (field b).toNat ≤ maxField field bs := (foldl_max_ge field bs 0).2 b hb

/-- The widths are wide enough for every entry. -/
theorem betWidths_fit (bs : List BlockEntry) (b : BlockEntry) (hb : b ∈ bs) :
    b.filePos.toNat < 2 ^ (betWidths bs).pos ∧ b.fileSize.toNat < 2 ^ (betWidths bs).size ∧
    b.compressedSize.toNat < 2 ^ (betWidths bs).cmp ∧ (flagArray bs).idxOf b.flags < 2 ^ (betWidths bs).flag ∧
    (flagArray bs)[(flagArray bs).idxOf b.flags]? = some b.flags := by
  have hm : b.flags ∈ flagArray bs := (mem_flagArray _ _).2 ⟨b, hb, rfl⟩
  have hi := List.idxOf_lt_length_of_mem hm
  refine ⟨Nat.lt_of_le_of_lt (le_maxField (·.filePos) bs b hb) (lt_bitsNeeded _),
    Nat.lt_of_le_of_lt (le_maxField (·.fileSize) bs b hb) (lt_bitsNeeded _),
    Nat.lt_of_le_of_lt (le_maxField (·.compressedSize) bs b hb) (lt_bitsNeeded _), ?_, ?_⟩
  · have hne : flagArray bs ≠ [] := List.ne_nil_of_mem hm
    have : (betWidths bs).flag = bitsNeeded ((flagArray bs).length - 1) := by
      unfold betWidths; simp only [if_neg hne]
    rw [this]
    exact Nat.lt_of_le_of_lt (by omega) (lt_bitsNeeded ((flagArray bs).length - 1))
  · rw [List.getElem?_eq_getElem hi, List.getElem_idxOf]

theorem betWidths_le (bs : List BlockEntry) : (betWidths bs).pos ≤ 32 ∧ (betWidths bs).size ≤ 32 ∧ (betWidths bs).cmp ≤ 32 ∧
    0 < (betWidths bs).pos := by
  have key : ∀ field : BlockEntry → U32, maxField field bs < 2 ^ 32 := by
    intro field
    have : ∀ (l : List BlockEntry) (m : Nat), m < 2 ^ 32 → l.foldl (fun m b => max m (field b).toNat) m < 2 ^ 32 := by
      intro l
      induction l with
      | nil => intro m h; exact h
      | cons b l ih =>
        intro m h
        rw [List.foldl_cons]
        exact ih _ (Nat.max_lt.2 ⟨h, (field b).isLt⟩)
    exact this bs 0 (by decide)
  exact ⟨bitsNeeded_le (by omega) (key _), bitsNeeded_le (by omega) (key _), bitsNeeded_le (by omega) (key _),
    bitsNeeded_pos _⟩

theorem shl64_ok {v r : U64} {n : Nat} (h : shl64 v n = .ok r) : n < 64 ∧ r = v <<< n := by
  unfold shl64 at h
  split at h
  · cases h; exact ⟨by assumption, rfl⟩
  · cases h

theorem packEntry_ok {w : BetWidths} {flags : List U32} {b : BlockEntry} {v : U64} (h : packEntry w flags b = .ok v) :
    w.pos + w.size + w.cmp < 64 ∧
    v = b.filePos.setWidth 64 ||| b.fileSize.setWidth 64 <<< w.pos ||| b.compressedSize.setWidth 64 <<< (w.pos + w.size) |||
      BitVec.ofNat 64 (flags.idxOf b.flags) <<< (w.pos + w.size + w.cmp) := by
  unfold packEntry at h
  obtain ⟨a, ha, h⟩ := bind_eq_ok.1 h
  obtain ⟨c, hc, h⟩ := bind_eq_ok.1 h
  obtain ⟨d, hd, h⟩ := bind_eq_ok.1 h
  obtain ⟨_, rfl⟩ := shl64_ok ha
  obtain ⟨_, rfl⟩ := shl64_ok hc
  obtain ⟨h1, rfl⟩ := shl64_ok hd
  cases h
  exact ⟨h1, rfl⟩

/-- Filling the file table: every entry ends up in its place, the bits before the first index are kept. -/
theorem fillFileTable_spec {w : BetWidths} {flags : List U32} : ∀ {bs : List BlockEntry} {table out : List Byte} {i : Nat},
    fillFileTable w flags table i bs = .ok out →
    out.length = table.length ∧ (∀ j, j < i * w.total → Spec.bitAt out j = Spec.bitAt table j) ∧
    ∀ (k : Nat) (hk : k < bs.length), ∃ v, packEntry w flags bs[k] = .ok v ∧
      ∀ j, (i + k) * w.total ≤ j → j < (i + k) * w.total + w.total → j < (i + k) * w.total / 8 * 8 + 64 →
        Spec.bitAt out j = v.getLsbD (j - (i + k) * w.total)
  | [], table, out, i, h => by
    cases h
    exact ⟨rfl, fun _ _ => rfl, fun k hk => absurd hk (by simp)⟩
  | b :: bs, table, out, i, h => by
    unfold fillFileTable at h
    obtain ⟨v, hv, h⟩ := bind_eq_ok.1 h
    obtain ⟨t1, ht1, h⟩ := bind_eq_ok.1 h
    obtain ⟨hl, hlow, hent⟩ := fillFileTable_spec h
    have hb := writeBitEntry_bits _ _ _ _ _ ht1
    have hmul : (i + 1) * w.total = i * w.total + w.total := by rw [Nat.add_mul, Nat.one_mul]
    refine ⟨by rw [hl, writeBitEntry_length _ _ _ _ _ ht1], ?_, ?_⟩
    · intro j hj
      rw [hlow j (by omega), hb j, if_neg (by omega)]
    · intro k hk
      cases k with
      | zero =>
        refine ⟨v, hv, ?_⟩
        intro j h1 h2 h3
        simp only [Nat.add_zero] at h1 h2 h3 ⊢
        rw [hlow j (by omega), hb j, if_pos ⟨h1, h2, h3⟩]
      | succ k =>
        have hk' : k < bs.length := by simpa using hk
        obtain ⟨v', hv', hj'⟩ := hent k hk'
        refine ⟨v', by simpa using hv', ?_⟩
        intro j
        have : i + (k + 1) = i + 1 + k := by omega
        rw [this]
        exact hj' j

theorem getLsbD_of_lt {n w i : Nat} (v : BitVec w) (h : v.toNat < 2 ^ n) (hi : n ≤ i) : v.getLsbD i = false := by
  rw [← BitVec.testBit_toNat]
  exact Nat.testBit_lt_two_pow (Nat.lt_of_lt_of_le h (Nat.pow_le_pow_right (by omega) hi))

/-- The bits of a packed entry. -/
theorem packed_bits {w : BetWidths} {flags : List U32} {b : BlockEntry} {v : U64} (h : packEntry w flags b = .ok v)
    (hp : b.filePos.toNat < 2 ^ w.pos) (hs : b.fileSize.toNat < 2 ^ w.size) (hc : b.compressedSize.toNat < 2 ^ w.cmp)
    (hf : flags.idxOf b.flags < 2 ^ w.flag) (ht : w.total ≤ 64) (j : Nat) :
    v.getLsbD j =
      if j < w.pos then b.filePos.getLsbD j
      else if j < w.pos + w.size then b.fileSize.getLsbD (j - w.pos)
      else if j < w.pos + w.size + w.cmp then b.compressedSize.getLsbD (j - (w.pos + w.size))
      else if j < w.total then (flags.idxOf b.flags).testBit (j - (w.pos + w.size + w.cmp))
      else false := by
  obtain ⟨h64, rfl⟩ := packEntry_ok h
  have htot : w.total = w.pos + w.size + w.cmp + w.flag := rfl
  simp only [BitVec.getLsbD_or, BitVec.getLsbD_shiftLeft, BitVec.getLsbD_setWidth, BitVec.getLsbD_ofNat]
  have p1 : ∀ i, w.pos ≤ i → b.filePos.getLsbD i = false := fun i hi => getLsbD_of_lt _ hp hi
  have p2 : ∀ i, w.size ≤ i → b.fileSize.getLsbD i = false := fun i hi => getLsbD_of_lt _ hs hi
  have p3 : ∀ i, w.cmp ≤ i → b.compressedSize.getLsbD i = false := fun i hi => getLsbD_of_lt _ hc hi
  have p4 : ∀ i, w.flag ≤ i → (flags.idxOf b.flags).testBit i = false := fun i hi =>
    Nat.testBit_lt_two_pow (Nat.lt_of_lt_of_le hf (Nat.pow_le_pow_right (by omega) hi))
  by_cases c1 : j < w.pos
  · have a1 : j < 64 := by omega
    have a2 : j < w.pos + w.size := by omega
    have a3 : j < w.pos + w.size + w.cmp := by omega
    simp [c1, a1, a2, a3]
  · rw [p1 j (by omega), if_neg c1]
    by_cases c2 : j < w.pos + w.size
    · have a1 : j < 64 := by omega
      have a2 : j - w.pos < 64 := by omega
      have a3 : j < w.pos + w.size + w.cmp := by omega
      simp [c1, c2, a1, a2, a3]
    · rw [p2 (j - w.pos) (by omega), if_neg c2]
      by_cases c3 : j < w.pos + w.size + w.cmp
      · have a1 : j < 64 := by omega
        have a2 : j - (w.pos + w.size) < 64 := by omega
        simp [c1, c2, c3, a1, a2]
      · rw [p3 (j - (w.pos + w.size)) (by omega), if_neg c3]
        by_cases c4 : j < w.total
        · have a1 : j < 64 := by omega
          have a2 : j - (w.pos + w.size + w.cmp) < 64 := by omega
          simp [c1, c2, c3, c4, a1, a2]
        · rw [p4 (j - (w.pos + w.size + w.cmp)) (by omega), if_neg c4]
          simp

theorem lowBound_sub (n : Nat) (h : n < 64) : (1#64 <<< n) - 1#64 = lowMask n := by
  unfold lowMask
  rw [if_neg (by omega)]

/-- Extracting a field: its bits. -/
theorem extractBits_ok {v : U64} {off cnt : U32} (ho : off.toNat < 64) (hc : cnt.toNat < 64) :
    ∃ r, extractBits v off cnt = .ok r ∧ ∀ i, r.getLsbD i = (decide (i < cnt.toNat) && v.getLsbD (off.toNat + i)) := by
  refine ⟨(v >>> off.toNat) &&& lowMask cnt.toNat, ?_, ?_⟩
  · unfold extractBits shl64 shr64
    rw [if_pos hc, if_pos ho]
    simp only [bind, Except.bind, pure, Except.pure, lowBound_sub _ hc]
  · intro i
    rw [BitVec.getLsbD_and, BitVec.getLsbD_ushiftRight, lowMask_getLsbD]
    by_cases h : i < cnt.toNat
    · have : i < 64 := by omega
      simp [h, this]
    · simp [h]

theorem fillHashes_spec : ∀ (hs : List U64) (a : List Byte) (i : Nat), a.length = 8 * i →
    fillHashes (a ++ List.replicate (8 * hs.length) 0#8) i hs = .ok (a ++ hs.flatMap le64)
  | [], a, i, _ => by simp [fillHashes]
  | h :: hs, a, i, ha => by
    unfold fillHashes
    have hw : writeBitEntry (a ++ List.replicate (8 * (h :: hs).length) 0#8) i h 64 =
        .ok ((a ++ le64 h) ++ List.replicate (8 * hs.length) 0#8) := by
      unfold writeBitEntry
      dsimp only
      have e1 : i * 64 / 8 = 8 * i := by omega
      have e2 : i * 64 % 8 = 0 := by omega
      have hlen : (a ++ List.replicate (8 * (h :: hs).length) 0#8).length = 8 * i + 8 * (hs.length + 1) := by
        rw [List.length_append, List.length_replicate, ha, List.length_cons]
      rw [e1, e2, if_neg (by rw [hlen]; omega)]
      have e3 : min ((0 + 64 + 7) / 8) 8 = 8 := by decide
      rw [e3]
      have e4 : (loadLe (a ++ List.replicate (8 * (h :: hs).length) 0#8) (8 * i) 8 &&& ~~~(lowMask 64 <<< 0) |||
          (h &&& lowMask 64) <<< 0) = h := by
        have hm : lowMask 64 = BitVec.allOnes 64 := by decide
        rw [hm, BitVec.shiftLeft_zero, BitVec.shiftLeft_zero, BitVec.not_allOnes, BitVec.and_zero, BitVec.zero_or,
          BitVec.and_allOnes]
      rw [e4]
      unfold storeLe
      rw [List.take_left' ha, List.drop_append, List.drop_of_length_le (by omega), ha, List.drop_replicate,
        List.nil_append]
      have e5 : 8 * (h :: hs).length - (8 * i + 8 - 8 * i) = 8 * hs.length := by simp; omega
      rw [e5]
      rfl
    rw [hw]
    simp only [bind, Except.bind]
    rw [fillHashes_spec hs (a ++ le64 h) (i + 1) (by simp [ha]; omega)]
    simp [List.append_assoc]

theorem rd64s_le64 : ∀ (vs : List U64) (rest : List Byte), rd64s vs.length (vs.flatMap le64 ++ rest) = .ok (vs, rest)
  | [], rest => rfl
  | v :: vs, rest => by
    simp only [List.flatMap_cons, List.length_cons, rd64s, List.append_assoc, rd64_le64, bind, Except.bind,
      rd64s_le64 vs rest, pure, Except.pure]

/-- What is known about the parts of a BET table made by the builder. -/
structure BetFacts (names : List (List Byte)) (blocks : List BlockEntry) (c : BetContent) : Prop where
  count : c.header.fileCount.toNat = names.length
  entrySize : c.header.tableEntrySize.toNat = (betWidths blocks).total
  i0 : c.header.bitIndexFilePos.toNat = 0
  i1 : c.header.bitIndexFileSize.toNat = (betWidths blocks).pos
  i2 : c.header.bitIndexCmpSize.toNat = (betWidths blocks).pos + (betWidths blocks).size
  i3 : c.header.bitIndexFlagIndex.toNat = (betWidths blocks).pos + (betWidths blocks).size + (betWidths blocks).cmp
  c0 : c.header.bitCountFilePos.toNat = (betWidths blocks).pos
  c1 : c.header.bitCountFileSize.toNat = (betWidths blocks).size
  c2 : c.header.bitCountCmpSize.toNat = (betWidths blocks).cmp
  c3 : c.header.bitCountFlagIndex.toNat = (betWidths blocks).flag
  flagCount : c.header.flagCount.toNat = c.flags.length
  flags : c.flags = flagArray blocks
  hashSize : c.header.betHashArraySize.toNat = 8 * names.length
  hashBytes : c.hashBytes = (names.map jenkinsHash).flatMap le64
  tableLength : c.fileTable.length = (names.length * (betWidths blocks).total + 7) / 8
  size : c.dataSize = 76 + 4 * c.flags.length + c.fileTable.length + c.hashBytes.length
  bound : 12 + c.dataSize < 2 ^ 32
  entries : ∀ (k : Nat) (hk : k < blocks.length), ∃ v, packEntry (betWidths blocks) c.flags blocks[k] = .ok v ∧
      ∀ j, k * (betWidths blocks).total ≤ j → j < k * (betWidths blocks).total + (betWidths blocks).total →
        j < k * (betWidths blocks).total / 8 * 8 + 64 →
        Spec.bitAt c.fileTable j = v.getLsbD (j - k * (betWidths blocks).total)

theorem flatMap_le64_length (vs : List U64) : (vs.flatMap le64).length = 8 * vs.length := by
  induction vs with
  | nil => rfl
  | cons v vs ih => simp only [List.flatMap_cons, List.length_append, ih, List.length_cons, le64_length]; omega

theorem flagArray_length_le (bs : List BlockEntry) : (flagArray bs).length ≤ bs.length := by
  have ins : ∀ (v : U32) (l : List U32), (insertFlag v l).length ≤ l.length + 1 := by
    intro v l
    induction l with
    | nil => simp [insertFlag]
    | cons w ws ih =>
      unfold insertFlag
      split
      · simp
      · split
        · simp
        · simp only [List.length_cons]; omega
  induction bs with
  | nil => simp [flagArray]
  | cons b bs ih =>
    unfold flagArray at ih ⊢
    rw [List.foldr_cons]
    have := ins b.flags (bs.foldr (fun b acc => insertFlag b.flags acc) [])
    simp only [List.length_cons]
    omega

theorem betContent_facts {names : List (List Byte)} {blocks : List BlockEntry} {c : BetContent}
    (hl : blocks.length = names.length) (hn : names.length < 2 ^ 32) (h : betContent names blocks = .ok c) :
    BetFacts names blocks c := by
  unfold betContent at h
  have hmod : names.length % 2 ^ 32 = names.length := Nat.mod_eq_of_lt hn
  have htake : blocks.take names.length = blocks := by rw [← hl, List.take_length]
  have htake' : names.take blocks.length = names := by rw [hl, List.take_length]
  dsimp only at h
  simp only [hmod, htake, htake'] at h
  obtain ⟨a, ha', h⟩ := bind_eq_ok.1 h
  obtain ⟨rfl, ha⟩ := u32Checked_ok ha'
  obtain ⟨b, hb', h⟩ := bind_eq_ok.1 h
  obtain ⟨rfl, hb⟩ := u32Checked_ok hb'
  obtain ⟨ft, hft, h⟩ := bind_eq_ok.1 h
  obtain ⟨ds, hds', h⟩ := bind_eq_ok.1 h
  obtain ⟨rfl, hds⟩ := u32Checked_ok hds'
  obtain ⟨ts, hts', h⟩ := bind_eq_ok.1 h
  obtain ⟨rfl, hts⟩ := u32Checked_ok hts'
  obtain ⟨hb2, hhb, h⟩ := bind_eq_ok.1 h
  injection h with h
  subst h
  have h32 : 2 ^ 32 = 4294967296 := rfl
  obtain ⟨w1, w2, w3, _⟩ := betWidths_le blocks
  obtain ⟨hftl, _, hent⟩ := fillFileTable_spec hft
  rw [List.length_replicate] at hftl
  have hflag : (flagArray blocks).length ≤ names.length := hl ▸ flagArray_length_le blocks
  have hn32 : names.length < 2 ^ 32 := hn
  have wf : (betWidths blocks).flag ≤ 33 := by
    unfold betWidths
    dsimp only
    split
    · omega
    · exact bitsNeeded_le (by omega) (Nat.lt_of_lt_of_le (show _ < 2 ^ 32 by omega) (Nat.pow_le_pow_right (by omega) (by omega)))
  have htot : (betWidths blocks).total = (betWidths blocks).pos + (betWidths blocks).size + (betWidths blocks).cmp +
    (betWidths blocks).flag := rfl
  have h8 : (names.length * 64 + 7) / 8 = 8 * names.length := by omega
  have hbytes : hb2 = (names.map jenkinsHash).flatMap le64 := by
    have := fillHashes_spec (names.map jenkinsHash) [] 0 rfl
    rw [List.nil_append, List.length_map] at this
    rw [h8, this] at hhb
    injection hhb with hhb
    rw [← hhb, List.nil_append]
  have tn : ∀ x, x < 2 ^ 32 → (BitVec.ofNat 32 x).toNat = x := fun x hx => by
    rw [BitVec.toNat_ofNat, Nat.mod_eq_of_lt hx]
  exact {
    count := tn _ hn32
    entrySize := tn _ (by omega)
    i0 := rfl
    i1 := tn _ (by omega)
    i2 := tn _ (by omega)
    i3 := tn _ (by omega)
    c0 := tn _ (by omega)
    c1 := tn _ (by omega)
    c2 := tn _ (by omega)
    c3 := tn _ (by omega)
    flagCount := tn _ (by omega)
    flags := rfl
    hashSize := (tn _ (by omega)).trans h8
    hashBytes := hbytes
    tableLength := hftl
    size := by
      dsimp only
      rw [hbytes, flatMap_le64_length, List.length_map, hftl, h8]
      omega
    bound := hts
    entries := by
      intro k hk
      obtain ⟨v, hv, hj⟩ := hent k hk
      simp only [Nat.zero_add] at hj
      exact ⟨v, hv, hj⟩ }

end Mopaq
