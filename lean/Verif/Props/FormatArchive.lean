import Verif.Spec.FormatArchive
import Verif.Props.FormatWrite
import Verif.Props.Builder
import Verif.Props.Attributes

/-! # Archives that follow the format (C86) -/

namespace Mopaq

def entryOfRow (r : _root_.Spec.HashRow) : HashEntry := ⟨r.nameA, r.nameB, r.language, r.platform, r.block⟩

def blockOfRow (r : _root_.Spec.BlockRow) : BlockEntry := ⟨r.position, r.storedSize, r.size, r.flags⟩

theorem hashRow_bytes (r : _root_.Spec.HashRow) : r.bytes = (entryOfRow r).toBytes := by
  simp [_root_.Spec.HashRow.bytes, HashEntry.toBytes, entryOfRow, Spec.layout, putLe_leBytes, le32, le16]

theorem blockRow_bytes (r : _root_.Spec.BlockRow) : r.bytes = (blockOfRow r).toBytes := by
  simp [_root_.Spec.BlockRow.bytes, BlockEntry.toBytes, blockOfRow, Spec.layout, putLe_leBytes, le32]

theorem hashRows_bytes (rs : List _root_.Spec.HashRow) :
    rs.flatMap _root_.Spec.HashRow.bytes = (rs.map entryOfRow).flatMap HashEntry.toBytes := by
  rw [List.flatMap_map]
  exact congrArg (fun g => rs.flatMap g) (funext hashRow_bytes)

theorem blockRows_bytes (rs : List _root_.Spec.BlockRow) :
    rs.flatMap _root_.Spec.BlockRow.bytes = (rs.map blockOfRow).flatMap BlockEntry.toBytes := by
  rw [List.flatMap_map]
  exact congrArg (fun g => rs.flatMap g) (funext blockRow_bytes)

theorem hashTableKey_spec : hashTableKey.toNat = Spec.tableKey "(hash table)" := by
  unfold hashTableKey htFileKey
  rw [hashString_spec 3 (by decide)]
  rfl

theorem blockTableKey_spec : blockTableKey.toNat = Spec.tableKey "(block table)" := by
  unfold blockTableKey htFileKey
  rw [hashString_spec 3 (by decide)]
  rfl

/-- There is one way to encrypt. -/
theorem enciphers_only (key : U32) (hk : key ≠ 0) (plain cipher : List Byte) (hq : plain.length % 4 = 0)
    (h : Spec.Enciphers key.toNat plain cipher) : cipher = encryptData plain key := by
  obtain ⟨hl, _, h⟩ := h
  rw [if_neg (by intro h0; exact hk (BitVec.eq_of_toNat_eq h0)), dwords_eq, dwords_eq] at h
  have h2 := encrypts_unique h (C03_byte_cipher key hk plain)
  have h2 := (List.map_inj_right (fun _ _ h => BitVec.eq_of_toNat_eq h)).1 h2
  exact toDwords_inj (by omega) (by rw [encryptData_length]; exact hq) h2

/-- A table that stands in the file is read and decrypted. -/
theorem table_read {f : List Byte} {key : U32} (hk : key ≠ 0) {place : Nat} {plain : List Byte} (hq : plain.length % 4 = 0)
    (h : Spec.StandsEncrypted f key.toNat place plain) :
    ∃ raw, readAt f place plain.length = .ok raw ∧ ofDwords (decryptBlock (toDwords raw) key) = plain := by
  obtain ⟨cipher, h1, h2⟩ := h
  have hr := readAt_standsAt h2
  rw [h1.1] at hr
  refine ⟨cipher, hr, ?_⟩
  rw [enciphers_only key hk plain cipher hq h1]
  exact decrypt_dwords_encryptData plain key hk hq

theorem readHashTable_stands {f : List Byte} {place : Nat} {rows : List _root_.Spec.HashRow} {size : U32} {k : Nat}
    (hn : size.toNat = rows.length) (hk : rows.length = 2 ^ k)
    (h : Spec.StandsEncrypted f (Spec.tableKey "(hash table)") place (rows.flatMap _root_.Spec.HashRow.bytes)) :
    readHashTable f place size = .ok (rows.map entryOfRow) := by
  rw [hashRows_bytes, ← hashTableKey_spec] at h
  have h16 := flatMap_length_16 _ HashEntry.toBytes_length (rows.map entryOfRow)
  rw [List.length_map] at h16
  obtain ⟨raw, h1, h2⟩ := table_read (by rw [hashTableKey_eq]; decide) (by omega) h
  unfold readHashTable
  have hk32 : k < 32 := by
    have := size.isLt
    exact (Nat.pow_lt_pow_iff_right (by decide)).1 (show 2 ^ k < 2 ^ 32 by omega)
  have hs : size = BitVec.ofNat 32 (2 ^ k) := by rw [← hk, ← hn, BitVec.ofNat_toNat, BitVec.setWidth_eq]
  have hp : isPowerOfTwo size = true := by rw [hs]; exact isPowerOfTwo_of_two_pow k hk32
  rw [hp, hn, show rows.length * 16 = ((rows.map entryOfRow).flatMap HashEntry.toBytes).length by omega, h1]
  show parseEntries _ _ _ = _
  rw [h2]
  have := parseEntries_flatMap HashEntry.fromBytes HashEntry.toBytes HashEntry.toBytes_length HashEntry.fromBytes_toBytes
    (rows.map entryOfRow)
  rw [List.length_map] at this
  exact this

theorem readBlockTable_stands {f : List Byte} {place : Nat} {rows : List _root_.Spec.BlockRow} {size : U32}
    (hn : size.toNat = rows.length)
    (h : Spec.StandsEncrypted f (Spec.tableKey "(block table)") place (rows.flatMap _root_.Spec.BlockRow.bytes)) :
    readBlockTable f place size = .ok (rows.map blockOfRow) := by
  rw [blockRows_bytes, ← blockTableKey_spec] at h
  have h16 := flatMap_length_16 _ BlockEntry.toBytes_length (rows.map blockOfRow)
  rw [List.length_map] at h16
  obtain ⟨raw, h1, h2⟩ := table_read (by rw [blockTableKey_eq]; decide) (by omega) h
  unfold readBlockTable
  rw [hn, show rows.length * 16 = ((rows.map blockOfRow).flatMap BlockEntry.toBytes).length by omega, h1]
  show parseEntries _ _ _ = _
  rw [h2]
  have := parseEntries_flatMap BlockEntry.fromBytes BlockEntry.toBytes BlockEntry.toBytes_length BlockEntry.fromBytes_toBytes
    (rows.map blockOfRow)
  rw [List.length_map] at this
  exact this

theorem stands_split {f : List Byte} {place : Nat} {b : List Byte} (h : Spec.StandsAt f place b) (hp : place ≤ f.length) :
    ∃ pre post, f = pre ++ b ++ post ∧ pre.length = place := by
  refine ⟨f.take place, (f.drop place).drop b.length, ?_, by rw [List.length_take]; omega⟩
  have : f.drop place = b ++ (f.drop place).drop b.length := by
    conv => lhs; rw [← List.take_append_drop b.length (f.drop place)]
    rw [show (f.drop place).take b.length = b from h]
  rw [List.append_assoc, ← this, List.take_append_drop]

theorem readHiBlockTable_stands {f : List Byte} {place : Nat} {his : List (BitVec 16)} (hp : place ≤ f.length)
    (h : Spec.StandsAt f place (his.flatMap fun x => Spec.putLe 2 x.toNat)) :
    readHiBlockTable f place his.length = .ok his := by
  have he : (his.flatMap fun x => Spec.putLe 2 x.toNat) = hiBlockTableBytes his := by
    unfold hiBlockTableBytes
    exact congrArg (fun g => his.flatMap g) (funext fun x => putLe_leBytes 2 x.toNat)
  rw [he] at h
  obtain ⟨pre, post, rfl, rfl⟩ := stands_split h hp
  exact readHiBlockTable_written his pre post

/-- The header, as it is read. -/
def headerOfSpec (h : _root_.Spec.Header) : MpqHeader where
  headerSize := h.headerSize
  archiveSize := h.archiveSize
  formatVersion := if h.version = 0#16 then .v1 else .v2
  blockSize := h.shift
  hashTablePos := h.hashPosition
  blockTablePos := h.blockPosition
  hashTableSize := h.hashCount
  blockTableSize := h.blockCount
  hiBlockTablePos := if h.version = 0#16 then none else some h.hiPosition
  hashTablePosHi := if h.version = 0#16 then none else some h.hashPositionHigh
  blockTablePosHi := if h.version = 0#16 then none else some h.blockPositionHigh
  archiveSize64 := none
  betTablePos := none
  hetTablePos := none
  v4Data := none

theorem header_bytes (h : _root_.Spec.Header) : h.bytes =
    le32 mpqSignature ++ (le32 h.headerSize ++ (le32 h.archiveSize ++ (le16 h.version ++ (le16 h.shift ++ (le32 h.hashPosition ++
      (le32 h.blockPosition ++ (le32 h.hashCount ++ (le32 h.blockCount ++
        if h.version = 0#16 then [] else le64 h.hiPosition ++ (le16 h.hashPositionHigh ++ le16 h.blockPositionHigh))))))))) := by
  unfold _root_.Spec.Header.bytes
  have hm : mpqSignature.toNat = 0x1A51504D := rfl
  split <;> simp [Spec.layout, putLe_leBytes, le32, le16, le64, hm]

theorem readHeader_stands {h : _root_.Spec.Header}
    (hv : h.version = 0#16 ∧ 32 ≤ h.headerSize.toNat ∨ h.version = 1#16 ∧ 44 ≤ h.headerSize.toNat) (rest : List Byte) :
    readHeader (h.bytes ++ rest) = .ok (headerOfSpec h) := by
  rw [header_bytes]
  rcases hv with ⟨hv, hs⟩ | ⟨hv, hs⟩
  · have h0 : ¬ h.headerSize.toNat < FormatVersion.v1.headerSize.toNat := by
      show ¬ h.headerSize.toNat < 32; omega
    have hr : FormatVersion.fromRaw (0#16) = some .v1 := by decide
    unfold headerOfSpec
    rw [hv]
    simp only [if_true, List.append_nil, readHeader, List.append_assoc, rd32_le32, rd16_le16, hr, bind, Except.bind,
      ne_eq, not_true_eq_false, if_false, pure, Except.pure, if_neg h0]
    rfl
  · have h0 : ¬ h.headerSize.toNat < FormatVersion.v2.headerSize.toNat := by
      show ¬ h.headerSize.toNat < 44; omega
    have hr : FormatVersion.fromRaw (1#16) = some .v2 := by decide
    have h10 : ¬ (1#16 = 0#16) := by decide
    unfold headerOfSpec
    rw [hv]
    simp only [if_neg h10, readHeader, readV2, List.append_assoc, rd32_le32, rd16_le16, rd64_le64, hr, bind, Except.bind,
      ne_eq, not_true_eq_false, if_false, pure, Except.pure, if_neg h0]
    rfl

theorem joined (low : U32) (high : U16) :
    ((high.setWidth 64 <<< 32) ||| low.setWidth 64 : U64).toNat = low.toNat + 2 ^ 32 * high.toNat := by
  rw [BitVec.toNat_or, BitVec.toNat_shiftLeft, BitVec.toNat_setWidth, BitVec.toNat_setWidth]
  have := low.isLt
  have := high.isLt
  rw [Nat.mod_eq_of_lt (by omega), Nat.mod_eq_of_lt (a := low.toNat) (by omega), Nat.shiftLeft_eq, Nat.mod_eq_of_lt (by omega),
    Nat.mul_comm, ← Nat.two_pow_add_eq_or_of_lt (by omega)]
  omega

theorem hashPlace_read (h : _root_.Spec.Header) : (headerOfSpec h).getHashTablePos.toNat = h.hashPlace := by
  unfold headerOfSpec MpqHeader.getHashTablePos _root_.Spec.Header.hashPlace
  dsimp only
  by_cases hv : h.version = 0#16
  · rw [if_pos hv, if_pos hv]
    dsimp only
    have := h.hashPosition.isLt
    rw [BitVec.toNat_setWidth, Nat.mod_eq_of_lt (by omega), Nat.add_zero]
  · rw [if_neg hv, if_neg hv]
    exact joined _ _

theorem blockPlace_read (h : _root_.Spec.Header) : (headerOfSpec h).getBlockTablePos.toNat = h.blockPlace := by
  unfold headerOfSpec MpqHeader.getBlockTablePos _root_.Spec.Header.blockPlace
  dsimp only
  by_cases hv : h.version = 0#16
  · rw [if_pos hv, if_pos hv]
    dsimp only
    have := h.blockPosition.isLt
    rw [BitVec.toNat_setWidth, Nat.mod_eq_of_lt (by omega), Nat.add_zero]
  · rw [if_neg hv, if_neg hv]
    exact joined _ _

theorem startsAt_marked {f : List Byte} {o s : Nat} (h : Spec.startsAt f o s) : Spec.archiveMark f o ∨ Spec.userDataMark f o := by
  rcases h with ⟨h, _⟩ | ⟨h, _⟩
  · exact Or.inl h
  · exact Or.inr h.1

theorem marks_differ {f : List Byte} {o : Nat} (h : Spec.archiveMark f o) : ¬ Spec.userDataMark f o := by
  unfold Spec.archiveMark at h
  unfold Spec.userDataMark
  rw [h]
  intro h'
  injection h' with h'
  exact absurd h' (by decide)

theorem startsAt_only {f : List Byte} {o s s' : Nat} (h : Spec.startsAt f o s) (h' : Spec.startsAt f o s') : s = s' := by
  rcases h with ⟨h, rfl⟩ | ⟨h, _⟩ <;> rcases h' with ⟨h', rfl⟩ | ⟨h', _⟩
  · rfl
  · exact absurd h'.1 (marks_differ h)
  · exact absurd h.1 (marks_differ h')
  · obtain ⟨_, _, ⟨d, h1, h2⟩, _⟩ := h
    obtain ⟨_, _, ⟨d', h1', h2'⟩, _⟩ := h'
    rw [h1] at h1'
    injection h1' with h1'
    rw [h2, h2', h1']

theorem startsAt_not_cut {f : List Byte} {o s : Nat} (h : Spec.startsAt f o s) : ¬ Spec.cutOff f o := by
  rintro ⟨hm, hc⟩
  rcases h with ⟨h, _⟩ | ⟨h, hs⟩
  · exact marks_differ h hm
  · rcases hc with hc | ⟨t, ht, _, hn⟩
    · exact hc s h
    · have : t = s := by
        obtain ⟨_, _, ⟨d, h1, h2⟩, _⟩ := h
        obtain ⟨_, _, ⟨d', h1', h2'⟩, _⟩ := ht
        rw [h1] at h1'
        injection h1' with h1'
        rw [h2, h2', h1']
      rw [this] at hn
      unfold Spec.archiveMark at hs
      rw [hn] at hs
      cases hs

theorem startsAt_inside {f : List Byte} {o s : Nat} (h : Spec.startsAt f o s) : o < f.length := by
  rcases Nat.lt_or_ge f.length (o + 4) with hl | hl
  · have := u32At_eq_none f o hl
    rcases startsAt_marked h with h | h
    · unfold Spec.archiveMark at h; rw [this] at h; cases h
    · unfold Spec.userDataMark at h; rw [this] at h; cases h
  · omega

/-- The search ends at the first mark. -/
theorem search_first {f : List Byte} {start : Nat} (h : ∃ o, o % 512 = 0 ∧ Spec.startsAt f o start ∧
    ∀ o' < o, o' % 512 = 0 → ¬ Spec.archiveMark f o' ∧ ¬ Spec.userDataMark f o') :
    ∃ ud, findHeader f = (readHeader (f.drop start)).map fun h => (start, ud, h) := by
  obtain ⟨o, h1, h2, h3⟩ := h
  have hnb : NothingBefore f o := by
    intro o' ho' hm
    obtain ⟨ha, hu⟩ := h3 o' ho' hm
    exact ⟨fun hc => hu hc.1, fun s hs => (startsAt_marked hs).elim ha hu⟩
  rcases C13_search_exact f with ⟨o1, s1, m1, _, n1, t1, ud, _, _, hf⟩ | ⟨o1, m1, _, n1, c1, _⟩ | ⟨hno, _⟩
  · have ho : o1 = o := by
      rcases Nat.lt_trichotomy o1 o with hlt | heq | hgt
      · exact absurd t1 ((hnb o1 hlt m1).2 s1)
      · exact heq
      · exact absurd h2 ((n1 o hgt h1).2 start)
    subst ho
    have hs := startsAt_only h2 t1
    subst hs
    exact ⟨ud, hf⟩
  · exfalso
    rcases Nat.lt_trichotomy o1 o with hlt | heq | hgt
    · exact (hnb o1 hlt m1).1 c1
    · rw [heq] at c1; exact startsAt_not_cut h2 c1
    · exact absurd h2 ((n1 o hgt h1).2 start)
  · exact absurd h2 ((hno o h1 (startsAt_inside h2)).2 start)

/-- The archive of the format, as it is opened. -/
def archiveOf (f : List Byte) (start : Nat) (ud : Option UserDataHeader) (h : _root_.Spec.Header)
    (hashes : List _root_.Spec.HashRow) (blocks : List _root_.Spec.BlockRow) (highs : List U16) : Archive where
  file := f
  archiveOffset := start
  userData := ud
  header := headerOfSpec h
  hashTable := some (hashes.map entryOfRow)
  blockTable := some (blocks.map blockOfRow)
  hiBlockTable := if h.version ≠ 0#16 ∧ h.hiPosition ≠ 0#64 then some highs else none
  hetTable := none
  betTable := none
  attributes := none

theorem isFor_iff (r : _root_.Spec.HashRow) (name : List Byte) :
    (entryOfRow r).isHit (hashString name htNameA) (hashString name htNameB) 0 = true ↔ r.IsFor name := by
  unfold HashEntry.isHit _root_.Spec.HashRow.IsFor HashEntry.isValid entryOfRow
  dsimp only
  have ha : (hashString name htNameA).toNat = Spec.nameHash 1 (name.map BitVec.toNat) := hashString_spec 1 (by decide) name
  have hb : (hashString name htNameB).toNat = Spec.nameHash 2 (name.map BitVec.toNat) := hashString_spec 2 (by decide) name
  rw [← ha, ← hb]
  simp only [Bool.and_eq_true, beq_iff_eq, decide_eq_true_eq, Bool.or_eq_true, true_or, true_and, and_assoc]
  rw [← BitVec.toNat_inj, ← BitVec.toNat_inj (x := r.nameB)]

theorem slot_probe (hashes : List _root_.Spec.HashRow) (name : List Byte) (j : Nat) :
    probe hashes.length (startOf hashes.length name) j = Spec.slot hashes name j := by
  unfold probe startOf Spec.slot
  have : (hashString name htTableOffset).toNat = Spec.nameHash 0 (name.map BitVec.toNat) := hashString_spec 0 (by decide) name
  rw [this, Nat.mod_add_mod]

theorem slot_lt {hashes : List _root_.Spec.HashRow} {k : Nat} (hk : hashes.length = 2 ^ k) (name : List Byte) (j : Nat) :
    Spec.slot hashes name j < hashes.length :=
  Nat.mod_lt _ (by rw [hk]; exact Nat.two_pow_pos k)

theorem at_map {hashes : List _root_.Spec.HashRow} {i : Nat} {r : _root_.Spec.HashRow} (h : hashes[i]? = some r) :
    HashTable.at (hashes.map entryOfRow) i = entryOfRow r := by
  unfold HashTable.at
  rw [List.getElem?_map, h]
  rfl

theorem isEmpty_iff (r : _root_.Spec.HashRow) : (entryOfRow r).isEmpty = true ↔ r.block = 0xFFFFFFFF#32 := by
  unfold HashEntry.isEmpty entryOfRow
  simp only [beq_iff_eq]
  exact Iff.rfl

theorem finds_some {hashes : List _root_.Spec.HashRow} {k : Nat} (hk : hashes.length = 2 ^ k) {name : List Byte}
    {r : _root_.Spec.HashRow} (h : Spec.Finds hashes name r) :
    ∃ i, findFileHash (hashes.map entryOfRow) name 0 = .ok (some (i, entryOfRow r)) := by
  obtain ⟨j, hj, hr, hf, hb⟩ := h
  rw [findFileHash_findO (k := k) (by rw [List.length_map, hk])]
  refine ⟨Spec.slot hashes name j, congrArg _ ?_⟩
  rw [findO_eq_some (n := hashes.length) (List.length_map ..)]
  refine ⟨j, hj, ?_, ?_, ?_⟩
  · rw [slot_probe, at_map hr]; exact (isFor_iff r name).2 hf
  · rw [slot_probe, at_map hr]
  · intro j' hj'
    have hq := List.getElem?_eq_getElem (slot_lt hk name j')
    obtain ⟨h1, h2⟩ := hb j' hj' _ hq
    rw [slot_probe, at_map hq]
    refine ⟨?_, ?_⟩
    · exact Bool.eq_false_iff.2 fun h => h1 ((isFor_iff _ name).1 h)
    · exact Bool.eq_false_iff.2 fun h => h2 ((isEmpty_iff _).1 h)

theorem finds_none {hashes : List _root_.Spec.HashRow} {k : Nat} (hk : hashes.length = 2 ^ k) {name : List Byte}
    (h : ∀ r, ¬ Spec.Finds hashes name r) : findFileHash (hashes.map entryOfRow) name 0 = .ok none := by
  rw [findFileHash_findO (k := k) (by rw [List.length_map, hk])]
  refine congrArg _ ?_
  cases hf : findO (hashes.map entryOfRow) name 0 with
  | none => rfl
  | some x =>
    exfalso
    rw [findO_eq_some (n := hashes.length) (List.length_map ..)] at hf
    obtain ⟨j, hj, hh, _, hb⟩ := hf
    have hq := List.getElem?_eq_getElem (slot_lt hk name j)
    rw [slot_probe, at_map hq] at hh
    refine h _ ⟨j, hj, hq, (isFor_iff _ name).1 hh, ?_⟩
    intro i hi q hq'
    obtain ⟨h1, h2⟩ := hb i hi
    rw [slot_probe, at_map hq'] at h1 h2
    refine ⟨fun h => ?_, fun h => ?_⟩
    · rw [(isFor_iff q name).2 h] at h1; cases h1
    · rw [(isEmpty_iff q).2 h] at h2; cases h2

theorem position_read {h : _root_.Spec.Header} {highs : List U16} (hno : ¬ h.hasHigh → ∀ x ∈ highs, x = 0#16) {i : Nat} {high : U16}
    (hi : highs[i]? = some high) (b : _root_.Spec.BlockRow) :
    (fullFilePos (if h.version ≠ 0#16 ∧ h.hiPosition ≠ 0#64 then some highs else none) i (blockOfRow b)).toNat =
      b.position.toNat + 2 ^ 32 * high.toNat := by
  by_cases hh : h.version ≠ 0#16 ∧ h.hiPosition ≠ 0#64
  · rw [if_pos hh]
    unfold fullFilePos getFilePosHigh
    dsimp only
    rw [hi]
    exact joined _ _
  · rw [if_neg hh, hno hh high (List.mem_of_getElem? hi)]
    unfold fullFilePos
    dsimp only [blockOfRow]
    have := b.position.isLt
    rw [BitVec.toNat_setWidth, Nat.mod_eq_of_lt (by omega)]
    rfl

variable {f : List Byte} {start : Nat} {h : _root_.Spec.Header} {hashes : List _root_.Spec.HashRow}
  {blocks : List _root_.Spec.BlockRow} {highs : List (BitVec 16)}

theorem IsArchive.start_le (ha : Spec.IsArchive f start h hashes blocks highs) : start ≤ f.length := by
  have := ha.inside.1
  omega

theorem IsArchive.hash_place (ha : Spec.IsArchive f start h hashes blocks highs) : start + h.hashPlace ≤ f.length := by
  obtain ⟨cipher, ⟨hl, _⟩, hs⟩ := ha.hashTable
  obtain ⟨k, hk⟩ := ha.powerOfTwo
  have := Nat.two_pow_pos k
  rw [hashRows_bytes, flatMap_length_16 _ HashEntry.toBytes_length, List.length_map] at hl
  have := congrArg List.length hs
  rw [List.length_take, List.length_drop] at this
  omega

theorem IsArchive.loaded (ha : Spec.IsArchive f start h hashes blocks highs) (hlen : f.length < 2 ^ 63) (e : Env) :
    ∃ ud, openArchive e f = (do
      let attributes ← (archiveOf f start ud h hashes blocks highs).loadAttributes e
      return { archiveOf f start ud h hashes blocks highs with attributes }) := by
  obtain ⟨ud, hud⟩ := search_first ha.first
  refine ⟨ud, ?_⟩
  have hd : f.drop start = h.bytes ++ (f.drop start).drop h.bytes.length := by
    conv => lhs; rw [← List.take_append_drop h.bytes.length (f.drop start)]
    rw [show (f.drop start).take h.bytes.length = h.bytes from ha.header]
  rw [hd, readHeader_stands ha.version] at hud
  unfold openArchive
  rw [hud]
  show Archive.loadTables e _ = _
  have hge : (headerOfSpec h).formatVersion.ge .v3 = false := by
    show FormatVersion.ge (if h.version = 0#16 then .v1 else .v2) .v3 = false
    split <;> decide
  obtain ⟨k, hk⟩ := ha.powerOfTwo
  have hh := readHashTable_stands ha.hashCount hk ha.hashTable
  have hb := readBlockTable_stands ha.blockCount ha.blockTable
  have hc : loadClassic f start (headerOfSpec h) false = .ok (some (hashes.map entryOfRow, blocks.map blockOfRow)) := by
    unfold loadClassic
    have p1 := IsArchive.hash_place ha
    have p2 := ha.inside.1
    rw [← hashPlace_read] at p1 hh
    rw [← blockPlace_read] at p2 hb
    rw [addPos_ok (by omega), addPos_ok (by omega)]
    simp only [bind, Except.bind, Bool.not_false, Bool.true_or, if_true]
    rw [show (headerOfSpec h).hashTableSize = h.hashCount from rfl, show (headerOfSpec h).blockTableSize = h.blockCount from rfl,
      hh, hb]
    rfl
  have hi : loadHiBlock f start (headerOfSpec h) =
      .ok (if h.version ≠ 0#16 ∧ h.hiPosition ≠ 0#64 then some highs else none) := by
    unfold loadHiBlock
    rw [show (headerOfSpec h).hiBlockTablePos = if h.version = 0#16 then none else some h.hiPosition from rfl,
      show (headerOfSpec h).blockTableSize = h.blockCount from rfl]
    by_cases hv : h.version = 0#16
    · rw [if_pos hv, if_neg (fun h => h.1 hv)]
    · rw [if_neg hv]
      dsimp only
      by_cases h0 : h.hiPosition = 0#64
      · rw [if_pos h0, if_neg (fun h => h.2 h0)]
      · have hp := ha.inside.2 ⟨hv, h0⟩
        rw [if_neg h0, if_pos ⟨hv, h0⟩, addPos_ok (by omega), ha.blockCount, ← ha.highCount]
        simp only [bind, Except.bind]
        rw [readHiBlockTable_stands hp (ha.highTable ⟨hv, h0⟩)]
        rfl
  unfold Archive.loadTables
  dsimp only
  rw [hge]
  simp only [Bool.false_eq_true, if_false, pure_bind]
  rw [show (usableHetBet none none).isSome = false from rfl, hc, hi]
  rfl

theorem findFile_archiveOf (ha : Spec.IsArchive f start h hashes blocks highs) (hlen : f.length < 2 ^ 63)
    (ud : Option UserDataHeader) (at' : Option Attributes) (name : List Byte) :
    (∀ r b high, Spec.Finds hashes name r → blocks[r.block.toNat]? = some b → highs[r.block.toNat]? = some high →
      ∃ info, { archiveOf f start ud h hashes blocks highs with attributes := at' }.findFile name = .ok (some info) ∧
        info.filePos = start + (b.position.toNat + 2 ^ 32 * high.toNat) ∧ info.compressedSize = b.storedSize.toNat ∧
        info.fileSize = b.size.toNat ∧ info.flags = b.flags ∧ info.locale = r.language) ∧
    ((∀ r, ¬ Spec.Finds hashes name r) →
      { archiveOf f start ud h hashes blocks highs with attributes := at' }.findFile name = .ok none) := by
  obtain ⟨k, hk⟩ := ha.powerOfTwo
  have hsl := IsArchive.start_le ha
  refine ⟨fun r b high hr hb hh => ?_, fun hno => ?_⟩
  · obtain ⟨i, hi⟩ := finds_some hk hr
    have hp := position_read ha.noHighs hh b
    have hb' : (blocks.map blockOfRow)[(entryOfRow r).blockIndex.toNat]? = some (blockOfRow b) := by
      rw [List.getElem?_map]
      show Option.map _ blocks[r.block.toNat]? = _
      rw [hb]; rfl
    have hlt : start + (fullFilePos (if h.version ≠ 0#16 ∧ h.hiPosition ≠ 0#64 then some highs else none) r.block.toNat
        (blockOfRow b)).toNat < 2 ^ 64 := by
      rw [hp]
      have := b.position.isLt
      have := high.isLt
      omega
    refine ⟨{ hashIndex := i
              blockIndex := r.block.toNat
              filePos := start + (b.position.toNat + 2 ^ 32 * high.toNat)
              compressedSize := b.storedSize.toNat
              fileSize := b.size.toNat
              flags := b.flags
              locale := r.language }, ?_, rfl, rfl, rfl, rfl, rfl⟩
    refine Eq.trans (fallsBack_unusable rfl name) ?_
    unfold Archive.findFileClassic
    dsimp only [archiveOf]
    rw [hi]
    simp only [bind, Except.bind, hb']
    have hlt' := addPos_ok hlt
    rw [hp] at hlt'
    rw [show (entryOfRow r).blockIndex.toNat = r.block.toNat from rfl]
    rw [hlt']
    rfl
  · refine Eq.trans (fallsBack_unusable rfl name) ?_
    unfold Archive.findFileClassic
    dsimp only [archiveOf]
    rw [finds_none hk hno]
    rfl

theorem read_archiveOf (ha : Spec.IsArchive f start h hashes blocks highs) (hlen : f.length < 2 ^ 63) (e : Env) (m : Spec.Methods)
    (hu : ∀ k b n d, m.unpack k b n = some d → decompress e.codecs b k n = .ok d) (hsh : h.shift.toNat < 55)
    (ud : Option UserDataHeader) (at' : Option Attributes) {name : List Byte} {s : Spec.Stored} {data : List Byte}
    {packed : Nat → List Byte} (hf : Spec.HasFile m f start h hashes blocks highs name s data packed)
    (ho : Spec.Ordinary (512 * 2 ^ h.shift.toNat) s data packed) :
    { archiveOf f start ud h hashes blocks highs with attributes := at' }.readFile e name = .ok data := by
  obtain ⟨r, b, high, h1, h2, h3, _, rfl, h5⟩ := hf
  obtain ⟨info, hi, i1, i2, i3, i4, _⟩ := (findFile_archiveOf ha hlen ud at' name).1 r b high h1 h2 h3
  refine C81_reads_what_is_stored_partial e m hu _ name info hi hsh data packed ?_ ?_ ?_ ?_ ?_ ?_
  · show Spec.Stores m _ f _ data packed
    have : Archive.entryOf { archiveOf f start ud h hashes blocks highs with attributes := at' } name info =
        Spec.fileEntry start name b high := by
      unfold Archive.entryOf Spec.fileEntry
      dsimp only [archiveOf]
      rw [i1, i2, i3, i4, Nat.add_sub_cancel_left]
    rw [this]
    exact h5
  · rw [i4]; exact ho.notImploded
  · rw [i4]; exact ho.wholeDwords
  · rw [i4, i3]; exact ho.oneSector
  · rw [i4]; exact ho.noChecksum
  · rw [i4]; exact ho.smaller

/-- C86: a file that is an archive as the format describes it, in version 1 or 2, whoever wrote it, opens: its start is found, with
or without user data and bytes before it; every file it has is found with the place, sizes and flags its entries say, and read as
what it is; every other name is reported as missing. Partial: the files have to be of the kinds C81 is about, and if there is a file
"(attributes)", it has to be one of them and what its name says. -/
theorem C86_opens_format_partial (e : Env) (m : Spec.Methods)
    (hu : ∀ k b n d, m.unpack k b n = some d → decompress e.codecs b k n = .ok d)
    (ha : Spec.IsArchive f start h hashes blocks highs) (hlen : f.length < 2 ^ 63) (hsh : h.shift.toNat < 55)
    (hatt : (∀ r, ¬ Spec.Finds hashes Spec.attributesFile r) ∨
      ∃ s data packed, Spec.HasFile m f start h hashes blocks highs Spec.attributesFile s data packed ∧
        Spec.Ordinary (512 * 2 ^ h.shift.toNat) s data packed ∧ Spec.IsAttributes data blocks.length) :
    ∃ a, openArchive e f = .ok a ∧ a.archiveOffset = start ∧
      (∀ name s data packed, Spec.HasFile m f start h hashes blocks highs name s data packed →
        (∃ info, a.findFile name = .ok (some info) ∧ info.filePos = s.place ∧ info.compressedSize = s.storedSize ∧
          info.fileSize = s.size ∧ info.flags = s.flags) ∧
        (Spec.Ordinary (512 * 2 ^ h.shift.toNat) s data packed → a.readFile e name = .ok data)) ∧
      ∀ name, (∀ r, ¬ Spec.Finds hashes name r) → a.findFile name = .ok none ∧ a.readFile e name = .error .fileNotFound := by
  obtain ⟨ud, hop⟩ := IsArchive.loaded ha hlen e
  have hname : Spec.attributesFile = attributesName := by decide
  rw [hname] at hatt
  have hload : ∃ at', (archiveOf f start ud h hashes blocks highs).loadAttributes e = .ok at' := by
    rcases hatt with hno | ⟨s, data, packed, hf, ho, hx⟩
    · exact ⟨none, loadAttributes_none ((findFile_archiveOf ha hlen ud none _).2 hno) rfl⟩
    · have hr := read_archiveOf ha hlen e m hu hsh ud none hf ho
      obtain ⟨x1, x2, x3⟩ := hx
      have hbl : blocks.length < 2 ^ 58 := by
        have := h.blockCount.isLt
        rw [ha.blockCount] at this
        omega
      obtain ⟨at', hp⟩ := (C36_accepts_exactly data blocks.length hbl).1.2 ⟨x1, x2, x3⟩
      refine ⟨some at', ?_⟩
      unfold Archive.loadAttributes
      have hr : (archiveOf f start ud h hashes blocks highs).readFile e attributesName = .ok data := hr
      rw [hr]
      have hunw : unwrapAttributes e data (blocks.map blockOfRow).length = .ok data := by
        unfold unwrapAttributes
        split
        · rename_i b0 b1 b2 b3 rest _
          have e0 : Spec.numAt 4 (b0 :: b1 :: b2 :: b3 :: rest) 0 =
            b0.toNat + 256 * Spec.numAt 3 (b0 :: b1 :: b2 :: b3 :: rest) 1 := rfl
          rw [e0] at x2
          have : b0 = 0x64#8 := BitVec.eq_of_toNat_eq (by
            have hlt := b0.isLt
            show b0.toNat = 100
            omega)
          rw [this]
          simp
        · rfl
      show (do
        let blockCount ← pure (blocks.map blockOfRow).length
        let data ← unwrapAttributes e data blockCount
        let attributes ← parseAttributes data blockCount
        return some attributes) = _
      rw [pure_bind, hunw]
      simp only [bind, Except.bind, List.length_map]
      rw [hp]
      rfl
  obtain ⟨at', hat⟩ := hload
  rw [hat] at hop
  refine ⟨{ archiveOf f start ud h hashes blocks highs with attributes := at' }, hop, rfl, ?_, ?_⟩
  · intro name s data packed hf
    refine ⟨?_, fun ho => read_archiveOf ha hlen e m hu hsh ud at' hf ho⟩
    obtain ⟨r, b, high, h1, h2, h3, _, rfl, _⟩ := hf
    obtain ⟨info, hi, i1, i2, i3, i4, _⟩ := (findFile_archiveOf ha hlen ud at' name).1 r b high h1 h2 h3
    exact ⟨info, hi, i1, i2, i3, i4⟩
  · intro name hno
    have hn := (findFile_archiveOf ha hlen ud at' name).2 hno
    refine ⟨hn, ?_⟩
    unfold Archive.readFile
    rw [hn]
    rfl


/-! ## The builder -/

def rowOfEntry (r : HashEntry) : _root_.Spec.HashRow := ⟨r.name1, r.name2, r.locale, r.platform, r.blockIndex⟩

def rowOfBlock (r : BlockEntry) : _root_.Spec.BlockRow := ⟨r.filePos, r.compressedSize, r.fileSize, r.flags⟩

theorem entries_back (t : HashTable) : (t.map rowOfEntry).map entryOfRow = t := by
  rw [List.map_map, show entryOfRow ∘ rowOfEntry = id from rfl, List.map_id]

theorem blocks_back (t : List BlockEntry) : (t.map rowOfBlock).map blockOfRow = t := by
  rw [List.map_map, show blockOfRow ∘ rowOfBlock = id from rfl, List.map_id]

/-- The header the builder writes. -/
def builtHeader (v : FormatVersion) (shift : U16) (p : HeaderParams) : _root_.Spec.Header where
  headerSize := v.headerSize
  archiveSize := BitVec.ofNat 32 (min p.archiveSize.toNat 0xFFFFFFFF)
  version := v.raw
  shift := shift
  hashPosition := p.hashTablePos.setWidth 32
  blockPosition := p.blockTablePos.setWidth 32
  hashCount := p.hashTableSize
  blockCount := p.blockTableSize
  hiPosition := p.hiBlockTablePos.getD 0
  hashPositionHigh := (p.hashTablePos >>> 32).setWidth 16
  blockPositionHigh := (p.blockTablePos >>> 32).setWidth 16

theorem builtHeader_bytes {v : FormatVersion} (hv : v = .v1 ∨ v = .v2) (shift : U16) (p : HeaderParams) :
    writeHeader v shift p = .ok (builtHeader v shift p).bytes := by
  rw [header_bytes]
  rcases hv with rfl | rfl
  · show Except.ok _ = Except.ok _
    refine congrArg _ ?_
    unfold builtHeader headerCommonBytes
    dsimp only
    rw [if_pos (show FormatVersion.v1.raw = 0#16 from rfl), List.append_nil]
  · show Except.ok _ = Except.ok _
    refine congrArg _ ?_
    unfold builtHeader headerCommonBytes headerV2Bytes
    dsimp only
    rw [if_neg (show ¬ FormatVersion.v2.raw = 0#16 by decide)]
    simp only [List.append_assoc]

theorem split_position {n : Nat} (h : n < 2 ^ 48) :
    ((BitVec.ofNat 64 n).setWidth 32 : U32).toNat + 2 ^ 32 * (((BitVec.ofNat 64 n) >>> 32).setWidth 16 : U16).toNat = n := by
  rw [BitVec.toNat_setWidth, BitVec.toNat_setWidth, BitVec.toNat_ushiftRight, BitVec.toNat_ofNat, Nat.shiftRight_eq_div_pow]
  omega

theorem low_position {n : Nat} (h : n < 2 ^ 32) : ((BitVec.ofNat 64 n).setWidth 32 : U32).toNat = n := by
  rw [BitVec.toNat_setWidth, BitVec.toNat_ofNat]
  omega

theorem stands_encrypted {f : List Byte} {key : U32} {place : Nat} {plain : List Byte} (hq : plain.length % 4 = 0)
    (h : Spec.StandsAt f place (encryptData plain key)) : Spec.StandsEncrypted f key.toNat place plain :=
  ⟨_, enciphers_encryptData key plain hq, h⟩

theorem standsAt_of {g : List Byte} {pre b post : List Byte} {place : Nat} (hg : g = pre ++ b ++ post) (hp : pre.length = place) :
    Spec.StandsAt g place b := by
  rw [hg, ← hp]
  exact standsAt_mid pre b post

variable {e : Env} {md5 : Md5} {b : Builder} {g : List Byte}

/-- The high parts of the positions in the archive. -/
def Layout.highParts (L : Layout e md5 b g) : List U16 := if L.hiNeeded then L.stored.map (·.hi) else L.stored.map fun _ => 0#16

theorem Layout.positions_spec (L : Layout e md5 b g) (hmd : ∀ x, (md5 x).length = 16) (hv : b.version = .v1 ∨ b.version = .v2)
    (hlen : g.length < addressable b.version) :
    (builtHeader b.version b.blockSize L.params).hashPlace =
      b.version.headerSize.toNat + L.files.length + L.het.length + L.bet.length ∧
    (builtHeader b.version b.blockSize L.params).blockPlace =
      b.version.headerSize.toNat + L.files.length + L.het.length + L.bet.length + L.hash.length := by
  have hfl := L.f_length hmd
  unfold _root_.Spec.Header.hashPlace _root_.Spec.Header.blockPlace builtHeader
  dsimp only
  rw [L.params_eq]
  dsimp only
  rcases hv with hv | hv
  · rw [hv, if_pos (show FormatVersion.v1.raw = 0#16 from rfl)]
    unfold addressable at hlen
    rw [if_pos hv, hfl, hv] at hlen
    refine ⟨?_, ?_⟩
    · rw [low_position (by omega), Nat.add_zero]
    · rw [if_pos (show FormatVersion.v1.raw = 0#16 from rfl), low_position (by omega), Nat.add_zero]
  · rw [hv, if_neg (show ¬ FormatVersion.v2.raw = 0#16 by decide)]
    unfold addressable at hlen
    rw [if_neg (by rw [hv]; decide), hfl, hv] at hlen
    rw [if_neg (show ¬ FormatVersion.v2.raw = 0#16 by decide)]
    exact ⟨split_position (by omega), split_position (by omega)⟩

theorem Layout.isArchive (L : Layout e md5 b g) (hmd : ∀ x, (md5 x).length = 16) (hv : b.version = .v1 ∨ b.version = .v2)
    (before after : List Byte) (hal : before.length % 512 = 0)
    (hclean : ∀ o < before.length, o % 512 = 0 → ¬ Spec.archiveMark (before ++ g ++ after) o ∧
      ¬ Spec.userDataMark (before ++ g ++ after) o)
    (hlen : g.length < addressable b.version) (hn : L.pending.length < 0xFFFFFFFE) :
    Spec.IsArchive (before ++ g ++ after) before.length (builtHeader b.version b.blockSize L.params) (L.table.map rowOfEntry)
      ((L.stored.map (·.block)).map rowOfBlock) L.highParts := by
  have hfl := L.f_length hmd
  have hhdr := L.header_length hmd
  have htl := L.table_length hn
  have hsl := L.placed.length
  have hk : 2 ^ L.k < 2 ^ 32 := Nat.pow_lt_pow_right (by decide) L.hk
  have h48 := addressable_le b.version
  have e48 : 2 ^ 48 = 281474976710656 := rfl
  have e64 : 2 ^ 64 = 18446744073709551616 := rfl
  obtain ⟨hpl, bpl⟩ := L.positions_spec hmd hv hlen
  have hheader : L.header = (builtHeader b.version b.blockSize L.params).bytes := by
    have := L.header_eq
    rw [builtHeader_bytes hv] at this
    injection this with this
    exact this.symm
  have hF : before ++ g ++ after = before ++ L.header ++ (L.files ++ L.het ++ L.bet ++ L.hash ++ L.block ++ L.hi ++ after) := by
    conv => lhs; rw [L.bytes]
    simp only [List.append_assoc]
  have hstands : Spec.StandsAt (before ++ g ++ after) before.length L.header := standsAt_of hF rfl
  have hhigh : (builtHeader b.version b.blockSize L.params).hasHigh ↔ L.hiNeeded = true := by
    unfold _root_.Spec.Header.hasHigh builtHeader
    dsimp only
    rw [L.params_eq]
    dsimp only
    cases hi : L.hiNeeded with
    | false => rw [if_neg (by decide)]; exact ⟨fun h => absurd rfl h.2, fun h => by cases h⟩
    | true =>
      rw [if_pos rfl]
      refine ⟨fun _ => rfl, fun _ => ⟨?_, ?_⟩⟩
      · have hq := L.hiNeeded_eq
        rw [hi] at hq
        rcases hv with hv | hv
        · rw [hv] at hq; cases hq
        · rw [hv]; decide
      · intro h0
        have h0 := congrArg BitVec.toNat h0
        have h32 : 32 ≤ b.version.headerSize.toNat := by rcases hv with hv | hv <;> rw [hv] <;> decide
        rw [Option.getD_some, BitVec.toNat_ofNat, Nat.mod_eq_of_lt (by omega)] at h0
        have h00 : (0#64).toNat = 0 := rfl
        omega
  have hhipos : L.hiNeeded = true → (builtHeader b.version b.blockSize L.params).hiPosition.toNat =
      b.version.headerSize.toNat + L.files.length + L.het.length + L.bet.length + L.hash.length + L.block.length := by
    intro hi
    unfold builtHeader
    dsimp only
    rw [L.params_eq]
    dsimp only
    rw [if_pos hi, Option.getD_some, BitVec.toNat_ofNat, Nat.mod_eq_of_lt (by omega)]
  refine
    { first := ⟨before.length, hal, Or.inl ⟨?_, rfl⟩, hclean⟩
      header := by rw [← hheader]; exact hstands
      version := ?_
      powerOfTwo := ⟨L.k, by rw [List.length_map, htl]⟩
      hashCount := ?_
      blockCount := ?_
      highCount := ?_
      hashTable := ?_
      blockTable := ?_
      highTable := ?_
      noHighs := ?_
      inside := ?_ }
  · rw [hF, hheader, header_bytes]
    unfold Spec.archiveMark Spec.u32At
    rw [List.append_assoc before, List.drop_left' rfl]
    have h4 : le32 mpqSignature = [0x4D#8, 0x50#8, 0x51#8, 0x1A#8] := by decide
    rw [h4]
    simp only [List.cons_append, List.nil_append]
    decide
  · rcases hv with hv | hv
    · left; unfold builtHeader; rw [hv]; exact ⟨rfl, show 32 ≤ FormatVersion.v1.headerSize.toNat by decide⟩
    · right; unfold builtHeader; rw [hv]; exact ⟨rfl, show 44 ≤ FormatVersion.v2.headerSize.toNat by decide⟩
  · unfold builtHeader
    dsimp only
    rw [L.params_eq, List.length_map, htl]
    dsimp only
    rw [BitVec.toNat_ofNat, Nat.mod_eq_of_lt hk]
  · unfold builtHeader
    dsimp only
    rw [L.params_eq, List.length_map, List.length_map, hsl]
    dsimp only
    rw [BitVec.toNat_ofNat, Nat.mod_eq_of_lt L.count]
  · unfold Layout.highParts
    split <;> simp only [List.length_map]
  · rw [hashRows_bytes, entries_back, ← hashTableKey_spec, hpl]
    have h16 := flatMap_length_16 _ HashEntry.toBytes_length L.table
    refine stands_encrypted (by omega) ?_
    have hG : before ++ g ++ after = (before ++ L.header ++ L.files ++ L.het ++ L.bet) ++ L.hash ++ (L.block ++ L.hi ++ after) := by
      conv => lhs; rw [L.bytes]
      simp only [List.append_assoc]
    rw [L.hash_eq] at hG
    exact standsAt_of hG (by simp only [List.length_append, hhdr]; omega)
  · rw [blockRows_bytes, blocks_back, ← blockTableKey_spec, bpl]
    have h16 := flatMap_length_16 _ BlockEntry.toBytes_length (L.stored.map (·.block))
    refine stands_encrypted (by omega) ?_
    have hG : before ++ g ++ after = (before ++ L.header ++ L.files ++ L.het ++ L.bet ++ L.hash) ++ L.block ++ (L.hi ++ after) := by
      conv => lhs; rw [L.bytes]
      simp only [List.append_assoc]
    rw [L.block_eq] at hG
    exact standsAt_of hG (by simp only [List.length_append, hhdr]; omega)
  · intro hx
    have hi := hhigh.1 hx
    rw [hhipos hi]
    unfold Layout.highParts
    rw [if_pos hi]
    have he : ((L.stored.map (·.hi)).flatMap fun x => Spec.putLe 2 x.toNat) = L.hi := by
      rw [L.hi_eq, if_pos hi]
      unfold hiBlockTableBytes
      exact congrArg (fun g => (L.stored.map (·.hi)).flatMap g) (funext fun x => putLe_leBytes 2 x.toNat)
    rw [he]
    have hG : before ++ g ++ after = (before ++ L.header ++ L.files ++ L.het ++ L.bet ++ L.hash ++ L.block) ++ L.hi ++ after := by
      conv => lhs; rw [L.bytes]
      simp only [List.append_assoc]
    exact standsAt_of hG (by simp only [List.length_append, hhdr]; omega)
  · intro hx x hm
    unfold Layout.highParts at hm
    rw [if_neg (fun hi => hx (hhigh.2 hi))] at hm
    obtain ⟨_, _, rfl⟩ := List.mem_map.1 hm
    rfl
  · simp only [List.length_append]
    rw [bpl]
    refine ⟨by omega, fun hx => ?_⟩
    rw [hhipos (hhigh.1 hx)]
    omega

/-- A found entry is what the format finds. -/
theorem finds_of_found {hashes : List _root_.Spec.HashRow} {k : Nat} (hk : hashes.length = 2 ^ k) {name : List Byte} {i : Nat}
    {entry : HashEntry} (h : findFileHash (hashes.map entryOfRow) name 0 = .ok (some (i, entry))) :
    ∃ r, Spec.Finds hashes name r ∧ entryOfRow r = entry := by
  apply Classical.byContradiction
  intro hno
  by_cases hex : ∃ r, Spec.Finds hashes name r
  · obtain ⟨r, hr⟩ := hex
    obtain ⟨j, hj⟩ := finds_some hk hr
    rw [h] at hj
    injection hj with hj
    injection hj with hj
    injection hj with _ hj
    exact hno ⟨r, hr, hj.symm⟩
  · rw [finds_none hk (fun r hr => hex ⟨r, hr⟩)] at h
    cases h

theorem none_of_missing {hashes : List _root_.Spec.HashRow} {k : Nat} (hk : hashes.length = 2 ^ k) {name : List Byte}
    (h : findFileHash (hashes.map entryOfRow) name 0 = .ok none) (r : _root_.Spec.HashRow) : ¬ Spec.Finds hashes name r := by
  intro hr
  obtain ⟨i, hi⟩ := finds_some hk hr
  rw [h] at hi
  cases hi

/-- C86: what the builder makes in version 1 or 2 is an archive as the format describes it, whatever the files, names, options and
other bytes before and after it; every added file (the first of its name) is in it under every spelling of its name, and no other name is.
Partial: for the content, the file has to be of the kinds C82 is about; names with colliding hashes are left out. -/
theorem C86_builds_format_partial (e : Env) (he : e.codecs.Lawful) (m : Spec.Methods)
    (hu : ∀ k b n d, decompress e.codecs b k n = .ok d → m.unpack k b n = some d) (md5 : Md5) (hmd : ∀ x, (md5 x).length = 16)
    (b : Builder) (g : List Byte) (hb : buildBytes e md5 b = .ok g) (pending : List PendingFile)
    (hp : prepareListfile b = .ok pending) (hv : b.version = .v1 ∨ b.version = .v2) (before after : List Byte)
    (hal : before.length % 512 = 0)
    (hclean : ∀ o < before.length, o % 512 = 0 → ¬ Spec.archiveMark (before ++ g ++ after) o ∧
      ¬ Spec.userDataMark (before ++ g ++ after) o)
    (hlen : g.length < addressable b.version) (hcount : pending.length < 0xFFFFFFFE) (hbs : b.blockSize.toNat < 55)
    (ss : Nat) (hss : ss = 512 * 2 ^ b.blockSize.toNat) :
    ∃ h hashes blocks highs, Spec.IsArchive (before ++ g ++ after) before.length h hashes blocks highs ∧
      h.shift = b.blockSize ∧ blocks.length = pending.length ∧
      (∀ (i : Nat) (p : PendingFile) (name : List Byte), pending[i]? = some p →
        Spec.sameName (name.map BitVec.toNat) (p.name.map BitVec.toNat) →
        (∀ j < i, ∀ q, pending[j]? = some q → ¬ Spec.sameName (name.map BitVec.toNat) (q.name.map BitVec.toNat)) →
        NoCollision (name :: pending.map (·.name)) → ∀ data, p.source = some data →
        data.length + data.length / 64 + 12 < 2 ^ 32 → Spec.LosslessMethod p.compression data →
        (ss < data.length → ∃ x c, _root_.Spec.IsSector ss data x ∧ CompressedSector e.codecs p.compression x c) →
        (∀ x c, Spec.IsPiece ss data x → CompressedSector e.codecs p.compression x c → c.length < x.length) →
        (p.encrypt = true → ∀ x c, Spec.IsPiece ss data x → compress e.codecs x p.compression = .ok c → c.length % 4 = 0) →
        ∃ s packed, Spec.HasFile m (before ++ g ++ after) before.length h hashes blocks highs name s data packed) ∧
      ∀ name, (∀ p ∈ pending, ¬ Spec.sameName (name.map BitVec.toNat) (p.name.map BitVec.toNat)) →
        NoCollision (name :: pending.map (·.name)) → ∀ r, ¬ Spec.Finds hashes name r := by
  obtain ⟨L⟩ := layout_of_build hmd hb
  have hpe : L.pending = pending := by
    have := L.prepared
    rw [hp] at this
    injection this with this
    exact this.symm
  subst hpe
  have hA := L.isArchive hmd hv before after hal hclean hlen hcount
  have hsl := L.placed.length
  have hlk : (L.table.map rowOfEntry).length = 2 ^ L.k := by rw [List.length_map, L.table_length hcount]
  have hsec : L.sectorSize = ss := by
    have := L.sector
    unfold sectorSizeOf at this
    have hpw : 2 ^ b.blockSize.toNat < 2 ^ 55 := Nat.pow_lt_pow_right (by decide) hbs
    have h64 : (2 : Nat) ^ 64 = 512 * 2 ^ 55 := by decide
    rw [if_pos (by omega), Nat.mod_eq_of_lt (by omega)] at this
    injection this with this
    rw [hss, this]
  have hss0 : 512 ≤ ss := by
    have := Nat.two_pow_pos b.blockSize.toNat
    omega
  refine ⟨_, _, _, _, hA, rfl, by rw [List.length_map, List.length_map, hsl], ?_, ?_⟩
  · intro i p name hpi hname hfirst hc data hdata hsize hm hsome hshort hquad
    obtain ⟨s, pre, post, h1, h2, h3, h4⟩ := L.placed.get hpi
    rw [← L.files_eq] at h2
    obtain ⟨data', w, hd', hw, hs⟩ := storeFile_ok h4
    rw [hdata] at hd'
    injection hd' with hd'
    subst hd'
    have hlook := L.lookup_some hpi name hname hfirst
    have hc' : NoCollision (name :: (opsFrom 0 L.pending).map AddOp.name) := by rw [opsFrom_names]; exact hc
    have hff := C06_lookup_is_directory_lookup L.k L.hk (opsFrom 0 L.pending) (opsFrom_valid hcount) L.table L.adds name 0 hc'
    rw [show ((0 : U16).toNat) = 0 from rfl, hlook] at hff
    cases hr : findFileHash L.table name 0 with
    | error err => rw [hr] at hff; cases hff
    | ok r =>
      rw [hr] at hff
      cases r with
      | none => simp only [Except.map, Option.map] at hff; cases hff
      | some r =>
        obtain ⟨hashIndex, entry⟩ := r
        simp only [Except.map, Option.map, Except.ok.injEq, Option.some.injEq, Prod.mk.injEq] at hff
        obtain ⟨hbi, _⟩ := hff
        subst hbi
        rw [← entries_back L.table] at hr
        obtain ⟨row, hrow, rfl⟩ := finds_of_found hlk hr
        have hws := (writeFile_facts hw L.sector hsize).1
        have hfl := L.f_length hmd
        have hhdr := L.header_length hmd
        have hfiles : L.files.length = pre.length + s.bytes.length + post.length := by
          rw [h2]; simp only [List.length_append]
        have h48 := addressable_le b.version
        have e48 : 2 ^ 48 = 281474976710656 := rfl
        have e32 : 2 ^ 32 = 4294967296 := rfl
        obtain ⟨high, hhigh, hpos⟩ : ∃ high, L.highParts[row.block.toNat]? = some high ∧
            s.block.filePos.toNat + 2 ^ 32 * high.toNat = b.version.headerSize.toNat + pre.length := by
          have hlow : s.block.filePos = BitVec.ofNat 32 (b.version.headerSize.toNat + pre.length) := by rw [hs]
          have hhi : s.hi = BitVec.ofNat 16 ((b.version.headerSize.toNat + pre.length) / 2 ^ 32) := by rw [hs]
          have h1 : L.stored[row.block.toNat]? = some s := h1
          unfold Layout.highParts
          by_cases hi : L.hiNeeded = true
          · rw [if_pos hi]
            refine ⟨s.hi, by rw [List.getElem?_map, h1]; rfl, ?_⟩
            rw [hlow, hhi, BitVec.toNat_ofNat, BitVec.toNat_ofNat]
            omega
          · rw [if_neg hi]
            refine ⟨0#16, by rw [List.getElem?_map, h1]; rfl, ?_⟩
            have hsmall : b.version.headerSize.toNat + pre.length < 2 ^ 32 := by
              rcases hv with hv | hv
              · unfold addressable at hlen; rw [if_pos hv] at hlen; omega
              · have hge : b.version.ge .v2 = true := by rw [hv]; decide
                have hfalse : hiBlockNeeded (L.stored.map (·.hi)) = false := by
                  have := L.hiNeeded_eq
                  rw [hge, Bool.true_and] at this
                  rw [← this]; simpa using hi
                unfold hiBlockNeeded at hfalse
                rw [List.any_eq_false] at hfalse
                have := hfalse s.hi (List.mem_map.2 ⟨s, List.mem_of_getElem? h1, rfl⟩)
                have h0 : s.hi = 0 := by simpa using this
                rw [hhi] at h0
                have h0 := congrArg BitVec.toNat h0
                rw [BitVec.toNat_ofNat] at h0
                have h00 : (0 : U16).toNat = 0 := rfl
                rw [h00] at h0
                omega
            rw [hlow, BitVec.toNat_ofNat, Nat.mod_eq_of_lt hsmall]
            rfl
        rw [hsec] at hw
        obtain ⟨packed, hst⟩ := C82_written_as_stored_partial e he m hu b.generateCrcs _ w hw hss0 hsize hm before.length
          (before ++ L.header ++ pre) (post ++ L.het ++ L.bet ++ L.hash ++ L.block ++ L.hi ++ after)
          (by simp only [List.length_append, hhdr]; omega) hsome hshort hquad
        have hbytes : s.bytes = w.bytes := by rw [hs]
        have hF : before ++ g ++ after = before ++ L.header ++ pre ++ w.bytes ++
            (post ++ L.het ++ L.bet ++ L.hash ++ L.block ++ L.hi ++ after) := by
          conv => lhs; rw [L.bytes]
          rw [h2, hbytes]
          simp only [List.append_assoc]
        rw [← hF] at hst
        refine ⟨_, packed, row, rowOfBlock s.block, high, hrow, ?_, hhigh, ?_, rfl, ?_⟩
        · have h1 : L.stored[row.block.toNat]? = some s := h1
          rw [List.getElem?_map, List.getElem?_map, h1]
          rfl
        · show (s.block.flags).toNat.testBit 31 = true
          rw [hs]
          show (w.flags ||| 0x80000000#32).toNat.testBit 31 = true
          rw [BitVec.toNat_or, Nat.testBit_or]
          have : (0x80000000#32).toNat.testBit 31 = true := by decide
          rw [this, Bool.or_true]
        · show Spec.Stores m (512 * 2 ^ b.blockSize.toNat) _ _ data packed
          rw [← hss]
          have he' : Spec.fileEntry before.length name (rowOfBlock s.block) high = writtenEntry before.length
              { data := data, name := p.name, compression := p.compression, encrypt := p.encrypt, useFixKey := p.useFixKey,
                sectorSize := ss, filePos := b.version.headerSize.toNat + pre.length } w := by
            unfold Spec.fileEntry writtenEntry
            have b1 : (rowOfBlock s.block).storedSize.toNat = w.size := by
              show s.block.compressedSize.toNat = _
              rw [hs]
              show (BitVec.ofNat 32 w.size).toNat = _
              rw [BitVec.toNat_ofNat, Nat.mod_eq_of_lt hws]
            have b2 : (rowOfBlock s.block).size.toNat = data.length := by
              show s.block.fileSize.toNat = _
              rw [hs]
              show (BitVec.ofNat 32 data.length).toNat = _
              rw [BitVec.toNat_ofNat, Nat.mod_eq_of_lt (by omega)]
            have b3 : (rowOfBlock s.block).flags = w.flags ||| 0x80000000#32 := by
              show s.block.flags = _
              rw [hs]
              rfl
            have hbase : ∀ fl n k, Spec.fileKey name fl n k = Spec.fileKey p.name fl n k := by
              intro fl n k
              unfold Spec.fileKey Spec.nameHash
              rw [nameHash_sameName 3 _ _ _ hname]
            have b4 : (rowOfBlock s.block).position.toNat + 2 ^ 32 * high.toNat = b.version.headerSize.toNat + pre.length := hpos
            dsimp only
            rw [b1, b2, b3, b4, hbase]
          rw [he']
          exact hst
  · intro name hnone hc r
    have hlook := L.lookup_none name hnone
    have hc' : NoCollision (name :: (opsFrom 0 L.pending).map AddOp.name) := by rw [opsFrom_names]; exact hc
    have hff := C06_lookup_is_directory_lookup L.k L.hk (opsFrom 0 L.pending) (opsFrom_valid hcount) L.table L.adds name 0 hc'
    rw [show ((0 : U16).toNat) = 0 from rfl, hlook] at hff
    cases hr : findFileHash L.table name 0 with
    | error err => rw [hr] at hff; cases hff
    | ok x =>
      rw [hr] at hff
      cases x with
      | some x => simp only [Except.map, Option.map] at hff; cases hff
      | none =>
        rw [← entries_back L.table] at hr
        exact none_of_missing hlk hr r


/-! ## The description is unambiguous -/

theorem standsAt_only {f : List Byte} {place : Nat} {x y : List Byte} (hx : Spec.StandsAt f place x) (hy : Spec.StandsAt f place y)
    (hl : x.length = y.length) : x = y := by
  unfold Spec.StandsAt at hx hy
  rw [← hx, ← hy, hl]

theorem enciphers_plain_only {key : Nat} {p p' c : List Byte} (h : Spec.Enciphers key p c) (h' : Spec.Enciphers key p' c) : p = p' := by
  obtain ⟨h1, h2, h3⟩ := h
  obtain ⟨h1', h2', h3'⟩ := h'
  have hd : Spec.dwords p = Spec.dwords p' := by
    by_cases hk : key = 0
    · rw [if_pos hk] at h3 h3'; rw [← h3, ← h3']
    · rw [if_neg hk] at h3 h3'; exact encrypts_plain_unique h3 h3'
  have hl : p.length = p'.length := by omega
  rw [dwords_eq, dwords_eq] at hd
  have hd : toDwords p = toDwords p' := (List.map_inj_right (fun _ _ h => BitVec.eq_of_toNat_eq h)).1 hd
  have e1 := ofDwords_toDwords p
  have e2 := ofDwords_toDwords p'
  rw [← List.take_append_drop (p.length / 4 * 4) p, ← List.take_append_drop (p.length / 4 * 4) p', ← h2, hl, h2', ← e2, ← hd, e1, hl]

theorem stands_only {f : List Byte} {flags : U32} {key place : Nat} {p p' : List Byte} (h : Spec.Stands f flags key place p)
    (h' : Spec.Stands f flags key place p') (hl : p.length = p'.length) : p = p' := by
  unfold Spec.Stands at h h'
  split at h
  · rename_i he
    rw [if_pos he] at h'
    obtain ⟨c, h1, h2⟩ := h
    obtain ⟨c', h1', h2'⟩ := h'
    have := standsAt_only h2 h2' (by rw [h1.1, h1'.1, hl])
    subst this
    exact enciphers_plain_only h1 h1'
  · rename_i he
    rw [if_neg he] at h'
    exact standsAt_only h h' hl

theorem packs_only {m : Spec.Methods} {flags : U32} {x x' p : List Byte} (h : Spec.Packs m flags x p) (h' : Spec.Packs m flags x' p)
    (hl : x.length = x'.length) : x = x' := by
  rcases h with h | ⟨hlt, h⟩ <;> rcases h' with h' | ⟨hlt', h'⟩
  · rw [← h, ← h']
  · rw [h] at hlt'; omega
  · rw [h'] at hlt; omega
  · rcases h with ⟨hc, k, body, he, hu⟩ | ⟨hc, _, hu⟩ <;> rcases h' with ⟨hc', k', body', he', hu'⟩ | ⟨hc', _, hu'⟩
    · rw [he] at he'
      injection he' with e1 e2
      subst e1 e2
      rw [hl, hu'] at hu
      injection hu with hu
      exact hu.symm
    · rw [hc] at hc'; cases hc'
    · rw [hc] at hc'; cases hc'
    · rw [hl, hu'] at hu
      injection hu with hu
      exact hu.symm

theorem pieces_ext {ss : Nat} (hss : 0 < ss) {d d' : List Byte} (hl : d.length = d'.length)
    (h : ∀ i, i * ss < d.length → Spec.piece ss d i = Spec.piece ss d' i) : d = d' := by
  have : ∀ n, d.take (n * ss) = d'.take (n * ss) := by
    intro n
    induction n with
    | zero => rw [Nat.zero_mul]; rfl
    | succ n ih =>
      rw [Nat.add_mul, Nat.one_mul, List.take_add, List.take_add, ih]
      by_cases hn : n * ss < d.length
      · exact congrArg _ (h n hn)
      · rw [List.drop_of_length_le (by omega), List.drop_of_length_le (by omega)]
  have h1 := this d.length
  have hle : d.length ≤ d.length * ss := Nat.le_mul_of_pos_right _ hss
  rw [List.take_of_length_le hle, List.take_of_length_le (by omega)] at h1
  exact h1

theorem piece_length (ss : Nat) (d d' : List Byte) (hl : d.length = d'.length) (i : Nat) :
    (Spec.piece ss d i).length = (Spec.piece ss d' i).length := by
  unfold Spec.piece
  rw [List.length_take, List.length_take, List.length_drop, List.length_drop, hl]

theorem stores_only {m : Spec.Methods} {ss : Nat} (hss : 0 < ss) {f : List Byte} {s : Spec.Stored} {d d' : List Byte}
    {packed packed' : Nat → List Byte} (h : Spec.Stores m ss f s d packed) (h' : Spec.Stores m ss f s d' packed') : d = d' := by
  have hl : d.length = d'.length := h.1.trans h'.1.symm
  have hsz : s.size = d.length := h.1.symm
  obtain ⟨a1, a2, a3⟩ := stores_cases h
  obtain ⟨b1, b2, b3⟩ := stores_cases h'
  cases hsu : Spec.singleUnit s.flags with
  | true =>
    obtain ⟨p1, l1, s1⟩ := a1 hsu
    obtain ⟨p2, l2, s2⟩ := b1 hsu
    have := stands_only s1 s2 (l1.trans l2.symm)
    rw [← this] at p2
    exact packs_only p1 p2 hl
  | false =>
    cases hc : (Spec.compressed s.flags || Spec.imploded s.flags) with
    | true =>
      obtain ⟨t, lt, st, pt⟩ := a2 hsu hc
      obtain ⟨t', lt', st', pt'⟩ := b2 hsu hc
      have := stands_only st st' (lt.trans lt'.symm)
      subst this
      refine pieces_ext hss hl fun i hi => ?_
      obtain ⟨p1, o1, s1⟩ := pt i (by omega)
      obtain ⟨p2, o2, s2⟩ := pt' i (by omega)
      have := stands_only s1 s2 (by omega)
      rw [← this] at p2
      exact packs_only p1 p2 (piece_length ss d d' hl i)
    | false =>
      obtain ⟨_, pt⟩ := a3 hsu hc
      obtain ⟨_, pt'⟩ := b3 hsu hc
      refine pieces_ext hss hl fun i hi => ?_
      obtain ⟨p1, s1⟩ := pt i (by omega)
      obtain ⟨p2, s2⟩ := pt' i (by omega)
      rw [p1] at s1
      rw [p2] at s2
      exact stands_only s1 s2 (piece_length ss d d' hl i)

theorem entryOfRow_inj {a b : List _root_.Spec.HashRow} (h : a.map entryOfRow = b.map entryOfRow) : a = b := by
  refine (List.map_inj_right fun x y hxy => ?_).1 h
  have := congrArg rowOfEntry hxy
  exact this

theorem blockOfRow_inj {a b : List _root_.Spec.BlockRow} (h : a.map blockOfRow = b.map blockOfRow) : a = b := by
  refine (List.map_inj_right fun x y hxy => ?_).1 h
  have := congrArg rowOfBlock hxy
  exact this

theorem finds_only {hashes : List _root_.Spec.HashRow} {k : Nat} (hk : hashes.length = 2 ^ k) {name : List Byte}
    {r r' : _root_.Spec.HashRow} (h : Spec.Finds hashes name r) (h' : Spec.Finds hashes name r') : r = r' := by
  obtain ⟨i, hi⟩ := finds_some hk h
  obtain ⟨i', hi'⟩ := finds_some hk h'
  rw [hi] at hi'
  injection hi' with hi'
  injection hi' with hi'
  injection hi' with _ hi'
  exact congrArg rowOfEntry hi'

/-- C86: the description says of every file what it is: however the file `f` is seen as an archive, and whatever is found in it
under a name, its entry and its content are the same. -/
theorem C86_unambiguous (m : Spec.Methods) {start' : Nat} {h' : _root_.Spec.Header} {hashes' : List _root_.Spec.HashRow}
    {blocks' : List _root_.Spec.BlockRow} {highs' : List (BitVec 16)} (ha : Spec.IsArchive f start h hashes blocks highs)
    (ha' : Spec.IsArchive f start' h' hashes' blocks' highs') {name : List Byte} {s s' : Spec.Stored} {data data' : List Byte}
    {packed packed' : Nat → List Byte} (hf : Spec.HasFile m f start h hashes blocks highs name s data packed)
    (hf' : Spec.HasFile m f start' h' hashes' blocks' highs' name s' data' packed') : s = s' ∧ data = data' := by
  have hdrop : ∀ {st : Nat} {x : List Byte}, Spec.StandsAt f st x → f.drop st = x ++ (f.drop st).drop x.length := by
    intro st x hx
    conv => lhs; rw [← List.take_append_drop x.length (f.drop st)]
    rw [show (f.drop st).take x.length = x from hx]
  obtain ⟨ud, hud⟩ := search_first ha.first
  obtain ⟨ud', hud'⟩ := search_first ha'.first
  rw [hdrop ha.header, readHeader_stands ha.version] at hud
  rw [hdrop ha'.header, readHeader_stands ha'.version] at hud'
  rw [hud] at hud'
  injection hud' with hh
  injection hh with hst hh
  injection hh with _ hh
  subst hst
  obtain ⟨k, hk⟩ := ha.powerOfTwo
  obtain ⟨k', hk'⟩ := ha'.powerOfTwo
  have hc : h.hashCount = h'.hashCount := congrArg MpqHeader.hashTableSize hh
  have hb : h.blockCount = h'.blockCount := congrArg MpqHeader.blockTableSize hh
  have hsh : h.shift = h'.shift := congrArg MpqHeader.blockSize hh
  have hhp : h.hashPlace = h'.hashPlace := by rw [← hashPlace_read, ← hashPlace_read, hh]
  have hbp : h.blockPlace = h'.blockPlace := by rw [← blockPlace_read, ← blockPlace_read, hh]
  have r1 := readHashTable_stands ha.hashCount hk ha.hashTable
  have r2 := readHashTable_stands ha'.hashCount hk' ha'.hashTable
  rw [hhp, hc, r2] at r1
  injection r1 with r1
  have r1 := entryOfRow_inj r1
  subst r1
  have q1 := readBlockTable_stands ha.blockCount ha.blockTable
  have q2 := readBlockTable_stands ha'.blockCount ha'.blockTable
  rw [hbp, hb, q2] at q1
  injection q1 with q1
  have q1 := blockOfRow_inj q1
  subst q1
  have hhi : (if h.version = 0#16 then none else some h.hiPosition) = if h'.version = 0#16 then none else some h'.hiPosition :=
    congrArg MpqHeader.hiBlockTablePos hh
  have hiff : (h.hasHigh → h'.hasHigh ∧ h.hiPosition = h'.hiPosition) ∧ (h'.hasHigh → h.hasHigh) := by
    unfold _root_.Spec.Header.hasHigh
    by_cases v : h.version = 0#16 <;> by_cases v' : h'.version = 0#16
    · exact ⟨fun x => absurd v x.1, fun x => absurd v' x.1⟩
    · rw [if_pos v, if_neg v'] at hhi; cases hhi
    · rw [if_neg v, if_pos v'] at hhi; cases hhi
    · rw [if_neg v, if_neg v'] at hhi
      injection hhi with hhi
      exact ⟨fun x => ⟨⟨v', hhi ▸ x.2⟩, hhi⟩, fun x => ⟨v, hhi ▸ x.2⟩⟩
  have hhighs : highs = highs' := by
    have hl : highs.length = highs'.length := ha.highCount.trans ha'.highCount.symm
    by_cases hx : h.hasHigh
    · obtain ⟨hx', hpos⟩ := hiff.1 hx
      have t1 := readHiBlockTable_stands (ha.inside.2 hx) (ha.highTable hx)
      have t2 := readHiBlockTable_stands (ha'.inside.2 hx') (ha'.highTable hx')
      rw [hl, hpos, t2] at t1
      injection t1 with t1
      exact t1.symm
    · have z1 := ha.noHighs hx
      have z2 := ha'.noHighs fun h => hx (hiff.2 h)
      rw [List.eq_replicate_of_mem z1, List.eq_replicate_of_mem z2, hl]
  subst hhighs
  obtain ⟨r, b, high, f1, f2, f3, _, rfl, f5⟩ := hf
  obtain ⟨r', b', high', g1, g2, g3, _, rfl, g5⟩ := hf'
  have := finds_only hk f1 g1
  subst this
  rw [f2] at g2
  injection g2 with g2
  subst g2
  rw [f3] at g3
  injection g3 with g3
  subst g3
  rw [← hsh] at g5
  exact ⟨rfl, stores_only (Nat.mul_pos (by decide) (Nat.two_pow_pos _)) f5 g5⟩

/-! ## Cases -/

/-- User data in front, then an archive of version 1 with one file of five bytes. -/
def smallRow (name : List Byte) : _root_.Spec.HashRow :=
  ⟨BitVec.ofNat 32 (Spec.nameHash 1 (name.map BitVec.toNat)), BitVec.ofNat 32 (Spec.nameHash 2 (name.map BitVec.toNat)), 0, 0, 0⟩

def smallBlock : _root_.Spec.BlockRow := ⟨32, 5, 5, 0x81000000⟩

def smallHeader : _root_.Spec.Header := ⟨32, 69, 0, 3, 37, 53, 1, 1, 0, 0, 0⟩

def smallUserData : List Byte := [0x4D, 0x50, 0x51, 0x1B, 0, 0, 0, 0, 16, 0, 0, 0, 0, 0, 0, 0]

def smallFile (name : List Byte) : List Byte :=
  smallUserData ++ smallHeader.bytes ++ [1, 2, 3, 4, 5] ++ encryptData (smallRow name).bytes hashTableKey ++
    encryptData smallBlock.bytes blockTableKey

theorem smallHeader_bytes : smallHeader.bytes = [0x4D, 0x50, 0x51, 0x1A, 32, 0, 0, 0, 69, 0, 0, 0, 0, 0, 3, 0, 37, 0, 0, 0, 53, 0, 0, 0,
    1, 0, 0, 0, 1, 0, 0, 0] := by decide +kernel

theorem small_first (tail : List Byte) : ∃ o, o % 512 = 0 ∧ Spec.startsAt (smallUserData ++ smallHeader.bytes ++ tail) o 16 ∧
    ∀ o' < o, o' % 512 = 0 → ¬ Spec.archiveMark (smallUserData ++ smallHeader.bytes ++ tail) o' ∧
      ¬ Spec.userDataMark (smallUserData ++ smallHeader.bytes ++ tail) o' := by
  rw [smallHeader_bytes]
  refine ⟨0, rfl, Or.inr ⟨⟨?_, ⟨0, ?_⟩, ⟨16, ?_, rfl⟩, ⟨0, ?_⟩⟩, ?_⟩, fun o' h => by omega⟩ <;>
  · simp only [smallUserData, Spec.userDataMark, Spec.archiveMark, Spec.u32At, List.cons_append, List.nil_append, Nat.zero_add,
      List.drop_succ_cons, List.drop_zero]
    decide

theorem small_places (x y : List Byte) (hx : x.length = 16) (hy : y.length = 16) {f : List Byte}
    (hf : f = smallUserData ++ smallHeader.bytes ++ [1, 2, 3, 4, 5] ++ x ++ y) :
    Spec.StandsAt f 16 smallHeader.bytes ∧ Spec.StandsAt f (16 + 37) x ∧ Spec.StandsAt f (16 + 53) y ∧ 16 + 53 ≤ f.length := by
  subst hf
  refine ⟨standsAt_of (pre := smallUserData) (post := [1, 2, 3, 4, 5] ++ x ++ y) (by simp only [List.append_assoc]) rfl,
    standsAt_of (pre := smallUserData ++ smallHeader.bytes ++ [1, 2, 3, 4, 5]) (post := y) rfl (by rw [smallHeader_bytes]; rfl),
    standsAt_of (pre := smallUserData ++ smallHeader.bytes ++ [1, 2, 3, 4, 5] ++ x) (post := []) (List.append_nil _).symm ?_, ?_⟩
  · rw [List.length_append, hx, smallHeader_bytes]; rfl
  · rw [List.length_append, List.length_append, hx, smallHeader_bytes, hy]; decide

theorem small_at (name : List Byte) :
    Spec.StandsAt (smallFile name) 16 smallHeader.bytes ∧
      Spec.StandsAt (smallFile name) (16 + 37) (encryptData (smallRow name).bytes hashTableKey) ∧
      Spec.StandsAt (smallFile name) (16 + 53) (encryptData smallBlock.bytes blockTableKey) ∧ 16 + 53 ≤ (smallFile name).length :=
  small_places (encryptData (smallRow name).bytes hashTableKey) (encryptData smallBlock.bytes blockTableKey)
  (by rw [encryptData_length, hashRow_bytes, HashEntry.toBytes_length])
  (by rw [encryptData_length, blockRow_bytes, BlockEntry.toBytes_length]) (f := smallFile name) (by unfold smallFile; rfl)

theorem small_isArchive (name : List Byte) :
    Spec.IsArchive (smallFile name) 16 smallHeader [smallRow name] [smallBlock] [0] where
  first := by
    unfold smallFile
    rw [List.append_assoc _ _ (encryptData smallBlock.bytes blockTableKey), List.append_assoc _ [1, 2, 3, 4, 5]]
    exact small_first _
  header := (small_at name).1
  version := Or.inl ⟨rfl, by decide⟩
  powerOfTwo := ⟨0, rfl⟩
  hashCount := rfl
  blockCount := rfl
  highCount := rfl
  hashTable := by
    rw [← hashTableKey_spec, List.flatMap_cons, List.flatMap_nil, List.append_nil]
    exact stands_encrypted (by rw [hashRow_bytes, HashEntry.toBytes_length]) (small_at name).2.1
  blockTable := by
    rw [← blockTableKey_spec, List.flatMap_cons, List.flatMap_nil, List.append_nil]
    exact stands_encrypted (by rw [blockRow_bytes, BlockEntry.toBytes_length]) (small_at name).2.2.1
  highTable := fun h => absurd rfl h.1
  noHighs := fun _ x hx => by simpa using hx
  inside := ⟨(small_at name).2.2.2, fun h => absurd rfl h.1⟩

theorem nameHash_lt (t : Nat) (ht : t < 5) (name : List Byte) : Spec.nameHash t (name.map BitVec.toNat) < 2 ^ 32 := by
  rw [← hashString_spec t ht]
  exact BitVec.isLt _

theorem small_isFor (name : List Byte) : (smallRow name).IsFor name := by
  refine ⟨?_, ?_, by show (0#32).toNat < _; decide⟩
  · show (BitVec.ofNat 32 _).toNat = _
    rw [BitVec.toNat_ofNat, Nat.mod_eq_of_lt (nameHash_lt 1 (by decide) name)]
  · show (BitVec.ofNat 32 _).toNat = _
    rw [BitVec.toNat_ofNat, Nat.mod_eq_of_lt (nameHash_lt 2 (by decide) name)]

theorem small_slot (name other : List Byte) (j : Nat) : [smallRow name][Spec.slot [smallRow name] other j]? = some (smallRow name) := by
  have : Spec.slot [smallRow name] other j = 0 := Nat.mod_one _
  rw [this]
  rfl

theorem small_hasFile (m : Spec.Methods) (name : List Byte) : Spec.HasFile m (smallFile name) 16 smallHeader [smallRow name] [smallBlock]
    [0] name (Spec.fileEntry 16 name smallBlock 0) [1, 2, 3, 4, 5] (fun _ => [1, 2, 3, 4, 5]) := by
  refine ⟨smallRow name, smallBlock, 0, ⟨0, Nat.zero_lt_one, small_slot name name 0, small_isFor name, fun i hi => by omega⟩, rfl, rfl,
    by decide, rfl, rfl, ?_⟩
  rw [if_pos (show Spec.singleUnit (Spec.fileEntry 16 name smallBlock 0).flags = true from (by decide : Spec.singleUnit smallBlock.flags = true))]
  refine ⟨Or.inl rfl, rfl, ?_⟩
  unfold Spec.Stands
  rw [if_neg (show ¬ Spec.encrypted (Spec.fileEntry 16 name smallBlock 0).flags = true from
    (by decide : ¬ Spec.encrypted smallBlock.flags = true))]
  refine standsAt_of (pre := smallUserData ++ smallHeader.bytes)
    (post := encryptData (smallRow name).bytes hashTableKey ++ encryptData smallBlock.bytes blockTableKey) ?_ ?_
  · unfold smallFile; simp only [List.append_assoc]
  · rw [smallHeader_bytes]; rfl

theorem small_others (name other : List Byte)
    (hne : Spec.nameHash 1 (other.map BitVec.toNat) ≠ Spec.nameHash 1 (name.map BitVec.toNat)) (r : _root_.Spec.HashRow) :
    ¬ Spec.Finds [smallRow name] other r := by
  rintro ⟨j, _, hr, hf, _⟩
  rw [small_slot] at hr
  injection hr with hr
  subst hr
  exact hne (hf.1.symm.trans (small_isFor name).1)

theorem nameHash_lit (name : List Byte) : Spec.nameHash 1 (name.map BitVec.toNat) = hashLit 1 0x7FED7FED 0xEEEEEEEE (name.map BitVec.toNat) := by
  rw [hashLit_eq 1 (by decide) _ (by simp; intro a _; exact a.isLt)]
  rfl

/-- The hypotheses of `C86_opens_format_partial` hold for it; its file is read, another name is missing. -/
example (e : Env) (m : Spec.Methods) (hu : ∀ k b n d, m.unpack k b n = some d → decompress e.codecs b k n = .ok d) :
    ∃ a, openArchive e (smallFile (ascii "a.txt")) = .ok a ∧ a.readFile e (ascii "a.txt") = .ok [1, 2, 3, 4, 5] ∧
      a.readFile e (ascii "b.txt") = .error .fileNotFound := by
  have h1 : Spec.nameHash 1 (Spec.attributesFile.map BitVec.toNat) ≠ Spec.nameHash 1 ((ascii "a.txt").map BitVec.toNat) := by
    rw [nameHash_lit, nameHash_lit]; decide +kernel
  have h2 : Spec.nameHash 1 ((ascii "b.txt").map BitVec.toNat) ≠ Spec.nameHash 1 ((ascii "a.txt").map BitVec.toNat) := by
    rw [nameHash_lit, nameHash_lit]; decide +kernel
  generalize ascii "b.txt" = other at h2 ⊢
  generalize ascii "a.txt" = name at h1 h2 ⊢
  have hlen : (smallFile name).length < 2 ^ 63 := by
    unfold smallFile
    rw [List.length_append, List.length_append, encryptData_length, encryptData_length, hashRow_bytes, blockRow_bytes,
      HashEntry.toBytes_length, BlockEntry.toBytes_length, smallHeader_bytes]
    decide
  obtain ⟨a, h, _, hf, hn⟩ := C86_opens_format_partial e m hu (small_isArchive name) hlen (show (3#16).toNat < 55 by decide)
    (Or.inl fun r => small_others name _ h1 r)
  refine ⟨a, h, (hf name _ _ _ (small_hasFile m name)).2 ?_, (hn other fun r => small_others name _ h2 r).2⟩
  exact ⟨show Spec.imploded 0x81000000 = false by decide, fun h => absurd h (show ¬ Spec.encrypted 0x81000000 = true by decide),
    fun h => absurd h (show ¬ Spec.encrypted 0x81000000 = true by decide), fun _ => show Spec.checksums 0x81000000 = false by decide,
    fun _ h => absurd h (show ¬ Spec.compressed 0x81000000 = true by decide)⟩

/-- The hypotheses of `C86_unambiguous` hold for it, and what is in it can only be this. -/
example (m : Spec.Methods) (name : List Byte) (start' : Nat) (h' : _root_.Spec.Header) (hashes' : List _root_.Spec.HashRow)
    (blocks' : List _root_.Spec.BlockRow) (highs' : List (BitVec 16))
    (ha' : Spec.IsArchive (smallFile name) start' h' hashes' blocks' highs') (s' : Spec.Stored) (data' : List Byte)
    (packed' : Nat → List Byte) (hf' : Spec.HasFile m (smallFile name) start' h' hashes' blocks' highs' name s' data' packed') :
    data' = [1, 2, 3, 4, 5] :=
  (C86_unambiguous m (small_isArchive name) ha' (small_hasFile m name) hf').2.symm

/-- The sample of C26 in version 2 meets the hypotheses of `C86_builds_format_partial`: its compressed file is in the archive as the
format says, under another spelling of its name. -/
example : ∃ g h hashes blocks highs s packed, buildBytes toyEnv zeroMd5 (sampleBuilder .v2) = .ok g ∧
    Spec.IsArchive ([] ++ g ++ []) 0 h hashes blocks highs ∧ blocks.length = 3 ∧
    Spec.HasFile toyMethods ([] ++ g ++ []) 0 h hashes blocks highs (ascii "dir/A.TXT") s (List.replicate 40 0x41#8) packed := by
  obtain ⟨g, _, hg, hlt, _⟩ := sample_reads .v2 (by decide)
  obtain ⟨h, hashes, blocks, highs, h1, _, h3, h4, _⟩ := C86_builds_format_partial toyEnv toyCodecs_lawful toyMethods
    toyMethods_understand zeroMd5 (fun _ => List.length_replicate) (sampleBuilder .v2) g hg samplePending (samplePending_eq .v2)
    (.inr rfl) [] [] rfl (fun o ho => by cases ho)
    (by unfold addressable; rw [if_neg (show ¬ (sampleBuilder .v2).version = .v1 by decide)]; exact hlt)
    (by decide) (by show (3#16).toNat < 55; decide) 4096 (by show 4096 = 512 * 2 ^ (3#16).toNat; decide)
  have hcomp : compress toyCodecs (List.replicate 40 0x41#8) 0x02#8 = .ok [2#8, 1#8, 0x41#8, 40#8] := by decide +kernel
  have hpiece : ∀ x, Spec.IsPiece 4096 (List.replicate 40 0x41#8) x → x = List.replicate 40 0x41#8 := by
    intro x hx
    unfold Spec.IsPiece at hx
    rw [if_pos (by decide)] at hx
    exact hx
  obtain ⟨s, packed, hf⟩ := h4 0 _ (ascii "dir/A.TXT") rfl (by decide +kernel) (by intro j hj; omega)
    (noCollision_lit (by decide +kernel)) _ rfl (by decide)
    ⟨by decide, by decide, by decide, fun h => by rcases h with h | h <;> exact absurd h (by decide), by decide⟩
    (fun hlt => absurd hlt (by decide))
    (by rintro x c hx ⟨hc, _⟩
        rw [hpiece x hx] at hc ⊢
        have hc : compress toyCodecs (List.replicate 40 0x41#8) 0x02#8 = .ok c := hc
        rw [hcomp] at hc
        injection hc with hc
        subst hc
        decide)
    (fun henc => by cases henc)
  exact ⟨g, h, hashes, blocks, highs, s, packed, hg, h1, h3, hf⟩

end Mopaq
