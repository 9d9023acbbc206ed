import Verif.Lemmas.Builder

/-! # Opening a finished archive -/

namespace Mopaq

theorem sameChar_of_upper {a b : Nat} (h : Spec.upper a = Spec.upper b) : Spec.sameChar a b := by
  unfold Spec.upper at h
  unfold Spec.sameChar
  split at h <;> split at h <;> (try split at h) <;> (try split at h) <;> omega

theorem sameName_of_normalise : ∀ {a b : List Nat}, Spec.normalise a = Spec.normalise b → Spec.sameName a b
  | [], [], _ => trivial
  | [], _ :: _, h => by simp [Spec.normalise] at h
  | _ :: _, [], h => by simp [Spec.normalise] at h
  | a :: as, b :: bs, h => by
    simp only [Spec.normalise, List.map_cons, List.cons.injEq] at h
    exact ⟨sameChar_of_upper h.1, sameName_of_normalise h.2⟩

/-- The bytes a version can address: 32-bit positions in version 1, 48-bit positions later. -/
def addressable (v : FormatVersion) : Nat := if v = .v1 then 2 ^ 32 else 2 ^ 48

theorem addressable_le (v : FormatVersion) : addressable v ≤ 2 ^ 48 := by
  unfold addressable; split <;> decide

variable {e : Env} {md5 : Md5} {b : Builder} {f : List Byte}

theorem Layout.sized (L : Layout e md5 b f) (hmd : ∀ x, (md5 x).length = 16) : ∀ v, L.params.v4Data = some v → v.Sized := by
  intro v hv
  rw [L.params_eq] at hv
  dsimp only at hv
  by_cases h4 : b.version = .v4
  · rw [L.v4_some h4] at hv
    cases hv
    refine ⟨hmd _, hmd _, ?_, hmd _, hmd _, hmd _⟩
    unfold v4DataOf
    dsimp only
    split
    · exact hmd _
    · exact List.length_replicate
  · rw [L.v4_none h4] at hv; cases hv

theorem Layout.header_length (L : Layout e md5 b f) (hmd : ∀ x, (md5 x).length = 16) :
    L.header.length = b.version.headerSize.toNat :=
  writeHeader_length _ _ _ _ (L.sized hmd) L.header_eq

theorem Layout.f_length (L : Layout e md5 b f) (hmd : ∀ x, (md5 x).length = 16) :
    f.length = b.version.headerSize.toNat + L.files.length + L.het.length + L.bet.length + L.hash.length +
      L.block.length + L.hi.length := by
  conv => lhs; rw [L.bytes]
  simp only [List.length_append, L.header_length hmd]

theorem Layout.table_length (L : Layout e md5 b f) (hn : L.pending.length < 0xFFFFFFFE) : L.table.length = 2 ^ L.k :=
  (runAdds_inv rfl L.hk _ (opsFrom_valid hn) L.adds).1.len

/-- The header of the archive, as read. -/
def Layout.hdr (L : Layout e md5 b f) : MpqHeader := parsedHeader b.version b.blockSize L.params

theorem Layout.findHeader (L : Layout e md5 b f) (hmd : ∀ x, (md5 x).length = 16) (before after : List Byte)
    (hal : before.length % 512 = 0)
    (hclean : ∀ o < before.length, o % 512 = 0 → ¬ Spec.archiveMark (before ++ f ++ after) o ∧
      ¬ Spec.userDataMark (before ++ f ++ after) o) :
    findHeader (before ++ f ++ after) = .ok (before.length, none, L.hdr) := by
  have hF : before ++ f ++ after =
      before ++ L.header ++ (L.files ++ L.het ++ L.bet ++ L.hash ++ L.block ++ L.hi ++ after) := by
    conv => lhs; rw [L.bytes]
    simp only [List.append_assoc]
  rw [hF] at hclean ⊢
  obtain ⟨hdr, h1, h2⟩ := C13_embedded_archive_found before _ L.header b.version b.blockSize L.params hal (L.sized hmd)
    L.header_eq hclean
  rw [h1]
  have := readHeader_written b.version b.blockSize L.params L.header [] (L.sized hmd) L.header_eq
  rw [List.append_nil, h2] at this
  injection this with this
  rw [this]; rfl

theorem Layout.positions (L : Layout e md5 b f) (hmd : ∀ x, (md5 x).length = 16) (hlen : f.length < addressable b.version) :
    L.hdr.getHashTablePos.toNat = b.version.headerSize.toNat + L.files.length + L.het.length + L.bet.length ∧
    L.hdr.getBlockTablePos.toNat =
      b.version.headerSize.toNat + L.files.length + L.het.length + L.bet.length + L.hash.length := by
  have hfl := L.f_length hmd
  have h48 := addressable_le b.version
  have e48 : 2 ^ 48 = 281474976710656 := rfl
  have e64 : 2 ^ 64 = 18446744073709551616 := rfl
  have hh : L.params.hashTablePos.toNat = b.version.headerSize.toNat + L.files.length + L.het.length + L.bet.length := by
    rw [L.params_eq]
    dsimp only
    rw [BitVec.toNat_ofNat, Nat.mod_eq_of_lt (by omega)]
  have hb : L.params.blockTablePos.toNat =
      b.version.headerSize.toNat + L.files.length + L.het.length + L.bet.length + L.hash.length := by
    rw [L.params_eq]
    dsimp only
    rw [BitVec.toNat_ofNat, Nat.mod_eq_of_lt (by omega)]
  obtain ⟨hdr, h1, _, _, _, _, _, _, _, h2, h3, _⟩ := C12_header_round_trip b.version b.blockSize L.params L.header []
    (L.sized hmd) L.header_eq
  rw [readHeader_written b.version b.blockSize L.params L.header [] (L.sized hmd) L.header_eq] at h1
  injection h1 with h1
  have h1 : L.hdr = hdr := h1
  rw [h1]
  unfold addressable at hlen
  rw [h2 (by omega), h3 (by omega)]
  exact ⟨hh, hb⟩

theorem Layout.hashTableSize (L : Layout e md5 b f) : L.hdr.hashTableSize = BitVec.ofNat 32 (2 ^ L.k) := by
  unfold Layout.hdr parsedHeader; dsimp only; rw [L.params_eq]

theorem Layout.blockTableSize (L : Layout e md5 b f) : L.hdr.blockTableSize = BitVec.ofNat 32 L.pending.length := by
  unfold Layout.hdr parsedHeader; dsimp only; rw [L.params_eq]

theorem addPos_ok {ao : Nat} {pos : U64} (h : ao + pos.toNat < 2 ^ 64) : addPos ao pos = .ok (ao + pos.toNat) := by
  unfold addPos; rw [if_pos h]

theorem Layout.loadClassic (L : Layout e md5 b f) (hmd : ∀ x, (md5 x).length = 16) (before after : List Byte)
    (hlen : f.length < addressable b.version) (hfit : before.length + f.length < 2 ^ 64)
    (hn : L.pending.length < 0xFFFFFFFE) (usable : Bool) :
    loadClassic (before ++ f ++ after) before.length L.hdr usable =
      .ok (some (L.table, L.stored.map (·.block))) := by
  have h32 : 2 ^ 32 = 4294967296 := rfl
  have hfl := L.f_length hmd
  obtain ⟨p1, p2⟩ := L.positions hmd hlen
  have htl := L.table_length hn
  have hsl := L.placed.length
  have hk : 2 ^ L.k < 2 ^ 32 := Nat.pow_lt_pow_right (by decide) L.hk
  have hkpos := Nat.two_pow_pos L.k
  have hsize : L.hdr.hashTableSize.toNat = 2 ^ L.k := by
    rw [L.hashTableSize, BitVec.toNat_ofNat, Nat.mod_eq_of_lt hk]
  have hhdr := L.header_length hmd
  unfold Mopaq.loadClassic
  rw [hsize, addPos_ok (by omega), addPos_ok (by omega)]
  have hdec : decide (0 < 2 ^ L.k) = true := by simpa using hkpos
  rw [hdec, Bool.or_true, if_pos rfl]
  have h1 : before ++ f ++ after = (before ++ L.header ++ L.files ++ L.het ++ L.bet) ++ hashTableBytes L.table ++
      (L.block ++ L.hi ++ after) := by
    conv => lhs; rw [L.bytes]
    rw [L.hash_eq]
    simp only [List.append_assoc]
  have h2 : before ++ f ++ after = (before ++ L.header ++ L.files ++ L.het ++ L.bet ++ L.hash) ++
      blockTableBytes (L.stored.map (·.block)) ++ (L.hi ++ after) := by
    conv => lhs; rw [L.bytes]
    rw [L.block_eq]
    simp only [List.append_assoc]
  have r1 := C10_hash_table_round_trip (before ++ L.header ++ L.files ++ L.het ++ L.bet) (L.block ++ L.hi ++ after) L.table
    L.k L.hk htl
  have r2 := C10_block_table_round_trip (before ++ L.header ++ L.files ++ L.het ++ L.bet ++ L.hash) (L.hi ++ after)
    (L.stored.map (·.block)) (by rw [List.length_map, hsl]; exact L.count)
  rw [← h1] at r1
  rw [← h2] at r2
  rw [htl, ← L.hashTableSize] at r1
  rw [List.length_map, hsl, ← L.blockTableSize] at r2
  simp only [bind, Except.bind]
  rw [p1, p2]
  simp only [List.length_append, hhdr] at r1 r2
  have a1 : before.length + (b.version.headerSize.toNat + L.files.length + L.het.length + L.bet.length) =
    before.length + b.version.headerSize.toNat + L.files.length + L.het.length + L.bet.length := by omega
  have a2 : before.length + (b.version.headerSize.toNat + L.files.length + L.het.length + L.bet.length + L.hash.length) =
    before.length + b.version.headerSize.toNat + L.files.length + L.het.length + L.bet.length + L.hash.length := by omega
  rw [a1, a2, r1, r2]
  rfl

/-- The high parts of the positions, as loaded. -/
def Layout.his (L : Layout e md5 b f) : Option (List U16) :=
  if L.hiNeeded then some (L.stored.map (·.hi)) else none

theorem Layout.loadHiBlock (L : Layout e md5 b f) (hmd : ∀ x, (md5 x).length = 16) (before after : List Byte)
    (hlen : f.length < addressable b.version) (hfit : before.length + f.length < 2 ^ 64) :
    loadHiBlock (before ++ f ++ after) before.length L.hdr = .ok L.his := by
  have h32 : 2 ^ 32 = 4294967296 := rfl
  have e48 : 2 ^ 48 = 281474976710656 := rfl
  have e64 : 2 ^ 64 = 18446744073709551616 := rfl
  have h48 := addressable_le b.version
  have hfl := L.f_length hmd
  have hhdr := L.header_length hmd
  have hsl := L.placed.length
  have hn : L.hiNeeded = true → b.version ≠ .v1 := by
    intro h h1
    rw [L.hiNeeded_eq, h1] at h
    have : FormatVersion.v1.ge .v2 = false := by decide
    rw [this] at h; cases h
  unfold Mopaq.loadHiBlock Layout.his
  have hpos : L.hdr.hiBlockTablePos = if b.version = .v1 then none else some (L.params.hiBlockTablePos.getD 0) := rfl
  rw [hpos]
  by_cases hi : L.hiNeeded = true
  · rw [if_neg (hn hi), if_pos hi]
    have hp : L.params.hiBlockTablePos.getD 0 = BitVec.ofNat 64
        (b.version.headerSize.toNat + L.files.length + L.het.length + L.bet.length + L.hash.length + L.block.length) := by
      rw [L.params_eq]; dsimp only; rw [if_pos hi]; rfl
    have htn : (L.params.hiBlockTablePos.getD 0).toNat =
        b.version.headerSize.toNat + L.files.length + L.het.length + L.bet.length + L.hash.length + L.block.length := by
      rw [hp, BitVec.toNat_ofNat, Nat.mod_eq_of_lt (by omega)]
    have hne : L.params.hiBlockTablePos.getD 0 ≠ 0#64 := by
      intro h0
      rw [h0] at htn
      have : 32 ≤ b.version.headerSize.toNat := by cases b.version <;> decide
      have h00 : (0#64).toNat = 0 := rfl
      omega
    dsimp only
    rw [if_neg hne, addPos_ok (by omega)]
    have h1 : before ++ f ++ after = (before ++ L.header ++ L.files ++ L.het ++ L.bet ++ L.hash ++ L.block) ++
        hiBlockTableBytes (L.stored.map (·.hi)) ++ after := by
      conv => lhs; rw [L.bytes]
      rw [L.hi_eq, if_pos hi]
      simp only [List.append_assoc]
    have r1 := C10_hi_block_table_round_trip (before ++ L.header ++ L.files ++ L.het ++ L.bet ++ L.hash ++ L.block) after
      (L.stored.map (·.hi))
    rw [← h1] at r1
    simp only [List.length_append, hhdr, List.length_map, hsl] at r1
    have hcount := L.count
    simp only [bind, Except.bind]
    rw [htn, L.blockTableSize, BitVec.toNat_ofNat, Nat.mod_eq_of_lt hcount]
    have a1 : before.length + (b.version.headerSize.toNat + L.files.length + L.het.length + L.bet.length + L.hash.length +
        L.block.length) = before.length + b.version.headerSize.toNat + L.files.length + L.het.length + L.bet.length +
        L.hash.length + L.block.length := by omega
    rw [a1, r1]
    rfl
  · rw [if_neg hi]
    have hp : L.params.hiBlockTablePos.getD 0 = 0#64 := by
      rw [L.params_eq]; dsimp only; rw [if_neg hi]; rfl
    by_cases h1 : b.version = .v1
    · rw [if_pos h1]
    · rw [if_neg h1, hp]; rfl

/-- An open archive whose classic tables are those of the layout, at `before.length`. -/
structure Layout.Opened (L : Layout e md5 b f) (before after : List Byte) (a : Archive) : Prop where
  file : a.file = before ++ f ++ after
  offset : a.archiveOffset = before.length
  header : a.header = L.hdr
  hash : a.hashTable = some L.table
  block : a.blockTable = some (L.stored.map (·.block))
  his : a.hiBlockTable = L.his

theorem Layout.lookup_some (L : Layout e md5 b f) {i : Nat} {p : PendingFile} (hp : L.pending[i]? = some p)
    (name : List Byte) (hname : Spec.sameName (name.map BitVec.toNat) (p.name.map BitVec.toNat))
    (hfirst : ∀ j < i, ∀ q, L.pending[j]? = some q →
      ¬ Spec.sameName (name.map BitVec.toNat) (q.name.map BitVec.toNat)) :
    Spec.lookup (toLog (opsFrom 0 L.pending)) (name.map BitVec.toNat) 0 =
      some ⟨p.name.map BitVec.toNat, p.locale.toNat, i⟩ := by
  have hi : i < L.pending.length := (List.getElem?_eq_some_iff.1 hp).1
  have hget : ∀ j : Nat, (toLog (opsFrom 0 L.pending))[j]? =
      L.pending[j]?.map fun q => ⟨q.name.map BitVec.toNat, q.locale.toNat, j⟩ := by
    intro j
    unfold toLog
    rw [List.getElem?_map, opsFrom_get]
    cases hj : L.pending[j]? with
    | none => rfl
    | some q =>
      have hlt := (List.getElem?_eq_some_iff.1 hj).1
      have := L.count
      simp only [Option.map_some, Nat.zero_add, BitVec.toNat_ofNat]
      rw [Nat.mod_eq_of_lt (by omega)]
  unfold Spec.lookup
  rw [List.find?_eq_some_iff_getElem]
  have hli : i < (toLog (opsFrom 0 L.pending)).length := by
    unfold toLog; rw [List.length_map, opsFrom_length]; exact hi
  refine ⟨?_, i, hli, ?_, ?_⟩
  · simp only [Spec.acceptsLocale, beq_self_eq_true, Bool.true_or, Bool.and_true, beq_iff_eq]
    exact (normalise_of_sameName hname).symm
  · have := hget i
    rw [hp, List.getElem?_eq_getElem hli] at this
    simpa using this
  · intro j hj
    have hlj : j < (toLog (opsFrom 0 L.pending)).length := by omega
    have hpj : j < L.pending.length := by omega
    have := hget j
    rw [List.getElem?_eq_getElem hlj, List.getElem?_eq_getElem hpj] at this
    simp only [Option.map_some, Option.some.injEq] at this
    rw [this]
    simp only [Spec.acceptsLocale, beq_self_eq_true, Bool.true_or, Bool.and_true, Bool.not_eq_true', beq_eq_false_iff_ne]
    intro hc
    exact hfirst j hj _ (List.getElem?_eq_getElem hpj) (sameName_of_normalise hc.symm)

theorem Layout.lookup_none (L : Layout e md5 b f) (name : List Byte)
    (hnone : ∀ q ∈ L.pending, ¬ Spec.sameName (name.map BitVec.toNat) (q.name.map BitVec.toNat)) :
    Spec.lookup (toLog (opsFrom 0 L.pending)) (name.map BitVec.toNat) 0 = none := by
  unfold Spec.lookup
  rw [List.find?_eq_none]
  intro x hx
  obtain ⟨j, hj⟩ := List.mem_iff_getElem?.1 hx
  unfold toLog at hj
  rw [List.getElem?_map, opsFrom_get] at hj
  cases hq : L.pending[j]? with
  | none => rw [hq] at hj; cases hj
  | some q =>
    rw [hq] at hj
    simp only [Option.map_some, Option.some.injEq] at hj
    subst hj
    simp only [Spec.acceptsLocale, beq_self_eq_true, Bool.true_or, Bool.and_true, beq_iff_eq]
    intro hc
    exact hnone q (List.mem_of_getElem? hq) (sameName_of_normalise hc.symm)

/-- What the block entry of a stored file says. -/
theorem storeFile_ok {crcs : Bool} {ss pos : Nat} {p : PendingFile} {s : Stored} (h : storeFile e crcs ss pos p = .ok s) :
    ∃ data w, p.source = some data ∧
      writeFile e crcs
        { data, name := p.name, compression := p.compression, encrypt := p.encrypt, useFixKey := p.useFixKey,
          sectorSize := ss, filePos := pos } = .ok w ∧
      s = { bytes := w.bytes,
            block := { filePos := BitVec.ofNat 32 pos, compressedSize := BitVec.ofNat 32 w.size,
                       fileSize := BitVec.ofNat 32 data.length, flags := w.flags ||| flagExists },
            hi := BitVec.ofNat 16 (pos / 2 ^ 32) } := by
  unfold storeFile at h
  cases hs : p.source with
  | none => rw [hs] at h; simp only [bind, Except.bind, throw, throwThe, MonadExceptOf.throw] at h; cases h
  | some data =>
    rw [hs] at h
    simp only [pure_bind] at h
    obtain ⟨w, hw, h⟩ := bind_eq_ok.1 h
    injection h with h
    exact ⟨data, w, rfl, hw, h.symm⟩

/-- The lookup of a file in the classic tables of a finished archive. -/
theorem Layout.find_some (L : Layout e md5 b f) (hmd : ∀ x, (md5 x).length = 16) {before after : List Byte} {a : Archive}
    (ha : L.Opened before after a) (hlen : f.length < addressable b.version) (hfit : before.length + f.length < 2 ^ 64)
    (hn : L.pending.length < 0xFFFFFFFE) {i : Nat} {p : PendingFile} (hp : L.pending[i]? = some p)
    (name : List Byte) (hname : Spec.sameName (name.map BitVec.toNat) (p.name.map BitVec.toNat))
    (hfirst : ∀ j < i, ∀ q, L.pending[j]? = some q →
      ¬ Spec.sameName (name.map BitVec.toNat) (q.name.map BitVec.toNat))
    (hc : NoCollision (name :: L.pending.map (·.name))) :
    ∃ s hashIndex pre post, L.stored[i]? = some s ∧ L.files = pre ++ s.bytes ++ post ∧
      storeFile e b.generateCrcs L.sectorSize (b.version.headerSize.toNat + pre.length) p = .ok s ∧
      a.findFileClassic name = .ok (some
        { hashIndex, blockIndex := i, filePos := before.length + (b.version.headerSize.toNat + pre.length),
          compressedSize := s.block.compressedSize.toNat, fileSize := s.block.fileSize.toNat, flags := s.block.flags,
          locale := p.locale }) := by
  obtain ⟨s, pre, post, h1, h2, h3, h4⟩ := L.placed.get hp
  rw [← L.files_eq] at h2
  obtain ⟨data, w, _, _, hs⟩ := storeFile_ok h4
  have hlk := L.lookup_some hp name hname hfirst
  have hc' : NoCollision (name :: (opsFrom 0 L.pending).map AddOp.name) := by rw [opsFrom_names]; exact hc
  have hff := C06_lookup_is_directory_lookup L.k L.hk (opsFrom 0 L.pending) (opsFrom_valid hn) L.table L.adds name 0 hc'
  rw [show ((0 : U16).toNat) = 0 from rfl, hlk] at hff
  cases hr : findFileHash L.table name 0 with
  | error err => rw [hr] at hff; cases hff
  | ok r =>
    rw [hr] at hff
    cases r with
    | none => simp only [Except.map, Option.map] at hff; cases hff
    | some r =>
      obtain ⟨hashIndex, entry⟩ := r
      simp only [Except.map, Option.map, Except.ok.injEq, Option.some.injEq, Prod.mk.injEq] at hff
      obtain ⟨hbi, hlo⟩ := hff
      have hlo : entry.locale = p.locale := BitVec.eq_of_toNat_eq hlo
      subst hbi
      refine ⟨s, hashIndex, pre, post, h1, h2, h4, ?_⟩
      unfold Archive.findFileClassic
      rw [ha.hash, ha.block]
      dsimp only
      rw [hr]
      have hblk : (L.stored.map (·.block))[entry.blockIndex.toNat]? = some s.block := by
        rw [List.getElem?_map, h1]; rfl
      have hfl := L.f_length hmd
      have hfiles : L.files.length = pre.length + s.bytes.length + post.length := by
        rw [h2]; simp only [List.length_append]
      have h48 := addressable_le b.version
      have e48 : 2 ^ 48 = 281474976710656 := rfl
      have h32 : 2 ^ 32 = 4294967296 := rfl
      have hpos : (fullFilePos a.hiBlockTable entry.blockIndex.toNat s.block).toNat = b.version.headerSize.toNat + pre.length := by
        rw [ha.his]
        have hlow : s.block.filePos = BitVec.ofNat 32 (b.version.headerSize.toNat + pre.length) := by rw [hs]
        have hhi : s.hi = BitVec.ofNat 16 ((b.version.headerSize.toNat + pre.length) / 2 ^ 32) := by rw [hs]
        unfold Layout.his
        by_cases hi : L.hiNeeded = true
        · rw [if_pos hi]
          refine C11_positions_48_bit _ _ _ _ (by omega) hlow ?_
          rw [List.getElem?_map, h1, Option.map_some, hhi]
        · rw [if_neg hi]
          refine C11_positions_32_bit _ _ _ _ ?_ hlow (fun t ht => by cases ht)
          by_cases hv1 : b.version = .v1
          · unfold addressable at hlen; rw [if_pos hv1] at hlen; omega
          · have hge : b.version.ge .v2 = true := by
              revert hv1; cases b.version <;> decide
            have hfalse : hiBlockNeeded (L.stored.map (·.hi)) = false := by
              have := L.hiNeeded_eq
              rw [hge, Bool.true_and] at this
              rw [← this]; simpa using hi
            unfold hiBlockNeeded at hfalse
            rw [List.any_eq_false] at hfalse
            have := hfalse s.hi (List.mem_map.2 ⟨s, List.mem_of_getElem? h1, rfl⟩)
            have h0 : s.hi = 0 := by simpa using this
            rw [hhi] at h0
            have h0 := congrArg BitVec.toNat h0
            rw [BitVec.toNat_ofNat] at h0
            have h00 : (0 : U16).toNat = 0 := rfl
            rw [h00] at h0
            omega
      have hlt : before.length + (fullFilePos a.hiBlockTable entry.blockIndex.toNat s.block).toNat < 2 ^ 64 := by rw [hpos]; omega
      simp only [bind, Except.bind, hblk, ha.offset, addPos_ok hlt, pure, Except.pure, hpos, hlo]

theorem Layout.find_none (L : Layout e md5 b f) {before after : List Byte} {a : Archive} (ha : L.Opened before after a)
    (hn : L.pending.length < 0xFFFFFFFE) (name : List Byte)
    (hnone : ∀ q ∈ L.pending, ¬ Spec.sameName (name.map BitVec.toNat) (q.name.map BitVec.toNat))
    (hc : NoCollision (name :: L.pending.map (·.name))) : a.findFileClassic name = .ok none := by
  have hlk := L.lookup_none name hnone
  have hc' : NoCollision (name :: (opsFrom 0 L.pending).map AddOp.name) := by rw [opsFrom_names]; exact hc
  have hff := C06_lookup_is_directory_lookup L.k L.hk (opsFrom 0 L.pending) (opsFrom_valid hn) L.table L.adds name 0 hc'
  rw [show ((0 : U16).toNat) = 0 from rfl, hlk] at hff
  cases hr : findFileHash L.table name 0 with
  | error err => rw [hr] at hff; cases hff
  | ok r =>
    rw [hr] at hff
    cases r with
    | some r => simp only [Except.map, Option.map] at hff; cases hff
    | none =>
      unfold Archive.findFileClassic
      rw [ha.hash, ha.block]
      dsimp only
      rw [hr]
      rfl

end Mopaq
