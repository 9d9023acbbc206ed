import Verif.Lemmas.HeaderAccept

/-! # Properties C12-C13: archive headers -/

namespace Mopaq

/-! ## C12 -/

theorem putLe_leBytes (w v : Nat) : Spec.putLe w v = leBytes w v := by
  induction w generalizing v with
  | zero => rfl
  | succ w ih => simp [Spec.putLe, leBytes, ih]

theorem join_48 (x : U64) (h : x.toNat < 2 ^ 48) :
    ((((x >>> 32).setWidth 16 : U16).setWidth 64 <<< 32) ||| (x.setWidth 32 : U32).setWidth 64 : U64) = x := by
  apply BitVec.eq_of_toNat_eq
  rw [BitVec.toNat_or, BitVec.toNat_shiftLeft, BitVec.toNat_setWidth, BitVec.toNat_setWidth, BitVec.toNat_setWidth,
    BitVec.toNat_setWidth, BitVec.toNat_ushiftRight, Nat.shiftRight_eq_div_pow, Nat.shiftLeft_eq]
  have h1 : x.toNat / 2 ^ 32 % 2 ^ 16 % 2 ^ 64 * 2 ^ 32 % 2 ^ 64 = 2 ^ 32 * (x.toNat / 2 ^ 32) := by omega
  have h2 : x.toNat % 2 ^ 32 % 2 ^ 64 = x.toNat % 2 ^ 32 := by omega
  rw [h1, h2, ← Nat.two_pow_add_eq_or_of_lt (by omega)]
  omega

theorem low_32 (x : U64) (h : x.toNat < 2 ^ 32) : ((x.setWidth 32 : U32).setWidth 64 : U64) = x := by
  apply BitVec.eq_of_toNat_eq
  simp only [BitVec.toNat_setWidth]
  omega

/-- C12: a header written for any version with any field values, whatever follows it in the file, is read back with
the same values; the sizes and positions the rest of the library asks for are the ones written (positions below
2^48, or below 2^32 in version 1; the 64-bit archive size from version 3 on, before that clamped to 32 bits). -/
theorem C12_header_round_trip (version : FormatVersion) (blockSize : U16) (p : HeaderParams) (bytes rest : List Byte)
    (hv4 : ∀ v, p.v4Data = some v → v.Sized) (h : writeHeader version blockSize p = .ok bytes) :
    ∃ hdr, readHeader (bytes ++ rest) = .ok hdr ∧
      hdr.formatVersion = version ∧ hdr.blockSize = blockSize ∧ hdr.headerSize = version.headerSize ∧
      bytes.length = version.headerSize.toNat ∧
      hdr.hashTableSize = p.hashTableSize ∧ hdr.blockTableSize = p.blockTableSize ∧
      hdr.archiveSize.toNat = min p.archiveSize.toNat (2 ^ 32 - 1) ∧
      (p.hashTablePos.toNat < (if version = .v1 then 2 ^ 32 else 2 ^ 48) → hdr.getHashTablePos = p.hashTablePos) ∧
      (p.blockTablePos.toNat < (if version = .v1 then 2 ^ 32 else 2 ^ 48) → hdr.getBlockTablePos = p.blockTablePos) ∧
      hdr.hiBlockTablePos = (if version = .v1 then none else some (p.hiBlockTablePos.getD 0)) ∧
      (if version = .v3 ∨ version = .v4 then
        hdr.getArchiveSize = p.archiveSize ∧ hdr.hetTablePos = some (p.hetTablePos.getD 0) ∧
        hdr.betTablePos = some (p.betTablePos.getD 0)
       else hdr.getArchiveSize.toNat = min p.archiveSize.toNat (2 ^ 32 - 1) ∧ hdr.hetTablePos = none ∧
        hdr.betTablePos = none) ∧
      hdr.v4Data = (if version = .v4 then p.v4Data else none) := by
  have hmin : (BitVec.ofNat 32 (min p.archiveSize.toNat 0xFFFFFFFF)).toNat = min p.archiveSize.toNat (2 ^ 32 - 1) := by
    rw [BitVec.toNat_ofNat]; omega
  have hmin64 : ((BitVec.ofNat 32 (min p.archiveSize.toNat 0xFFFFFFFF)).setWidth 64 : U64).toNat
      = min p.archiveSize.toNat (2 ^ 32 - 1) := by
    rw [BitVec.toNat_setWidth, hmin]; omega
  refine ⟨parsedHeader version blockSize p, readHeader_written version blockSize p bytes rest hv4 h, rfl, rfl, rfl,
    writeHeader_length version blockSize p bytes hv4 h, rfl, rfl, hmin, ?_, ?_, rfl, ?_, rfl⟩
  · intro hp
    cases version
    · exact low_32 _ hp
    all_goals exact join_48 _ hp
  · intro hp
    cases version
    · exact low_32 _ hp
    all_goals exact join_48 _ hp
  · cases version
    · exact ⟨hmin64, rfl, rfl⟩
    · exact ⟨hmin64, rfl, rfl⟩
    · exact ⟨rfl, rfl, rfl⟩
    · exact ⟨rfl, rfl, rfl⟩

/-- C12 (format): the bytes written are the published layout. -/
theorem C12_header_format (version : FormatVersion) (blockSize : U16) (p : HeaderParams) (bytes : List Byte)
    (h : writeHeader version blockSize p = .ok bytes) :
    ∃ v4 : List Byte, bytes = Spec.layout ([(4, 0x1A51504D),
        (4, match version with | .v1 => 32 | .v2 => 44 | .v3 => 68 | .v4 => 208),
        (4, min p.archiveSize.toNat (2 ^ 32 - 1)),
        (2, match version with | .v1 => 0 | .v2 => 1 | .v3 => 2 | .v4 => 3),
        (2, blockSize.toNat), (4, p.hashTablePos.toNat % 2 ^ 32), (4, p.blockTablePos.toNat % 2 ^ 32),
        (4, p.hashTableSize.toNat), (4, p.blockTableSize.toNat)] ++
      (if version = .v1 then [] else [(8, (p.hiBlockTablePos.getD 0).toNat),
        (2, p.hashTablePos.toNat / 2 ^ 32 % 2 ^ 16), (2, p.blockTablePos.toNat / 2 ^ 32 % 2 ^ 16)]) ++
      (if version = .v3 ∨ version = .v4 then [(8, p.archiveSize.toNat), (8, (p.betTablePos.getD 0).toNat),
        (8, (p.hetTablePos.getD 0).toNat)] else [])) ++ v4 ∧
      (version ≠ .v4 → v4 = []) ∧
      (version = .v4 → ∃ v, p.v4Data = some v ∧ v4 = Spec.layout [(8, v.hashTableSize64.toNat),
        (8, v.blockTableSize64.toNat), (8, v.hiBlockTableSize64.toNat), (8, v.hetTableSize64.toNat),
        (8, v.betTableSize64.toNat), (4, v.rawChunkSize.toNat)] ++ v.md5BlockTable ++ v.md5HashTable ++
        v.md5HiBlockTable ++ v.md5BetTable ++ v.md5HetTable ++ v.md5MpqHeader) := by
  have hmin : (BitVec.ofNat 32 (min p.archiveSize.toNat 0xFFFFFFFF)).toNat = min p.archiveSize.toNat (2 ^ 32 - 1) := by
    rw [BitVec.toNat_ofNat]; omega
  have hhi : ∀ x : U64, ((x >>> 32).setWidth 16 : U16).toNat = x.toNat / 2 ^ 32 % 2 ^ 16 := by
    intro x; rw [BitVec.toNat_setWidth, BitVec.toNat_ushiftRight, Nat.shiftRight_eq_div_pow]
  cases version with
  | v1 =>
    simp only [writeHeader, Except.ok.injEq] at h
    subst h
    refine ⟨[], ?_, by simp, by simp⟩
    simp only [headerCommonBytes, le32, le16, hmin, BitVec.toNat_setWidth, Spec.layout, putLe_leBytes]
    rfl
  | v2 =>
    simp only [writeHeader, Except.ok.injEq] at h
    subst h
    refine ⟨[], ?_, by simp, by simp⟩
    simp only [headerCommonBytes, headerV2Bytes, le32, le16, le64, hmin, hhi, Spec.layout, putLe_leBytes]
    simp only [BitVec.toNat_setWidth]
    rfl
  | v3 =>
    simp only [writeHeader, Except.ok.injEq] at h
    subst h
    refine ⟨[], ?_, by simp, by simp⟩
    simp only [headerCommonBytes, headerV2Bytes, headerV3Bytes, le32, le16, le64, hmin, hhi, Spec.layout,
      putLe_leBytes]
    simp only [BitVec.toNat_setWidth]
    rfl
  | v4 =>
    simp only [writeHeader] at h
    cases hv : p.v4Data with
    | none => rw [hv] at h; cases h
    | some v =>
      rw [hv] at h
      simp only [Except.ok.injEq] at h
      subst h
      refine ⟨headerV4Bytes v, ?_, by simp, fun _ => ⟨v, rfl, ?_⟩⟩
      · simp only [headerCommonBytes, headerV2Bytes, headerV3Bytes, le32, le16, le64, hmin, hhi, Spec.layout,
          putLe_leBytes]
        simp only [BitVec.toNat_setWidth]
        simp [List.append_assoc]; rfl
      · simp [headerV4Bytes, Spec.layout, putLe_leBytes, le64, le32, List.append_assoc]

/-- Version 4 data that meets the size hypothesis. -/
example : ∃ v : V4Data, v.Sized :=
  ⟨⟨0, 0, 0, 0, 0, 0, List.replicate 16 1, List.replicate 16 2, List.replicate 16 3, List.replicate 16 4,
    List.replicate 16 5, List.replicate 16 6⟩, by simp [V4Data.Sized]⟩

/-- C12 (any bytes): parsing a header never panics: it gives a header or one of three errors. -/
theorem C12_read_total (bytes : List Byte) :
    (∃ h, readHeader bytes = .ok h) ∨
    ∃ e, readHeader bytes = .error e ∧ (e = .io ∨ e = .invalidFormat ∨ e = .unsupportedVersion) := by
  cases h : readHeader bytes with
  | ok x => exact Or.inl ⟨x, rfl⟩
  | error e =>
    have := readHeader_fails bytes e h
    simp only [List.mem_cons, List.not_mem_nil, or_false] at this
    exact Or.inr ⟨e, rfl, this⟩

/-- C12 (what is accepted): a header is read exactly if it has the mark, a known version, a header size field no
smaller than that version needs, and that many bytes. -/
theorem C12_accepted (f : List Byte) : (∃ h, readHeader f = .ok h) ↔ Spec.acceptableHeader f := readHeader_ok_iff f

/-- A version beyond 4 is refused whatever follows. -/
example : readHeader (le32 0x1A51504D ++ le32 208 ++ le32 0 ++ le16 4 ++ List.replicate 300 0#8)
    = .error .unsupportedVersion := by decide +kernel

/-! ## C13 -/

/-- Nothing that ends the search is at any 512-byte boundary before `o`. -/
def NothingBefore (f : List Byte) (o : Nat) : Prop :=
  ∀ o' < o, o' % 512 = 0 → ¬ Spec.cutOff f o' ∧ ∀ s, ¬ Spec.startsAt f o' s

/-- C13: the search is exactly: go to the first 512-byte boundary inside the file where an archive starts (right there,
or where a user data block found there points to) and parse the header there; a user data block that is cut off
is an error; if no boundary has either, the file is not an archive. -/
theorem C13_search_exact (f : List Byte) :
    (∃ o start, o % 512 = 0 ∧ o < f.length ∧ NothingBefore f o ∧ Spec.startsAt f o start ∧
      ∃ ud : Option UserDataHeader,
        (ud = none → Spec.archiveMark f o ∧ start = o) ∧
        (∀ u, ud = some u → Spec.pointsTo f o start ∧ Spec.u32At f (o + 4) = some u.userDataSize.toNat ∧
          Spec.u32At f (o + 8) = some u.headerOffset.toNat ∧ Spec.u32At f (o + 12) = some u.userDataHeaderSize.toNat) ∧
        findHeader f = (readHeader (f.drop start)).map fun h => (start, ud, h)) ∨
    (∃ o, o % 512 = 0 ∧ o < f.length ∧ NothingBefore f o ∧ Spec.cutOff f o ∧ findHeader f = .error .io) ∨
    ((∀ o, o % 512 = 0 → o < f.length → ¬ Spec.cutOff f o ∧ ∀ s, ¬ Spec.startsAt f o s) ∧
      findHeader f = .error .invalidFormat) := by
  have hnb : ∀ i, (∀ j < i, verdict f (0x200 * j) = .next) → NothingBefore f (0x200 * i) := by
    intro i hj o' ho' hmod
    have hv := hj (o' / 512) (by omega)
    rw [show 0x200 * (o' / 512) = o' by omega] at hv
    have := verdict_spec f o'
    rw [hv] at this
    exact this
  rcases findHeaderLoop_eq f (f.length / 0x200 + 1) 0 (by omega) with ⟨i, h1, h2, h3, h4⟩ | ⟨h1, h2⟩
  · simp only [Nat.zero_add] at h1 h2 h3 h4
    have hs := verdict_spec f (0x200 * i)
    cases hv : verdict f (0x200 * i) with
    | next => exact absurd hv h3
    | mpq =>
      rw [hv] at hs h4
      left
      refine ⟨0x200 * i, 0x200 * i, by omega, h1, hnb i h2, Or.inl ⟨hs, rfl⟩, none, fun _ => ⟨hs, rfl⟩,
        fun u h => (by cases h), h4⟩
    | viaUserData u s =>
      rw [hv] at hs h4
      obtain ⟨p1, p2, p3, p4, p5, p6⟩ := hs
      left
      refine ⟨0x200 * i, s, by omega, h1, hnb i h2, Or.inr ⟨p1, p2⟩, some u, fun h => (by cases h),
        fun u' h => ?_, h4⟩
      cases h
      exact ⟨p1, p4, p5, p6⟩
    | ioError =>
      rw [hv] at hs h4
      right; left
      exact ⟨0x200 * i, by omega, h1, hnb i h2, hs, h4⟩
  · simp only [Nat.zero_add] at h1 h2
    right; right
    refine ⟨?_, h2⟩
    intro o hmod hlt
    have hv := h1 (o / 512) (by omega)
    rw [show 0x200 * (o / 512) = o by omega] at hv
    have := verdict_spec f o
    rw [hv] at this
    exact this

/-- C13: on every file the search comes to an end without a panic. -/
theorem C13_search_terminates (f : List Byte) :
    findHeader f ≠ .error .diverge ∧ findHeader f ≠ .error .panic := by
  have hmap : ∀ {β : Type} (r : List Byte) (g : MpqHeader → β) (e : Err), e = .diverge ∨ e = .panic →
      (readHeader r).map g ≠ .error e := by
    intro β r g e he h
    have := (readHeader_fails r).map (g := g) e h
    simp only [List.mem_cons, List.not_mem_nil, or_false] at this
    rcases he with rfl | rfl <;> rcases this with h | h | h <;> cases h
  rcases C13_search_exact f with ⟨o, s, _, _, _, _, ud, _, _, h⟩ | ⟨o, _, _, _, _, h⟩ | ⟨_, h⟩ <;> rw [h]
  · exact ⟨hmap _ _ _ (Or.inl rfl), hmap _ _ _ (Or.inr rfl)⟩
  · exact ⟨by simp, by simp⟩
  · exact ⟨by simp, by simp⟩

/-- C13: a header reported without user data is at a 512-byte boundary, carries the mark, and no earlier boundary
does. -/
theorem C13_found_is_first_aligned (f : List Byte) (off : Nat) (h : MpqHeader)
    (hf : findHeader f = .ok (off, none, h)) :
    off % 512 = 0 ∧ Spec.archiveMark f off ∧ ∀ o' < off, o' % 512 = 0 → ¬ Spec.archiveMark f o' := by
  have hok : ∀ (s : Nat) (ud : Option UserDataHeader) (r : Res MpqHeader),
      (r.map fun h => (s, ud, h)) = .ok (off, none, h) → s = off ∧ ud = none := by
    intro s ud r hr
    cases r with
    | error e => cases hr
    | ok x => simp only [Except.map, Except.ok.injEq, Prod.mk.injEq] at hr; exact ⟨hr.1, hr.2.1⟩
  rcases C13_search_exact f with ⟨o, s, h1, h2, h3, h4, ud, h5, h6, h7⟩ | ⟨o, _, _, _, _, h'⟩ | ⟨_, h'⟩
  · rw [hf] at h7
    obtain ⟨e1, e2⟩ := hok s ud _ h7.symm
    obtain ⟨h8, h9⟩ := h5 e2
    subst e1; subst h9
    exact ⟨h1, h8, fun o' ho' hm hmark => (h3 o' ho' hm).2 o' (Or.inl ⟨hmark, rfl⟩)⟩
  · rw [hf] at h'; cases h'
  · rw [hf] at h'; cases h'

/-- C13: an archive written at any 512-byte boundary, behind data in which no boundary carries a mark, is found
there, whatever follows it. -/
theorem C13_embedded_archive_found (before after bytes : List Byte) (version : FormatVersion) (blockSize : U16)
    (p : HeaderParams) (hal : before.length % 512 = 0) (hv4 : ∀ v, p.v4Data = some v → v.Sized)
    (hw : writeHeader version blockSize p = .ok bytes)
    (hclean : ∀ o < before.length, o % 512 = 0 → ¬ Spec.archiveMark (before ++ bytes ++ after) o ∧
      ¬ Spec.userDataMark (before ++ bytes ++ after) o) :
    ∃ hdr, findHeader (before ++ bytes ++ after) = .ok (before.length, none, hdr) ∧
      readHeader bytes = .ok hdr := by
  refine ⟨parsedHeader version blockSize p, ?_, ?_⟩
  rotate_left
  · have := readHeader_written version blockSize p bytes [] hv4 hw
    rwa [List.append_nil] at this
  have hpre : ∃ r, bytes = le32 mpqSignature ++ r := by
    cases version <;> simp only [writeHeader] at hw
    · cases hw; exact ⟨_, rfl⟩
    · cases hw; exact ⟨_, by simp only [headerCommonBytes, List.append_assoc]; rfl⟩
    · cases hw; exact ⟨_, by simp only [headerCommonBytes, List.append_assoc]; rfl⟩
    · split at hw
      · cases hw; exact ⟨_, by simp only [headerCommonBytes, List.append_assoc]; rfl⟩
      · cases hw
  obtain ⟨r, hr⟩ := hpre
  have hmark : Spec.archiveMark (before ++ bytes ++ after) before.length := by
    unfold Spec.archiveMark Spec.u32At
    rw [List.append_assoc, List.drop_left, hr]
    rfl
  have hlt : before.length < (before ++ bytes ++ after).length := by
    rw [hr]; simp; omega
  have hrd := readHeader_written version blockSize p bytes after hv4 hw
  generalize hf : before ++ bytes ++ after = f at *
  have hdrop : f.drop before.length = bytes ++ after := by
    rw [← hf, List.append_assoc, List.drop_left]
  rcases C13_search_exact f with ⟨o, s, h1, h2, h3, h4, ud, h5, h6, h7⟩ | ⟨o, h1, h2, h3, h4, h'⟩ | ⟨h1, h'⟩
  · have ho : o = before.length := by
      rcases Nat.lt_trichotomy o before.length with hl | he | hg
      · exfalso
        rcases h4 with ⟨hm, _⟩ | ⟨hm, _⟩
        · exact (hclean o hl h1).1 hm
        · exact (hclean o hl h1).2 hm.1
      · exact he
      · exact absurd (Or.inl ⟨hmark, rfl⟩) ((h3 _ hg hal).2 before.length)
    have hud : ud = none := by
      cases ud with
      | none => rfl
      | some u =>
        obtain ⟨⟨hum, _⟩, _⟩ := h6 u rfl
        rw [ho] at hum
        unfold Spec.userDataMark at hum
        unfold Spec.archiveMark at hmark
        rw [hmark] at hum
        cases hum
    obtain ⟨_, hs⟩ := h5 hud
    rw [h7, hs, ho, hdrop, hrd, hud]
    rfl
  · exfalso
    rcases Nat.lt_trichotomy o before.length with hl | he | hg
    · exact (hclean o hl h1).2 h4.1
    · have hum := h4.1
      rw [he] at hum
      unfold Spec.userDataMark at hum
      unfold Spec.archiveMark at hmark
      rw [hmark] at hum
      cases hum
    · exact absurd (Or.inl ⟨hmark, rfl⟩) ((h3 _ hg hal).2 before.length)
  · exact absurd (Or.inl ⟨hmark, rfl⟩) ((h1 _ hal hlt).2 before.length)

/-- C13 (a limit worth knowing): a mark at a boundary that is not followed by a valid header ends the search with an
error, even if a valid archive comes later. -/
theorem C13_false_mark_hides_archive (archive : List Byte) :
    findHeader (le32 mpqSignature ++ List.replicate 508 0 ++ archive) = .error .invalidFormat := by
  unfold findHeader
  have : ∀ fuel, findHeaderLoop (le32 mpqSignature ++ List.replicate 508 0 ++ archive) (fuel + 1) 0
      = .error .invalidFormat := by
    intro fuel
    rw [findHeaderLoop_succ, if_neg (by rw [List.length_append, List.length_append, le32_length]; omega)]
    have h1 : verdict (le32 mpqSignature ++ List.replicate 508 0 ++ archive) 0 = .mpq := by
      unfold verdict
      rw [List.drop_zero, List.append_assoc, rd32_le32]
      simp only [if_true]
    rw [h1]
    simp only [List.drop_zero]
    have hz : (List.replicate 508 0 : List Byte) =
        le32 0 ++ (le32 0 ++ (le16 0 ++ (le16 0 ++ (le32 0 ++ (le32 0 ++ (le32 0 ++ (le32 0 ++
          List.replicate 480 0))))))) := by decide +kernel
    rw [List.append_assoc, hz]
    simp only [readHeader, List.append_assoc, rd32_le32, rd16_le16, bind, Except.bind,
      ne_eq, not_true_eq_false, if_false, pure, Except.pure]
    rfl
  exact this _

/-- The hypotheses of `C13_embedded_archive_found` are met by 512 zero bytes in front of a version 1 header. -/
example : ∃ bytes, writeHeader .v1 3 ⟨100, 32, 48, 16, 1, none, none, none, none⟩ = .ok bytes ∧
    (List.replicate 512 (0 : Byte)).length % 512 = 0 ∧
    ∀ o < (List.replicate 512 (0 : Byte)).length, o % 512 = 0 →
      ¬ Spec.archiveMark (List.replicate 512 0 ++ bytes ++ []) o ∧
      ¬ Spec.userDataMark (List.replicate 512 0 ++ bytes ++ []) o := by
  refine ⟨_, rfl, by rw [List.length_replicate], ?_⟩
  intro o ho hm
  simp only [List.length_replicate] at ho
  have : o = 0 := by omega
  subst this
  have h4 : (List.replicate 512 0 : List Byte) = 0 :: 0 :: 0 :: 0 :: List.replicate 508 0 := rfl
  constructor
  · unfold Spec.archiveMark Spec.u32At; rw [h4]; simp only [List.cons_append, List.drop_zero]; decide
  · unfold Spec.userDataMark Spec.u32At; rw [h4]; simp only [List.cons_append, List.drop_zero]; decide

end Mopaq
