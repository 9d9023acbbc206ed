import Verif.Props.Signature
import Verif.Model.Info
import Verif.Props.Enumerate
import Verif.Props.Layout

/-!
# The description of an archive (C55)
-/

namespace Mopaq

variable {e : Env} {md5 : Md5} {b : Builder} {f : List Byte}

theorem writeFile_encrypt_flag {crcs : Bool} {p : FileWriteParams} {w : Written} (hw : writeFile e crcs p = .ok w) :
    hasBits (w.flags ||| flagExists) flagEncrypted = p.encrypt := by
  unfold writeFile at hw
  split at hw
  · obtain ⟨s, b, _, hf, _⟩ := writeSingle_eq hw
    rw [hf]; exact (mkFlags_bits _ _ _ _ _).2.1
  · obtain ⟨_, _, _, _, hf, _⟩ := writeSectored_eq hw
    rw [hf]; exact (mkFlags_bits _ _ _ _ _).2.1

/-- The classic lookup finds a name exactly if it was added. -/
theorem Layout.classic_found (L : Layout e md5 b f) (hmd : ∀ x, (md5 x).length = 16) {before after : List Byte} {a : Archive}
    (ha : L.Opened before after a) (hlen : f.length < addressable b.version) (hfit : before.length + f.length < 2 ^ 64)
    (hn : L.pending.length < 0xFFFFFFFE) (name : List Byte) (hc : NoCollision (name :: L.pending.map (·.name))) :
    ∃ r, a.findFileClassic name = .ok r ∧
      (r.isSome = true ↔ ∃ p ∈ L.pending, Spec.sameName (name.map BitVec.toNat) (p.name.map BitVec.toNat)) := by
  by_cases h : ∃ p ∈ L.pending, Spec.sameName (name.map BitVec.toNat) (p.name.map BitVec.toNat)
  · have hex : ∃ i : Nat, ∃ p : PendingFile, L.pending[i]? = some p ∧ Spec.sameName (name.map BitVec.toNat) (p.name.map BitVec.toNat) := by
      obtain ⟨p, hp, hs⟩ := h
      obtain ⟨i, hi⟩ := List.mem_iff_getElem?.1 hp
      exact ⟨i, p, hi, hs⟩
    have hfirst : ∃ (i : Nat) (p : PendingFile), L.pending[i]? = some p ∧ Spec.sameName (name.map BitVec.toNat) (p.name.map BitVec.toNat) ∧
        ∀ j < i, ∀ q, L.pending[j]? = some q → ¬ Spec.sameName (name.map BitVec.toNat) (q.name.map BitVec.toNat) := by
      obtain ⟨i, hi⟩ := hex
      induction i using Nat.strongRecOn with
      | ind i ih =>
        by_cases hlt : ∃ j < i, ∃ q : PendingFile, L.pending[j]? = some q ∧ Spec.sameName (name.map BitVec.toNat) (q.name.map BitVec.toNat)
        · obtain ⟨j, hj, hq⟩ := hlt
          exact ih j hj hq
        · obtain ⟨p, hp, hs⟩ := hi
          exact ⟨i, p, hp, hs, fun j hj q hq hs' => hlt ⟨j, hj, q, hq, hs'⟩⟩
    obtain ⟨i, p, hp, hs, hf⟩ := hfirst
    obtain ⟨_, _, _, _, _, _, _, hfind⟩ := L.find_some hmd ha hlen hfit hn hp name hs hf hc
    exact ⟨_, hfind, fun _ => h, fun _ => rfl⟩
  · refine ⟨none, L.find_none ha hn name (fun q hq hs => h ⟨q, hq, hs⟩) hc, ?_⟩
    exact ⟨fun h' => (nomatch h'), fun h' => absurd h' h⟩

/-- The number of blocks whose size is not zero. -/
theorem Layout.nonempty_blocks (L : Layout e md5 b f)
    (hsize : ∀ p ∈ L.pending, ∀ data, p.source = some data → data.length < 2 ^ 32) :
    ((L.stored.map (·.block)).filter fun entry => entry.fileSize ≠ 0#32).length =
      (L.pending.filter fun p => 0 < p.size).length := by
  have hget := fun i p => L.block_get hsize (i := i) (p := p)
  have hl := L.blocks_length
  generalize L.stored.map (·.block) = bs at hget hl
  generalize L.pending = ps at hget hl
  clear hsize
  induction ps generalizing bs with
  | nil =>
    cases bs with
    | nil => rfl
    | cons _ _ => simp at hl
  | cons p ps ih =>
    cases bs with
    | nil => simp at hl
    | cons blk bs =>
      have h0 := hget 0 p rfl
      obtain ⟨blk', h1, _, h3⟩ := h0
      injection h1 with h1
      subst h1
      have := ih bs (fun i q hq => hget (i + 1) q hq) (by simpa using hl)
      rw [List.filter_cons, List.filter_cons]
      by_cases hz : p.size = 0
      · have hb : blk.fileSize = 0#32 := BitVec.eq_of_toNat_eq (by rw [h3, hz]; rfl)
        rw [if_neg (by rw [hb]; decide), if_neg (by rw [hz]; decide)]
        exact this
      · have hb : blk.fileSize ≠ 0#32 := by
          intro h0
          rw [h0] at h3
          exact hz h3.symm
        rw [if_pos (by rw [decide_eq_true_eq]; exact hb), if_pos (by rw [decide_eq_true_eq]; omega), List.length_cons,
          List.length_cons, this]

/-- A block is marked as encrypted exactly if its file was to be encrypted. -/
theorem Layout.encrypted_blocks (L : Layout e md5 b f) :
    ((L.stored.map (·.block)).any fun entry => hasBits entry.flags flagEncrypted) = true ↔ ∃ p ∈ L.pending, p.encrypt = true := by
  rw [List.any_eq_true]
  constructor
  · rintro ⟨blk, hb, he⟩
    obtain ⟨s, hs, rfl⟩ := List.mem_map.1 hb
    obtain ⟨i, hi⟩ := List.mem_iff_getElem?.1 hs
    have hil := (List.getElem?_eq_some_iff.1 hi).1
    rw [L.placed.length] at hil
    obtain ⟨s', _, _, h1, _, _, hst⟩ := L.placed.get (List.getElem?_eq_getElem hil)
    rw [hi] at h1
    injection h1 with h1
    subst h1
    obtain ⟨data, w, _, hw, hs⟩ := storeFile_ok hst
    have := writeFile_encrypt_flag hw
    rw [hs] at he
    exact ⟨_, List.getElem_mem hil, this.symm.trans he⟩
  · rintro ⟨p, hp, he⟩
    obtain ⟨i, hi⟩ := List.mem_iff_getElem?.1 hp
    obtain ⟨s, _, _, h1, _, _, hst⟩ := L.placed.get hi
    obtain ⟨data, w, _, hw, hs⟩ := storeFile_ok hst
    have := writeFile_encrypt_flag hw
    refine ⟨s.block, List.mem_map.2 ⟨s, List.mem_of_getElem? h1, rfl⟩, ?_⟩
    rw [hs]
    exact this.trans he

/-- The places and sizes of the extended tables stated in the header. -/
theorem Layout.extended_places (L : Layout e md5 b f) (hmd : ∀ x, (md5 x).length = 16) (hlen : f.length < addressable b.version)
    (hv : b.version.ge .v3 = true) {a : Archive} (ha : a.header = L.hdr) :
    ∃ t u : TableInfo, a.hetTableInfo = .ok (some t) ∧ a.betTableInfo = .ok (some u) ∧
      t.size = a.hetTable.map (·.header.maxFileCount) ∧ u.size = a.betTable.map (·.header.fileCount) ∧
      t.failedToLoad = a.hetTable.isNone ∧ u.failedToLoad = a.betTable.isNone ∧
      t.offset.toNat = b.version.headerSize.toNat + L.files.length ∧
      u.offset.toNat = b.version.headerSize.toNat + L.files.length + L.het.length ∧
      t.compressedSize = some (BitVec.ofNat 64 L.het.length) ∧ u.compressedSize = some (BitVec.ofNat 64 L.bet.length) := by
  have e48 : 2 ^ 48 = 281474976710656 := rfl
  have e64 : 2 ^ 64 = 18446744073709551616 := rfl
  have h48 := addressable_le b.version
  have hfl := L.f_length hmd
  have hhdr := L.header_length hmd
  obtain ⟨p1, _⟩ := L.positions hmd hlen
  obtain ⟨hd, bd, hhd, hwh, hbd, hwb⟩ := L.extended hv
  have h12 := writeExt_long hwh
  have h34 : b.version = .v3 ∨ b.version = .v4 := by revert hv; cases b.version <;> decide
  have h32 : 32 ≤ b.version.headerSize.toNat := by cases b.version <;> decide
  have h00 : (0#64).toNat = 0 := rfl
  have hhet : L.hdr.hetTablePos = some (BitVec.ofNat 64 (b.version.headerSize.toNat + L.files.length)) := by
    unfold Layout.hdr parsedHeader
    dsimp only
    rw [if_pos h34, L.params_eq]
    dsimp only
    rw [if_pos hv]; rfl
  have hbet : L.hdr.betTablePos = some (BitVec.ofNat 64 (b.version.headerSize.toNat + L.files.length + L.het.length)) := by
    unfold Layout.hdr parsedHeader
    dsimp only
    rw [if_pos h34, L.params_eq]
    dsimp only
    rw [if_pos hv]; rfl
  have t1 : (BitVec.ofNat 64 (b.version.headerSize.toNat + L.files.length) : U64).toNat =
      b.version.headerSize.toNat + L.files.length := by rw [BitVec.toNat_ofNat, Nat.mod_eq_of_lt (by omega)]
  have t2 : (BitVec.ofNat 64 (b.version.headerSize.toNat + L.files.length + L.het.length) : U64).toNat =
      b.version.headerSize.toNat + L.files.length + L.het.length := by
    rw [BitVec.toNat_ofNat, Nat.mod_eq_of_lt (by omega)]
  have hne : BitVec.ofNat 64 (b.version.headerSize.toNat + L.files.length) ≠ 0#64 := by
    intro h0; rw [h0] at t1; omega
  have hne' : BitVec.ofNat 64 (b.version.headerSize.toNat + L.files.length + L.het.length) ≠ 0#64 := by
    intro h0; rw [h0] at t2; omega
  have hs1 : hetTableSizeOf L.hdr (BitVec.ofNat 64 (b.version.headerSize.toNat + L.files.length)) =
      .ok (BitVec.ofNat 64 L.het.length) := by
    unfold hetTableSizeOf
    rw [hbet]
    dsimp only
    rw [if_pos (by omega)]
    unfold sub64
    rw [if_pos (by omega)]
    congr 1
    apply BitVec.eq_of_toNat_eq
    rw [BitVec.toNat_sub_of_le (by rw [BitVec.le_def]; omega), t1, t2, BitVec.toNat_ofNat, Nat.mod_eq_of_lt (by omega)]
    omega
  have hs2 : betTableSizeOf L.hdr (BitVec.ofNat 64 (b.version.headerSize.toNat + L.files.length + L.het.length)) =
      .ok (BitVec.ofNat 64 L.bet.length) := by
    unfold betTableSizeOf sub64
    rw [if_pos (by omega)]
    congr 1
    apply BitVec.eq_of_toNat_eq
    rw [BitVec.toNat_sub_of_le (by rw [BitVec.le_def]; omega), p1, t2, BitVec.toNat_ofNat, Nat.mod_eq_of_lt (by omega)]
    omega
  have hfv : L.hdr.formatVersion = b.version := rfl
  have he1 : extendedSize (L.hdr.v4Data.map (·.hetTableSize64)) b.version
      (hetTableSizeOf L.hdr (BitVec.ofNat 64 (b.version.headerSize.toNat + L.files.length))) =
      .ok (some (BitVec.ofNat 64 L.het.length)) := by
    rw [L.v4Data_eq, hs1]
    rcases h34 with h3 | h4
    · rw [L.v4_none (by rw [h3]; decide), h3]; rfl
    · rw [L.v4_some h4]; rfl
  have he2 : extendedSize (L.hdr.v4Data.map (·.betTableSize64)) b.version
      (betTableSizeOf L.hdr (BitVec.ofNat 64 (b.version.headerSize.toNat + L.files.length + L.het.length))) =
      .ok (some (BitVec.ofNat 64 L.bet.length)) := by
    rw [L.v4Data_eq, hs2]
    rcases h34 with h3 | h4
    · rw [L.v4_none (by rw [h3]; decide), h3]; rfl
    · rw [L.v4_some h4]; rfl
  refine ⟨{ size := a.hetTable.map (·.header.maxFileCount)
            offset := BitVec.ofNat 64 (b.version.headerSize.toNat + L.files.length)
            compressedSize := some (BitVec.ofNat 64 L.het.length), failedToLoad := a.hetTable.isNone },
          { size := a.betTable.map (·.header.fileCount)
            offset := BitVec.ofNat 64 (b.version.headerSize.toNat + L.files.length + L.het.length)
            compressedSize := some (BitVec.ofNat 64 L.bet.length), failedToLoad := a.betTable.isNone },
          ?_, ?_, rfl, rfl, rfl, rfl, t1, t2, rfl, rfl⟩
  · unfold Archive.hetTableInfo
    rw [ha, hhet]
    dsimp only
    rw [if_neg hne, hfv, he1]
    rfl
  · unfold Archive.betTableInfo
    rw [ha, hbet]
    dsimp only
    rw [if_neg hne', hfv, he2]
    rfl

theorem Layout.no_extended_places (L : Layout e md5 b f) (hv : b.version.ge .v3 = false) {a : Archive} (ha : a.header = L.hdr) :
    a.hetTableInfo = .ok none ∧ a.betTableInfo = .ok none := by
  have h34 : ¬ (b.version = .v3 ∨ b.version = .v4) := by revert hv; cases b.version <;> decide
  have h1 : L.hdr.hetTablePos = none := by
    unfold Layout.hdr parsedHeader
    dsimp only
    rw [if_neg h34]
  have h2 : L.hdr.betTablePos = none := by
    unfold Layout.hdr parsedHeader
    dsimp only
    rw [if_neg h34]
  unfold Archive.hetTableInfo Archive.betTableInfo
  rw [ha, h1, h2]
  exact ⟨rfl, rfl⟩

/-- The extended tables of an opened archive state the number of files. -/
theorem Layout.extended_counts (L : Layout e md5 b f) (hmd : ∀ x, (md5 x).length = 16) (hge : b.version.ge .v3 = true)
    (hno : b.tables.compressTables = false) (before after : List Byte) (hal : before.length % 512 = 0)
    (hclean : ∀ o < before.length, o % 512 = 0 → ¬ Spec.archiveMark (before ++ f ++ after) o ∧
      ¬ Spec.userDataMark (before ++ f ++ after) o)
    (hlen : f.length < addressable b.version) (hfit : before.length + f.length < 2 ^ 64)
    (hn : L.pending.length < 0xFFFFFFFE) {a : Archive} (ha : openArchive e (before ++ f ++ after) = .ok a) :
    ∃ t u, a.hetTable = some t ∧ a.betTable = some u ∧ t.header.maxFileCount.toNat = L.pending.length ∧
      u.header.fileCount.toNat = L.pending.length := by
  have h32 : (2 : Nat) ^ 32 = 4294967296 := rfl
  obtain ⟨_, hhet, hbet, _⟩ := L.opened_tables hmd before after hal hclean hlen hfit hn ha
  obtain ⟨hd, bd, hhd, hwh, hbd, hwb⟩ := L.extended hge
  obtain ⟨hc, hcc⟩ := createHet_content hhd
  obtain ⟨bc, hbc⟩ := createBet_content hbd
  have hbl : (L.stored.map (·.block)).length = (L.pending.map (·.name)).length := by
    rw [List.length_map, List.length_map, L.placed.length]
  have hnl : (L.pending.map (·.name)).length = L.pending.length := List.length_map _
  obtain ⟨pre, post, hF, hh⟩ := L.loadHet hmd before after hlen hfit hge
  obtain ⟨pre', post', hF', hb'⟩ := L.loadBet hmd before after hlen hfit hge
  obtain ⟨t, ht, hth, htl⟩ := het_read e.codecs b.tables hno pre post _ (by omega) hc hcc hd L.het hhd hwh
  obtain ⟨u, hu, hu1, _⟩ := C33_bet_uncompressed_partial e.codecs b.tables hno pre' post' _ _ hbl (by omega) bc hbc
    bd L.bet hbd hwb
  rw [if_pos hge, hh] at hhet
  rw [if_pos hge, hb'] at hbet
  rw [← hF] at ht
  rw [← hF'] at hu
  rw [ht] at hhet
  rw [hu] at hbet
  have hhet : some t = a.hetTable := Except.ok.inj hhet
  have hbet : some u = a.betTable := Except.ok.inj hbet
  refine ⟨t, u, hhet.symm, hbet.symm, ?_, ?_⟩
  · rw [hth, (hetContent_facts hcc).max, hnl, Nat.mod_eq_of_lt (by omega)]
  · rw [hu1, (betContent_facts hbl (by omega) hbc).count, hnl]

/-- The number of files fits the hash table. -/
theorem Layout.fits (L : Layout e md5 b f) (hn : L.pending.length < 0xFFFFFFFE) : L.pending.length ≤ 2 ^ L.k := by
  have hperm := (runAdds_perm rfl L.hk _ (opsFrom_valid hn) L.adds).length_eq
  rw [List.length_map, opsFrom_length] at hperm
  have := List.length_filter_le (fun e => !e.isEmpty) L.table
  rw [L.table_length hn] at this
  omega

/-- C55 (what holds): for an archive built from files none of which is named "(signature)", the description states the size
of the file, the place of the archive in it, its version and sector size, no user data; all files in versions 3 and 4, the
files that are not empty in versions 1 and 2; room for all files; that it is encrypted exactly if some file was to be
encrypted; that it has a listfile or attributes exactly if such a file was added; no signature; and in version 4 that all
MD5 values are right. Missing: empty files in versions 1 and 2 (`C55_empty_files_not_counted`), signatures after the archive
(`C55_strong_signature_unreported`), the numbers of files in versions 3 and 4 with compressed tables, and the rest in
versions 3 and 4 with more than four files and uncompressed tables or tables compressed other than by zlib. -/
theorem C55_built_info_partial (e : Env) (s : SigEnv) (hmd : ∀ x, (s.md5 x).length = 16) (b : Builder)
    (f : List Byte) (hb : buildBytes e s.md5 b = .ok f) (pending : List PendingFile) (hp : prepareListfile b = .ok pending)
    (hext : ClassicLookup e.codecs b pending)
    (before after : List Byte) (hal : before.length % 512 = 0)
    (hclean : ∀ o < before.length, o % 512 = 0 → ¬ Spec.archiveMark (before ++ f ++ after) o ∧
      ¬ Spec.userDataMark (before ++ f ++ after) o)
    (hlen : f.length < addressable b.version) (hfit : before.length + f.length < 2 ^ 64)
    (hcount : pending.length < 0xFFFFFFFE) (hsize : ∀ p ∈ pending, ∀ data, p.source = some data → data.length < 2 ^ 32)
    (hsig : ∀ p ∈ pending, ¬ Spec.sameName (signatureName.map BitVec.toNat) (p.name.map BitVec.toNat))
    (hc1 : NoCollision (signatureName :: pending.map (·.name))) (hc2 : NoCollision (attributesName :: pending.map (·.name)))
    (hc3 : NoCollision (listfileName :: pending.map (·.name)))
    (a : Archive) (ha : openArchive e (before ++ f ++ after) = .ok a) :
    ∃ info, a.getInfo e s = .ok info ∧
      info.fileSize = before.length + f.length + after.length ∧ info.archiveOffset = before.length ∧
      info.formatVersion = b.version ∧ sectorSizeOf b.blockSize = .ok info.sectorSize ∧ info.userDataInfo = none ∧
      ((b.version.ge .v3 = true → b.tables.compressTables = false) →
        info.fileCount = (if b.version = .v1 ∨ b.version = .v2 then (pending.filter fun p => 0 < p.size).length
          else pending.length) ∧
        pending.length ≤ info.maxFileCount.toNat) ∧
      (info.isEncrypted = true ↔ ∃ p ∈ pending, p.encrypt = true) ∧
      (info.hasListfile = true ↔ ∃ p ∈ pending, Spec.sameName (listfileName.map BitVec.toNat) (p.name.map BitVec.toNat)) ∧
      (info.hasAttributes = true ↔
        ∃ p ∈ pending, Spec.sameName (attributesName.map BitVec.toNat) (p.name.map BitVec.toNat)) ∧
      info.hasSignature = false ∧ info.signatureStatus = .none ∧
      info.md5Status = (if b.version = .v4 then some ⟨true, true, true, true, true, true⟩ else none) := by
  obtain ⟨L⟩ := layout_of_build hmd hb
  have hpe : L.pending = pending := Except.ok.inj (L.prepared.symm.trans hp)
  subst hpe
  have h32 : (2 : Nat) ^ 32 = 4294967296 := rfl
  obtain ⟨ho, hhet, hbet, hud⟩ := L.opened_tables hmd before after hal hclean hlen hfit hcount ha
  obtain ⟨het, bet, hhet', hbet', hfall⟩ := L.fallback hmd before after hlen hfit hext
  have hht : a.hetTable = het := Except.ok.inj (hhet.symm.trans hhet')
  have hbt : a.betTable = bet := Except.ok.inj (hbet.symm.trans hbet')
  have hfb := hfall a ho hht hbt
  obtain ⟨r1, f1, g1⟩ := L.classic_found hmd ho hlen hfit hcount listfileName hc3
  have f2 : a.findFileClassic signatureName = .ok none := L.find_none ho hcount _ hsig hc1
  obtain ⟨r3, f3, g3⟩ := L.classic_found hmd ho hlen hfit hcount attributesName hc2
  rw [← hfb listfileName] at f1
  rw [← hfb signatureName] at f2
  rw [← hfb attributesName] at f3
  -- the attributes
  have hattr : a.attributes.isSome = true → r3.isSome = true := by
    intro hat
    cases hr3 : r3 with
    | some _ => rfl
    | none =>
      rw [hr3] at f3
      obtain ⟨a', ha', h1, h2, h3, _, hop⟩ := L.open hmd before after hal hclean hlen hfit hcount het bet hhet' hbet'
      have hno : ∀ q ∈ L.pending, ¬ Spec.sameName (attributesName.map BitVec.toNat) (q.name.map BitVec.toNat) := by
        intro q hq hs
        have := g3.2 ⟨q, hq, hs⟩
        rw [hr3] at this; cases this
      have hfn : a'.findFile attributesName = .ok none := by
        rw [hfall a' ha' h1 h2 attributesName]
        exact L.find_none ha' hcount _ hno hc2
      rw [hop, loadAttributes_none hfn h3] at ha
      have ha := Except.ok.inj ha
      rw [← ha] at hat
      cases hat
  have hattr' : a.hasAttributes = .ok r3.isSome := by
    unfold Archive.hasAttributes
    by_cases hat : a.attributes.isSome = true
    · rw [if_pos hat, hattr hat]
    · rw [if_neg hat, f3]; rfl
  -- the extended tables
  have hti : ∃ t u, a.hetTableInfo = .ok t ∧ a.betTableInfo = .ok u := by
    cases hge : b.version.ge .v3 with
    | true =>
      obtain ⟨t, u, h1, h2, _⟩ := L.extended_places hmd hlen hge ho.header
      exact ⟨_, _, h1, h2⟩
    | false =>
      obtain ⟨h1, h2⟩ := L.no_extended_places hge ho.header
      exact ⟨_, _, h1, h2⟩
  obtain ⟨t, u, ht, hu⟩ := hti
  have hmd5 : validateMd5 s.md5 a.file a.archiveOffset a.header =
      .ok (if b.version = .v4 then some ⟨true, true, true, true, true, true⟩ else none) := by
    by_cases h4 : b.version = .v4
    · rw [if_pos h4, ho.file]
      exact C34_fresh_archive_valid e s.md5 hmd b h4 f hb _ hp before after hal hclean hlen hfit hcount true a ha
    · rw [if_neg h4]
      unfold validateMd5
      rw [ho.header, L.v4Data_eq, L.v4_none h4]
  have hss : sectorSizeOf a.header.blockSize = .ok L.sectorSize := by
    rw [ho.header]; exact L.sector
  have hld : a.ensureLoaded e = .ok a := by
    unfold Archive.ensureLoaded
    rw [ho.hash]; rfl
  refine ⟨{ fileSize := a.file.length, archiveOffset := a.archiveOffset, formatVersion := a.header.formatVersion,
            fileCount := a.fileCount, maxFileCount := a.maxFileCount, sectorSize := L.sectorSize,
            isEncrypted := a.isEncrypted, hasSignature := false, signatureStatus := .none, hashTableInfo := a.hashTableInfo,
            blockTableInfo := a.blockTableInfo, hetTableInfo := t, betTableInfo := u,
            hiBlockTableInfo := a.hiBlockTableInfo, hasAttributes := r3.isSome, hasListfile := r1.isSome,
            userDataInfo := a.userData.map fun u => (u.userDataHeaderSize, u.userDataSize),
            md5Status := if b.version = .v4 then some ⟨true, true, true, true, true, true⟩ else none },
    ?_, ?_, ?_, ?_, ?_, ?_, ?_, ?_, g1, g3, rfl, rfl, rfl⟩
  · unfold Archive.getInfo
    rw [hld]
    simp only [bind, Except.bind, f1, f2, hattr', ht, hu, hmd5, hss]
    rfl
  · dsimp only
    rw [ho.file, List.length_append, List.length_append]
  · exact ho.offset
  · dsimp only
    rw [ho.header]; rfl
  · exact L.sector
  · dsimp only
    rw [hud]; rfl
  · intro hplain
    refine ⟨?_, ?_⟩
    · dsimp only
      cases hge : b.version.ge .v3 with
      | true =>
        have hv : ¬ (b.version = .v1 ∨ b.version = .v2) := by revert hge; cases b.version <;> decide
        rw [if_neg hv]
        obtain ⟨t, u, h1, h2, _, h4⟩ := L.extended_counts hmd hge (hplain hge) before after hal hclean hlen hfit hcount ha
        unfold Archive.fileCount
        rw [h2]
        exact h4
      | false =>
        have hv : b.version = .v1 ∨ b.version = .v2 := by revert hge; cases b.version <;> decide
        rw [if_pos hv]
        rw [hge] at hbet
        have hbet : a.betTable = none := (Except.ok.inj hbet).symm
        unfold Archive.fileCount
        rw [hbet, ho.block]
        exact L.nonempty_blocks hsize
    · dsimp only
      cases hge : b.version.ge .v3 with
      | true =>
        obtain ⟨t, u, h1, h2, h3, _⟩ := L.extended_counts hmd hge (hplain hge) before after hal hclean hlen hfit hcount ha
        unfold Archive.maxFileCount
        rw [h1]
        exact Nat.le_of_eq h3.symm
      | false =>
        rw [hge] at hhet
        have hhet : a.hetTable = none := (Except.ok.inj hhet).symm
        unfold Archive.maxFileCount
        rw [hhet, ho.header, L.hashTableSize]
        dsimp only
        have : 2 ^ L.k < 2 ^ 32 := Nat.pow_lt_pow_right (by decide) L.hk
        rw [BitVec.toNat_ofNat, Nat.mod_eq_of_lt this]
        exact L.fits hcount
  · dsimp only
    unfold Archive.isEncrypted
    rw [ho.block]
    exact L.encrypted_blocks

/-- What a successful description is made of. -/
theorem getInfo_parts {s : SigEnv} {a : Archive} (hl : a.hashTable.isSome = true) {info : ArchiveInfo}
    (h : a.getInfo e s = .ok info) :
    info.hashTableInfo = a.hashTableInfo ∧ info.blockTableInfo = a.blockTableInfo ∧
    a.hetTableInfo = .ok info.hetTableInfo ∧ a.betTableInfo = .ok info.betTableInfo ∧
    info.hiBlockTableInfo = a.hiBlockTableInfo ∧
    (∃ r, a.findFile signatureName = .ok r ∧ info.hasSignature = r.isSome ∧
      a.signatureStatus e s r.isSome = .ok info.signatureStatus) := by
  unfold Archive.getInfo Archive.ensureLoaded at h
  have hl' : a.hashTable.isNone = false := by
    cases hh : a.hashTable with
    | none => rw [hh] at hl; cases hl
    | some _ => rfl
  rw [hl', Bool.false_and, if_neg (by simp)] at h
  obtain ⟨a', ha', h⟩ := bind_eq_ok.1 h
  have ha' := Except.ok.inj ha'
  subst ha'
  obtain ⟨r1, _, h⟩ := bind_eq_ok.1 h
  obtain ⟨r2, h2, h⟩ := bind_eq_ok.1 h
  obtain ⟨r3, _, h⟩ := bind_eq_ok.1 h
  obtain ⟨r4, h4, h⟩ := bind_eq_ok.1 h
  obtain ⟨r5, h5, h⟩ := bind_eq_ok.1 h
  obtain ⟨r6, h6, h⟩ := bind_eq_ok.1 h
  obtain ⟨r7, _, h⟩ := bind_eq_ok.1 h
  obtain ⟨r8, _, h⟩ := bind_eq_ok.1 h
  have h := Except.ok.inj h
  subst h
  exact ⟨rfl, rfl, h5, h6, rfl, r2, h2, rfl, h4⟩

/-- C55, the tables (what holds): the hash table has room for all files and ends where the block table begins, which has one
entry for each file and ends within the archive or where the table of high positions begins; versions 3 and 4, and only they, have the
two extended tables, which state the number of files and lie one after the other before the hash table, with the sizes
stated; and every table was loaded. Missing: the extended tables of archives with compressed tables, which do not load. -/
theorem C55_built_tables_partial (e : Env) (s : SigEnv) (hmd : ∀ x, (s.md5 x).length = 16) (b : Builder)
    (f : List Byte) (hb : buildBytes e s.md5 b = .ok f) (pending : List PendingFile) (hp : prepareListfile b = .ok pending)
    (hno : b.tables.compressTables = false) (before after : List Byte) (hal : before.length % 512 = 0)
    (hclean : ∀ o < before.length, o % 512 = 0 → ¬ Spec.archiveMark (before ++ f ++ after) o ∧
      ¬ Spec.userDataMark (before ++ f ++ after) o)
    (hlen : f.length < addressable b.version) (hfit : before.length + f.length < 2 ^ 64)
    (hcount : pending.length < 0xFFFFFFFE) (a : Archive) (ha : openArchive e (before ++ f ++ after) = .ok a)
    (info : ArchiveInfo) (hi : a.getInfo e s = .ok info) :
    (∃ slots files : U32, info.hashTableInfo.size = some slots ∧ info.blockTableInfo.size = some files ∧
      pending.length ≤ slots.toNat ∧ files.toNat = pending.length ∧
      info.hashTableInfo.offset.toNat + 16 * slots.toNat = info.blockTableInfo.offset.toNat ∧
      info.blockTableInfo.offset.toNat + 16 * files.toNat ≤ f.length ∧
      ∀ t, info.hiBlockTableInfo = some t → t.size = some files ∧ t.failedToLoad = false ∧
        t.offset.toNat = info.blockTableInfo.offset.toNat + 16 * files.toNat ∧ t.offset.toNat + 2 * files.toNat = f.length) ∧
    info.hashTableInfo.failedToLoad = false ∧ info.blockTableInfo.failedToLoad = false ∧
    (b.version = .v1 ∨ b.version = .v2 → info.hetTableInfo = none ∧ info.betTableInfo = none) ∧
    (b.version = .v3 ∨ b.version = .v4 → ∃ (t u : TableInfo) (n m : U32) (k l : U64),
      info.hetTableInfo = some t ∧ info.betTableInfo = some u ∧ t.size = some n ∧ u.size = some m ∧
      n.toNat = pending.length ∧ m.toNat = pending.length ∧ t.compressedSize = some k ∧ u.compressedSize = some l ∧
      t.offset.toNat + k.toNat = u.offset.toNat ∧ u.offset.toNat + l.toNat = info.hashTableInfo.offset.toNat ∧
      t.failedToLoad = false ∧ u.failedToLoad = false) := by
  obtain ⟨L⟩ := layout_of_build hmd hb
  have hpe : L.pending = pending := Except.ok.inj (L.prepared.symm.trans hp)
  subst hpe
  have h32 : (2 : Nat) ^ 32 = 4294967296 := rfl
  have e48 : 2 ^ 48 = 281474976710656 := rfl
  have e64 : 2 ^ 64 = 18446744073709551616 := rfl
  have h48 := addressable_le b.version
  obtain ⟨ho, hhet, hbet, hud⟩ := L.opened_tables hmd before after hal hclean hlen hfit hcount ha
  obtain ⟨i1, i2, i3, i4, i5, _⟩ := getInfo_parts (by rw [ho.hash]; rfl) hi
  obtain ⟨p1, p2⟩ := L.positions hmd hlen
  have hfl := L.f_length hmd
  have hk : 2 ^ L.k < 2 ^ 32 := Nat.pow_lt_pow_right (by decide) L.hk
  have hhl : L.hash.length = 16 * 2 ^ L.k := by
    rw [L.hash_eq, hashTableBytes_length, L.table_length hcount]
  have hbl : L.block.length = 16 * L.pending.length := by
    rw [L.block_eq, blockTableBytes_length, List.length_map, L.placed.length]
  have hsz : L.hdr.hashTableSize.toNat = 2 ^ L.k := by
    rw [L.hashTableSize, BitVec.toNat_ofNat, Nat.mod_eq_of_lt hk]
  have hbz : L.hdr.blockTableSize.toNat = L.pending.length := by
    rw [L.blockTableSize, BitVec.toNat_ofNat, Nat.mod_eq_of_lt (by omega)]
  refine ⟨⟨L.hdr.hashTableSize, L.hdr.blockTableSize, ?_, ?_, ?_, hbz, ?_, ?_, ?_⟩, ?_, ?_, ?_, ?_⟩
  · rw [i1]; unfold Archive.hashTableInfo; rw [ho.header]
  · rw [i2]; unfold Archive.blockTableInfo; rw [ho.header]
  · rw [hsz]; exact L.fits hcount
  · rw [i1, i2]
    unfold Archive.hashTableInfo Archive.blockTableInfo
    rw [ho.header]
    dsimp only
    rw [p1, p2, hsz]; omega
  · rw [i2]
    unfold Archive.blockTableInfo
    rw [ho.header]
    dsimp only
    rw [p2, hbz]; omega
  · intro t ht
    rw [i5] at ht
    unfold Archive.hiBlockTableInfo at ht
    have hpos : L.hdr.hiBlockTablePos = if b.version = .v1 then none else some (L.params.hiBlockTablePos.getD 0) := rfl
    rw [ho.header, hpos] at ht
    by_cases h1 : b.version = .v1
    · rw [if_pos h1] at ht; cases ht
    rw [if_neg h1] at ht
    dsimp only at ht
    by_cases hn : L.hiNeeded = true
    · have hp : L.params.hiBlockTablePos.getD 0 = BitVec.ofNat 64
          (b.version.headerSize.toNat + L.files.length + L.het.length + L.bet.length + L.hash.length + L.block.length) := by
        rw [L.params_eq]; dsimp only; rw [if_pos hn]; rfl
      have htn : (L.params.hiBlockTablePos.getD 0).toNat =
          b.version.headerSize.toNat + L.files.length + L.het.length + L.bet.length + L.hash.length + L.block.length := by
        rw [hp, BitVec.toNat_ofNat, Nat.mod_eq_of_lt (by omega)]
      have hhil : L.hi.length = 2 * L.pending.length := by
        rw [L.hi_eq, if_pos hn, hiBlockTableBytes_length, List.length_map, L.placed.length]
      have hhis : a.hiBlockTable.isSome = true := by rw [ho.his]; unfold Layout.his; rw [if_pos hn]; rfl
      split at ht
      · cases ht
      · have ht := Option.some.inj ht
        subst ht
        rw [i2]
        unfold Archive.blockTableInfo
        rw [ho.header]
        dsimp only
        rw [htn, p2, hbz]
        refine ⟨rfl, ?_, by omega, by omega⟩
        revert hhis; cases a.hiBlockTable <;> simp
    · have hp : L.params.hiBlockTablePos.getD 0 = 0#64 := by
        rw [L.params_eq]; dsimp only; rw [if_neg hn]; rfl
      rw [hp, if_pos rfl] at ht; cases ht
  · rw [i1]; unfold Archive.hashTableInfo; dsimp only; rw [ho.hash]; rfl
  · rw [i2]; unfold Archive.blockTableInfo; dsimp only; rw [ho.block]; rfl
  · intro hv
    have hge : b.version.ge .v3 = false := by rcases hv with hv | hv <;> rw [hv] <;> rfl
    obtain ⟨h1, h2⟩ := L.no_extended_places hge ho.header
    exact ⟨Except.ok.inj (i3.symm.trans h1), Except.ok.inj (i4.symm.trans h2)⟩
  · intro hv
    have hge : b.version.ge .v3 = true := by rcases hv with hv | hv <;> rw [hv] <;> rfl
    obtain ⟨t, u, h1, h2, h3, h4, h5, h6, h7, h8, h9, h10⟩ := L.extended_places hmd hlen hge ho.header
    obtain ⟨t', u', g1, g2, g3, g4⟩ := L.extended_counts hmd hge hno before after hal hclean hlen hfit hcount ha
    refine ⟨t, u, t'.header.maxFileCount, u'.header.fileCount, _, _, Except.ok.inj (i3.symm.trans h1),
      Except.ok.inj (i4.symm.trans h2), by rw [h3, g1]; rfl, by rw [h4, g2]; rfl, g3, g4, h9, h10, ?_, ?_,
      by rw [h5, g1]; rfl, by rw [h6, g2]; rfl⟩
    · rw [h7, h8, BitVec.toNat_ofNat, Nat.mod_eq_of_lt (by omega)]
    · rw [i1]
      unfold Archive.hashTableInfo
      rw [ho.header]
      dsimp only
      rw [h8, p1, BitVec.toNat_ofNat, Nat.mod_eq_of_lt (by omega)]

/-- C55, a violation: an archive without "(signature)" file is reported to have no signature, even if a strong signature follows it
and `verify_signature` says that it is valid. -/
theorem C55_strong_signature_unreported (e : Env) (s : SigEnv) (a : Archive) (hl : a.hashTable.isSome = true)
    (hf : a.findFile signatureName = .ok none) (info : ArchiveInfo) (h : a.getInfo e s = .ok info) :
    info.hasSignature = false ∧ info.signatureStatus = .none := by
  obtain ⟨_, _, _, _, _, r, h1, h2, h3⟩ := getInfo_parts hl h
  rw [hf] at h1
  have h1 := Except.ok.inj h1
  subst h1
  exact ⟨h2, (Except.ok.inj h3).symm⟩

/-- C55, a violation: in versions 1 and 2 an empty file is not counted, so that the number of files reported is too small
whenever there is one. -/
theorem C55_empty_files_not_counted (e : Env) (s : SigEnv) (hmd : ∀ x, (s.md5 x).length = 16) (b : Builder)
    (hv : b.version = .v1 ∨ b.version = .v2)
    (f : List Byte) (hb : buildBytes e s.md5 b = .ok f) (pending : List PendingFile) (hp : prepareListfile b = .ok pending)
    (before after : List Byte) (hal : before.length % 512 = 0)
    (hclean : ∀ o < before.length, o % 512 = 0 → ¬ Spec.archiveMark (before ++ f ++ after) o ∧
      ¬ Spec.userDataMark (before ++ f ++ after) o)
    (hlen : f.length < addressable b.version) (hfit : before.length + f.length < 2 ^ 64)
    (hcount : pending.length < 0xFFFFFFFE) (hsize : ∀ p ∈ pending, ∀ data, p.source = some data → data.length < 2 ^ 32)
    (hsig : ∀ p ∈ pending, ¬ Spec.sameName (signatureName.map BitVec.toNat) (p.name.map BitVec.toNat))
    (hc1 : NoCollision (signatureName :: pending.map (·.name))) (hc2 : NoCollision (attributesName :: pending.map (·.name)))
    (hc3 : NoCollision (listfileName :: pending.map (·.name)))
    (hempty : ∃ p ∈ pending, p.size = 0)
    (a : Archive) (ha : openArchive e (before ++ f ++ after) = .ok a) :
    ∃ info, a.getInfo e s = .ok info ∧ info.fileCount < pending.length := by
  have hge : b.version.ge .v3 = false := by rcases hv with hv | hv <;> rw [hv] <;> rfl
  obtain ⟨info, h1, _, _, _, _, _, h2, _⟩ := C55_built_info_partial e s hmd b f hb pending hp
    (fun h => by rw [hge] at h; cases h) before after hal hclean hlen hfit hcount hsize hsig hc1 hc2 hc3 a ha
  refine ⟨info, h1, ?_⟩
  have h2 := (h2 fun h => by rw [hge] at h; cases h).1
  rw [if_pos hv] at h2
  rw [h2, List.length_filter_lt_length_iff_exists]
  obtain ⟨p, hp, h0⟩ := hempty
  exact ⟨p, hp, by simp [h0]⟩

/-! ## Examples -/

/-- A small archive without compressed tables builds and opens. -/
theorem toy_opens (b : Builder) (pending : List PendingFile) (h : Buildable toyEnv b pending)
    (hno : b.tables.compressTables = false) (hlk : ClassicLookup toyEnv.codecs b pending) (hv : b.version ≠ .v1)
    (hsb : ∀ p ∈ pending, storedBound p + (p.source.getD []).length < 1000)
    (hsum : (pending.map storedBound).sum < 1000) (hn : pending.length < 1000)
    (hat : ∀ p ∈ pending, ¬ Spec.sameName (attributesName.map BitVec.toNat) (p.name.map BitVec.toNat))
    (hc : NoCollision (attributesName :: pending.map (·.name))) :
    ∃ f a, buildBytes toyEnv zeroMd5 b = .ok f ∧ f.length < addressable b.version ∧ f.length < 2 ^ 48 ∧
      openArchive toyEnv ([] ++ f ++ []) = .ok a := by
  have h21 : (2 : Nat) ^ 21 = 2097152 := rfl
  have h47 : (2 : Nat) ^ 47 = 140737488355328 := rfl
  have e48 : (2 : Nat) ^ 48 = 281474976710656 := rfl
  have e64 : (2 : Nat) ^ 64 = 18446744073709551616 := rfl
  have e32 : (2 : Nat) ^ 32 = 4294967296 := rfl
  have hh : b.version.headerSize.toNat ≤ 208 := by cases b.version <;> decide
  obtain ⟨f, hf⟩ := C50_extended_build_succeeds_partial toyEnv zeroMd5 b pending h (.inl hno) (by omega)
  obtain ⟨L⟩ := layout_of_build (fun _ => List.length_replicate) hf
  have hpe : L.pending = pending := Except.ok.inj (L.prepared.symm.trans h.prepared)
  have hlt : f.length < 2 ^ 48 := L.length_lt (fun _ => List.length_replicate) (by rw [hpe]; omega)
    (by rw [hpe]; intro p hp; have := hsb p hp; omega) (by rw [hpe]; omega)
  have had : f.length < addressable b.version := by unfold addressable; rw [if_neg hv]; exact hlt
  obtain ⟨a, _, ha, _⟩ := C26_read_back_partial toyEnv toyCodecs_lawful zeroMd5 (fun _ => List.length_replicate)
    b f hf pending h.prepared hlk [] [] rfl (by intro o ho; cases ho) had
    (by simp only [List.length_nil]; omega) (by omega)
    (fun p hp data hd => by
      have := hsb p hp
      rw [hd] at this
      have : storedBound p + data.length < 1000 := this
      omega) hat hc
  exact ⟨f, a, hf, had, hlt, ha⟩

def toySigEnv : SigEnv :=
  { md5 := zeroMd5, sha1 := fun _ => List.replicate 20 1#8, weakKey := weakKey, strongKey := plainKey, reads := fun _ => some 3 }

/-- The sample in version 4: three files, one encrypted, with a listfile, all MD5 values right. -/
example : ∃ f a info, buildBytes toyEnv zeroMd5 (sampleBuilder .v4) = .ok f ∧ openArchive toyEnv f = .ok a ∧
    a.getInfo toyEnv toySigEnv = .ok info ∧ info.fileSize = f.length ∧ info.fileCount = 3 ∧ info.isEncrypted = true ∧
    info.hasListfile = true ∧ info.hasAttributes = false ∧ info.sectorSize = 4096 ∧
    info.md5Status = some ⟨true, true, true, true, true, true⟩ := by
  have e48 : (2 : Nat) ^ 48 = 281474976710656 := rfl
  have e64 : (2 : Nat) ^ 64 = 18446744073709551616 := rfl
  obtain ⟨f, a, hf, had, hlt, ha⟩ := toy_opens (sampleBuilder .v4) samplePending (sample_buildable .v4) rfl
    (fun _ => .inl ⟨rfl, by decide⟩) (by decide) (by decide +kernel) (by decide +kernel) (by decide) (by decide +kernel)
    (noCollision_lit (by decide +kernel))
  obtain ⟨info, h1, h2, _, _, h3, _, h4, h5, h6, h7, _, _, h8⟩ := C55_built_info_partial toyEnv toySigEnv
    (fun _ => List.length_replicate) (sampleBuilder .v4) f hf samplePending (samplePending_eq .v4) (fun _ => .inl ⟨rfl, by decide⟩)
    [] [] rfl (by intro o ho; cases ho) had (by simp only [List.length_nil]; omega) (by decide)
    (fun p hp data hd => by have := sample_sizes p hp data hd; omega) (by decide +kernel)
    (noCollision_lit (by decide +kernel)) (noCollision_lit (by decide +kernel)) (noCollision_lit (by decide +kernel)) a ha
  rw [List.nil_append, List.append_nil] at ha
  refine ⟨f, a, info, hf, ha, h1, by simpa using h2, (h4 fun _ => rfl).1.trans rfl, h5.2 (by decide +kernel), h6.2 (by decide +kernel), ?_, ?_,
    h8.trans rfl⟩
  · cases hh : info.hasAttributes with
    | false => rfl
    | true => exact absurd (h7.1 hh) (by decide +kernel)
  · have h4096 : sectorSizeOf 3#16 = .ok 4096 := by decide
    exact (Except.ok.inj (h4096.symm.trans h3)).symm

/-- Its tables. -/
example : ∃ f a info t, buildBytes toyEnv zeroMd5 (sampleBuilder .v3) = .ok f ∧ openArchive toyEnv f = .ok a ∧
    a.getInfo toyEnv toySigEnv = .ok info ∧ info.hetTableInfo = some t ∧ t.size = some 3#32 ∧ t.failedToLoad = false := by
  have e48 : (2 : Nat) ^ 48 = 281474976710656 := rfl
  have e64 : (2 : Nat) ^ 64 = 18446744073709551616 := rfl
  obtain ⟨f, a, hf, had, hlt, ha⟩ := toy_opens (sampleBuilder .v3) samplePending (sample_buildable .v3) rfl
    (fun _ => .inl ⟨rfl, by decide⟩) (by decide) (by decide +kernel) (by decide +kernel) (by decide) (by decide +kernel)
    (noCollision_lit (by decide +kernel))
  obtain ⟨info, h1, _⟩ := C55_built_info_partial toyEnv toySigEnv
    (fun _ => List.length_replicate) (sampleBuilder .v3) f hf samplePending (samplePending_eq .v3) (fun _ => .inl ⟨rfl, by decide⟩)
    [] [] rfl (by intro o ho; cases ho) had (by simp only [List.length_nil]; omega) (by decide)
    (fun p hp data hd => by have := sample_sizes p hp data hd; omega) (by decide +kernel)
    (noCollision_lit (by decide +kernel)) (noCollision_lit (by decide +kernel)) (noCollision_lit (by decide +kernel)) a ha
  obtain ⟨_, _, _, _, ht⟩ := C55_built_tables_partial toyEnv toySigEnv
    (fun _ => List.length_replicate) (sampleBuilder .v3) f hf samplePending (samplePending_eq .v3) rfl
    [] [] rfl (by intro o ho; cases ho) had (by simp only [List.length_nil]; omega) (by decide) a ha info h1
  obtain ⟨t, u, n, m, _, _, h2, _, h3, _, h4, _, _, _, _, _, h5, _⟩ := ht (Or.inl rfl)
  rw [List.nil_append, List.append_nil] at ha
  refine ⟨f, a, info, t, hf, ha, h1, h2, ?_, h5⟩
  rw [h3]
  exact congrArg some (BitVec.eq_of_toNat_eq (h4.trans rfl))

/-- One file and one empty file, without listfile, in version 2. -/
def emptyFileBuilder : Builder :=
  { sampleBuilder .v2 with
    listfile := .none
    pending := [
      { source := some [], name := ascii "a", compression := 0x02, encrypt := false, useFixKey := false, locale := 0 },
      { source := some [1, 2, 3], name := ascii "b", compression := 0, encrypt := true, useFixKey := true, locale := 0 }] }

theorem emptyFile_buildable : Buildable toyEnv emptyFileBuilder emptyFileBuilder.pending where
  shift := by show (3#16).toNat < 55; decide
  prepared := rfl
  count := by decide
  readable := by
    intro p hp
    simp only [emptyFileBuilder, List.mem_cons, List.not_mem_nil, or_false] at hp
    rcases hp with rfl | rfl
    · exact ⟨_, rfl, by decide, by unfold Compressible; rw [show emptyFileBuilder.blockSize = 3#16 from rfl, if_pos (by decide +kernel)]; exact ⟨_, by rfl⟩⟩
    · exact ⟨_, rfl, by decide, by unfold Compressible; rw [show emptyFileBuilder.blockSize = 3#16 from rfl, if_pos (by decide +kernel)]; exact ⟨_, by rfl⟩⟩
  names := noCollision_lit (by decide +kernel)
  distinct := by unfold DistinctFiles; decide +kernel

/-- Two files, of which fewer are reported. -/
example : ∃ f a info, buildBytes toyEnv zeroMd5 emptyFileBuilder = .ok f ∧ openArchive toyEnv f = .ok a ∧
    a.getInfo toyEnv toySigEnv = .ok info ∧ info.fileCount < 2 := by
  have e48 : (2 : Nat) ^ 48 = 281474976710656 := rfl
  have e64 : (2 : Nat) ^ 64 = 18446744073709551616 := rfl
  have e32 : (2 : Nat) ^ 32 = 4294967296 := rfl
  have hsb : ∀ p ∈ emptyFileBuilder.pending, storedBound p + (p.source.getD []).length < 1000 := by decide +kernel
  obtain ⟨f, a, hf, had, hlt, ha⟩ := toy_opens emptyFileBuilder _ emptyFile_buildable rfl
    (fun _ => .inl ⟨rfl, by decide⟩) (by decide) hsb (by decide +kernel) (by decide) (by decide +kernel)
    (noCollision_lit (by decide +kernel))
  obtain ⟨info, h1, h2⟩ := C55_empty_files_not_counted toyEnv toySigEnv (fun _ => List.length_replicate) emptyFileBuilder
    (Or.inr rfl) f hf _ rfl
    [] [] rfl (by intro o ho; cases ho) had (by simp only [List.length_nil]; omega) (by decide)
    (fun p hp data hd => by
      have := hsb p hp
      rw [hd] at this
      have : storedBound p + data.length < 1000 := this
      omega) (by decide +kernel)
    (noCollision_lit (by decide +kernel)) (noCollision_lit (by decide +kernel)) (noCollision_lit (by decide +kernel))
    ⟨_, List.mem_cons_self, rfl⟩ a ha
  rw [List.nil_append, List.append_nil] at ha
  exact ⟨f, a, info, hf, ha, h1, h2⟩

theorem getInfo_of_not_found (e : Env) (s : SigEnv) (a : Archive) (ha : a.ensureLoaded e = .ok a)
    (hfind : ∀ name, a.findFile name = .ok none) (hx : a.hetTableInfo = .ok none) (hy : a.betTableInfo = .ok none)
    (m : Option Md5Status) (hm : validateMd5 s.md5 a.file a.archiveOffset a.header = .ok m) (n : Nat)
    (hn : sectorSizeOf a.header.blockSize = .ok n) : ∃ info, a.getInfo e s = .ok info := by
  unfold Archive.getInfo Archive.hasAttributes
  rw [ha]
  simp only [bind, Except.bind, hfind, hx, hy, hm, hn]
  cases a.attributes <;> exact ⟨_, rfl⟩

/-- An archive whose only hash table slot is free, followed by a strong signature. -/
def strongArchive : Archive :=
  { signedArchive (List.replicate 10 1#8 ++ [0x4E#8, 0x47#8, 0x49#8, 0x53#8] ++
      (Spec.strongBlock (List.replicate 20 1#8)).reverse) 10 none with hashTable := some [.empty] }

/-- A valid strong signature that is not reported. -/
example (e : Env) : strongArchive.verifySignature e toySigEnv = .ok .strongValid ∧
    ∃ info, strongArchive.getInfo e toySigEnv = .ok info ∧ info.hasSignature = false ∧ info.signatureStatus = .none := by
  have hfind : ∀ name, strongArchive.findFile name = .ok none := by
    intro name
    show strongArchive.findFileClassic name = _
    have : findFileHash [HashEntry.empty] name 0 = .ok none := by
      unfold findFileHash
      simp [findLoop, HashEntry.isHit, HashEntry.empty, HashEntry.isEmpty, HashEntry.isValid]
    unfold Archive.findFileClassic
    dsimp only [strongArchive, signedArchive]
    rw [this]; rfl
  constructor
  · rw [C38_strong_valid_iff _ _ _ (by intro x; exact List.length_replicate) (by intro k hk; cases hk) (by decide +kernel)]
    refine ⟨⟨by decide +kernel, by decide +kernel, 0x0B#8, by decide +kernel, by decide⟩, ?_⟩
    decide +kernel
  · obtain ⟨info, hi⟩ := getInfo_of_not_found e toySigEnv strongArchive rfl hfind rfl rfl _ rfl _ rfl
    exact ⟨info, hi, C55_strong_signature_unreported e toySigEnv _ rfl (hfind _) _ hi⟩

end Mopaq
