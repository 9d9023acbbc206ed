import Verif.Props.Info
import Verif.Props.Analyze

/-!
# The description of an archive, continued (C55): tables of any archive, and the status of the signature
-/

namespace Mopaq

variable {e : Env} {md5 : Md5} {b : Builder} {f : List Byte}

/-- What a successful description is made of, when the tables may have to be loaded first. -/
theorem getInfo_parts_loaded {s : SigEnv} {a a' : Archive} (hl : a.ensureLoaded e = .ok a') {info : ArchiveInfo}
    (h : a.getInfo e s = .ok info) :
    info.hashTableInfo = a'.hashTableInfo ∧ info.blockTableInfo = a'.blockTableInfo ∧
    a'.hetTableInfo = .ok info.hetTableInfo ∧ a'.betTableInfo = .ok info.betTableInfo ∧
    info.hiBlockTableInfo = a'.hiBlockTableInfo ∧
    (∃ r, a'.findFile signatureName = .ok r ∧ info.hasSignature = r.isSome ∧
      a'.signatureStatus e s r.isSome = .ok info.signatureStatus) := by
  unfold Archive.getInfo at h
  rw [hl] at h
  obtain ⟨a1, ha', h⟩ := bind_eq_ok.1 h
  have ha' := Except.ok.inj ha'
  subst ha'
  obtain ⟨r1, _, h⟩ := bind_eq_ok.1 h
  obtain ⟨r2, h2, h⟩ := bind_eq_ok.1 h
  obtain ⟨r3, _, h⟩ := bind_eq_ok.1 h
  obtain ⟨r4, h4, h⟩ := bind_eq_ok.1 h
  obtain ⟨r5, h5, h⟩ := bind_eq_ok.1 h
  obtain ⟨r6, h6, h⟩ := bind_eq_ok.1 h
  obtain ⟨r7, _, h⟩ := bind_eq_ok.1 h
  obtain ⟨r8, _, h⟩ := bind_eq_ok.1 h
  have h := Except.ok.inj h
  subst h
  exact ⟨rfl, rfl, h5, h6, rfl, r2, h2, rfl, h4⟩

/-- C55: for any archive, whoever made it and however damaged, the description calls the hash table and the block table failed
exactly if the header announces entries and there is no table; it has an entry for each further table exactly if the
header gives it a place other than 0, at this place; such a table is called failed exactly if it is not there, and its
number of entries is stated exactly if it is. -/
theorem C55_tables_described (e : Env) (s : SigEnv) (a a' : Archive) (hl : a.ensureLoaded e = .ok a') (info : ArchiveInfo)
    (h : a.getInfo e s = .ok info) :
    (info.hashTableInfo.failedToLoad = true ↔ a'.hashTable = none ∧ 0 < a'.header.hashTableSize.toNat) ∧
    (info.blockTableInfo.failedToLoad = true ↔ a'.blockTable = none ∧ 0 < a'.header.blockTableSize.toNat) ∧
    (info.hetTableInfo.map (·.offset) = a'.header.hetTablePos.filter (· ≠ 0#64)) ∧
    (info.betTableInfo.map (·.offset) = a'.header.betTablePos.filter (· ≠ 0#64)) ∧
    (info.hiBlockTableInfo.map (·.offset) = a'.header.hiBlockTablePos.filter (· ≠ 0#64)) ∧
    (∀ t, info.hetTableInfo = some t → (t.failedToLoad = true ↔ a'.hetTable = none) ∧
      t.size = a'.hetTable.map (·.header.maxFileCount)) ∧
    (∀ t, info.betTableInfo = some t → (t.failedToLoad = true ↔ a'.betTable = none) ∧
      t.size = a'.betTable.map (·.header.fileCount)) ∧
    (∀ t, info.hiBlockTableInfo = some t → (t.failedToLoad = true ↔ a'.hiBlockTable = none) ∧
      (t.size = if a'.hiBlockTable = none then none else some a'.header.blockTableSize)) := by
  obtain ⟨h1, h2, h3, h4, h5, _⟩ := getInfo_parts_loaded hl h
  rw [h1, h2, h5]
  refine ⟨?_, ?_, ?_, ?_, ?_, ?_, ?_, ?_⟩
  · unfold Archive.hashTableInfo
    rw [Bool.and_eq_true, Option.isNone_iff_eq_none, decide_eq_true_eq]
  · unfold Archive.blockTableInfo
    rw [Bool.and_eq_true, Option.isNone_iff_eq_none, decide_eq_true_eq]
  · unfold Archive.hetTableInfo at h3
    split at h3
    · rename_i hp
      rw [← Except.ok.inj h3, hp]; rfl
    · rename_i pos hp
      rw [hp]
      split at h3
      · rename_i hz
        rw [← Except.ok.inj h3, hz]; rfl
      · rename_i hz
        obtain ⟨c, _, h3⟩ := bind_eq_ok.1 h3
        rw [← Except.ok.inj h3]
        simp [Option.filter, hz]
  · unfold Archive.betTableInfo at h4
    split at h4
    · rename_i hp
      rw [← Except.ok.inj h4, hp]; rfl
    · rename_i pos hp
      rw [hp]
      split at h4
      · rename_i hz
        rw [← Except.ok.inj h4, hz]; rfl
      · rename_i hz
        obtain ⟨c, _, h4⟩ := bind_eq_ok.1 h4
        rw [← Except.ok.inj h4]
        simp [Option.filter, hz]
  · unfold Archive.hiBlockTableInfo
    cases a'.header.hiBlockTablePos with
    | none => rfl
    | some pos =>
      dsimp only
      by_cases hz : pos = 0#64
      · simp [hz, Option.filter]
      · simp [hz, Option.filter]
  · intro t ht
    rw [ht] at h3
    unfold Archive.hetTableInfo at h3
    split at h3
    · cases h3
    split at h3
    · cases h3
    obtain ⟨c, _, h3⟩ := bind_eq_ok.1 h3
    rw [← Option.some.inj (Except.ok.inj h3)]
    exact ⟨Option.isNone_iff_eq_none, rfl⟩
  · intro t ht
    rw [ht] at h4
    unfold Archive.betTableInfo at h4
    split at h4
    · cases h4
    split at h4
    · cases h4
    obtain ⟨c, _, h4⟩ := bind_eq_ok.1 h4
    rw [← Option.some.inj (Except.ok.inj h4)]
    exact ⟨Option.isNone_iff_eq_none, rfl⟩
  · intro t ht
    unfold Archive.hiBlockTableInfo at ht
    split at ht
    · cases ht
    split at ht
    · cases ht
    rw [← Option.some.inj ht]
    refine ⟨Option.isNone_iff_eq_none, ?_⟩
    cases a'.hiBlockTable <;> rfl

/-- C55: the size in the file is stated for the hash, block and high position tables exactly if the header has the fields of
version 4, and is the size recorded there; for the two extended tables it is the recorded one, and without the fields of version 4
it is worked out from the places of the tables in version 3 and not stated in other versions. -/
theorem C55_sizes_in_file (e : Env) (s : SigEnv) (a a' : Archive) (hl : a.ensureLoaded e = .ok a') (info : ArchiveInfo)
    (h : a.getInfo e s = .ok info) :
    info.hashTableInfo.compressedSize = a'.header.v4Data.map (·.hashTableSize64) ∧
    info.blockTableInfo.compressedSize = a'.header.v4Data.map (·.blockTableSize64) ∧
    (∀ t, info.hiBlockTableInfo = some t → t.compressedSize = a'.header.v4Data.map (·.hiBlockTableSize64)) ∧
    (∀ v, a'.header.v4Data = some v → (∀ t, info.hetTableInfo = some t → t.compressedSize = some v.hetTableSize64) ∧
      ∀ t, info.betTableInfo = some t → t.compressedSize = some v.betTableSize64) ∧
    (a'.header.v4Data = none → a'.header.formatVersion ≠ .v3 →
      (∀ t, info.hetTableInfo = some t → t.compressedSize = none) ∧
      ∀ t, info.betTableInfo = some t → t.compressedSize = none) ∧
    (a'.header.v4Data = none → a'.header.formatVersion = .v3 →
      (∀ t u, info.hetTableInfo = some t → info.betTableInfo = some u → t.offset.toNat < u.offset.toNat →
        ∃ n, t.compressedSize = some n ∧ t.offset.toNat + n.toNat = u.offset.toNat) ∧
      ∀ t, info.betTableInfo = some t →
        ∃ n, t.compressedSize = some n ∧ t.offset.toNat + n.toNat = info.hashTableInfo.offset.toNat) := by
  obtain ⟨h1, h2, h3, h4, h5, _⟩ := getInfo_parts_loaded hl h
  have het : ∀ t, info.hetTableInfo = some t → a'.header.hetTablePos = some t.offset ∧
      extendedSize (a'.header.v4Data.map (·.hetTableSize64)) a'.header.formatVersion (hetTableSizeOf a'.header t.offset) =
        .ok t.compressedSize := by
    intro t ht
    rw [ht] at h3
    unfold Archive.hetTableInfo at h3
    split at h3
    · cases h3
    rename_i pos hp
    split at h3
    · cases h3
    obtain ⟨c, hc, h3⟩ := bind_eq_ok.1 h3
    rw [← Option.some.inj (Except.ok.inj h3)]
    exact ⟨hp, hc⟩
  have bet : ∀ t, info.betTableInfo = some t → a'.header.betTablePos = some t.offset ∧
      extendedSize (a'.header.v4Data.map (·.betTableSize64)) a'.header.formatVersion (betTableSizeOf a'.header t.offset) =
        .ok t.compressedSize := by
    intro t ht
    rw [ht] at h4
    unfold Archive.betTableInfo at h4
    split at h4
    · cases h4
    rename_i pos hp
    split at h4
    · cases h4
    obtain ⟨c, hc, h4⟩ := bind_eq_ok.1 h4
    rw [← Option.some.inj (Except.ok.inj h4)]
    exact ⟨hp, hc⟩
  have hsub : ∀ x y : U64, ∀ o, tolerate (sub64 x y) = .ok o → ∃ n, o = some n ∧ y.toNat + n.toNat = x.toNat := by
    intro x y o ho
    unfold sub64 at ho
    split at ho
    · rename_i hle
      have ho := Except.ok.inj ho
      refine ⟨_, ho.symm, ?_⟩
      rw [BitVec.toNat_sub_of_le (by rw [BitVec.le_def]; exact hle)]
      omega
    · cases ho
  refine ⟨by rw [h1]; rfl, by rw [h2]; rfl, ?_, ?_, ?_, ?_⟩
  · intro t ht
    rw [h5] at ht
    unfold Archive.hiBlockTableInfo at ht
    split at ht
    · cases ht
    split at ht
    · cases ht
    rw [← Option.some.inj ht]
  · intro v hv
    refine ⟨fun t ht => ?_, fun t ht => ?_⟩
    · have := (het t ht).2
      rw [hv] at this
      exact (Except.ok.inj this).symm
    · have := (bet t ht).2
      rw [hv] at this
      exact (Except.ok.inj this).symm
  · intro hv hn
    have hn' : (a'.header.formatVersion == .v3) = false := by rw [beq_eq_false_iff_ne]; exact hn
    refine ⟨fun t ht => ?_, fun t ht => ?_⟩
    · have := (het t ht).2
      rw [hv, Option.map_none, extendedSize, hn'] at this
      exact (Except.ok.inj this).symm
    · have := (bet t ht).2
      rw [hv, Option.map_none, extendedSize, hn'] at this
      exact (Except.ok.inj this).symm
  · intro hv hn
    have hn' : (a'.header.formatVersion == .v3) = true := by rw [beq_iff_eq]; exact hn
    refine ⟨fun t u ht hu hlt => ?_, fun t ht => ?_⟩
    · have := (het t ht).2
      rw [hv, Option.map_none, extendedSize, if_pos hn', hetTableSizeOf, (bet u hu).1] at this
      dsimp only at this
      rw [if_pos hlt] at this
      exact hsub _ _ _ this
    · have := (bet t ht).2
      rw [hv, Option.map_none, extendedSize, if_pos hn', betTableSizeOf] at this
      rw [h1]
      exact hsub _ _ _ this

/-- C55: if there is a "(signature)" file, the description states what `verify_signature` answers, and a signature that
cannot be checked counts as an invalid one. -/
theorem C55_signature_status (e : Env) (s : SigEnv) (a a' : Archive) (hl : a.ensureLoaded e = .ok a') (found : FileInfo)
    (hf : a'.findFile signatureName = .ok (some found)) (info : ArchiveInfo) (h : a.getInfo e s = .ok info) :
    info.hasSignature = true ∧ (∀ status, a'.verifySignature e s = .ok status → info.signatureStatus = status) ∧
    ∀ err, a'.verifySignature e s = .error err → info.signatureStatus = .weakInvalid := by
  obtain ⟨_, _, _, _, _, r, h1, h2, h3⟩ := getInfo_parts_loaded hl h
  rw [hf] at h1
  have h1 := Except.ok.inj h1
  subst h1
  refine ⟨h2, fun status hs => ?_, fun err hs => ?_⟩
  · unfold Archive.signatureStatus at h3
    rw [hs] at h3
    exact (Except.ok.inj h3).symm
  · unfold Archive.signatureStatus at h3
    rw [hs] at h3
    cases err with
    | panic => cases h3
    | diverge => cases h3
    | _ => exact (Except.ok.inj h3).symm

/-- C55: the description of an archive built in version 4 states the sizes in bytes of the hash table and of the block table,
16 for each entry; in other versions it states none. -/
theorem C55_built_sizes (e : Env) (s : SigEnv) (hmd : ∀ x, (s.md5 x).length = 16) (b : Builder)
    (f : List Byte) (hb : buildBytes e s.md5 b = .ok f) (pending : List PendingFile) (hp : prepareListfile b = .ok pending)
    (before after : List Byte) (hal : before.length % 512 = 0)
    (hclean : ∀ o < before.length, o % 512 = 0 → ¬ Spec.archiveMark (before ++ f ++ after) o ∧
      ¬ Spec.userDataMark (before ++ f ++ after) o)
    (hlen : f.length < addressable b.version) (hfit : before.length + f.length < 2 ^ 64)
    (hcount : pending.length < 0xFFFFFFFE) (a : Archive) (ha : openArchive e (before ++ f ++ after) = .ok a)
    (info : ArchiveInfo) (hi : a.getInfo e s = .ok info) :
    ∃ slots : U32, info.hashTableInfo.size = some slots ∧
      info.hashTableInfo.compressedSize.map (·.toNat) = (if b.version = .v4 then some (16 * slots.toNat) else none) ∧
      info.blockTableInfo.compressedSize.map (·.toNat) = if b.version = .v4 then some (16 * pending.length) else none := by
  obtain ⟨L⟩ := layout_of_build hmd hb
  have hpe : L.pending = pending := Except.ok.inj (L.prepared.symm.trans hp)
  subst hpe
  have h32 : (2 : Nat) ^ 32 = 4294967296 := rfl
  have e64 : (2 : Nat) ^ 64 = 18446744073709551616 := rfl
  have hk : 2 ^ L.k < 2 ^ 32 := Nat.pow_lt_pow_right (by decide) L.hk
  obtain ⟨ho, _, _, _⟩ := L.opened_tables hmd before after hal hclean hlen hfit hcount ha
  have hld : a.ensureLoaded e = .ok a := by
    unfold Archive.ensureLoaded
    rw [ho.hash]; rfl
  obtain ⟨h1, h2, _⟩ := C55_sizes_in_file e s a a hld info hi
  obtain ⟨h3, _⟩ := getInfo_parts_loaded hld hi
  refine ⟨a.header.hashTableSize, by rw [h3]; rfl, ?_, ?_⟩
  · rw [h1, ho.header, L.v4Data_eq, L.hashTableSize]
    by_cases h4 : b.version = .v4
    · rw [if_pos h4, L.v4_some h4]
      show some (BitVec.ofNat 64 (2 ^ L.k * 16)).toNat = _
      rw [BitVec.toNat_ofNat, BitVec.toNat_ofNat, Nat.mod_eq_of_lt (by omega), Nat.mod_eq_of_lt (by omega), Nat.mul_comm]
    · rw [if_neg h4, L.v4_none h4]; rfl
  · rw [h2, ho.header, L.v4Data_eq]
    by_cases h4 : b.version = .v4
    · rw [if_pos h4, L.v4_some h4]
      show some (BitVec.ofNat 64 (L.pending.length * 16)).toNat = _
      rw [BitVec.toNat_ofNat, Nat.mod_eq_of_lt (by omega), Nat.mul_comm]
    · rw [if_neg h4, L.v4_none h4]; rfl

/-! ## Examples -/

/-- An archive whose header announces all tables, of which only a hash table with a free slot and an empty block table could
be loaded. -/
def brokenTables : Archive :=
  { strongArchive with
    header := { strongArchive.header with hashTableSize := 1, blockTableSize := 7, hetTablePos := some 100,
                                          betTablePos := some 0, hiBlockTablePos := some 300 } }

theorem brokenTables_info (e : Env) (s : SigEnv) : ∃ info, brokenTables.getInfo e s = .ok info := by
  have hfind : ∀ name, brokenTables.findFile name = .ok none := by
    intro name
    show brokenTables.findFileClassic name = _
    have : findFileHash [HashEntry.empty] name 0 = .ok none := by
      unfold findFileHash
      simp [findLoop, HashEntry.isHit, HashEntry.empty, HashEntry.isEmpty, HashEntry.isValid]
    unfold Archive.findFileClassic
    dsimp only [brokenTables, strongArchive, signedArchive]
    rw [this]; rfl
  have hm : validateMd5 s.md5 brokenTables.file brokenTables.archiveOffset brokenTables.header = .ok none := rfl
  have ha : brokenTables.hasAttributes = .ok false := by
    unfold Archive.hasAttributes
    rw [hfind]; rfl
  obtain ⟨t, ht⟩ : ∃ t, brokenTables.hetTableInfo = .ok t := ⟨_, rfl⟩
  obtain ⟨u, hu⟩ : ∃ t, brokenTables.betTableInfo = .ok t := ⟨_, rfl⟩
  obtain ⟨n, hn⟩ : ∃ n, sectorSizeOf brokenTables.header.blockSize = .ok n := ⟨_, rfl⟩
  unfold Archive.getInfo
  rw [show brokenTables.ensureLoaded e = .ok brokenTables from rfl]
  simp only [bind, Except.bind, hfind, ha, hm, ht, hu, hn]
  exact ⟨_, rfl⟩

/-- The HET table and the table of high positions are called failed; there is no BET table. -/
example (e : Env) (s : SigEnv) : ∃ info, brokenTables.getInfo e s = .ok info ∧
    info.hashTableInfo.failedToLoad = false ∧ info.blockTableInfo.failedToLoad = false ∧ info.betTableInfo = none ∧
    (∃ t, info.hetTableInfo = some t ∧ t.offset = 100 ∧ t.failedToLoad = true ∧ t.size = none ∧ t.compressedSize = none) ∧
    ∃ t, info.hiBlockTableInfo = some t ∧ t.offset = 300 ∧ t.failedToLoad = true ∧ t.size = none := by
  obtain ⟨info, h⟩ := brokenTables_info e s
  obtain ⟨h1, h2, h3, h4, h5, h6, _, h7⟩ := C55_tables_described e s brokenTables brokenTables rfl info h
  obtain ⟨_, _, _, _, h8, _⟩ := C55_sizes_in_file e s brokenTables brokenTables rfl info h
  refine ⟨info, h, ?_, ?_, ?_, ?_, ?_⟩
  · rw [Bool.eq_false_iff, ne_eq, h1]
    exact fun h => nomatch h.1
  · rw [Bool.eq_false_iff, ne_eq, h2]
    exact fun h => nomatch h.1
  · have : Option.map (fun t : TableInfo => t.offset) info.betTableInfo = none := h4
    exact Option.map_eq_none_iff.1 this
  · have : Option.map (fun t : TableInfo => t.offset) info.hetTableInfo = some 100 := h3
    obtain ⟨t, ht, ho⟩ := Option.map_eq_some_iff.1 this
    exact ⟨t, ht, ho, (h6 t ht).1.2 rfl, (h6 t ht).2, (h8 rfl (by decide)).1 t ht⟩
  · have : Option.map (fun t : TableInfo => t.offset) info.hiBlockTableInfo = some 300 := h5
    obtain ⟨t, ht, ho⟩ := Option.map_eq_some_iff.1 this
    exact ⟨t, ht, ho, (h7 t ht).1.2 rfl, (h7 t ht).2⟩

theorem unreadable_signature (e : Env) (s : SigEnv) (k1 k2 : U32) (e1 : k1 = hashString signatureName htNameA)
    (e2 : k2 = hashString signatureName htNameB) : ∃ info, (methodArchive k1 k2).getInfo e s = .ok info ∧
      info.hasSignature = true ∧ info.signatureStatus = .weakInvalid := by
  have hc : NoCollision [signatureName, listfileName, attributesName] := noCollision_lit (by decide +kernel)
  have hd1 : Spec.normalise (signatureName.map BitVec.toNat) ≠ Spec.normalise (listfileName.map BitVec.toNat) := by
    decide +kernel
  have hd2 : Spec.normalise (signatureName.map BitVec.toNat) ≠ Spec.normalise (attributesName.map BitVec.toNat) := by
    decide +kernel
  have f1 := (methodArchive_find k1 k2 signatureName).2 e1 e2
  have f2 := (methodArchive_find k1 k2 listfileName).1 fun h => hd1 (hc signatureName (by simp) listfileName (by simp)
      (Prod.ext (e1.symm.trans h.1) (e2.symm.trans h.2)))
  have f3 := (methodArchive_find k1 k2 attributesName).1 fun h => hd2 (hc signatureName (by simp) attributesName (by simp)
      (Prod.ext (e1.symm.trans h.1) (e2.symm.trans h.2)))
  have hat : (methodArchive k1 k2).hasAttributes = .ok false := by
    unfold Archive.hasAttributes
    rw [f3]; rfl
  have hread : (methodArchive k1 k2).readFile e signatureName = .error .io := by
    unfold Archive.readFile
    rw [f1]; rfl
  have hv : (methodArchive k1 k2).verifySignature e s = .error .io := by
    unfold Archive.verifySignature
    rw [show (methodArchive k1 k2).verifyStrongSignature s = .ok .none from rfl]
    unfold Archive.verifyWeakSignature
    rw [f1]
    simp only [bind, Except.bind, tolerate, hread]
    rfl
  have hst : (methodArchive k1 k2).signatureStatus e s true = .ok .weakInvalid := by
    unfold Archive.signatureStatus
    rw [hv]; rfl
  have hi : ∃ info, (methodArchive k1 k2).getInfo e s = .ok info := by
    unfold Archive.getInfo
    rw [show (methodArchive k1 k2).ensureLoaded e = .ok (methodArchive k1 k2) from rfl]
    simp only [bind, Except.bind, f1, f2, hat]
    rw [show (some (⟨0, 0, 2, 5, 9, 0x81000200, 0⟩ : FileInfo)).isSome = true from rfl, hst]
    exact ⟨_, rfl⟩
  obtain ⟨info, hi⟩ := hi
  obtain ⟨h1, _, h3⟩ := C55_signature_status e s (methodArchive k1 k2) (methodArchive k1 k2) rfl _ f1 info hi
  exact ⟨info, hi, h1, h3 _ hv⟩

/-- A signature file that lies outside the file. -/
example (e : Env) (s : SigEnv) : ∃ a info, Archive.getInfo e s a = .ok info ∧ info.hasSignature = true ∧
    info.signatureStatus = .weakInvalid := ⟨_, unreadable_signature e s _ _ rfl rfl⟩

end Mopaq
