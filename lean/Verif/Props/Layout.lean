import Verif.Lemmas.ArchiveLayout
import Verif.Model.Md5
import Verif.Props.Builder

/-! # The division of a built archive (C29) and the MD5 values of version 4 (C34) -/

namespace Mopaq

/-- The region of one file, as the tables of an open archive state it. -/
def Archive.fileRegion (a : Archive) (sectorSize : Nat) (x : BlockEntry × Nat) : Nat × Nat :=
  (a.archiveOffset + (fullFilePos a.hiBlockTable x.2 x.1).toNat,
   Spec.occupied sectorSize x.1.compressedSize.toNat x.1.fileSize.toNat (hasBits x.1.flags flagSectorCrc))

/-- The regions of the HET and BET tables: the lengths are stated by version 4 and are otherwise the distances to the
next table. -/
def Archive.extendedRegions (a : Archive) : List (Nat × Nat) :=
  match a.header.hetTablePos, a.header.betTablePos with
  | some het, some bet =>
    [(a.archiveOffset + het.toNat,
      match a.header.v4Data with
      | some v => v.hetTableSize64.toNat
      | none => bet.toNat - het.toNat),
     (a.archiveOffset + bet.toNat,
      match a.header.v4Data with
      | some v => v.betTableSize64.toNat
      | none => a.header.getHashTablePos.toNat - bet.toNat)]
  | _, _ => []

/-- The region of the hi-block table, if there is one. -/
def Archive.hiRegion (a : Archive) : List (Nat × Nat) :=
  match a.header.hiBlockTablePos with
  | some pos => if pos = 0#64 then [] else [(a.archiveOffset + pos.toNat, 2 * a.header.blockTableSize.toNat)]
  | none => []

/-- All regions the header and the tables of an open archive state: the header, the files, the tables. -/
def Archive.regions (a : Archive) (sectorSize : Nat) : List (Nat × Nat) :=
  [(a.archiveOffset, a.header.headerSize.toNat)] ++
  ((a.blockTable.getD []).zipIdx.map (a.fileRegion sectorSize)) ++
  a.extendedRegions ++
  [(a.archiveOffset + a.header.getHashTablePos.toNat, 16 * a.header.hashTableSize.toNat),
   (a.archiveOffset + a.header.getBlockTablePos.toNat, 16 * a.header.blockTableSize.toNat)] ++
  a.hiRegion

variable {e : Env} {md5 : Md5} {b : Builder} {f : List Byte}

theorem writeFile_crc_flag {crcs : Bool} {p : FileWriteParams} {w : Written} (hw : writeFile e crcs p = .ok w) :
    hasBits (w.flags ||| flagExists) flagSectorCrc = crcs := by
  unfold writeFile at hw
  split at hw
  · obtain ⟨s, b, _, hf, _⟩ := writeSingle_eq hw
    rw [hf]; exact (mkFlags_bits _ _ _ _ _).2.2.2.2.1
  · obtain ⟨_, _, _, _, hf, _⟩ := writeSectored_eq hw
    rw [hf]; exact (mkFlags_bits _ _ _ _ _).2.2.2.2.1

theorem Layout.file_regions (L : Layout e md5 b f) (hmd : ∀ x, (md5 x).length = 16) {before after : List Byte} {a : Archive}
    (ha : L.Opened before after a) (hlen : f.length < addressable b.version) :
    ∀ (ps : List PendingFile) (st : List Stored) (pos k : Nat), StoredAt e b.generateCrcs L.sectorSize pos ps st →
      (∀ i s, st[i]? = some s → L.stored[k + i]? = some s) →
      (∀ p ∈ ps, ∀ data, p.source = some data → data.length + data.length / 64 + 12 < 2 ^ 32) →
      pos + (st.flatMap (·.bytes)).length ≤ b.version.headerSize.toNat + L.files.length →
      Consecutive (before.length + pos) (((st.map (·.block)).zipIdx k).map (a.fileRegion L.sectorSize))
        (before.length + pos + (st.flatMap (·.bytes)).length)
  | [], [], pos, k, _, _, _, _ => by simp [Consecutive]
  | [], _ :: _, _, _, h, _, _, _ => h.elim
  | _ :: _, [], _, _, h, _, _, _ => h.elim
  | p :: ps, s :: st, pos, k, h, hget, hsz, hle => by
    obtain ⟨h1, h2⟩ := h
    have h32 : 2 ^ 32 = 4294967296 := rfl
    rw [List.flatMap_cons, List.length_append] at hle ⊢
    rw [List.map_cons, List.zipIdx_cons, List.map_cons]
    have hs0 := hget 0 s rfl
    rw [Nat.add_zero] at hs0
    have hp := L.file_pos hmd hlen hs0 pos (by omega) h1
    obtain ⟨data, w, hd, hw, hs⟩ := storeFile_ok h1
    have hsize := hsz p List.mem_cons_self data hd
    obtain ⟨hws, hwl⟩ := writeFile_facts hw L.sector hsize
    have hreg : a.fileRegion L.sectorSize (s.block, k) = (before.length + pos, s.bytes.length) := by
      unfold Archive.fileRegion
      dsimp only
      rw [ha.his, hp, ha.offset]
      congr 1
      rw [hs]
      dsimp only
      rw [writeFile_crc_flag hw, BitVec.toNat_ofNat, Nat.mod_eq_of_lt hws, BitVec.toNat_ofNat, Nat.mod_eq_of_lt (by omega),
        hwl]
      rfl
    rw [hreg]
    refine ⟨rfl, ?_⟩
    have := L.file_regions hmd ha hlen ps st (pos + s.bytes.length) (k + 1) h2
      (fun i s' hi => by
        have := hget (i + 1) s' (by rw [List.getElem?_cons_succ]; exact hi)
        rw [← this]; congr 1; omega)
      (fun q hq => hsz q (List.mem_cons_of_mem _ hq)) (by omega)
    simpa only [Nat.add_assoc] using this

theorem Layout.hiPos (L : Layout e md5 b f) (hmd : ∀ x, (md5 x).length = 16) (hlen : f.length < addressable b.version) :
    if L.hiNeeded then ∃ pos, L.hdr.hiBlockTablePos = some pos ∧ pos ≠ 0#64 ∧ pos.toNat =
      b.version.headerSize.toNat + L.files.length + L.het.length + L.bet.length + L.hash.length + L.block.length
    else L.hdr.hiBlockTablePos = none ∨ L.hdr.hiBlockTablePos = some 0#64 := by
  have e48 : 2 ^ 48 = 281474976710656 := rfl
  have e64 : 2 ^ 64 = 18446744073709551616 := rfl
  have h48 := addressable_le b.version
  have hfl := L.f_length hmd
  have hpos : L.hdr.hiBlockTablePos = if b.version = .v1 then none else some (L.params.hiBlockTablePos.getD 0) := rfl
  have hn : L.hiNeeded = true → b.version ≠ .v1 := by
    intro h h1
    rw [L.hiNeeded_eq, h1] at h
    have : FormatVersion.v1.ge .v2 = false := by decide
    rw [this] at h; cases h
  by_cases hi : L.hiNeeded = true
  · rw [if_pos hi]
    have hp : L.params.hiBlockTablePos.getD 0 = BitVec.ofNat 64
        (b.version.headerSize.toNat + L.files.length + L.het.length + L.bet.length + L.hash.length + L.block.length) := by
      rw [L.params_eq]; dsimp only; rw [if_pos hi]; rfl
    have htn : (L.params.hiBlockTablePos.getD 0).toNat =
        b.version.headerSize.toNat + L.files.length + L.het.length + L.bet.length + L.hash.length + L.block.length := by
      rw [hp, BitVec.toNat_ofNat, Nat.mod_eq_of_lt (by omega)]
    refine ⟨_, by rw [hpos, if_neg (hn hi)], ?_, htn⟩
    intro h0
    rw [h0] at htn
    have : 32 ≤ b.version.headerSize.toNat := by cases b.version <;> decide
    have h00 : (0#64).toNat = 0 := rfl
    omega
  · rw [if_neg hi]
    have hp : L.params.hiBlockTablePos.getD 0 = 0#64 := by
      rw [L.params_eq]; dsimp only; rw [if_neg hi]; rfl
    rw [hpos, hp]
    split
    · exact Or.inl rfl
    · exact Or.inr rfl

theorem Layout.hetPos (L : Layout e md5 b f) (hmd : ∀ x, (md5 x).length = 16) (hlen : f.length < addressable b.version) :
    if b.version.ge .v3 then ∃ het bet, L.hdr.hetTablePos = some het ∧ L.hdr.betTablePos = some bet ∧
      het ≠ 0#64 ∧ bet ≠ 0#64 ∧ het.toNat = b.version.headerSize.toNat + L.files.length ∧
      bet.toNat = b.version.headerSize.toNat + L.files.length + L.het.length
    else L.hdr.hetTablePos = none ∧ L.hdr.betTablePos = none := by
  have e48 : 2 ^ 48 = 281474976710656 := rfl
  have e64 : 2 ^ 64 = 18446744073709551616 := rfl
  have h48 := addressable_le b.version
  have hfl := L.f_length hmd
  have h32 : 32 ≤ b.version.headerSize.toNat := by cases b.version <;> decide
  have h00 : (0#64).toNat = 0 := rfl
  have hhet : L.hdr.hetTablePos = if b.version = .v3 ∨ b.version = .v4 then some (L.params.hetTablePos.getD 0) else none := rfl
  have hbet : L.hdr.betTablePos = if b.version = .v3 ∨ b.version = .v4 then some (L.params.betTablePos.getD 0) else none := rfl
  by_cases hv : b.version.ge .v3 = true
  · rw [if_pos hv]
    have h34 : b.version = .v3 ∨ b.version = .v4 := by revert hv; cases b.version <;> decide
    have t1 : (BitVec.ofNat 64 (b.version.headerSize.toNat + L.files.length) : U64).toNat =
        b.version.headerSize.toNat + L.files.length := by rw [BitVec.toNat_ofNat, Nat.mod_eq_of_lt (by omega)]
    have t2 : (BitVec.ofNat 64 (b.version.headerSize.toNat + L.files.length + L.het.length) : U64).toNat =
        b.version.headerSize.toNat + L.files.length + L.het.length := by
      rw [BitVec.toNat_ofNat, Nat.mod_eq_of_lt (by omega)]
    refine ⟨_, _, ?_, ?_, ?_, ?_, t1, t2⟩
    · rw [hhet, if_pos h34, L.params_eq]; dsimp only; rw [if_pos hv]; rfl
    · rw [hbet, if_pos h34, L.params_eq]; dsimp only; rw [if_pos hv]; rfl
    · intro h0; rw [h0] at t1; omega
    · intro h0; rw [h0] at t2; omega
  · rw [if_neg hv]
    have h34 : ¬ (b.version = .v3 ∨ b.version = .v4) := by revert hv; cases b.version <;> decide
    rw [hhet, hbet, if_neg h34, if_neg h34]
    exact ⟨rfl, rfl⟩

/-- C29: the header, the files and the tables of a built archive divide it: every byte of the finished archive belongs
to exactly one of the regions its own header and tables state, and none reaches beyond; the header states the archive's
length. For every builder whose build succeeds with files below about 4.22 GB, within what the version can address,
wherever the archive stands in a larger file. -/
theorem C29_archive_divided (e : Env) (md5 : Md5) (hmd : ∀ x, (md5 x).length = 16) (b : Builder)
    (f : List Byte) (hb : buildBytes e md5 b = .ok f) (pending : List PendingFile) (hp : prepareListfile b = .ok pending)
    (before after : List Byte) (hal : before.length % 512 = 0)
    (hclean : ∀ o < before.length, o % 512 = 0 → ¬ Spec.archiveMark (before ++ f ++ after) o ∧
      ¬ Spec.userDataMark (before ++ f ++ after) o)
    (hlen : f.length < addressable b.version) (hfit : before.length + f.length < 2 ^ 64)
    (hcount : pending.length < 0xFFFFFFFE)
    (hsize : ∀ p ∈ pending, ∀ data, p.source = some data → data.length + data.length / 64 + 12 < 2 ^ 32)
    (a : Archive) (ha : openArchive e (before ++ f ++ after) = .ok a) :
    a.archiveOffset = before.length ∧ (a.blockTable.getD []).length = pending.length ∧
    (∃ ss, sectorSizeOf b.blockSize = .ok ss ∧
      Spec.divides before.length (a.regions ss) (before.length + f.length)) ∧
    (b.version.ge .v3 = true ∨ f.length < 2 ^ 32 → a.header.getArchiveSize.toNat = f.length) := by
  obtain ⟨L⟩ := layout_of_build hmd hb
  have hpe : L.pending = pending := by
    have := L.prepared
    rw [hp] at this
    injection this with this
    exact this.symm
  subst hpe
  have ho := L.opened_of_open hmd before after hal hclean hlen hfit hcount ha
  have e48 : 2 ^ 48 = 281474976710656 := rfl
  have h32 : 2 ^ 32 = 4294967296 := rfl
  have e64 : 2 ^ 64 = 18446744073709551616 := rfl
  have h48 := addressable_le b.version
  have hfl := L.f_length hmd
  obtain ⟨p1, p2⟩ := L.positions hmd hlen
  have htl := L.table_length hcount
  have hk : 2 ^ L.k < 2 ^ 32 := Nat.pow_lt_pow_right (by decide) L.hk
  have hsl := L.placed.length
  have hash : 16 * L.hdr.hashTableSize.toNat = L.hash.length := by
    rw [L.hashTableSize, BitVec.toNat_ofNat, Nat.mod_eq_of_lt hk, L.hash_eq, hashTableBytes_length, htl]
  have hblock : 16 * L.hdr.blockTableSize.toNat = L.block.length := by
    rw [L.blockTableSize, BitVec.toNat_ofNat, Nat.mod_eq_of_lt L.count, L.block_eq, blockTableBytes_length, List.length_map, hsl]
  refine ⟨ho.offset, by rw [ho.block]; simp [hsl], ⟨L.sectorSize, L.sector, ?_⟩, ?_⟩
  · refine Consecutive.divides ?_
    have hfiles := L.file_regions hmd ho hlen L.pending L.stored b.version.headerSize.toNat 0 L.placed
      (fun i s h => by rw [Nat.zero_add]; exact h) hsize (by rw [← L.files_eq]; exact Nat.le_refl _)
    rw [← L.files_eq] at hfiles
    unfold Archive.regions
    have hext : Consecutive (before.length + b.version.headerSize.toNat + L.files.length) a.extendedRegions
        (before.length + b.version.headerSize.toNat + L.files.length + L.het.length + L.bet.length) := by
      unfold Archive.extendedRegions
      rw [ho.header, ho.offset]
      have hv := L.hetPos hmd hlen
      by_cases hv3 : b.version.ge .v3 = true
      · rw [if_pos hv3] at hv
        obtain ⟨het, bet, h1, h2, _, _, h5, h6⟩ := hv
        rw [h1, h2]
        dsimp only
        rw [h5, h6, p1]
        have hs : (match L.hdr.v4Data with
            | some v => v.hetTableSize64.toNat
            | none => b.version.headerSize.toNat + L.files.length + L.het.length - (b.version.headerSize.toNat + L.files.length)) =
            L.het.length ∧
            (match L.hdr.v4Data with
            | some v => v.betTableSize64.toNat
            | none => b.version.headerSize.toNat + L.files.length + L.het.length + L.bet.length -
                (b.version.headerSize.toNat + L.files.length + L.het.length)) = L.bet.length := by
          rw [L.v4Data_eq]
          by_cases h4 : b.version = .v4
          · rw [L.v4_some h4]
            unfold v4DataOf
            dsimp only
            rw [BitVec.toNat_ofNat, Nat.mod_eq_of_lt (by omega), BitVec.toNat_ofNat, Nat.mod_eq_of_lt (by omega)]
            exact ⟨rfl, rfl⟩
          · rw [L.v4_none h4]
            dsimp only
            omega
        rw [hs.1, hs.2]
        exact ⟨by omega, by omega, rfl⟩
      · rw [if_neg hv3] at hv
        rw [hv.1]
        obtain ⟨h1, h2⟩ := L.classic (by simpa using hv3)
        rw [h1, h2]
        rfl
    have hhi : Consecutive (before.length + b.version.headerSize.toNat + L.files.length + L.het.length + L.bet.length +
        L.hash.length + L.block.length) a.hiRegion (before.length + f.length) := by
      unfold Archive.hiRegion
      rw [ho.header, ho.offset]
      have hv := L.hiPos hmd hlen
      have hl := L.hi_eq
      by_cases hi : L.hiNeeded = true
      · rw [if_pos hi] at hv hl
        obtain ⟨pos, h1, h2, h3⟩ := hv
        have hll : L.hi.length = 2 * L.pending.length := by rw [hl, hiBlockTableBytes_length, List.length_map, hsl]
        rw [h1]
        dsimp only
        rw [if_neg h2, h3, L.blockTableSize, BitVec.toNat_ofNat, Nat.mod_eq_of_lt L.count]
        refine ⟨by omega, ?_⟩
        show _ = _
        omega
      · rw [if_neg hi] at hv hl
        rw [hl, List.length_nil] at hfl
        have : (match L.hdr.hiBlockTablePos with
            | some pos => if pos = 0#64 then [] else [(before.length + pos.toNat, 2 * L.hdr.blockTableSize.toNat)]
            | none => []) = ([] : List (Nat × Nat)) := by
          rcases hv with hv | hv <;> rw [hv]
          rfl
        rw [this]
        show _ = _
        omega
    rw [ho.offset, ho.header, ho.block, p1, p2, hash, hblock]
    have hhs : L.hdr.headerSize.toNat = b.version.headerSize.toNat := rfl
    rw [hhs]
    refine Consecutive.append (Consecutive.append (Consecutive.append (Consecutive.append ⟨rfl, rfl⟩ hfiles) hext) ?_) hhi
    exact ⟨by omega, by omega, rfl⟩
  · intro hor
    have hpa : L.params.archiveSize.toNat = f.length := by
      rw [L.params_eq]
      dsimp only
      rw [BitVec.toNat_ofNat, Nat.mod_eq_of_lt (by omega), hfl]
    obtain ⟨hdr, h1, _, _, _, _, _, _, _, _, _, _, h2, _⟩ := C12_header_round_trip b.version b.blockSize L.params L.header []
      (L.sized hmd) L.header_eq
    rw [readHeader_written b.version b.blockSize L.params L.header [] (L.sized hmd) L.header_eq] at h1
    injection h1 with h1
    have h1 : L.hdr = hdr := h1
    rw [ho.header, h1]
    split at h2
    · rw [h2.1, hpa]
    · rename_i h34
      rw [h2.1, hpa]
      rcases hor with hor | hor
      · exact absurd (by revert hor; cases b.version <;> decide) h34
      · omega

/-- The sample archive, as a file of its own, is divided by its regions; it has three files. -/
example (v : FormatVersion) (hv : v ≠ .v1) : ∃ f a, openArchive toyEnv f = .ok a ∧ (a.blockTable.getD []).length = 3 ∧
    Spec.divides 0 (a.regions 4096) f.length := by
  obtain ⟨f, a, hf, hlt, ho, _⟩ := sample_reads v hv
  have ho' : openArchive toyEnv ([] ++ f ++ []) = .ok a := by rw [List.nil_append, List.append_nil]; exact ho
  have e48 : (2 : Nat) ^ 48 = 281474976710656 := rfl
  have e64 : (2 : Nat) ^ 64 = 18446744073709551616 := rfl
  obtain ⟨_, h2, ⟨ss, hss, h3⟩, _⟩ := C29_archive_divided toyEnv zeroMd5 (fun _ => List.length_replicate) (sampleBuilder v) f hf
    samplePending (samplePending_eq v) [] [] rfl (by intro o ho; cases ho)
    (by unfold addressable; rw [if_neg (show ¬ (sampleBuilder v).version = .v1 from hv)]; exact hlt)
    (by simp only [List.length_nil]; omega) (by decide) sample_sizes a ho'
  have h4096 : sectorSizeOf 3#16 = .ok 4096 := by decide
  have hss' : sectorSizeOf 3#16 = .ok ss := hss
  rw [h4096] at hss'
  injection hss' with hss'
  subst hss'
  rw [List.length_nil, Nat.zero_add] at h3
  exact ⟨f, a, ho, h2, h3⟩

/-! ## C34 -/

theorem openArchive_false {F : List Byte} {a : Archive} {ao : Nat} {u : Option UserDataHeader} {h : MpqHeader}
    (hf : findHeader F = .ok (ao, u, h)) (load : Bool) (ha : openArchive e F load = .ok a) :
    a.file = F ∧ a.archiveOffset = ao ∧ a.header = h := by
  unfold openArchive at ha
  rw [hf] at ha
  cases load with
  | false =>
    simp only [bind, Except.bind, Bool.false_eq_true, if_false] at ha
    injection ha with ha
    subst ha
    exact ⟨rfl, rfl, rfl⟩
  | true =>
    simp only [bind, Except.bind, if_true] at ha
    unfold Archive.loadTables at ha
    dsimp only at ha
    have key : ∀ (het bet : Res _), (het >>= fun het => bet >>= fun bet => do
      let classic ← loadClassic F ao h (usableHetBet het bet).isSome
      let hi ← loadHiBlock F ao h
      let a : Archive := { file := F, archiveOffset := ao, userData := u, header := h, hetTable := het, betTable := bet, hashTable := classic.map Prod.fst, blockTable := classic.map Prod.snd, hiBlockTable := hi, attributes := none }
      let attributes ← a.loadAttributes e
      return { a with attributes }) = .ok a → a.file = F ∧ a.archiveOffset = ao ∧ a.header = h := by
      intro het bet h
      obtain ⟨het, _, h⟩ := bind_eq_ok.1 h
      obtain ⟨bet, _, h⟩ := bind_eq_ok.1 h
      obtain ⟨c, _, h⟩ := bind_eq_ok.1 h
      obtain ⟨hi, _, h⟩ := bind_eq_ok.1 h
      obtain ⟨at_, _, h⟩ := bind_eq_ok.1 h
      injection h with h
      subst h
      exact ⟨rfl, rfl, rfl⟩
    split at ha
    · exact key _ _ ha
    · exact key (pure none) (pure none) ha

/-- The MD5 of a region of `g` is that of the same region of `f`. -/
def SameMd5 (md5 : Md5) (f g : List Byte) (start len : Nat) : Prop :=
  md5 ((g.drop start).take len) = md5 ((f.drop start).take len)

theorem validTable_iff {F g : List Byte} {ao : Nat} {expected : List Byte} {pos size : U64} {len : Nat}
    (hlen : size.toNat = len) (hexp : len ≠ 0 → expected = md5 (slice F (ao + pos.toNat) len))
    (hb : ao + pos.toNat + len ≤ g.length) (h64 : ao + pos.toNat < 2 ^ 64) (h63 : len < 2 ^ 63) :
    ∃ r, validTable md5 g ao expected pos size = .ok r ∧ (r = true ↔ SameMd5 md5 F g (ao + pos.toNat) len) := by
  unfold validTable
  by_cases h0 : size = 0#64
  · rw [if_pos h0]
    have : len = 0 := by rw [← hlen, h0]; rfl
    subst this
    exact ⟨true, rfl, by unfold SameMd5; simp⟩
  · rw [if_neg h0, addPos_ok h64]
    have hl : len ≠ 0 := by
      intro hl; apply h0
      apply BitVec.eq_of_toNat_eq
      rw [hlen, hl]; rfl
    simp only [bind, Except.bind]
    rw [hlen, readVec_eq _ _ _ h63, readAt_ok hb]
    refine ⟨_, rfl, ?_⟩
    rw [hexp hl, decide_eq_true_iff]
    rfl

/-- C34 (what is checked): in a fresh version 4 archive, the six MD5 verdicts mean that the bytes of the hash table, block
table, hi-block table, HET table, BET table and header have the MD5 they had when the archive was built, whatever the
file contains now. -/
theorem C34_verdicts_exact (e : Env) (md5 : Md5) (hmd : ∀ x, (md5 x).length = 16) (b : Builder) (hv : b.version = .v4)
    (f : List Byte) (hb : buildBytes e md5 b = .ok f) (pending : List PendingFile) (hp : prepareListfile b = .ok pending)
    (before after : List Byte) (hal : before.length % 512 = 0)
    (hclean : ∀ o < before.length, o % 512 = 0 → ¬ Spec.archiveMark (before ++ f ++ after) o ∧
      ¬ Spec.userDataMark (before ++ f ++ after) o)
    (hlen : f.length < addressable b.version) (hfit : before.length + f.length < 2 ^ 64)
    (hcount : pending.length < 0xFFFFFFFE) (load : Bool) (a : Archive)
    (ha : openArchive e (before ++ f ++ after) load = .ok a) (g : List Byte) (hg : g.length = (before ++ f ++ after).length) :
    ∃ s het bet, validateMd5 md5 g a.archiveOffset a.header = .ok (some s) ∧
      a.header.hetTablePos = some het ∧ a.header.betTablePos = some bet ∧
      het.toNat < bet.toNat ∧ bet.toNat < a.header.getHashTablePos.toNat ∧
      (s.hashTableValid = true ↔ SameMd5 md5 (before ++ f ++ after) g
        (before.length + a.header.getHashTablePos.toNat) (16 * a.header.hashTableSize.toNat)) ∧
      (s.blockTableValid = true ↔ SameMd5 md5 (before ++ f ++ after) g
        (before.length + a.header.getBlockTablePos.toNat) (16 * a.header.blockTableSize.toNat)) ∧
      (s.hiBlockTableValid = true ↔ ∀ pos, a.header.hiBlockTablePos = some pos → pos ≠ 0#64 →
        SameMd5 md5 (before ++ f ++ after) g (before.length + pos.toNat) (2 * a.header.blockTableSize.toNat)) ∧
      (s.hetTableValid = true ↔ SameMd5 md5 (before ++ f ++ after) g (before.length + het.toNat) (bet.toNat - het.toNat)) ∧
      (s.betTableValid = true ↔ SameMd5 md5 (before ++ f ++ after) g (before.length + bet.toNat)
        (a.header.getHashTablePos.toNat - bet.toNat)) ∧
      (s.headerValid = true ↔ SameMd5 md5 (before ++ f ++ after) g before.length 192) := by
  obtain ⟨L⟩ := layout_of_build hmd hb
  have hpe : L.pending = pending := by
    have := L.prepared
    rw [hp] at this
    injection this with this
    exact this.symm
  subst hpe
  obtain ⟨_, hao, hhd⟩ := openArchive_false (L.findHeader hmd before after hal hclean) load ha
  rw [hao, hhd]
  have e48 : 2 ^ 48 = 281474976710656 := rfl
  have h32 : 2 ^ 32 = 4294967296 := rfl
  have e64 : 2 ^ 64 = 18446744073709551616 := rfl
  have h48 := addressable_le b.version
  have hfl := L.f_length hmd
  obtain ⟨p1, p2⟩ := L.positions hmd hlen
  have htl := L.table_length hcount
  have hk : 2 ^ L.k < 2 ^ 32 := Nat.pow_lt_pow_right (by decide) L.hk
  have hsl := L.placed.length
  have hge : b.version.ge .v3 = true := by rw [hv]; rfl
  have hhs : b.version.headerSize.toNat = 208 := by rw [hv]; rfl
  have hhl := L.header_length hmd
  obtain ⟨hd, bd, _, hwh, _, hwb⟩ := L.extended hge
  have hl1 := writeExt_long hwh
  have hl2 := writeExt_long hwb
  have hash : L.hash.length = 16 * 2 ^ L.k := by rw [L.hash_eq, hashTableBytes_length, htl]
  have hblock : L.block.length = 16 * L.pending.length := by
    rw [L.block_eq, blockTableBytes_length, List.length_map, hsl]
  have hsz1 : L.hdr.hashTableSize.toNat = 2 ^ L.k := by
    rw [L.hashTableSize, BitVec.toNat_ofNat, Nat.mod_eq_of_lt hk]
  have hsz2 : L.hdr.blockTableSize.toNat = L.pending.length := by
    rw [L.blockTableSize, BitVec.toNat_ofNat, Nat.mod_eq_of_lt L.count]
  have hv3 := L.hetPos hmd hlen
  rw [if_pos hge] at hv3
  obtain ⟨het, bet, q1, q2, n1, n2, q3, q4⟩ := hv3
  have hFl : (before ++ f ++ after).length = before.length + f.length + after.length := by
    simp only [List.length_append]
  have hmid : ∀ (x y z : List Byte), f = x ++ y ++ z → ∀ p, p = before.length + x.length →
      slice (before ++ f ++ after) p y.length = y := by
    intro x y z hf p hp
    have : before ++ f ++ after = (before ++ x) ++ y ++ (z ++ after) := by rw [hf]; simp only [List.append_assoc]
    rw [this, hp, ← List.length_append, slice_mid]
  have vhash := validTable_iff (md5 := md5) (F := before ++ f ++ after) (g := g) (ao := before.length)
    (expected := md5 L.hash) (pos := L.hdr.getHashTablePos) (size := BitVec.ofNat 64 (2 ^ L.k * 16)) (len := 16 * 2 ^ L.k)
    (by rw [BitVec.toNat_ofNat, Nat.mod_eq_of_lt (by omega)]; omega)
    (fun _ => by
      rw [← hash, hmid (L.header ++ L.files ++ L.het ++ L.bet) L.hash (L.block ++ L.hi)
        (by conv => lhs; rw [L.bytes]
            simp only [List.append_assoc])]
      rw [p1]; simp only [List.length_append, hhl])
    (by rw [p1]; omega) (by rw [p1]; omega) (by omega)
  have vblock := validTable_iff (md5 := md5) (F := before ++ f ++ after) (g := g) (ao := before.length)
    (expected := md5 L.block) (pos := L.hdr.getBlockTablePos) (size := BitVec.ofNat 64 (L.pending.length * 16))
    (len := 16 * L.pending.length)
    (by rw [BitVec.toNat_ofNat, Nat.mod_eq_of_lt (by omega)]; omega)
    (fun _ => by
      rw [← hblock, hmid (L.header ++ L.files ++ L.het ++ L.bet ++ L.hash) L.block L.hi
        (by conv => lhs; rw [L.bytes])]
      rw [p2]; simp only [List.length_append, hhl])
    (by rw [p2]; omega) (by rw [p2]; omega) (by omega)
  have vhet := validTable_iff (md5 := md5) (F := before ++ f ++ after) (g := g) (ao := before.length)
    (expected := md5 L.het) (pos := het) (size := BitVec.ofNat 64 L.het.length) (len := L.het.length)
    (by rw [BitVec.toNat_ofNat, Nat.mod_eq_of_lt (by omega)])
    (fun _ => by
      rw [hmid (L.header ++ L.files) L.het (L.bet ++ L.hash ++ L.block ++ L.hi)
        (by conv => lhs; rw [L.bytes]
            simp only [List.append_assoc])]
      rw [q3]; simp only [List.length_append, hhl])
    (by omega) (by omega) (by omega)
  have vbet := validTable_iff (md5 := md5) (F := before ++ f ++ after) (g := g) (ao := before.length)
    (expected := md5 L.bet) (pos := bet) (size := BitVec.ofNat 64 L.bet.length) (len := L.bet.length)
    (by rw [BitVec.toNat_ofNat, Nat.mod_eq_of_lt (by omega)])
    (fun _ => by
      rw [hmid (L.header ++ L.files ++ L.het) L.bet (L.hash ++ L.block ++ L.hi)
        (by conv => lhs; rw [L.bytes]
            simp only [List.append_assoc])]
      rw [q4]; simp only [List.length_append, hhl])
    (by omega) (by omega) (by omega)
  have vhi : ∃ r, validOptional md5 g before.length (if L.hiNeeded then md5 L.hi else List.replicate 16 0)
      L.hdr.hiBlockTablePos (BitVec.ofNat 64 (L.pending.length * 2)) = .ok r ∧
      (r = true ↔ ∀ pos, L.hdr.hiBlockTablePos = some pos → pos ≠ 0#64 →
        SameMd5 md5 (before ++ f ++ after) g (before.length + pos.toNat) (2 * L.pending.length)) := by
    have hh := L.hiPos hmd hlen
    have hl := L.hi_eq
    unfold validOptional
    by_cases hi : L.hiNeeded = true
    · rw [if_pos hi] at hh hl ⊢
      obtain ⟨pos, r1, r2, r3⟩ := hh
      have hll : L.hi.length = 2 * L.pending.length := by rw [hl, hiBlockTableBytes_length, List.length_map, hsl]
      rw [r1]
      dsimp only
      rw [if_pos r2]
      obtain ⟨r, s1, s2⟩ := validTable_iff (md5 := md5) (F := before ++ f ++ after) (g := g) (ao := before.length)
        (expected := md5 L.hi) (pos := pos) (size := BitVec.ofNat 64 (L.pending.length * 2)) (len := 2 * L.pending.length)
        (by rw [BitVec.toNat_ofNat, Nat.mod_eq_of_lt (by omega)]; omega)
        (fun _ => by
          rw [← hll, hmid (L.header ++ L.files ++ L.het ++ L.bet ++ L.hash ++ L.block) L.hi []
            (by conv => lhs; rw [L.bytes]
                simp only [List.append_nil])]
          rw [r3]; simp only [List.length_append, hhl])
        (by omega) (by omega) (by omega)
      refine ⟨r, s1, ?_⟩
      rw [s2]
      constructor
      · intro h p hp _
        injection hp with hp
        rw [← hp]; exact h
      · intro h; exact h pos rfl r2
    · rw [if_neg hi] at hh
      refine ⟨true, ?_, ?_⟩
      · rcases hh with hh | hh <;> rw [hh]
        rfl
      · refine ⟨fun _ p hp hne => ?_, fun _ => rfl⟩
        rcases hh with hh | hh <;> rw [hh] at hp
        · cases hp
        · injection hp with hp
          exact absurd hp.symm hne
  have hhead : md5 (slice (before ++ f ++ after) before.length 192) = md5 (L.header.take 192) := by
    congr 1
    have : before ++ f ++ after = before ++ L.header.take 192 ++
        (L.header.drop 192 ++ L.files ++ L.het ++ L.bet ++ L.hash ++ L.block ++ L.hi ++ after) := by
      conv => lhs; rw [L.bytes]
      conv => lhs; rw [← List.take_append_drop 192 L.header]
      simp only [List.append_assoc]
    rw [this]
    have h192 : (L.header.take 192).length = 192 := by rw [List.length_take]; omega
    have := slice_mid before (L.header.take 192)
      (L.header.drop 192 ++ L.files ++ L.het ++ L.bet ++ L.hash ++ L.block ++ L.hi ++ after)
    rw [h192] at this
    exact this
  have hhash0 : 0 < L.hdr.hashTableSize.toNat := by rw [hsz1]; exact Nat.two_pow_pos _
  have hb0 : ∃ r, (if 0 < L.hdr.blockTableSize.toNat then
        validTable md5 g before.length (md5 L.block) L.hdr.getBlockTablePos (BitVec.ofNat 64 (L.pending.length * 16))
      else pure true) = .ok r ∧ (r = true ↔ SameMd5 md5 (before ++ f ++ after) g
        (before.length + L.hdr.getBlockTablePos.toNat) (16 * L.hdr.blockTableSize.toNat)) := by
    by_cases h0 : 0 < L.hdr.blockTableSize.toNat
    · rw [if_pos h0, hsz2]; exact vblock
    · rw [if_neg h0]
      refine ⟨true, rfl, ?_⟩
      have : L.hdr.blockTableSize.toNat = 0 := by omega
      rw [this]
      unfold SameMd5
      simp
  obtain ⟨r1, a1, b1⟩ := vhash
  obtain ⟨r2, a2, b2⟩ := hb0
  obtain ⟨r3, a3, b3⟩ := vhi
  obtain ⟨r4, a4, b4⟩ := vhet
  obtain ⟨r5, a5, b5⟩ := vbet
  refine ⟨⟨r1, r2, r3, r4, r5, decide (md5 (slice g before.length 192) = md5 (L.header.take 192))⟩, het, bet, ?_, q1, q2,
    by omega, by omega, ?_, b2, ?_, ?_, ?_, ?_⟩
  · have hv4 : L.hdr.v4Data = L.v4Data := by rw [L.v4Data_eq]
    unfold validateMd5
    rw [hv4, L.v4_some hv]
    unfold v4DataOf
    dsimp only
    rw [if_pos hhash0, a1]
    have a4' : validOptional md5 g before.length (md5 L.het) L.hdr.hetTablePos (BitVec.ofNat 64 L.het.length) = .ok r4 := by
      unfold validOptional; rw [q1]; dsimp only; rw [if_pos n1]; exact a4
    have a5' : validOptional md5 g before.length (md5 L.bet) L.hdr.betTablePos (BitVec.ofNat 64 L.bet.length) = .ok r5 := by
      unfold validOptional; rw [q2]; dsimp only; rw [if_pos n2]; exact a5
    have hr : readAt g before.length 192 = .ok (slice g before.length 192) := readAt_ok (by omega)
    have e1 : ∀ {α β : Type} (c : Prop) [Decidable c] (x y : Res α) (k : α → Res β),
        (if c then (x >>= k) else (y >>= k)) = ((if c then x else y) >>= k) := by
      intro α β c _ x y k; split <;> rfl
    simp only [bind, Except.bind]
    simp only [bind, Except.bind] at e1
    rw [e1, a2]
    simp only []
    rw [a3]
    simp only []
    rw [a4']
    simp only []
    rw [a5']
    simp only []
    rw [hr]
    rfl
  · rw [hsz1]; exact b1
  · rw [hsz2]; exact b3
  · have : bet.toNat - het.toNat = L.het.length := by omega
    rw [this]; exact b4
  · have : L.hdr.getHashTablePos.toNat - bet.toNat = L.bet.length := by omega
    rw [this]; exact b5
  · dsimp only
    rw [decide_eq_true_iff]
    unfold SameMd5
    rw [show md5 (List.take 192 (List.drop before.length (before ++ f ++ after))) = _ from hhead]
    rfl

/-- C34: every MD5 value recorded in a fresh version 4 archive equals the one computed from its bytes: the check passes
in all six parts. -/
theorem C34_fresh_archive_valid (e : Env) (md5 : Md5) (hmd : ∀ x, (md5 x).length = 16) (b : Builder) (hv : b.version = .v4)
    (f : List Byte) (hb : buildBytes e md5 b = .ok f) (pending : List PendingFile) (hp : prepareListfile b = .ok pending)
    (before after : List Byte) (hal : before.length % 512 = 0)
    (hclean : ∀ o < before.length, o % 512 = 0 → ¬ Spec.archiveMark (before ++ f ++ after) o ∧
      ¬ Spec.userDataMark (before ++ f ++ after) o)
    (hlen : f.length < addressable b.version) (hfit : before.length + f.length < 2 ^ 64)
    (hcount : pending.length < 0xFFFFFFFE) (load : Bool) (a : Archive)
    (ha : openArchive e (before ++ f ++ after) load = .ok a) :
    validateMd5 md5 (before ++ f ++ after) a.archiveOffset a.header = .ok (some ⟨true, true, true, true, true, true⟩) := by
  obtain ⟨s, het, bet, h, _, _, _, _, h1, h2, h3, h4, h5, h6⟩ := C34_verdicts_exact e md5 hmd b hv f hb pending hp before
    after hal hclean hlen hfit hcount load a ha _ rfl
  have r1 := h1.2 rfl
  have r2 := h2.2 rfl
  have r3 := h3.2 (fun _ _ _ => rfl)
  have r4 := h4.2 rfl
  have r5 := h5.2 rfl
  have r6 := h6.2 rfl
  rw [h]
  cases s
  simp only at r1 r2 r3 r4 r5 r6
  subst r1 r2 r3 r4 r5 r6
  rfl

/-- The sample archive of version 4 passes the check; here MD5 is replaced by a function that keeps sixteen bytes. -/
example : ∃ f a, buildBytes toyEnv zeroMd5 (sampleBuilder .v4) = .ok f ∧ openArchive toyEnv f = .ok a ∧
    validateMd5 zeroMd5 f a.archiveOffset a.header = .ok (some ⟨true, true, true, true, true, true⟩) := by
  obtain ⟨f, a, hf, hlt, ho, _⟩ := sample_reads .v4 (by decide)
  have ho' : openArchive toyEnv ([] ++ f ++ []) = .ok a := by rw [List.nil_append, List.append_nil]; exact ho
  have e48 : (2 : Nat) ^ 48 = 281474976710656 := rfl
  have e64 : (2 : Nat) ^ 64 = 18446744073709551616 := rfl
  have := C34_fresh_archive_valid toyEnv zeroMd5 (fun _ => List.length_replicate) (sampleBuilder .v4) rfl f hf
    samplePending (samplePending_eq .v4) [] [] rfl (by intro o ho; cases ho) hlt
    (by simp only [List.length_nil]; omega) (by decide) true a ho'
  rw [List.nil_append, List.append_nil] at this
  exact ⟨f, a, hf, ho, this⟩

end Mopaq
