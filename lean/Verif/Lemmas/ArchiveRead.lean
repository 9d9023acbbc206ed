import Verif.Lemmas.HetRead

/-! # Reading files of a finished archive -/

namespace Mopaq

/-- The number of checksums of a file. -/
def checksumCount (ss len : Nat) : Nat := if len ≤ ss then 1 else (len + ss - 1) / ss

theorem writeFile_facts {e : Env} {crcs : Bool} {p : FileWriteParams} {w : Written} (hw : writeFile e crcs p = .ok w)
    {shift : U16} (hss : sectorSizeOf shift = .ok p.sectorSize) (hsize : p.data.length + p.data.length / 64 + 12 < 2 ^ 32) :
    w.size < 2 ^ 32 ∧
    w.bytes.length = w.size + if crcs then 4 * checksumCount p.sectorSize p.data.length else 0 := by
  have h32 : 2 ^ 32 = 4294967296 := rfl
  unfold writeFile at hw
  unfold checksumCount
  by_cases hlen : p.data.length ≤ p.sectorSize
  · rw [if_pos hlen] at hw ⊢
    obtain ⟨s, b, hs, hf, hsz, hbytes⟩ := writeSingle_eq hw
    have hle : s.length ≤ p.data.length := by
      rcases storeUnit_cases hs with ⟨_, h⟩ | ⟨_, hne, _, _, hc⟩
      · rw [h]; exact Nat.le_refl _
      · rcases C14_never_grows _ _ _ _ hc with h | ⟨h, _⟩
        · exact absurd h hne
        · exact h
    refine ⟨by omega, ?_⟩
    rw [hbytes, List.length_append, final_length, hsz]
    cases crcs <;> simp
  · rw [if_neg hlen] at hw ⊢
    obtain ⟨count, stored, hc, hs, hf, hread⟩ := writeSectored_eq hw
    obtain ⟨hss0, hcount, hle, hpos, hge⟩ := divCeil_ok hc
    have h512 := sectorSizeOf_512 hss hss0
    have hpw := mapM_ok hs
    obtain ⟨hflat, _⟩ := sectorsOf_spec p.sectorSize count p.data 0 hle
    have htot := flatten_stored_le hpw
    rw [hflat] at htot
    have hcb : (count - 1) * 512 ≤ p.data.length := Nat.le_trans (Nat.mul_le_mul_left _ h512) hge
    have hbound : (count + 1) * 4 + (if crcs then count * 4 else 0) + (stored.map (·.1)).flatten.length < 2 ^ 32 := by
      split <;> omega
    obtain ⟨hsz, hbytes⟩ := hread hbound
    have hsl : stored.length = count := by
      have := pairwise₂_length hpw
      rw [← this]; unfold sectorsOf; simp
    refine ⟨?_, ?_⟩
    · rw [hsz]; split at hbound <;> omega
    · dsimp only at hbytes
      rw [hbytes, List.length_append, List.length_append, finals_length, ofDwords_length, hsz, ← hcount]
      have hol : ∀ (c : Bool) (xs : List U32) (k : U32), (if c then encryptBlock xs k else xs).length = xs.length := by
        intro c xs k; split
        · exact encryptBlock_length _ _
        · rfl
      rw [hol, offsetsFrom_length, List.length_map, hsl]
      cases crcs with
      | false => simp; omega
      | true =>
        simp only [if_true, ofDwords_length, List.length_map]
        unfold sectorsOf
        rw [List.length_map, List.length_range]
        omega

variable {e : Env} {md5 : Md5} {b : Builder} {f : List Byte}

/-- Opening a finished archive, given what becomes of the extended tables and of the attributes. -/
theorem Layout.open (L : Layout e md5 b f) (hmd : ∀ x, (md5 x).length = 16) (before after : List Byte)
    (hal : before.length % 512 = 0)
    (hclean : ∀ o < before.length, o % 512 = 0 → ¬ Spec.archiveMark (before ++ f ++ after) o ∧
      ¬ Spec.userDataMark (before ++ f ++ after) o)
    (hlen : f.length < addressable b.version) (hfit : before.length + f.length < 2 ^ 64)
    (hn : L.pending.length < 0xFFFFFFFE) (het : Option HetTable) (bet : Option BetTable)
    (hhet : (if b.version.ge .v3 then Mopaq.loadHet e (before ++ f ++ after) before.length L.hdr else pure none) = .ok het)
    (hbet : (if b.version.ge .v3 then Mopaq.loadBet e (before ++ f ++ after) before.length L.hdr else pure none) = .ok bet) :
    ∃ a, L.Opened before after a ∧ a.hetTable = het ∧ a.betTable = bet ∧ a.attributes = none ∧ a.userData = none ∧
      openArchive e (before ++ f ++ after) = (a.loadAttributes e).map fun at_ => { a with attributes := at_ } := by
  refine ⟨{ file := before ++ f ++ after, archiveOffset := before.length, userData := none, header := L.hdr,
            hashTable := some L.table, blockTable := some (L.stored.map (·.block)), hiBlockTable := L.his,
            hetTable := het, betTable := bet, attributes := none }, ⟨rfl, rfl, rfl, rfl, rfl, rfl⟩, rfl, rfl, rfl, rfl, ?_⟩
  unfold openArchive
  rw [L.findHeader hmd before after hal hclean]
  simp only [bind, Except.bind, if_true]
  unfold Archive.loadTables
  have hfv : L.hdr.formatVersion = b.version := rfl
  dsimp only
  rw [hfv]
  have e1 : ∀ {α : Type} (c : Bool) (x y : Res α) (g : α → Res Archive),
      (if c then (x >>= g) else (y >>= g)) = ((if c then x else y) >>= g) := by
    intro α c x y g; cases c <;> rfl
  rw [e1, hhet]
  show (if b.version.ge .v3 = true then _ else _) = _
  rw [e1, hbet]
  simp only [bind, Except.bind]
  rw [L.loadClassic hmd before after hlen hfit hn, L.loadHiBlock hmd before after hlen hfit]
  simp only [Option.map_some]
  generalize Archive.loadAttributes e _ = r
  cases r <;> rfl

theorem loadAttributes_none {a : Archive} (h : a.findFile attributesName = .ok none) (hn : a.attributes = none) :
    a.loadAttributes e = .ok none := by
  have hr : a.readFile e attributesName = .error .fileNotFound := by
    unfold Archive.readFile
    rw [h]
    rfl
  unfold Archive.loadAttributes
  rw [hn, hr]
  rfl

/-- The lookup of this name does not use the extended tables. -/
def FallsBack (a : Archive) (name : List Byte) : Prop := a.findFile name = a.findFileClassic name

theorem fallsBack_unusable {a : Archive} (h : usableHetBet a.hetTable a.betTable = none) (name : List Byte) :
    FallsBack a name := by
  unfold FallsBack Archive.findFile
  rw [h]

theorem fallsBack_unresolved {a : Archive} {het : HetTable} {bet : BetTable}
    (h : usableHetBet a.hetTable a.betTable = some (het, bet)) {name : List Byte} (hf : het.findFile name = .ok none)
    (hh : a.hashTable.isSome) (hb : a.blockTable.isSome) : FallsBack a name := by
  unfold FallsBack Archive.findFile
  rw [h]
  dsimp only
  have : hetBetFind a.archiveOffset het bet name = .ok none := by
    unfold hetBetFind
    rw [hf]; rfl
  rw [this]
  simp only [bind, Except.bind]
  cases h1 : a.hashTable with
  | none => rw [h1] at hh; cases hh
  | some x =>
    cases h2 : a.blockTable with
    | none => rw [h2] at hb; cases hb
    | some y => rfl

/-- Reading a file that the lookup finds with the record of a stored file. -/
theorem Layout.read_found (L : Layout e md5 b f) (hmd : ∀ x, (md5 x).length = 16) {before after : List Byte} {a : Archive}
    (ha : L.Opened before after a) {i : Nat} {p : PendingFile} {s : Stored} {pre post : List Byte}
    (hs : L.stored[i]? = some s) (hfiles : L.files = pre ++ s.bytes ++ post)
    (hstore : storeFile e b.generateCrcs L.sectorSize (b.version.headerSize.toNat + pre.length) p = .ok s)
    (data : List Byte) (hdata : p.source = some data) (hsize : data.length + data.length / 64 + 12 < 2 ^ 32)
    (name : List Byte) (info : FileInfo) (hfind : a.findFile name = .ok (some info)) (hbi : info.blockIndex = i)
    (hpos : info.filePos = before.length + (b.version.headerSize.toNat + pre.length))
    (hcs : info.compressedSize = s.block.compressedSize.toNat) (hfs : info.fileSize = s.block.fileSize.toNat)
    (hfl : info.flags = s.block.flags) :
    ∃ w pre' post', writeFile e b.generateCrcs
        { data, name := p.name, compression := p.compression, encrypt := p.encrypt, useFixKey := p.useFixKey,
          sectorSize := L.sectorSize, filePos := b.version.headerSize.toNat + pre.length } = .ok w ∧
      Describes info before.length
        { data, name := p.name, compression := p.compression, encrypt := p.encrypt, useFixKey := p.useFixKey,
          sectorSize := L.sectorSize, filePos := b.version.headerSize.toNat + pre.length } w ∧
      pre'.length = before.length + (b.version.headerSize.toNat + pre.length) ∧
      a.readFile e name = readFileData e (pre' ++ w.bytes ++ post') before.length b.blockSize name info
        (BitVec.ofNat 32 data.length) data.length := by
  obtain ⟨data', w, hd', hw, hseq⟩ := storeFile_ok hstore
  rw [hdata] at hd'
  injection hd' with hd'
  subst hd'
  have h32 : 2 ^ 32 = 4294967296 := rfl
  obtain ⟨hws, _⟩ := writeFile_facts hw L.sector hsize
  have hhdr := L.header_length hmd
  have hblk : s.block.fileSize = BitVec.ofNat 32 data.length := by rw [hseq]
  have hlenNat : (BitVec.ofNat 32 data.length : U32).toNat = data.length := by
    rw [BitVec.toNat_ofNat, Nat.mod_eq_of_lt (by omega)]
  have hcsz : s.block.compressedSize = BitVec.ofNat 32 w.size := by rw [hseq]
  have hflg : s.block.flags = w.flags ||| flagExists := by rw [hseq]
  have hbytes : s.bytes = w.bytes := by rw [hseq]
  have hfsn : info.fileSize = data.length := by rw [hfs, hblk, hlenNat]
  refine ⟨w, before ++ L.header ++ pre, post ++ L.het ++ L.bet ++ L.hash ++ L.block ++ L.hi ++ after, hw, ⟨hpos, ?_, hfsn, ?_⟩,
    ?_, ?_⟩
  · rw [hcs, hcsz, BitVec.toNat_ofNat, Nat.mod_eq_of_lt hws]
  · rw [hfl, hflg]; rfl
  · simp only [List.length_append, hhdr]; omega
  · have hF : before ++ f ++ after = before ++ L.header ++ pre ++ w.bytes ++
        (post ++ L.het ++ L.bet ++ L.hash ++ L.block ++ L.hi ++ after) := by
      conv => lhs; rw [L.bytes]
      rw [hfiles, hbytes]
      simp only [List.append_assoc]
    have hbs : L.hdr.blockSize = b.blockSize := rfl
    unfold Archive.readFile
    rw [hfind]
    simp only [bind, Except.bind]
    by_cases hc : (a.hetTable.isSome && a.betTable.isSome) = true
    · rw [if_pos hc, ha.file, ha.offset, ha.header, hbs, hF, hfsn]
    · rw [if_neg hc, ha.block]
      dsimp only
      have hg : (L.stored.map (·.block))[info.blockIndex]? = some s.block := by
        rw [hbi, List.getElem?_map, hs]; rfl
      rw [hg]
      dsimp only
      rw [ha.file, ha.offset, ha.header, hbs, hF, hblk, hlenNat]

end Mopaq
