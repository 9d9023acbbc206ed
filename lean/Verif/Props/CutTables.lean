import Verif.Props.Truncated
import Verif.Props.HetBet

/-! # C74 for archives with HET and BET tables

What opens of an archive of version 4 need not agree with the whole archive: a table that is no longer there is passed over. -/

namespace Mopaq

/-- The header of a version 4 archive: hash table at 208, block table at 224 (one entry each), HET table at 250 (66 bytes), BET
table at 316 (142 bytes). -/
def tailHeader : List Byte :=
  [0x4D, 0x50, 0x51, 0x1A, 0xD0, 0, 0, 0, 0xCA, 1, 0, 0, 3, 0, 3, 0, 0xD0, 0, 0, 0, 0xE0, 0, 0, 0, 1, 0, 0, 0, 1, 0, 0, 0] ++
  List.replicate 12 0 ++
  [0xCA, 1, 0, 0, 0, 0, 0, 0, 0x3C, 1, 0, 0, 0, 0, 0, 0, 0xFA, 0, 0, 0, 0, 0, 0, 0] ++
  [16, 0, 0, 0, 0, 0, 0, 0, 16, 0, 0, 0, 0, 0, 0, 0, 0, 0, 0, 0, 0, 0, 0, 0, 0x42, 0, 0, 0, 0, 0, 0, 0, 0x8E, 0, 0, 0, 0, 0, 0, 0] ++
  List.replicate 100 0

theorem tailHeader_length : tailHeader.length = 208 := by decide +kernel

theorem tailHeader_read : ∃ H, findHeader tailHeader = .ok (0, none, H) ∧ H.getHashTablePos = 208#64 ∧
    H.getBlockTablePos = 224#64 ∧ H.hashTableSize = 1#32 ∧ H.blockTableSize = 1#32 ∧ H.hiBlockTablePos = some 0#64 ∧
    H.formatVersion = .v4 ∧ H.hetTablePos = some 250#64 ∧ H.betTablePos = some 316#64 ∧
    H.v4Data.map (·.hetTableSize64) = some 66#64 ∧ H.v4Data.map (·.betTableSize64) = some 142#64 :=
  ⟨((findHeader tailHeader).toOption.get (by decide +kernel)).2.2, by decide +kernel, by decide +kernel, by decide +kernel,
    by decide +kernel, by decide +kernel, by decide +kernel, by decide +kernel, by decide +kernel, by decide +kernel,
    by decide +kernel, by decide +kernel⟩

/-- The entries of the BET table: five bytes at position 240. -/
def tailBlocks : List BlockEntry := List.replicate 5 ⟨240, 5, 5, 0x80000000⟩

/-- The BET table for `fiveNames` and these entries. -/
def tailBet : BetContent := (betContent fiveNames tailBlocks).toOption.get (by decide +kernel)

theorem tailBet_eq : betContent fiveNames tailBlocks = .ok tailBet := by decide +kernel

/-- The file up to the HET and BET tables: header, hash table, block table (`world` at 245), and ten bytes of content. -/
def tailFront (en : HashEntry) : List Byte :=
  tailHeader ++ hashTableBytes [en] ++ blockTableBytes [⟨245, 5, 5, 0x80000000⟩] ++ ascii "helloworld"

theorem tailFront_length (en : HashEntry) : (tailFront en).length = 250 := by
  unfold tailFront
  simp only [List.length_append, hashTableBytes_length, blockTableBytes_length, List.length_singleton, tailHeader_length]
  rfl

/-- The HET table as written. -/
def tailHetBytes : List Byte := extHeaderBytes 0x1A544548#32 fiveHet.dataSize ++
  encryptData (fiveHet.header.toBytes ++ (fiveHet.hashArea ++ fiveHet.indexArea)) hashTableKey

/-- The BET table as written. -/
def tailBetBytes : List Byte := extHeaderBytes 0x1A544542#32 tailBet.dataSize ++
  encryptData (tailBet.header.toBytes ++ (ofDwords tailBet.flags ++ (tailBet.fileTable ++ tailBet.hashBytes))) blockTableKey

theorem tailHetBytes_length : tailHetBytes.length = 66 := by
  unfold tailHetBytes
  rw [List.length_append, extHeaderBytes_length, encryptData_length]
  decide +kernel

theorem tailBetBytes_length : tailBetBytes.length = 142 := by
  unfold tailBetBytes
  rw [List.length_append, extHeaderBytes_length, encryptData_length]
  decide +kernel

theorem tail_het (e : Env) (pre post : List Byte) :
    ∃ t, readHetTable e.codecs (pre ++ tailHetBytes ++ post) pre.length 66 hashTableKey = .ok t ∧
      0 < t.header.maxFileCount.toNat ∧ t.findFile (ascii "c.txt") = .ok (some 0#32) ∧ t.findFile attributesName = .ok none := by
  have hd : createHetTable fiveNames = .ok (extHeaderBytes 0x1A544548#32 fiveHet.dataSize ++
      (fiveHet.header.toBytes ++ (fiveHet.hashArea ++ fiveHet.indexArea))) := by
    unfold createHetTable
    rw [fiveHet_eq]
    rfl
  have hw : writeExtTable e.codecs ⟨false, 0⟩ _ hashTableKey = .ok tailHetBytes :=
    writeExt_plain e.codecs ⟨false, 0⟩ rfl 0x1A544548#32 fiveHet.dataSize
      (fiveHet.header.toBytes ++ (fiveHet.hashArea ++ fiveHet.indexArea)) hashTableKey
  obtain ⟨t, hr, hh, hta⟩ := C33_het_uncompressed_partial e.codecs ⟨false, 0⟩ rfl pre post fiveNames (by decide) (by decide)
    fiveHet fiveHet_eq _ _ hd hw
  rw [tailHetBytes_length] at hr
  refine ⟨t, hr, by rw [hh]; decide, ?_, ?_⟩
  · rw [findFile_congr t ⟨fiveHet.header, fiveHet.hashArea.take 10, []⟩ _ hh hta]
    decide +kernel
  · rw [findFile_congr t ⟨fiveHet.header, fiveHet.hashArea.take 10, []⟩ _ hh hta]
    decide +kernel

theorem getFileInfo_congr (t u : BetTable) (i : U32) (hh : t.header = u.header) (hf : t.fileFlags = u.fileFlags)
    (ht : t.fileTable = u.fileTable) : t.getFileInfo i = u.getFileInfo i := by
  unfold BetTable.getFileInfo BetTable.readTableEntry
  rw [hh, hf, ht]

theorem tail_bet (e : Env) (pre post : List Byte) :
    ∃ t, readBetTable e.codecs (pre ++ tailBetBytes ++ post) pre.length 142 blockTableKey = .ok t ∧
      0 < t.header.fileCount.toNat ∧ t.getFileInfo 0#32 = .ok (some ⟨240#64, 5#64, 5#64, 0x80000000#32⟩) := by
  have hd : createBetTable fiveNames tailBlocks = .ok (extHeaderBytes 0x1A544542#32 tailBet.dataSize ++
      (tailBet.header.toBytes ++ (ofDwords tailBet.flags ++ (tailBet.fileTable ++ tailBet.hashBytes)))) := by
    unfold createBetTable
    rw [tailBet_eq]
    rfl
  have hw : writeExtTable e.codecs ⟨false, 0⟩ _ blockTableKey = .ok tailBetBytes :=
    writeExt_plain e.codecs ⟨false, 0⟩ rfl 0x1A544542#32 tailBet.dataSize
      (tailBet.header.toBytes ++ (ofDwords tailBet.flags ++ (tailBet.fileTable ++ tailBet.hashBytes))) blockTableKey
  obtain ⟨t, hr, hh, hf, hta, _⟩ := C33_bet_uncompressed_partial e.codecs ⟨false, 0⟩ rfl pre post fiveNames tailBlocks (by decide)
    (by decide) tailBet tailBet_eq _ _ hd hw
  rw [tailBetBytes_length] at hr
  refine ⟨t, hr, by rw [hh]; decide +kernel, ?_⟩
  rw [getFileInfo_congr t ⟨tailBet.header, tailBet.flags, tailBet.fileTable, []⟩ _ hh hf hta]
  decide +kernel

theorem attributes_not_c : hashString attributesName 1 ≠ hashString (ascii "c.txt") 1 := by
  rw [hashString_lit 1 (by decide), hashString_lit 1 (by decide)]
  decide +kernel

/-- What the classic tables say. -/
theorem tail_classic (a : Archive) (x1 x2 : U32) (f1 : x1 = hashString (ascii "c.txt") 1) (f2 : x2 = hashString (ascii "c.txt") 2)
    (h2 : a.hashTable = some [⟨x1, x2, 0, 0, 0⟩]) (h3 : a.blockTable = some [⟨245, 5, 5, 0x80000000⟩])
    (h4 : a.archiveOffset = 0) (h5 : a.hiBlockTable = none) :
    a.findFileClassic attributesName = .ok none ∧
      a.findFileClassic (ascii "c.txt") = .ok (some ⟨0, 0, 245, 5, 5, 0x80000000, 0⟩) := by
  have hn := attributes_not_c
  rw [← f1] at hn
  have hs := findFileHash_one ⟨x1, x2, 0, 0, 0⟩ (ascii "c.txt")
  unfold htNameA htNameB at hs
  rw [← f1, ← f2, if_pos (by unfold HashEntry.isHit; simp; rfl)] at hs
  have ha := findFileHash_one ⟨x1, x2, 0, 0, 0⟩ attributesName
  unfold htNameA htNameB at ha
  rw [if_neg (by unfold HashEntry.isHit; simp [Ne.symm hn])] at ha
  generalize attributesName = n1 at *
  generalize ascii "c.txt" = n2 at *
  clear hn f1 f2
  unfold Archive.findFileClassic
  simp only [h2, h3, h4, h5]
  rw [hs, ha]
  exact ⟨rfl, rfl⟩

/-- Opening from the parts. -/
theorem openArchive_from (e : Env) (F : List Byte) (H : MpqHeader) (het : Option HetTable) (bet : Option BetTable)
    (classic : Option (HashTable × List BlockEntry)) (h0 : findHeader F = .ok (0, none, H)) (hv : H.formatVersion = .v4)
    (h1 : loadHet e F 0 H = .ok het) (h2 : loadBet e F 0 H = .ok bet)
    (h3 : loadClassic F 0 H (usableHetBet het bet).isSome = .ok classic) (h4 : loadHiBlock F 0 H = .ok none)
    (h5 : (openedFrom F 0 none H het bet classic none none).findFile attributesName = .ok none) :
    openArchive e F = .ok (openedFrom F 0 none H het bet classic none none) := by
  unfold openArchive
  refine bind_eq_ok.2 ⟨_, h0, ?_⟩
  dsimp only
  rw [if_pos rfl]
  unfold Archive.loadTables
  dsimp only
  rw [hv]
  refine bind_eq_ok.2 ⟨het, h1, bind_eq_ok.2 ⟨bet, h2, bind_eq_ok.2 ⟨_, h3, bind_eq_ok.2 ⟨none, h4,
    bind_eq_ok.2 ⟨none, ?_, rfl⟩⟩⟩⟩⟩
  exact no_attributes _ _ h5 rfl

theorem addPos_zero (pos : U64) : addPos 0 pos = .ok pos.toNat := by
  unfold addPos
  rw [Nat.zero_add, if_pos pos.isLt]

theorem loadHet_v4 (e : Env) (f : List Byte) (h : MpqHeader) (pos size : U64) (hv : h.formatVersion = .v4)
    (h1 : h.hetTablePos = some pos) (h2 : h.v4Data.map (·.hetTableSize64) = some size) (hp : pos ≠ 0#64) (hs : size ≠ 0#64) :
    loadHet e f 0 h = tolerate (readHetTable e.codecs f pos.toNat size.toNat hashTableKey) := by
  unfold loadHet
  generalize hashTableKey = key
  rw [h1]
  dsimp only
  rw [if_neg hp, h2, hv, addPos_zero]
  dsimp only [Option.getD]
  rw [if_neg (by simp)]
  show (if size = 0#64 then _ else _) = _
  rw [if_neg hs]
  rfl

theorem loadBet_v4 (e : Env) (f : List Byte) (h : MpqHeader) (pos size : U64) (hv : h.formatVersion = .v4)
    (h1 : h.betTablePos = some pos) (h2 : h.v4Data.map (·.betTableSize64) = some size) (hp : pos ≠ 0#64) (hs : size ≠ 0#64) :
    loadBet e f 0 h = tolerate (readBetTable e.codecs f pos.toNat size.toNat blockTableKey) := by
  unfold loadBet
  generalize blockTableKey = key
  rw [h1]
  dsimp only
  rw [if_neg hp, h2, hv, addPos_zero]
  dsimp only [Option.getD]
  rw [if_neg (by simp)]
  show (if size = 0#64 then _ else _) = _
  rw [if_neg hs]
  rfl

/-- Without a BET table the classic tables are asked. -/
theorem findFile_noBet (a : Archive) (n : List Byte) (h : a.betTable = none) : a.findFile n = a.findFileClassic n := by
  unfold Archive.findFile usableHetBet
  rw [h]
  cases a.hetTable <;> rfl

/-- What the HET table does not know the classic tables are asked for. -/
theorem findFile_miss (a : Archive) (n : List Byte) (t : HetTable) (b : BetTable) (hu : usableHetBet a.hetTable a.betTable = some (t, b))
    (h : t.findFile n = .ok none) (h1 : a.hashTable.isNone = false) (h2 : a.blockTable.isNone = false) :
    a.findFile n = a.findFileClassic n := by
  unfold Archive.findFile
  rw [hu]
  dsimp only
  unfold hetBetFind
  rw [h, h1, h2]
  rfl

theorem findFile_hit (a : Archive) (n : List Byte) (t : HetTable) (b : BetTable) (hu : usableHetBet a.hetTable a.betTable = some (t, b))
    (h : t.findFile n = .ok (some 0#32)) (i : BetFileInfo) (hb : b.getFileInfo 0#32 = .ok (some i)) (h0 : a.archiveOffset = 0) :
    a.findFile n = .ok (some ⟨0, 0, i.filePos.toNat, i.compressedSize.toNat, i.fileSize.toNat, i.flags, 0⟩) := by
  unfold Archive.findFile
  rw [hu, h0]
  dsimp only
  unfold hetBetFind
  rw [h]
  show ((b.getFileInfo 0#32 >>= _) >>= _) = _
  rw [hb]
  show ((addPos 0 i.filePos >>= _) >>= _) = _
  rw [addPos_zero]
  rfl

/-- Reading five bytes that are stored as they are. -/
theorem plain_data (e : Env) (f : List Byte) (off : Nat) (shift : U16) (n : List Byte) (pos : Nat) (k : U32) (s : Nat) :
    readFileData e f off shift n ⟨0, 0, pos, 5, 5, 0x80000000, 0⟩ k s = readAt f pos 5 := by
  have h1 : (⟨0, 0, pos, 5, 5, 0x80000000, 0⟩ : FileInfo).isSingleUnit = false := by unfold FileInfo.isSingleUnit; dsimp only; decide
  have h2 : (⟨0, 0, pos, 5, 5, 0x80000000, 0⟩ : FileInfo).isCompressed = false := by unfold FileInfo.isCompressed; dsimp only; decide
  have h3 : (⟨0, 0, pos, 5, 5, 0x80000000, 0⟩ : FileInfo).isEncrypted = false := by unfold FileInfo.isEncrypted; dsimp only; decide
  unfold readFileData
  generalize readerKey n off _ k = key
  rw [h1, h2, h3, Bool.and_false]
  show (readAt f pos 5 >>= _) = _
  cases readAt f pos 5 with
  | error x => rfl
  | ok x => rfl

theorem plain_read (e : Env) (a : Archive) (n : List Byte) (pos : Nat)
    (hf : a.findFile n = .ok (some ⟨0, 0, pos, 5, 5, 0x80000000, 0⟩)) (block : BlockEntry) (hb : a.blockTable = some [block]) :
    a.readFile e n = readAt a.file pos 5 := by
  have h := fun k s => plain_data e a.file a.archiveOffset a.header.blockSize n pos k s
  unfold Archive.readFile
  rw [hf]
  have hi : [block][(⟨0, 0, pos, 5, 5, 0x80000000, 0⟩ : FileInfo).blockIndex]? = some block := rfl
  generalize (⟨0, 0, pos, 5, 5, 0x80000000, 0⟩ : FileInfo) = i at h hi ⊢
  show (if (a.hetTable.isSome && a.betTable.isSome) = true then _ else _) = _
  split
  · exact h _ _
  · rw [hb]
    dsimp only
    rw [hi]
    exact h _ _

/-- C74: archives of version 4 that have been cut off need not be recognised. This archive keeps its HET and BET tables at the
end. However much is missing of the last table, what is left opens, and a file that reads `hello` in the whole archive reads
`world` in what is left of it, without an error. -/
theorem C74_violated_lost_tables (e : Env) : ∃ f, f.length = 458 ∧
    (∃ a, openArchive e f = .ok a ∧ a.header.formatVersion = .v4 ∧ a.readFile e (ascii "c.txt") = .ok (ascii "hello")) ∧
    ∀ n, 316 ≤ n → n < 458 → ∃ a, openArchive e (f.take n) = .ok a ∧ a.readFile e (ascii "c.txt") = .ok (ascii "world") := by
  obtain ⟨x1, f1⟩ : ∃ x, x = hashString (ascii "c.txt") 1 := ⟨_, rfl⟩
  obtain ⟨x2, f2⟩ : ∃ x, x = hashString (ascii "c.txt") 2 := ⟨_, rfl⟩
  have hcl := fun a => tail_classic a x1 x2 f1 f2
  clear f1 f2
  have hhet := tail_het e
  generalize ascii "c.txt" = nm at hcl hhet ⊢
  generalize (⟨x1, x2, 0, 0, 0⟩ : HashEntry) = en at hcl
  have hb : tailBetBytes.length = 142 := tailBetBytes_length
  have hbet := tail_bet e
  have hht := tailHetBytes_length
  generalize tailBetBytes = bb at hb hbet
  generalize tailHetBytes = hhb at hht hhet
  obtain ⟨H, h0, h1, h2, h3, h4, h5, h6, h7, h8, h9, h10⟩ := tailHeader_read
  have hfl := tailFront_length en
  -- whatever of the BET table is there, the rest is read
  have hrest : ∀ rest, ∃ t, findHeader (tailFront en ++ hhb ++ rest) = .ok (0, none, H) ∧
      loadHet e (tailFront en ++ hhb ++ rest) 0 H = .ok (some t) ∧ 0 < t.header.maxFileCount.toNat ∧
      t.findFile nm = .ok (some 0#32) ∧ t.findFile attributesName = .ok none ∧
      (∀ u, loadClassic (tailFront en ++ hhb ++ rest) 0 H u = .ok (some ([en], [⟨245, 5, 5, 0x80000000⟩]))) ∧
      loadHiBlock (tailFront en ++ hhb ++ rest) 0 H = .ok none ∧
      readAt (tailFront en ++ hhb ++ rest) 240 5 = .ok (ascii "hello") ∧
      readAt (tailFront en ++ hhb ++ rest) 245 5 = .ok (ascii "world") := by
    intro rest
    obtain ⟨t, t1, t2, t3, t4⟩ := hhet (tailFront en) rest
    rw [hfl] at t1
    have hk := findHeader_keeps (hashTableBytes [en] ++ (blockTableBytes [⟨245, 5, 5, 0x80000000⟩] ++ (ascii "helloworld" ++ (hhb ++ rest))))
      _ _ _ _ h0 (fun o t _ ho => absurd ho (Nat.not_lt_zero o))
    have ht := readHashTable_written tailHeader (blockTableBytes [⟨245, 5, 5, 0x80000000⟩] ++ (ascii "helloworld" ++ (hhb ++ rest)))
      [en] (show 1 < 2 ^ 32 by decide) (show isPowerOfTwo 1 = true by decide)
    have hbt := readBlockTable_written (tailHeader ++ hashTableBytes [en]) (ascii "helloworld" ++ (hhb ++ rest))
      [⟨245, 5, 5, 0x80000000⟩] (by decide)
    rw [List.length_append, hashTableBytes_length, tailHeader_length, List.length_singleton, List.length_singleton] at hbt
    rw [tailHeader_length, List.length_singleton] at ht
    have l0 : (tailHeader ++ hashTableBytes [en] ++ blockTableBytes [⟨245, 5, 5, 0x80000000⟩]).length = 240 := by
      simp only [List.length_append, hashTableBytes_length, blockTableBytes_length, List.length_singleton, tailHeader_length]
    have hr1 := readAt_mid (tailHeader ++ hashTableBytes [en] ++ blockTableBytes [⟨245, 5, 5, 0x80000000⟩]) (ascii "hello")
      (ascii "world" ++ (hhb ++ rest)) 240 5 l0.symm rfl
    have hr2 := readAt_mid (tailHeader ++ hashTableBytes [en] ++ blockTableBytes [⟨245, 5, 5, 0x80000000⟩] ++ ascii "hello")
      (ascii "world") (hhb ++ rest) 245 5 (by rw [List.length_append, l0]; rfl) rfl
    have hw : ascii "helloworld" = ascii "hello" ++ ascii "world" := by decide
    generalize hF : tailFront en ++ hhb ++ rest = F at t1
    have e0 : tailHeader ++ (hashTableBytes [en] ++ (blockTableBytes [⟨245, 5, 5, 0x80000000⟩] ++ (ascii "helloworld" ++ (hhb ++ rest)))) = F := by
      rw [← hF]; unfold tailFront; simp only [List.append_assoc]
    have e1 := e0
    simp only [← List.append_assoc] at hk ht hbt hr1 hr2 e0
    rw [hw] at e1 
    simp only [← List.append_assoc] at e1
    rw [e0] at hk ht hbt
    rw [e1] at hr1 hr2
    refine ⟨t, hk, ?_, t2, t3, t4, fun u => ?_, ?_, hr1, hr2⟩
    · rw [loadHet_v4 e F H 250#64 66#64 h6 h7 h9 (by decide) (by decide)]
      show tolerate (readHetTable e.codecs F 250 66 hashTableKey) = _
      rw [t1]
      rfl
    · unfold loadClassic
      rw [h1, h2, h3, h4]
      rw [if_pos (by simp)]
      exact bind_eq_ok.2 ⟨208, rfl, bind_eq_ok.2 ⟨_, ht, bind_eq_ok.2 ⟨224, rfl, bind_eq_ok.2 ⟨_, hbt, rfl⟩⟩⟩⟩
    · unfold loadHiBlock; rw [h5]; rfl
  have hlb : ∀ F r, tolerate (readBetTable e.codecs F 316 142 blockTableKey) = .ok r → loadBet e F 0 H = .ok r := by
    intro F r hr
    rw [loadBet_v4 e F H 316#64 142#64 h6 h8 h10 (by decide) (by decide)]
    exact hr
  have hpre : (tailFront en ++ hhb).length = 316 := by rw [List.length_append, hfl, hht]
  refine ⟨tailFront en ++ hhb ++ bb, by rw [List.length_append, hpre, hb], ?_, fun n hn1 hn2 => ?_⟩
  · obtain ⟨t, k0, k1, k2, k3, k4, k5, k6, k7, k8⟩ := hrest bb
    obtain ⟨b, b1, b2, b3⟩ := hbet (tailFront en ++ hhb) []
    rw [List.append_nil, hpre] at b1
    generalize tailFront en ++ hhb ++ bb = F at k0 k1 k5 k6 k7 k8 b1
    have hu : usableHetBet (some t) (some b) = some (t, b) := if_pos ⟨k2, b2⟩
    have ⟨c1, _⟩ := hcl (openedFrom F 0 none H (some t) (some b) (some ([en], [⟨245, 5, 5, 0x80000000⟩])) none none) rfl rfl rfl rfl
    refine ⟨_, openArchive_from e F H (some t) (some b) _ k0 h6 k1 (hlb _ _ (by rw [b1]; rfl)) (k5 _) k6 ?_, h6, ?_⟩
    · exact (findFile_miss _ _ t b hu k4 rfl rfl).trans c1
    · have hf := findFile_hit (openedFrom F 0 none H (some t) (some b) (some ([en], [⟨245, 5, 5, 0x80000000⟩])) none none) nm t b hu k3
        _ b3 rfl
      exact (plain_read e _ nm 240 hf _ rfl).trans k7
  · have htk : (tailFront en ++ hhb ++ bb).take n = tailFront en ++ hhb ++ bb.take (n - 316) := by
      rw [List.take_append, hpre, List.take_of_length_le (by rw [hpre]; exact hn1)]
    rw [htk]
    have hlt : (bb.take (n - 316)).length < 142 := by rw [List.length_take, hb]; omega
    obtain ⟨t, k0, k1, k2, k3, k4, k5, k6, k7, k8⟩ := hrest (bb.take (n - 316))
    have hrd : readBetTable e.codecs (tailFront en ++ hhb ++ bb.take (n - 316)) 316 142 blockTableKey = .error .io := by
      unfold readBetTable readExtTable
      rw [readVec_eq _ _ _ (by decide)]
      unfold readAt
      rw [if_neg (by decide), if_neg (by rw [List.length_append, hpre]; omega)]
      rfl
    generalize tailFront en ++ hhb ++ bb.take (n - 316) = F at k0 k1 k5 k6 k7 k8 hrd
    have ⟨c1, c2⟩ := hcl (openedFrom F 0 none H (some t) none (some ([en], [⟨245, 5, 5, 0x80000000⟩])) none none) rfl rfl rfl rfl
    refine ⟨_, openArchive_from e F H (some t) none _ k0 h6 k1 (hlb _ _ (by rw [hrd]; rfl)) (k5 _) k6 ((findFile_noBet _ _ rfl).trans c1), ?_⟩
    have hf : (openedFrom F 0 none H (some t) none (some ([en], [⟨245, 5, 5, 0x80000000⟩])) none none).findFile nm =
          .ok (some ⟨0, 0, 245, 5, 5, 0x80000000, 0⟩) := (findFile_noBet _ _ rfl).trans c2
    exact (plain_read e _ nm 245 hf _ rfl).trans k8

end Mopaq
