import Verif.Lemmas.Errors
import Verif.Props.AttributesOpen
import Verif.Props.Builder

/-! # What the class of an error tells (C72) -/

namespace Mopaq

/-- C72: reading a file ends in an error called recoverable exactly if the archive has no such file; that error is not called
corruption. This holds for all archives, damaged ones included. -/
theorem C72_recoverable_iff_missing (e : Env) (a : Archive) (name : List Byte) :
    (∃ err, a.readFile e name = .error err ∧ err.isRecoverable = true) ↔ a.findFile name = .ok none := by
  constructor
  · rintro ⟨err, h, hr⟩
    rcases open_readFile e a name h with ⟨_, hn⟩ | ⟨ho, _⟩
    · exact hn
    · rcases ho with rfl | rfl | rfl | rfl | rfl | rfl | rfl | rfl | rfl <;> cases hr
  · intro h
    exact ⟨_, open_readFile_missing e a name h, rfl⟩

/-- C72: no error is of both classes. -/
theorem C72_classes_apart (err : Err) : ¬ (err.isCorruption = true ∧ err.isRecoverable = true) := by
  cases err <;> decide

/-- C72: opening a file, whatever its bytes, never ends in an error called recoverable: it opens, or it fails for one of these
reasons. -/
theorem C72_opening_not_recoverable (e : Env) (f : List Byte) (load : Bool) (err : Err) (h : openArchive e f load = .error err) :
    err.isRecoverable = false ∧ (err = .io ∨ err = .invalidFormat ∨ err = .unsupportedVersion ∨ err = .hashTable ∨
      err = .blockTable ∨ err = .compression ∨ err = .checksumMismatch ∨ err = .panic ∨ err = .diverge) := by
  have ho := open_openArchive e f load err h
  refine ⟨?_, ho⟩
  rcases ho with rfl | rfl | rfl | rfl | rfl | rfl | rfl | rfl | rfl <;> rfl

/-- C72, for files stored in one piece as they are, with a checksum: whatever the bytes in the archive are, they are what is
returned if they have the recorded checksum, and otherwise the error is called corruption. -/
theorem C72_checksum_partial (e : Env) (a : Archive) (name : List Byte) (info : FileInfo) (block : BlockEntry)
    (blocks : List BlockEntry) (hf : a.findFile name = .ok (some info)) (hb : a.blockTable = some blocks)
    (hbi : blocks[info.blockIndex]? = some block)
    (hs : info.isSingleUnit = true) (hc : info.hasSectorCrc = true) (hz : info.isCompressed = false)
    (he : info.isEncrypted = false) (hin : info.filePos + info.compressedSize + 4 ≤ a.file.length) :
    let stored := (a.file.drop info.filePos).take info.compressedSize
    let recorded := ofLe32 ((a.file.drop (info.filePos + info.compressedSize)).take 4)
    (e.adler stored = recorded → a.readFile e name = .ok stored) ∧
    (e.adler stored ≠ recorded → ∃ err, a.readFile e name = .error err ∧ err.isCorruption = true) := by
  intro stored recorded
  have hraw : readAt a.file info.filePos info.compressedSize = .ok stored := by
    unfold readAt
    split
    · rename_i h0
      show _ = Except.ok ((a.file.drop info.filePos).take info.compressedSize)
      rw [h0, List.take_zero]
    · rw [if_pos (by omega)]
      rfl
  have hcrc : readAt a.file (info.filePos + info.compressedSize) 4 =
      .ok ((a.file.drop (info.filePos + info.compressedSize)).take 4) := by
    unfold readAt
    rw [if_neg (by decide), if_pos (by omega)]
    rfl
  have key : ∀ k n, readFileData e a.file a.archiveOffset a.header.blockSize name info k n =
      if e.adler stored ≠ recorded then .error .checksumMismatch else .ok stored := by
    intro k n
    unfold readFileData
    simp only [hs, hc, hz, he, Bool.true_or, Bool.and_self, if_true, Bool.false_eq_true, if_false, hraw, hcrc, bind, Except.bind,
      pure, Except.pure, throw, throwThe, MonadExceptOf.throw]
    split <;> rfl
  have hread : a.readFile e name = if e.adler stored ≠ recorded then .error .checksumMismatch else .ok stored := by
    unfold Archive.readFile
    rw [hf]
    simp only [bind, Except.bind]
    split
    · exact key _ _
    · rw [hb]
      simp only [hbi]
      exact key _ _
  rw [hread]
  exact ⟨fun h => if_neg (fun hn => hn h), fun h => ⟨_, if_pos h, rfl⟩⟩

/-! ## What does not hold -/

/-- C72 fails: an archive that has been cut off is not called corrupt. For every file with content in every archive: if the
archive ends before the data of the file, the error has neither class. -/
theorem C72_truncation_not_corruption (e : Env) (a : Archive) (name data : List Byte) (info : FileInfo)
    (hf : a.findFile name = .ok (some info)) (hr : a.readFile e name = .ok data) (hne : data ≠ []) :
    ∃ err, ({ a with file := a.file.take info.filePos } : Archive).readFile e name = .error err ∧
      err.isCorruption = false ∧ err.isRecoverable = false :=
  ⟨_, truncated_io e a name data info hf hr hne, rfl, rfl⟩

/-- C72 fails: for files stored in one piece without a checksum, no content whatsoever of the archive is called corrupt, be it
impossible to decompress. -/
theorem C72_no_checksum_no_corruption (e : Env) (a : Archive) (name : List Byte) (info : FileInfo) (block : BlockEntry)
    (blocks : List BlockEntry) (hf : a.findFile name = .ok (some info)) (hb : a.blockTable = some blocks)
    (hbi : blocks[info.blockIndex]? = some block)
    (hs : info.isSingleUnit = true) (hc : info.hasSectorCrc = false) (err : Err) (h : a.readFile e name = .error err) :
    err.isCorruption = false := by
  have hrel : ∀ x : Err, DecErr x ∨ x = .io → x.isCorruption = false := by
    rintro x ((rfl | rfl | rfl) | rfl) <;> rfl
  have h1 : ∀ off n, Gives (fun x => DecErr x ∨ x = .io) (readAt a.file off n) :=
    fun off n => gives_mono (gives_readAt _ off n) fun _ h => .inr h
  have h2 : ∀ d, Gives (fun x => DecErr x ∨ x = .io) (splitMethod d) := by
    intro d
    unfold splitMethod
    split
    · exact gives_error (.inl (by decide))
    · exact gives_ok _
  have h3 : ∀ d m n, Gives (fun x => DecErr x ∨ x = .io) (decompress e.codecs d m n) :=
    fun d m n => gives_mono (gives_decompress e.codecs d m n) fun _ h => .inl h
  have key : ∀ k n, Gives (fun x => DecErr x ∨ x = .io)
      (readFileData e a.file a.archiveOffset a.header.blockSize name info k n) := by
    intro k n
    unfold readFileData
    simp only [hs, hc, Bool.true_or, if_true, Bool.false_and, Bool.false_eq_true, if_false]
    refine gives_bind (h1 _ _) fun raw => gives_ite (fun _ => gives_ite (fun _ => ?_) fun _ => ?_) fun _ => gives_ok _
    · exact gives_bind (h2 _) fun r => h3 _ _ _
    · exact gives_throw (.inl (by decide))
  refine hrel err ?_
  unfold Archive.readFile at h
  rw [hf] at h
  simp only [bind, Except.bind, hb, hbi] at h
  split at h
  · exact key _ _ err h
  · exact key _ _ err h

/-- C72 fails: a name whose entry points outside the block table is damage, and not called corruption. -/
theorem C72_broken_entry_not_corruption (e : Env) (a : Archive) (name : List Byte) (hash : HashTable)
    (blocks : List BlockEntry) (i : Nat) (entry : HashEntry) (hu : usableHetBet a.hetTable a.betTable = none)
    (hh : a.hashTable = some hash) (hb : a.blockTable = some blocks) (hfind : findFileHash hash name 0 = .ok (some (i, entry)))
    (hout : blocks.length ≤ entry.blockIndex.toNat) :
    ∃ err, a.readFile e name = .error err ∧ err.isCorruption = false ∧ err.isRecoverable = false := by
  refine ⟨.blockTable, ?_, rfl, rfl⟩
  have hf : a.findFile name = .error .blockTable := by
    unfold Archive.findFile
    rw [hu]
    unfold Archive.findFileClassic
    simp only [hh, hb, hfind, bind, Except.bind, List.getElem?_eq_none hout]
    rfl
  unfold Archive.readFile
  rw [hf]
  rfl

/-- C72 fails the other way round: an archive just built is called corrupt if a file "(attributes)" with too few records was
put into it. -/
theorem C72_intact_called_corrupt {e : Env} {md5 : Md5} {b : Builder} {f : List Byte} (pending : List PendingFile)
    (before after : List Byte) (ss k : Nat) (pk : PendingFile) (attrs : Attributes) (hv : attrs.version = 100)
    (hn : attrs.files.length < pending.length) (hm : ∀ r ∈ attrs.files, ∀ d, r.md5 = some d → d.length = 16)
    (hf : attrs.flags.toNat.testBit 0 ∨ attrs.flags.toNat.testBit 1 ∨ attrs.flags.toNat.testBit 2)
    (h : BuiltWithAttributes e md5 b f pending before after ss k pk attrs.toBytes) (hcan : CanRecover e ss pk attrs.toBytes) :
    ∃ err, openArchive e (before ++ f ++ after) = .error err ∧ err.isCorruption = true :=
  ⟨_, C62_short_attributes_block_opening pending before after ss k pk attrs hv hn hm hf h hcan, rfl⟩

/-! ## Cases -/

/-- An archive of the given bytes with one file, of one byte, at the start. -/
def tinyArchive (name : List Byte) (flags : U32) (content : List Byte) (blockIndex : U32) : Archive :=
  { file := content, archiveOffset := 0, userData := none,
    header := { headerSize := 32, archiveSize := 0, formatVersion := .v1, blockSize := 3, hashTablePos := 0, blockTablePos := 0,
                hashTableSize := 1, blockTableSize := 1, hiBlockTablePos := none, hashTablePosHi := none, blockTablePosHi := none,
                archiveSize64 := none, betTablePos := none, hetTablePos := none, v4Data := none },
    hashTable := some [⟨hashString name htNameA, hashString name htNameB, 0, 0, blockIndex⟩],
    blockTable := some [⟨0, 1, 1, flags⟩], hiBlockTable := none, hetTable := none, betTable := none, attributes := none }

theorem tinyArchive_hash (name : List Byte) (i : U32) (hi : i.toNat < 0xFFFFFFFE) :
    findFileHash [⟨hashString name htNameA, hashString name htNameB, 0, 0, i⟩] name 0 =
      .ok (some (0, ⟨hashString name htNameA, hashString name htNameB, 0, 0, i⟩)) := by
  unfold findFileHash
  generalize hashString name htNameA = x
  generalize hashString name htNameB = y
  generalize (hashString name htTableOffset).toNat = z
  simp [findLoop, HashEntry.isHit, HashEntry.isValid, hi]

theorem tinyArchive_found (name : List Byte) (flags : U32) (content : List Byte) :
    (tinyArchive name flags content 0).findFile name = .ok (some ⟨0, 0, 0, 1, 1, flags, 0⟩) := by
  unfold Archive.findFile Archive.findFileClassic tinyArchive
  simp only [usableHetBet, tinyArchive_hash name 0 (by decide), bind, Except.bind]
  rfl

/-- A byte `A` with its checksum is read; any other byte in its place is called corruption. -/
example (name : List Byte) (y : Byte) (hy : y ≠ 0x41#8) (e : Env) (he : ∀ d, e.adler d = BitVec.ofNat 32 (Spec.adler32 d)) :
    (tinyArchive name 0x85000000#32 [0x41, 0x42, 0x00, 0x42, 0x00] 0).readFile e name = .ok [0x41] ∧
    ∃ err, (tinyArchive name 0x85000000#32 [y, 0x42, 0x00, 0x42, 0x00] 0).readFile e name = .error err ∧ err.isCorruption = true := by
  constructor
  · exact (C72_checksum_partial e _ name _ _ _ (tinyArchive_found name _ _) rfl rfl (by decide) (by decide) (by decide) (by decide)
      (by simp [tinyArchive])).1 (by
        rw [he]
        show BitVec.ofNat 32 (Spec.adler32 [0x41]) = ofLe32 [0x42, 0x00, 0x42, 0x00]
        decide)
  · refine (C72_checksum_partial e _ name _ _ _ (tinyArchive_found name _ _) rfl rfl (by decide) (by decide) (by decide) (by decide)
      (by simp [tinyArchive])).2 ?_
    rw [he]
    show BitVec.ofNat 32 (Spec.adler32 [y]) ≠ ofLe32 [0x42, 0x00, 0x42, 0x00]
    revert hy
    revert y
    decide +kernel

/-- A compressed byte without a checksum, made impossible to decompress. -/
example (name : List Byte) (e : Env) : (tinyArchive name 0x81000200#32 [0x02] 0).readFile e name = .error .compression := by
  unfold Archive.readFile
  rw [tinyArchive_found]
  rfl

/-- An entry that points outside the block table. -/
example (name : List Byte) (e : Env) : ∃ err, (tinyArchive name 0#32 [] 5).readFile e name = .error err ∧
    err.isCorruption = false ∧ err.isRecoverable = false :=
  C72_broken_entry_not_corruption e _ name _ _ _ _ rfl rfl rfl (tinyArchive_hash name 5 (by decide)) (show 1 ≤ 5 by decide)

/-- The sample archive, cut off. -/
example : ∃ (a : Archive) (cut : Nat), a.readFile toyEnv (ascii "dir/A.TXT") = .ok (List.replicate 40 0x41#8) ∧
    ∃ err, ({ a with file := a.file.take cut } : Archive).readFile toyEnv (ascii "dir/A.TXT") = .error err ∧
      err.isCorruption = false := by
  obtain ⟨f, a, _, _, ho, hr, _⟩ := sample_reads .v2 (by decide)
  cases hf : a.findFile (ascii "dir/A.TXT") with
  | error err => rw [Archive.readFile, hf] at hr; cases hr
  | ok r =>
    cases r with
    | none => rw [Archive.readFile, hf] at hr; cases hr
    | some info =>
      obtain ⟨err, h1, h2, _⟩ := C72_truncation_not_corruption toyEnv a _ _ info hf hr (by decide)
      exact ⟨a, info.filePos, hr, err, h1, h2⟩

/-- A new archive with attributes for one file of two. -/
example : ∃ f err, buildBytes toyEnv zeroMd5 (attributesBuilder { twoRows with files := twoRows.files.take 1 }.toBytes 0) = .ok f ∧
    openArchive toyEnv f = .error err ∧ err.isCorruption = true := by
  obtain ⟨f, h⟩ := attributes_example { twoRows with files := twoRows.files.take 1 }.toBytes 0#8 (by decide +kernel)
    ⟨_, compress_zero _ _⟩
  obtain ⟨err, h1, h2⟩ := C72_intact_called_corrupt _ _ _ _ _ _ { twoRows with files := twoRows.files.take 1 } rfl (by decide)
    (by decide) (.inl (by decide)) h (plain_recover _ (by decide +kernel))
  rw [List.nil_append, List.append_nil] at h1
  exact ⟨f, err, h.built, h1, h2⟩

end Mopaq
