import Verif.Model.ErrorKind
import Verif.Lemmas.Bytes
import Verif.Lemmas.Crypto
import Verif.Lemmas.HeaderAccept

/-! # Which errors a computation can end in -/

namespace Mopaq

/-- Every error of the computation has the property. -/
def Gives {α : Type} (P : Err → Prop) (r : Res α) : Prop := ∀ err, r = .error err → P err

variable {α β : Type} {P Q : Err → Prop}

theorem gives_ok (a : α) : Gives P (.ok a : Res α) := nofun

theorem gives_pure (a : α) : Gives P (pure a : Res α) := nofun

theorem gives_error {x : Err} (h : P x) : Gives P (.error x : Res α) := fun _ h' => by cases h'; exact h

theorem gives_throw {x : Err} (h : P x) : Gives P (throw x : Res α) := fun _ h' => by cases h'; exact h

theorem gives_mono {r : Res α} (h : Gives P r) (hpq : ∀ x, P x → Q x) : Gives Q r := fun err he => hpq err (h err he)

theorem gives_ite {c : Prop} [Decidable c] {a b : Res α} (ha : c → Gives P a) (hb : ¬ c → Gives P b) :
    Gives P (if c then a else b) := by
  split
  · exact ha ‹_›
  · exact hb ‹_›

theorem gives_bind {r : Res α} {k : α → Res β} (h : Gives P r) (hk : ∀ a, Gives P (k a)) : Gives P (r >>= k) := by
  cases r with
  | ok a => exact hk a
  | error x => exact fun err h' => h err (by injection h' with h'; rw [h'])

theorem gives_map {r : Res α} {k : α → β} (h : Gives P r) : Gives P (r.map k) := by
  cases r with
  | ok a => exact nofun
  | error x => exact fun err h' => h err (by injection h' with h'; rw [h'])

/-- Goes through the definition; what is left over are the calls of other functions. -/
macro "errors" : tactic => `(tactic| repeat' (with_reducible first
  | exact gives_ok _ | exact gives_pure _ | exact gives_error (by decide) | exact gives_throw (by decide)
  | apply gives_bind | apply gives_map | apply gives_ite | intro _ | dsimp only | split))

/-- The errors of decompression. -/
def DecErr (x : Err) : Prop := x = .compression ∨ x = .panic ∨ x = .diverge
instance : DecidablePred DecErr := fun _ => by unfold DecErr; infer_instance

theorem gives_codec (o : Option (List Byte)) : Gives DecErr (liftCodec o) := by unfold liftCodec; errors

theorem gives_bzip2 (e : Codecs) (d : List Byte) (n : Nat) : Gives DecErr (bzip2Decompress e d n) := by
  unfold bzip2Decompress; errors

theorem gives_lzma (e : Codecs) (d : List Byte) (n : Nat) : Gives DecErr (lzmaDecompress e d n) := by
  unfold lzmaDecompress; errors; exact gives_codec _

theorem gives_pkware (e : Codecs) (d : List Byte) (n : Nat) : Gives DecErr (pkwareDecompress e d n) := by
  unfold pkwareDecompress; errors; exact gives_codec _

theorem gives_implode (e : Codecs) (d : List Byte) (n : Nat) : Gives DecErr (implodeDecompress e d n) := by
  unfold implodeDecompress; errors; exact gives_codec _

theorem gives_sparseLoop (n : Nat) : ∀ (fuel : Nat) (d : List Byte) (len : Nat),
    Gives DecErr (sparseDecompressLoop n fuel d len) := by
  intro fuel
  induction fuel with
  | zero => intro d len; exact gives_ok _
  | succ fuel ih =>
    intro d len
    cases d with
    | nil => exact gives_ok _
    | cons c bs => unfold sparseDecompressLoop; errors <;> exact ih _ _

theorem gives_sparse (d : List Byte) (n : Nat) : Gives DecErr (sparseDecompress d n) := by
  unfold sparseDecompress; errors; apply gives_sparseLoop

theorem gives_getBit (r : BitReader) : Gives DecErr r.getBit := by unfold BitReader.getBit; errors

theorem gives_get8 (r : BitReader) : Gives DecErr r.get8Bits := by unfold BitReader.get8Bits; errors

theorem gives_traverse (items : List HuffmanItem) : ∀ (fuel i : Nat) (r : BitReader), Gives DecErr (traverse items fuel i r) := by
  intro fuel
  induction fuel with
  | zero => intro i r; unfold traverse; errors
  | succ fuel ih => intro i r; unfold traverse; errors <;> first | exact gives_getBit _ | exact ih _ _

theorem gives_huffmanLoop (items : List HuffmanItem) (n : Nat) : ∀ (fuel : Nat) (r : BitReader) (out : List Byte),
    Gives DecErr (huffmanLoop items n fuel r out) := by
  intro fuel
  induction fuel with
  | zero => intro r out; unfold huffmanLoop; errors
  | succ fuel ih =>
    intro r out
    unfold huffmanLoop decodeOneByte
    errors <;> first | apply gives_traverse | exact gives_get8 _ | exact ih _ _

theorem gives_huffman (d : List Byte) (n : Nat) : Gives DecErr (huffmanDecompress d n) := by
  unfold huffmanDecompress buildTree
  errors <;> apply gives_huffmanLoop

theorem gives_chanAt (cs : List Chan) (i : Nat) : Gives DecErr (chanAt cs i) := by unfold chanAt; errors
theorem gives_stepSize (i : Nat) : Gives DecErr (stepSize i) := by unfold stepSize; errors
theorem gives_shr32 (i n : Nat) : Gives DecErr (shr32 i n) := by unfold shr32; errors
theorem gives_nextStep (i : Nat) (b : Byte) : Gives DecErr (nextStepIndex i b) := by unfold nextStepIndex; errors

theorem gives_decodeLoop (bitShift n size : Nat) : ∀ (d : List Byte) (out ch : Nat) (cs : List Chan),
    Gives DecErr (decodeLoop bitShift n size d out ch cs) := by
  intro d
  induction d with
  | nil => intros; exact gives_ok _
  | cons b bs ih =>
    intro out ch cs
    unfold decodeLoop
    errors <;> first | apply gives_chanAt | exact gives_stepSize _ | apply gives_shr32 | apply gives_nextStep | apply ih

theorem gives_adpcm (d : List Byte) (size n : Nat) : Gives DecErr (adpcmDecompress d size n) := by
  unfold adpcmDecompress
  errors
  apply gives_decodeLoop

theorem gives_zlib (e : Codecs) (d : List Byte) (n : Nat) : Gives DecErr (zlibDecompress e d n) := gives_codec _

theorem gives_decompressMultiple (e : Codecs) (d : List Byte) (m : Byte) (n : Nat) : Gives DecErr (decompressMultiple e d m n) := by
  unfold decompressMultiple
  have h1 := gives_huffman
  have h2 := gives_zlib e
  have h3 := gives_bzip2 e
  have h4 := gives_sparse
  have h5 := gives_implode e
  have h6 := gives_pkware e
  have h7 := gives_adpcm
  errors
  all_goals first | apply h1 | apply h2 | apply h3 | apply h4 | apply h5 | apply h6 | apply h7

theorem gives_decompress (e : Codecs) (d : List Byte) (m : Byte) (n : Nat) : Gives DecErr (decompress e d m n) := by
  unfold decompress
  have h1 := gives_huffman
  have h2 := gives_zlib e
  have h3 := gives_bzip2 e
  have h4 := gives_sparse
  have h5 := gives_implode e
  have h6 := gives_pkware e
  have h7 := gives_adpcm
  have h8 := gives_lzma e
  have h9 := gives_decompressMultiple e
  errors
  all_goals first | apply h1 | apply h2 | apply h3 | apply h4 | apply h5 | apply h6 | apply h7 | apply h8 | apply h9

/-- The errors of opening an archive and of reading a file that is there. -/
def OpenErr (x : Err) : Prop := x = .io ∨ x = .invalidFormat ∨ x = .unsupportedVersion ∨ x = .hashTable ∨ x = .blockTable ∨
  x = .compression ∨ x = .checksumMismatch ∨ x = .panic ∨ x = .diverge
instance : DecidablePred OpenErr := fun _ => by unfold OpenErr; infer_instance

theorem open_of_dec {x : Err} (h : DecErr x) : OpenErr x := by
  rcases h with rfl | rfl | rfl <;> decide

theorem gives_readAt (f : List Byte) (off n : Nat) : Gives (· = .io) (readAt f off n) := by unfold readAt; errors

theorem open_readAt (f : List Byte) (off n : Nat) : Gives OpenErr (readAt f off n) :=
  gives_mono (gives_readAt f off n) fun _ h => by subst h; decide

theorem open_readVec (f : List Byte) (off n : Nat) : Gives OpenErr (readVec f off n) := by
  have h1 := open_readAt f
  unfold readVec
  errors
  all_goals apply h1

theorem open_decompress (e : Codecs) (d : List Byte) (m : Byte) (n : Nat) : Gives OpenErr (decompress e d m n) :=
  gives_mono (gives_decompress e d m n) fun _ h => open_of_dec h

theorem open_splitMethod (d : List Byte) : Gives OpenErr (splitMethod d) := by unfold splitMethod; errors

theorem open_readSector (e : Env) (f : List Byte) (info : FileInfo) (key : U32) (i at_ stored expected : Nat) :
    Gives OpenErr (readSector e f info key i at_ stored expected) := by
  unfold readSector
  have h1 := open_readAt f
  have h2 := open_splitMethod
  have h3 := open_decompress e.codecs
  errors
  all_goals first | apply h1 | apply h2 | apply h3

theorem open_readSectors (e : Env) (f : List Byte) (info : FileInfo) (key : U32) (ss : Nat) :
    ∀ (offsets : List U32) (i done : Nat), Gives OpenErr (readSectors e f info key ss i done offsets) := by
  intro offsets
  induction offsets with
  | nil => intro i done; exact gives_ok _
  | cons o0 rest ih =>
    intro i done
    cases rest with
    | nil => exact gives_ok _
    | cons o1 rest =>
      have h1 := open_readSector e f info key
      unfold readSectors
      errors
      all_goals first | apply h1 | apply ih

theorem open_readFileData (e : Env) (f : List Byte) (off : Nat) (shift : U16) (name : List Byte) (info : FileInfo)
    (k : U32) (n : Nat) : Gives OpenErr (readFileData e f off shift name info k n) := by
  have h1 := open_readAt f
  have h2 := open_splitMethod
  have h3 := open_decompress e.codecs
  have h4 := open_readSectors e f info
  unfold readFileData readSectoredFile sectorSizeOf divCeil
  errors
  all_goals first | apply h1 | apply h2 | apply h3 | apply h4

theorem open_addPos (off : Nat) (p : U64) : Gives OpenErr (addPos off p) := by unfold addPos; errors

theorem open_findFileHash (t : HashTable) (name : List Byte) (l : U16) : Gives OpenErr (findFileHash t name l) := by
  have h : ∀ (nameA nameB : U32) (start fuel i : Nat), Gives OpenErr (findLoop t nameA nameB l start fuel i) := by
    intro nameA nameB start fuel
    induction fuel with
    | zero => intro i; unfold findLoop; errors
    | succ fuel ih => intro i; unfold findLoop; errors; apply ih
  unfold findFileHash
  errors
  apply h

theorem open_findFileClassic (a : Archive) (name : List Byte) : Gives OpenErr (a.findFileClassic name) := by
  unfold Archive.findFileClassic
  have h1 := open_findFileHash
  have h2 := open_addPos
  errors
  all_goals first | apply h1 | apply h2

theorem open_hetBetFind (off : Nat) (het : HetTable) (bet : BetTable) (name : List Byte) :
    Gives OpenErr (hetBetFind off het bet name) := by
  have h2 := open_addPos
  unfold hetBetFind HetTable.findFile BetTable.getFileInfo BetTable.readTableEntry extractBits shl64 shr64 u32Checked
  errors
  all_goals apply h2

theorem open_findFile (a : Archive) (name : List Byte) : Gives OpenErr (a.findFile name) := by
  have h1 := open_findFileClassic a
  have h2 := open_hetBetFind a.archiveOffset
  unfold Archive.findFile
  errors
  all_goals first | apply h1 | apply h2

/-- A file that is found is read, or reading ends in one of these errors. -/
theorem open_readFile_found (e : Env) (a : Archive) (name : List Byte) (info : FileInfo)
    (hf : a.findFile name = .ok (some info)) : Gives OpenErr (a.readFile e name) := by
  have h1 := open_readFileData e a.file
  unfold Archive.readFile
  rw [hf]
  simp only [bind, Except.bind]
  errors
  all_goals apply h1

theorem open_readFile_missing (e : Env) (a : Archive) (name : List Byte) (hf : a.findFile name = .ok none) :
    a.readFile e name = .error .fileNotFound := by
  unfold Archive.readFile
  rw [hf]
  rfl

/-- Reading a file: not found, or one of these errors. -/
theorem open_readFile (e : Env) (a : Archive) (name : List Byte) {err : Err} (h : a.readFile e name = .error err) :
    (err = .fileNotFound ∧ a.findFile name = .ok none) ∨ (OpenErr err ∧ a.findFile name ≠ .ok none) := by
  cases hf : a.findFile name with
  | error x =>
    unfold Archive.readFile at h
    rw [hf] at h
    cases h
    exact .inr ⟨open_findFile a name _ hf, nofun⟩
  | ok r =>
    cases r with
    | none =>
      rw [open_readFile_missing e a name hf] at h
      cases h
      exact .inl ⟨rfl, rfl⟩
    | some info => exact .inr ⟨open_readFile_found e a name info hf _ h, nofun⟩

theorem open_tolerate {α : Type} (r : Res α) : Gives OpenErr (tolerate r) := by unfold tolerate; errors

theorem open_parseEntries {α : Type} {parse : List Byte → Res α} (h : ∀ raw, Gives OpenErr (parse raw)) :
    ∀ (n : Nat) (raw : List Byte), Gives OpenErr (parseEntries parse n raw) := by
  intro n
  induction n with
  | zero => intro raw; exact gives_ok _
  | succ n ih =>
    intro raw
    unfold parseEntries
    split
    · rename_i heq
      exact gives_error (h _ _ heq)
    · split
      · rename_i heq
        exact gives_error (ih _ _ heq)
      · exact gives_ok _

theorem open_readHashTable (f : List Byte) (off : Nat) (n : U32) : Gives OpenErr (readHashTable f off n) := by
  unfold readHashTable
  split
  · exact gives_error (by decide)
  split
  · rename_i heq
    exact gives_error (open_readAt _ _ _ _ heq)
  · apply open_parseEntries
    intro raw
    unfold HashEntry.fromBytes
    errors

theorem open_readBlockTable (f : List Byte) (off : Nat) (n : U32) : Gives OpenErr (readBlockTable f off n) := by
  unfold readBlockTable
  split
  · rename_i heq
    exact gives_error (open_readAt _ _ _ _ heq)
  · apply open_parseEntries
    intro raw
    unfold BlockEntry.fromBytes
    errors

theorem open_readHiBlockTable (f : List Byte) : ∀ (n off : Nat), Gives OpenErr (readHiBlockTable f off n) := by
  intro n
  induction n with
  | zero => intro off; exact gives_ok _
  | succ n ih =>
    intro off
    unfold readHiBlockTable
    split
    · rename_i heq
      exact gives_error (open_readAt _ _ _ _ heq)
    · split
      · rename_i heq
        exact gives_error (ih _ _ heq)
      · exact gives_ok _

theorem open_rdBytes (n : Nat) (d : List Byte) : Gives OpenErr (rdBytes n d) := by unfold rdBytes; errors
theorem open_rd16 (d : List Byte) : Gives OpenErr (rd16 d) := gives_map (open_rdBytes _ _)
theorem open_rd32 (d : List Byte) : Gives OpenErr (rd32 d) := gives_map (open_rdBytes _ _)
theorem open_rd64 (d : List Byte) : Gives OpenErr (rd64 d) := gives_map (open_rdBytes _ _)

theorem open_readMany {α : Type} {read : List Byte → Res (α × List Byte)} (h : ∀ d, Gives OpenErr (read d)) :
    ∀ (n : Nat) (d : List Byte), Gives OpenErr (readMany read n d) := by
  intro n
  induction n with
  | zero => intro d; exact gives_ok _
  | succ n ih =>
    intro d
    unfold readMany
    errors
    all_goals first | apply h | apply ih

theorem open_mapM {α β : Type} {g : α → Res β} (h : ∀ x, Gives OpenErr (g x)) : ∀ xs : List α, Gives OpenErr (xs.mapM g) := by
  intro xs
  induction xs with
  | nil => exact gives_ok _
  | cons x xs ih =>
    rw [List.mapM_cons]
    errors
    all_goals first | apply h | exact ih

theorem open_parseAttributes (data : List Byte) (n : Nat) : Gives OpenErr (parseAttributes data n) := by
  have h1 := open_rd32
  have h2 := open_readMany open_rd32
  have h3 := open_readMany open_rd64
  have h4 := open_readMany (open_rdBytes 16)
  have h5 := open_rdBytes
  unfold parseAttributes attributesSize readColumn combineColumns usizeChecked
  errors
  all_goals first | apply h1 | apply h2 | apply h3 | apply h4 | apply h5 | skip
  all_goals
    apply open_mapM
    intro i
    unfold column patchBit
    errors

theorem open_loadAttributes (e : Env) (a : Archive) : Gives OpenErr (a.loadAttributes e) := by
  have h1 := open_parseAttributes
  have h2 : ∀ (α : Type) (r : Res α), Gives OpenErr (tolerate r) := fun _ => open_tolerate
  unfold Archive.loadAttributes
  split
  · exact gives_ok _
  split
  · unfold unwrapAttributes
    errors
    all_goals first | apply h1 | apply h2
  · exact gives_ok _
  · rename_i err hne heq
    rcases open_readFile e a _ heq with ⟨h, _⟩ | ⟨h, _⟩
    · exact absurd h hne
    · exact gives_error h

theorem open_loadTables (e : Env) (a : Archive) : Gives OpenErr (a.loadTables e) := by
  have h1 := open_addPos
  have h2 : ∀ (α : Type) (r : Res α), Gives OpenErr (tolerate r) := fun _ => open_tolerate
  have h3 := open_readHashTable
  have h4 := open_readBlockTable
  have h5 := open_readHiBlockTable
  have h6 := open_loadAttributes e
  unfold Archive.loadTables loadHet loadBet loadClassic loadHiBlock hetTableSizeOf betTableSizeOf sub64
  errors
  all_goals first | apply h1 | apply h2 | apply h3 | apply h4 | apply h5 | apply h6

theorem open_readHeader (d : List Byte) : Gives OpenErr (readHeader d) := by
  have h1 := open_rd16
  have h2 := open_rd32
  have h3 := open_rd64
  have h4 := open_rdBytes
  unfold readHeader readV2 readV3 readV4
  errors
  all_goals first | apply h1 | apply h2 | apply h3 | apply h4

theorem open_findHeader (f : List Byte) : Gives OpenErr (findHeader f) := by
  have h2 := open_rd32
  have h3 := open_readHeader
  have h : ∀ fuel off, Gives OpenErr (findHeaderLoop f fuel off) := by
    intro fuel
    induction fuel with
    | zero => intro off; exact gives_error (by decide)
    | succ fuel ih =>
      intro off
      unfold findHeaderLoop
      errors
      all_goals first | apply h2 | apply h3 | apply ih
  exact h _ _

theorem open_openArchive (e : Env) (f : List Byte) (load : Bool) : Gives OpenErr (openArchive e f load) := by
  have h1 := open_findHeader
  have h2 := open_loadTables e
  unfold openArchive
  errors
  all_goals first | apply h1 | apply h2

/-- The file on disk ends where the data of the file in the archive would begin. -/
theorem truncated_io (e : Env) (a : Archive) (name data : List Byte) (info : FileInfo)
    (hf : a.findFile name = .ok (some info)) (hr : a.readFile e name = .ok data) (hne : data ≠ []) :
    ({ a with file := a.file.take info.filePos } : Archive).readFile e name = .error .io := by
  have hf' : ({ a with file := a.file.take info.filePos } : Archive).findFile name = .ok (some info) := hf
  have hio : ∀ n, n ≠ 0 → readAt (a.file.take info.filePos) info.filePos n = .error .io := by
    intro n hn
    unfold readAt
    rw [if_neg hn, if_neg (by rw [List.length_take]; omega)]
  have key : ∀ (k : U32) (n : Nat), readFileData e a.file a.archiveOffset a.header.blockSize name info k n = .ok data →
      readFileData e (a.file.take info.filePos) a.archiveOffset a.header.blockSize name info k n = .error .io := by
    intro k n h
    unfold readFileData at h ⊢
    simp only [] at h ⊢
    split at h
    · rename_i hsu
      rw [if_pos hsu]
      obtain ⟨raw, hraw, h⟩ := bind_eq_ok.1 h
      have hn : info.compressedSize ≠ 0 := by
        intro h0
        have hraw' : raw = [] := by
          rw [h0] at hraw
          exact (Except.ok.inj hraw).symm
        subst hraw'
        have hd : ∀ k, decryptFileData [] k = [] := fun k => by simp [decryptFileData]
        simp only [hd, ite_self] at h
        have hend : (if info.isCompressed then
            if ([] : List Byte) ≠ [] then do
              let (m, body) ← splitMethod []
              decompress e.codecs body m n
            else throw .compression
          else return [] : Res (List Byte)) = .ok data → False := by
          intro hx
          split at hx
          · rw [if_neg (by simp)] at hx; cases hx
          · exact hne (Except.ok.inj hx).symm
        split at h
        · obtain ⟨_, _, h⟩ := bind_eq_ok.1 h
          split at h
          · obtain ⟨_, _, h⟩ := bind_eq_ok.1 h
            cases ‹splitMethod [] = _›
          · simp only [pure, Except.pure, bind, Except.bind] at h
            split at h
            · cases h
            · exact hne (Except.ok.inj h).symm
        · exact hend h
      rw [hio _ hn]
      rfl
    · rename_i hsu
      rw [if_neg hsu]
      unfold readSectoredFile at h ⊢
      obtain ⟨ss, hss, h⟩ := bind_eq_ok.1 h
      obtain ⟨count, hcount, h⟩ := bind_eq_ok.1 h
      rw [hss]
      simp only [bind, Except.bind, hcount]
      rw [hio _ (by omega)]
  unfold Archive.readFile at hr ⊢
  rw [hf] at hr
  rw [hf']
  simp only [bind, Except.bind] at hr ⊢
  split at hr
  · rename_i hb
    rw [if_pos hb]
    exact key _ _ hr
  · rename_i hb
    rw [if_neg hb]
    split at hr
    · cases hr
    · rename_i bt hbt
      split at hr
      · cases hr
      · exact key _ _ hr

end Mopaq
