import Verif.Model.MemoryRead
import Verif.Props.Memory
import Verif.Props.FormatArchive

/-! # Memory for reading a file (C88) -/

namespace Mopaq

theorem readAt_fits {f : List Byte} {off n : Nat} {x : List Byte} (h : readAt f off n = .ok x) : n ≤ f.length := by
  unfold readAt at h
  split at h
  · omega
  · split at h
    · omega
    · cases h

theorem sectorsAsked_fits (e : Env) (f : List Byte) (info : FileInfo) (key : U32) (ss : Nat) :
    ∀ (offsets : List U32) (i done : Nat) (data : List Byte), readSectors e f info key ss i done offsets = .ok data →
      ∀ n ∈ sectorsAsked e f info key ss i done offsets, n ≤ f.length := by
  intro offsets
  induction offsets with
  | nil => intro i done data _ n hn; cases hn
  | cons o0 rest ih =>
    intro i done data h n hn
    cases rest with
    | nil => cases hn
    | cons o1 rest =>
      unfold readSectors at h
      unfold sectorsAsked at hn
      split at h
      · cases h
      · rename_i h1
        rw [if_neg h1] at hn
        split at h
        · cases h
        · rename_i h2
          rw [if_neg h2] at hn
          obtain ⟨sector, hs, h⟩ := bind_eq_ok.1 h
          obtain ⟨more, hm, h⟩ := bind_eq_ok.1 h
          rcases List.mem_cons.1 hn with rfl | hn
          · unfold readSector at hs
            obtain ⟨raw, hr, _⟩ := bind_eq_ok.1 hs
            exact readAt_fits hr
          · obtain ⟨x, hx, hn⟩ := asked_after hn
            rw [hs] at hx
            cases hx
            exact ih _ _ _ hm n hn

theorem fileDataAsked_fits (e : Env) (f : List Byte) (off : Nat) (shift : U16) (name : List Byte) (info : FileInfo) (size : U32)
    (actual : Nat) (data : List Byte) (h : readFileData e f off shift name info size actual = .ok data) :
    ∀ n ∈ fileDataAsked e f off shift name info size, n ≤ f.length ∨ n = info.fileSize := by
  intro n hn
  unfold readFileData at h
  unfold fileDataAsked at hn
  dsimp only at h
  split at h
  · rename_i hs
    rw [if_pos hs, List.mem_singleton] at hn
    subst hn
    obtain ⟨raw, hr, _⟩ := bind_eq_ok.1 h
    exact .inl (readAt_fits hr)
  · rename_i hs
    rw [if_neg hs] at hn
    unfold readSectoredFile at h
    unfold sectoredAsked at hn
    obtain ⟨ss, h1, h⟩ := bind_eq_ok.1 h
    obtain ⟨count, h2, h⟩ := bind_eq_ok.1 h
    obtain ⟨raw, h3, h⟩ := bind_eq_ok.1 h
    obtain ⟨ss', h1', hn⟩ := asked_after hn
    rw [h1] at h1'
    cases h1'
    obtain ⟨count', h2', hn⟩ := asked_after hn
    rw [h2] at h2'
    cases h2'
    have hraw := readAt_fits h3
    rcases List.mem_cons.1 hn with rfl | hn
    · exact .inl hraw
    obtain ⟨raw', h3', hn⟩ := asked_after hn
    rw [h3] at h3'
    cases h3'
    dsimp only at h hn
    generalize toDwords (if info.isEncrypted = true then _ else raw) = offsets at h hn
    rcases List.mem_cons.1 hn with rfl | hn
    · exact .inl hraw
    split at hn
    · rename_i hc
      rw [if_pos hc] at h
      obtain ⟨x, h4, h⟩ := bind_eq_ok.1 h
      rcases List.mem_cons.1 hn with rfl | hn
      · exact .inl (readAt_fits h4)
      obtain ⟨_, _, hn⟩ := asked_after hn
      rcases List.mem_cons.1 hn with rfl | hn
      · exact .inl (readAt_fits h4)
      rcases List.mem_cons.1 hn with rfl | hn
      · exact .inr rfl
      exact .inl (sectorsAsked_fits e f info _ ss _ _ _ _ h n hn)
    · rename_i hc
      rw [if_neg hc] at h
      rcases List.mem_cons.1 hn with rfl | hn
      · exact .inr rfl
      exact .inl (sectorsAsked_fits e f info _ ss _ _ _ _ h n hn)

/-- C88: reading a file never asks for more memory at a time than the archive has bytes, but for one buffer of the size that the
archive states for the file; otherwise reading fails. Partial: what the archive states need not be the size of what is read. -/
theorem C88_requests_partial (e : Env) (a : Archive) (name data : List Byte) (info : FileInfo)
    (hi : a.findFile name = .ok (some info)) (h : a.readFile e name = .ok data) :
    ∀ n ∈ a.readAsked e name, n ≤ a.file.length ∨ n = info.fileSize := by
  intro n hn
  unfold Archive.readFile at h
  unfold Archive.readAsked at hn
  rw [hi] at h hn
  simp only [Res.after] at hn
  simp only [bind, Except.bind] at h
  split at hn
  · rename_i hc
    rw [if_pos hc] at h
    exact fileDataAsked_fits _ _ _ _ _ _ _ _ _ h n hn
  · rename_i hc
    rw [if_neg hc] at h
    split at hn
    · cases hn
    · rename_i bt hb
      rw [hb] at h
      dsimp only at h
      split at hn
      · cases hn
      · rename_i b hbl
        rw [hbl] at h
        exact fileDataAsked_fits _ _ _ _ _ _ _ _ _ h n hn

theorem sectorsAsked_word (e : Env) (f : List Byte) (info : FileInfo) (key : U32) (ss : Nat) :
    ∀ (offsets : List U32) (i done : Nat), ∀ n ∈ sectorsAsked e f info key ss i done offsets, n < 2 ^ 32 := by
  intro offsets
  induction offsets with
  | nil => intro i done n hn; cases hn
  | cons o0 rest ih =>
    intro i done n hn
    cases rest with
    | nil => cases hn
    | cons o1 rest =>
      unfold sectorsAsked at hn
      split at hn
      · cases hn
      · split at hn
        · cases hn
        · rcases List.mem_cons.1 hn with rfl | hn
          · have := o1.isLt; omega
          · obtain ⟨x, _, hn⟩ := asked_after hn
            exact ih _ _ n hn

theorem fileDataAsked_word (e : Env) (f : List Byte) (off : Nat) (shift : U16) (name : List Byte) (info : FileInfo) (size : U32)
    (h1 : info.compressedSize < 2 ^ 32) (h2 : info.fileSize < 2 ^ 32) :
    ∀ n ∈ fileDataAsked e f off shift name info size, n < 2 ^ 32 := by
  intro n hn
  unfold fileDataAsked at hn
  split at hn
  · rw [List.mem_singleton] at hn
    omega
  · unfold sectoredAsked at hn
    obtain ⟨ss, hss, hn⟩ := asked_after hn
    obtain ⟨count, hc, hn⟩ := asked_after hn
    obtain ⟨c1, _, _, _, c5⟩ := divCeil_ok hc
    have h512 := sectorSizeOf_512 hss c1
    have hcount : (count - 1) * 512 ≤ info.fileSize := Nat.le_trans (Nat.mul_le_mul_left _ h512) c5
    have h32 : (2 : Nat) ^ 32 = 4294967296 := rfl
    rcases List.mem_cons.1 hn with rfl | hn
    · omega
    obtain ⟨raw, _, hn⟩ := asked_after hn
    dsimp only at hn
    generalize toDwords (if info.isEncrypted = true then _ else raw) = offsets at hn
    rcases List.mem_cons.1 hn with rfl | hn
    · omega
    split at hn
    · rcases List.mem_cons.1 hn with rfl | hn
      · omega
      obtain ⟨_, _, hn⟩ := asked_after hn
      rcases List.mem_cons.1 hn with rfl | hn
      · omega
      rcases List.mem_cons.1 hn with rfl | hn
      · exact h2
      exact sectorsAsked_word e f info _ ss _ _ _ n hn
    · rcases List.mem_cons.1 hn with rfl | hn
      · exact h2
      exact sectorsAsked_word e f info _ ss _ _ _ n hn

/-- C88: in an archive of version 1 or 2 no read, of whatever name and whether it works or not, asks for 4 GiB or more at a time. -/
theorem C88_below_4_gib (e : Env) (f : List Byte) (a : Archive) (ho : openArchive e f = .ok a)
    (hv : a.header.formatVersion = .v1 ∨ a.header.formatVersion = .v2) (name : List Byte) :
    ∀ n ∈ a.readAsked e name, n < 2 ^ 32 := by
  intro n hn
  have hne : a.hetTable = none := by
    cases hh : findHeader f with
    | error err => unfold openArchive at ho; rw [hh] at ho; cases ho
    | ok x =>
      obtain ⟨off, ud, h⟩ := x
      rw [openArchive_eq e f off ud h hh] at ho
      obtain ⟨het, h1, ho⟩ := bind_eq_ok.1 ho
      obtain ⟨bet, h2, ho⟩ := bind_eq_ok.1 ho
      obtain ⟨classic, h3, ho⟩ := bind_eq_ok.1 ho
      obtain ⟨hi, h4, ho⟩ := bind_eq_ok.1 ho
      obtain ⟨attributes, _, ho⟩ := bind_eq_ok.1 ho
      cases ho
      have hv : h.formatVersion = .v1 ∨ h.formatVersion = .v2 := hv
      have hge : h.formatVersion.ge .v3 = false := by rcases hv with h | h <;> rw [h] <;> rfl
      rw [hge] at h1
      cases h1
      rfl
  unfold Archive.readAsked at hn
  obtain ⟨found, hf, hn⟩ := asked_after hn
  cases found with
  | none => cases hn
  | some info =>
    dsimp only at hn
    have hsz : info.compressedSize < 2 ^ 32 ∧ info.fileSize < 2 ^ 32 := by
      unfold Archive.findFile at hf
      rw [hne] at hf
      have hf : a.findFileClassic name = .ok (some info) := hf
      unfold Archive.findFileClassic at hf
      split at hf
      · cases hf
      · split at hf
        · cases hf
        · obtain ⟨x, _, hf⟩ := bind_eq_ok.1 hf
          split at hf
          · cases hf
          · split at hf
            · cases hf
            · obtain ⟨p, _, hf⟩ := bind_eq_ok.1 hf
              cases hf
              exact ⟨BitVec.isLt _, BitVec.isLt _⟩
    rw [hne] at hn
    simp only [Option.isSome_none, Bool.false_and, Bool.false_eq_true, if_false] at hn
    split at hn
    · cases hn
    · split at hn
      · cases hn
      · exact fileDataAsked_word _ _ _ _ _ _ _ hsz.1 hsz.2 n hn

/-! ## A small archive with a file that is said to be large -/

/-- The only file: one sector of two bytes, the method byte 0 (stored as it is) and a letter. -/
def inflatedData : List Byte := [8, 0, 0, 0, 10, 0, 0, 0, 0, 0x41]

/-- Its entry, with a stated size of `n` bytes, compressed. -/
def inflatedBlock (n : U32) : _root_.Spec.BlockRow := ⟨32, 10, n, 0x80000200⟩

/-- Version 1, with sectors of 4 GiB. -/
def inflatedHeader : _root_.Spec.Header := ⟨32, 74, 0, 23, 42, 58, 1, 1, 0, 0, 0⟩

def inflatedFile (name : List Byte) (n : U32) : List Byte :=
  inflatedHeader.bytes ++ inflatedData ++ encryptData (smallRow name).bytes hashTableKey ++
    encryptData (inflatedBlock n).bytes blockTableKey

theorem inflatedHeader_bytes : inflatedHeader.bytes = [0x4D, 0x50, 0x51, 0x1A, 32, 0, 0, 0, 74, 0, 0, 0, 0, 0, 23, 0, 42, 0, 0, 0, 58, 0,
    0, 0, 1, 0, 0, 0, 1, 0, 0, 0] := by decide +kernel

theorem inflated_first (tail : List Byte) : ∃ o, o % 512 = 0 ∧ Spec.startsAt (inflatedHeader.bytes ++ tail) o 0 ∧
    ∀ o' < o, o' % 512 = 0 → ¬ Spec.archiveMark (inflatedHeader.bytes ++ tail) o' ∧
      ¬ Spec.userDataMark (inflatedHeader.bytes ++ tail) o' := by
  rw [inflatedHeader_bytes]
  refine ⟨0, rfl, Or.inl ⟨?_, rfl⟩, fun o' h => by omega⟩
  simp only [Spec.archiveMark, Spec.u32At, List.cons_append, List.drop_zero]
  decide

theorem inflated_places (x y : List Byte) (hx : x.length = 16) (hy : y.length = 16) {f : List Byte}
    (hf : f = inflatedHeader.bytes ++ inflatedData ++ x ++ y) :
    Spec.StandsAt f 0 inflatedHeader.bytes ∧ Spec.StandsAt f (0 + 42) x ∧ Spec.StandsAt f (0 + 58) y ∧ f.length = 74 ∧
      readAt f 32 8 = .ok [8, 0, 0, 0, 10, 0, 0, 0] ∧ readAt f 40 2 = .ok [0, 0x41] := by
  subst hf
  refine ⟨standsAt_of (pre := []) (post := inflatedData ++ x ++ y) (by simp only [List.append_assoc, List.nil_append]) rfl,
    standsAt_of (pre := inflatedHeader.bytes ++ inflatedData) (post := y) rfl (by rw [inflatedHeader_bytes]; rfl),
    standsAt_of (pre := inflatedHeader.bytes ++ inflatedData ++ x) (post := []) (List.append_nil _).symm ?_, ?_, ?_, ?_⟩
  · rw [List.length_append, hx, inflatedHeader_bytes]; rfl
  · rw [List.length_append, List.length_append, hx, inflatedHeader_bytes, hy]; decide
  · exact readAt_standsAt (b := [8, 0, 0, 0, 10, 0, 0, 0]) (standsAt_of (pre := inflatedHeader.bytes) (post := [0, 0x41] ++ x ++ y)
      (by simp only [inflatedData, List.append_assoc, List.cons_append, List.nil_append]) (by rw [inflatedHeader_bytes]; rfl))
  · exact readAt_standsAt (b := [0, 0x41]) (standsAt_of (pre := inflatedHeader.bytes ++ [8, 0, 0, 0, 10, 0, 0, 0]) (post := x ++ y)
      (by simp only [inflatedData, List.append_assoc, List.cons_append, List.nil_append]) (by rw [inflatedHeader_bytes]; rfl))

theorem inflated_at (name : List Byte) (n : U32) :
    Spec.StandsAt (inflatedFile name n) 0 inflatedHeader.bytes ∧
    Spec.StandsAt (inflatedFile name n) (0 + 42) (encryptData (smallRow name).bytes hashTableKey) ∧
    Spec.StandsAt (inflatedFile name n) (0 + 58) (encryptData (inflatedBlock n).bytes blockTableKey) ∧
    (inflatedFile name n).length = 74 ∧ readAt (inflatedFile name n) 32 8 = .ok [8, 0, 0, 0, 10, 0, 0, 0] ∧
    readAt (inflatedFile name n) 40 2 = .ok [0, 0x41] :=
  inflated_places (encryptData (smallRow name).bytes hashTableKey) (encryptData (inflatedBlock n).bytes blockTableKey)
    (by rw [encryptData_length, hashRow_bytes, HashEntry.toBytes_length])
    (by rw [encryptData_length, blockRow_bytes, BlockEntry.toBytes_length]) (f := inflatedFile name n) (by unfold inflatedFile; rfl)

theorem inflated_isArchive (name : List Byte) (n : U32) :
    Spec.IsArchive (inflatedFile name n) 0 inflatedHeader [smallRow name] [inflatedBlock n] [0] where
  first := by
    unfold inflatedFile
    rw [List.append_assoc, List.append_assoc]
    exact inflated_first _
  header := (inflated_at name n).1
  version := Or.inl ⟨rfl, by decide⟩
  powerOfTwo := ⟨0, rfl⟩
  hashCount := rfl
  blockCount := rfl
  highCount := rfl
  hashTable := by
    rw [← hashTableKey_spec, List.flatMap_cons, List.flatMap_nil, List.append_nil]
    exact stands_encrypted (by rw [hashRow_bytes, HashEntry.toBytes_length]) (inflated_at name n).2.1
  blockTable := by
    rw [← blockTableKey_spec, List.flatMap_cons, List.flatMap_nil, List.append_nil]
    exact stands_encrypted (by rw [blockRow_bytes, BlockEntry.toBytes_length]) (inflated_at name n).2.2.1
  highTable := fun h => absurd rfl h.1
  noHighs := fun _ x hx => by simpa using hx
  inside := ⟨by rw [(inflated_at name n).2.2.2.1]; decide, fun h => absurd rfl h.1⟩

theorem sectorSizeOf_23 : ∃ s, sectorSizeOf 23 = .ok s ∧ s = 2 ^ 32 := ⟨_, rfl, by decide⟩

theorem divCeil_one {n s : Nat} (h3 : 3 ≤ n) (hn : n < s) : divCeil n s = .ok 1 := by
  unfold divCeil
  rw [if_neg (by omega)]
  refine congrArg _ (Nat.div_eq_of_lt_le ?_ ?_) <;> omega

/-- Its only sector. -/
theorem inflated_sector (e : Env) (f : List Byte) (info : FileInfo) (key : U32) (at' stored size : Nat) (h3 : 2 < size)
    (h2 : info.isCompressed = true) (h4 : info.isEncrypted = false) (ha : at' = 40) (hst : stored = 2)
    (r2 : readAt f 40 2 = .ok [0, 0x41]) : readSector e f info key 0 at' stored size = .ok [0x41] := by
  subst ha hst
  unfold readSector
  rw [r2]
  simp only [bind, Except.bind, h4, h2, Bool.false_eq_true, if_false, Bool.true_and]
  rw [if_pos (decide_eq_true h3), if_pos (by decide)]
  rfl

/-- Reading such a file, wherever it was found. -/
theorem inflated_read (e : Env) (f : List Byte) (off : Nat) (name : List Byte) (info : FileInfo) (size : U32) (actual n : Nat)
    (shift : U16) (s : Nat) (hss : sectorSizeOf shift = .ok s)
    (hp : info.filePos = 32) (hs : info.fileSize = n) (hf : info.flags = 0x80000200) (h3 : 3 ≤ n) (hn : n < s)
    (r1 : readAt f 32 8 = .ok [8, 0, 0, 0, 10, 0, 0, 0]) (r2 : readAt f 40 2 = .ok [0, 0x41]) :
    readFileData e f off shift name info size actual = .ok [0x41] ∧ fileDataAsked e f off shift name info size = [8, 8, n, 2] := by
  have hdc := divCeil_one h3 hn
  have h1 : info.isSingleUnit = false := by unfold FileInfo.isSingleUnit; rw [hf]; decide
  have h2 : info.isCompressed = true := by unfold FileInfo.isCompressed; rw [hf]; decide
  have h4 : info.isEncrypted = false := by unfold FileInfo.isEncrypted; rw [hf]; decide
  have h5 : info.hasSectorCrc = false := by unfold FileInfo.hasSectorCrc; rw [hf]; decide
  have hsec : ∀ key, readSector e f info key 0 (32 + (8#32).toNat) ((10#32).toNat - (8#32).toNat) (min (n - 0) s) =
      .ok [0x41] := fun key => inflated_sector e f info key _ _ _ (by omega) h2 h4 (by decide) (by decide) r2
  have htab : toDwords [8, 0, 0, 0, 10, 0, 0, 0] = [8#32, 10#32] := by decide
  have hlt : ¬ n < 0 := Nat.not_lt_zero n
  constructor
  · unfold readFileData
    rw [h1, h2]
    simp only [Bool.false_or, Bool.not_true, Bool.false_eq_true, if_false]
    generalize readerKey name off info size = key
    have hs1 : readSectors e f info key s 0 0 [8#32, 10#32] = .ok [0x41] := by
      rw [readSectors, if_neg (show ¬ (10#32).toNat < (8#32).toNat by decide), hs, if_neg hlt, hp, hsec]
      rfl
    unfold readSectoredFile
    rw [hss]
    simp only [h4, h5, hp, hs, bind, Except.bind, hdc, Bool.false_eq_true, if_false, Bool.false_and]
    rw [show (1 + 1) * 4 = 8 from rfl, r1]
    dsimp only
    rw [htab, hs1]
  · unfold fileDataAsked
    rw [h1, h2]
    simp only [Bool.false_or, Bool.not_true, Bool.false_eq_true, if_false]
    generalize readerKey name off info size = key
    have hs1 : sectorsAsked e f info key s 0 0 [8#32, 10#32] = [2] := by
      rw [sectorsAsked, if_neg (show ¬ (10#32).toNat < (8#32).toNat by decide), hs, if_neg hlt, hp, hsec]
      rfl
    unfold sectoredAsked
    rw [hss]
    simp only [h4, h5, hp, hs, Res.after, hdc, Bool.false_eq_true, if_false, Bool.false_and]
    rw [show (1 + 1) * 4 = 8 from rfl, r1]
    dsimp only
    rw [htab, hs1]

theorem readAsked_found {e : Env} {a : Archive} {name : List Byte} {info : FileInfo} (hf : a.findFile name = .ok (some info)) :
    a.readAsked e name =
      fileDataAsked e a.file a.archiveOffset a.header.blockSize name info (BitVec.ofNat 32 info.fileSize) := by
  unfold Archive.readAsked
  rw [hf]
  show (if (a.hetTable.isSome && a.betTable.isSome) = true then _ else _) = _
  split
  · rfl
  · rename_i hx
    have hcl : a.findFileClassic name = .ok (some info) := by
      unfold Archive.findFile at hf
      have : usableHetBet a.hetTable a.betTable = none := by
        unfold usableHetBet
        split
        · rename_i h1 h2; rw [h1, h2] at hx; exact absurd rfl hx
        · rfl
      rw [this] at hf
      exact hf
    obtain ⟨bt, block, hbt, hb, hs⟩ := findFileClassic_at hcl
    rw [hbt]
    dsimp only
    rw [hb]
    dsimp only
    rw [hs, BitVec.ofNat_toNat, BitVec.setWidth_eq]

/-- C88: neither the size of the archive nor that of the content limits what reading asks for: there is an archive of 74 bytes from
which a file of one byte is read with a buffer of any size from 3 bytes to 4 GiB. -/
theorem C88_small_file_asks (e : Env) (n : Nat) (h3 : 3 ≤ n) (hn : n < 2 ^ 32) : ∃ f a name, f.length = 74 ∧
    openArchive e f = .ok a ∧ a.header.formatVersion = .v1 ∧ a.readFile e name = .ok [0x41] ∧ n ∈ a.readAsked e name := by
  have h1 : Spec.nameHash 1 (Spec.attributesFile.map BitVec.toNat) ≠ Spec.nameHash 1 ((ascii "a.txt").map BitVec.toNat) := by
    rw [nameHash_lit, nameHash_lit]; decide +kernel
  generalize ascii "a.txt" = name at h1
  have hnat : (BitVec.ofNat 32 n).toNat = n := by rw [BitVec.toNat_ofNat, Nat.mod_eq_of_lt hn]
  have ha := inflated_isArchive name (BitVec.ofNat 32 n)
  obtain ⟨_, _, _, hlen, r1, r2⟩ := inflated_at name (BitVec.ofNat 32 n)
  have hlen' : (inflatedFile name (BitVec.ofNat 32 n)).length < 2 ^ 63 := by rw [hlen]; decide
  obtain ⟨ud, hop⟩ := IsArchive.loaded ha hlen' e
  have hname : Spec.attributesFile = attributesName := by decide
  rw [hname] at h1
  have hna := loadAttributes_none (e := e) (a := archiveOf (inflatedFile name (BitVec.ofNat 32 n)) 0 ud inflatedHeader [smallRow name]
    [inflatedBlock (BitVec.ofNat 32 n)] [0]) ((findFile_archiveOf ha hlen' ud none _).2 fun r => small_others name _ h1 r) rfl
  rw [hna] at hop
  obtain ⟨info, hi, i1, _, i3, i4, _⟩ := (findFile_archiveOf ha hlen' ud none name).1 (smallRow name)
    (inflatedBlock (BitVec.ofNat 32 n)) 0 ⟨0, Nat.zero_lt_one, small_slot name name 0, small_isFor name, fun i hi => by omega⟩ rfl rfl
  rw [show (inflatedBlock (BitVec.ofNat 32 n)).size.toNat = n from hnat] at i3
  obtain ⟨s, hss, hsv⟩ := sectorSizeOf_23
  obtain ⟨k1, k2⟩ := inflated_read e (inflatedFile name (BitVec.ofNat 32 n)) 0 name info (BitVec.ofNat 32 info.fileSize)
    info.fileSize n 23 s hss i1 i3 i4 h3 (by omega) r1 r2
  refine ⟨_, _, name, hlen, hop, rfl, (readFile_found hi).trans k1, ?_⟩
  rw [show Archive.readAsked _ _ _ = [8, 8, n, 2] from (readAsked_found hi).trans k2]
  exact List.mem_cons_of_mem _ (List.mem_cons_of_mem _ List.mem_cons_self)

/-- The hypotheses of `C88_requests_partial` and `C88_below_4_gib` hold for such an archive, and a megabyte is asked for. -/
example : ∃ f a name data info, openArchive toyEnv f = .ok a ∧ (a.header.formatVersion = .v1 ∨ a.header.formatVersion = .v2) ∧
    a.findFile name = .ok (some info) ∧ a.readFile toyEnv name = .ok data ∧ 2 ^ 20 ∈ a.readAsked toyEnv name := by
  obtain ⟨f, a, name, _, h1, h2, h3, h4⟩ := C88_small_file_asks toyEnv (2 ^ 20) (by decide) (by decide)
  have hf : ∃ info, a.findFile name = .ok (some info) := by
    unfold Archive.readFile at h3
    obtain ⟨found, hf, h3⟩ := bind_eq_ok.1 h3
    cases found with
    | none => cases h3
    | some info => exact ⟨info, hf⟩
  obtain ⟨info, hf⟩ := hf
  exact ⟨f, a, name, _, info, h1, .inl h2, hf, h3, h4⟩

/-- C88: a file of which the archive states the size truly, as in every archive that follows the format, is read with no request
larger than the archive or than the content. -/
theorem C88_true_size (e : Env) (a : Archive) (name data : List Byte) (info : FileInfo) (hi : a.findFile name = .ok (some info))
    (h : a.readFile e name = .ok data) (hs : data.length = info.fileSize) :
    ∀ n ∈ a.readAsked e name, n ≤ max a.file.length data.length := by
  intro n hn
  rcases C88_requests_partial e a name data info hi h n hn with h | h <;> omega

/-- A file of 40 bytes, of which an archive has four compressed ones, is read with one request, for these four. -/
example (name : List Byte) : ∃ (a : Archive) (info : FileInfo), a.findFile name = .ok (some info) ∧ a.file.length = 4 ∧
    a.readFile toyEnv name = .ok (List.replicate 40 0x41) ∧ (List.replicate 40 (0x41 : Byte)).length = info.fileSize ∧
    a.readAsked toyEnv name = [4] := by
  obtain ⟨k1, e1⟩ : ∃ k, hashString name htNameA = k := ⟨_, rfl⟩
  obtain ⟨k2, e2⟩ : ∃ k, hashString name htNameB = k := ⟨_, rfl⟩
  have hf := storedOne_find e1 e2 [2, 1, 0x41, 40] 4 40 0x81000200
  refine ⟨_, _, hf, rfl, (readFile_found hf).trans ?_, by decide, (readAsked_found hf).trans ?_⟩
  · unfold readFileData
    generalize readerKey name _ _ _ = key
    rw [if_pos (by decide)]
    show (readAt [2, 1, 0x41, 40] 0 4 >>= _) = _
    rw [show readAt [2, 1, 0x41, 40] 0 4 = .ok [2, 1, 0x41, 40] from rfl]
    have h : decompress toyCodecs [1, 0x41, 40] 2 40 = .ok (List.replicate 40 0x41) := by decide +kernel
    exact h
  · unfold fileDataAsked
    rw [if_pos (by decide)]
    rfl

end Mopaq
