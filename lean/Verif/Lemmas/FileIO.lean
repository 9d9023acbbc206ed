import Verif.Model.FileIO
import Verif.Lemmas.Tables
import Verif.Lemmas.HeaderAccept
import Verif.Props.Compression
import Verif.Props.Crypto

/-! # Writing and reading the data of one file -/

namespace Mopaq

/-- Compressing `d` with method `m` loses nothing. -/
def RoundTrips (e : Codecs) (m : Byte) (d : List Byte) : Prop :=
  ∀ c, compress e d m = .ok c → c = d ∨ ∃ body, c = m :: body ∧ decompress e body m d.length = .ok d

/-- The flags `write_file` produces. -/
def mkFlags (single crc comp enc fix : Bool) : U32 :=
  (if single then flagSingleUnit else 0#32) ||| (if crc then flagSectorCrc else 0#32) |||
  (if comp then flagCompress else 0#32) ||| (if enc then flagEncrypted else 0#32) |||
  (if enc && fix then flagFixKey else 0#32)

theorem mkFlags_bits (single crc comp enc fix : Bool) :
    hasBits (mkFlags single crc comp enc fix ||| flagExists) (flagImplode ||| flagCompress) = comp ∧
    hasBits (mkFlags single crc comp enc fix ||| flagExists) flagEncrypted = enc ∧
    hasBits (mkFlags single crc comp enc fix ||| flagExists) flagFixKey = (enc && fix) ∧
    hasBits (mkFlags single crc comp enc fix ||| flagExists) flagSingleUnit = single ∧
    hasBits (mkFlags single crc comp enc fix ||| flagExists) flagSectorCrc = crc ∧
    hasBits (mkFlags single crc comp enc fix) flagFixKey = (enc && fix) := by
  revert single crc comp enc fix; decide

theorem storeUnit_cases {e : Env} {m : Byte} {d s : List Byte} {b : Bool} (h : storeUnit e m d = .ok (s, b)) :
    (b = false ∧ s = d) ∨ (b = true ∧ s ≠ d ∧ m ≠ 0#8 ∧ d ≠ [] ∧ compress e.codecs d m = .ok s) := by
  unfold storeUnit at h
  split at h
  · rename_i hc
    obtain ⟨c, hc', h⟩ := bind_eq_ok.mp h
    split at h
    · rename_i hne
      injection h with h; injection h with h1 h2; subst h1; subst h2
      exact .inr ⟨rfl, hne, hc.1, hc.2, hc'⟩
    · injection h with h; injection h with h1 h2; subst h1; subst h2
      exact .inl ⟨rfl, rfl⟩
  · injection h with h; injection h with h1 h2; subst h1; subst h2
    exact .inl ⟨rfl, rfl⟩

/-- A stored unit is the data itself, or the method byte and something that decompresses to the data, not longer than
the data. -/
theorem storeUnit_stored {e : Env} {m : Byte} {d s : List Byte} {b : Bool} (hr : RoundTrips e.codecs m d)
    (h : storeUnit e m d = .ok (s, b)) :
    (b = false ∧ s = d) ∨
    (b = true ∧ s ≠ d ∧ s.length ≤ d.length ∧ ∃ body, s = m :: body ∧ decompress e.codecs body m d.length = .ok d) := by
  rcases storeUnit_cases h with h | ⟨hb, hne, _, _, hc⟩
  · exact .inl h
  · rcases hr s hc with h1 | ⟨body, h1, h2⟩
    · exact absurd h1 hne
    · refine .inr ⟨hb, hne, ?_, body, h1, h2⟩
      rcases C14_never_grows _ _ _ _ hc with h3 | ⟨h3, _⟩
      · exact absurd h3 hne
      · exact h3

/-! ## Single unit -/

theorem writeSingle_eq {e : Env} {crcs : Bool} {p : FileWriteParams} {w : Written} (h : writeSingle e crcs p = .ok w) :
    ∃ s b, storeUnit e p.compression p.data = .ok (s, b) ∧ w.flags = mkFlags true crcs b p.encrypt p.useFixKey ∧
      w.size = s.length ∧
      w.bytes = (if p.encrypt then
        encryptData s (calculateFileKey p.name p.filePos (BitVec.ofNat 32 p.data.length) w.flags) else s) ++
        (if crcs then le32 (e.adler p.data) else []) := by
  unfold writeSingle at h
  obtain ⟨⟨s, b⟩, hs, h⟩ := bind_eq_ok.mp h
  dsimp only at h
  injection h with h
  subst h
  have hf : (if p.encrypt then
      (if b then flagSingleUnit ||| (if crcs then flagSectorCrc else 0#32) ||| flagCompress
        else flagSingleUnit ||| (if crcs then flagSectorCrc else 0#32)) ||| flagEncrypted |||
        (if p.useFixKey then flagFixKey else 0#32)
      else (if b then flagSingleUnit ||| (if crcs then flagSectorCrc else 0#32) ||| flagCompress
        else flagSingleUnit ||| (if crcs then flagSectorCrc else 0#32)))
      = mkFlags true crcs b p.encrypt p.useFixKey := by
    cases p.encrypt <;> cases p.useFixKey <;> cases crcs <;> cases b <;> decide
  refine ⟨s, b, hs, hf, ?_, rfl⟩
  dsimp only
  split
  · rw [encryptData_length]
  · rfl

/-- What the reader is told about a file written by `write_file`. -/
def infoOf (hashIndex blockIndex archiveOffset : Nat) (locale : U16) (p : FileWriteParams) (w : Written) : FileInfo :=
  { hashIndex, blockIndex, filePos := archiveOffset + p.filePos, compressedSize := w.size, fileSize := p.data.length,
    flags := w.flags ||| flagExists, locale }

theorem infoOf_bits {single crc comp enc fix : Bool} (hi bi ao : Nat) (lc : U16) (p : FileWriteParams) (w : Written)
    (hf : w.flags = mkFlags single crc comp enc fix) :
    (infoOf hi bi ao lc p w).isCompressed = comp ∧ (infoOf hi bi ao lc p w).isEncrypted = enc ∧
    (infoOf hi bi ao lc p w).hasFixKey = (enc && fix) ∧ (infoOf hi bi ao lc p w).isSingleUnit = single ∧
    (infoOf hi bi ao lc p w).hasSectorCrc = crc := by
  obtain ⟨h1, h2, h3, h4, h5, _⟩ := mkFlags_bits single crc comp enc fix
  simp only [FileInfo.isCompressed, FileInfo.isEncrypted, FileInfo.hasFixKey, FileInfo.isSingleUnit,
    FileInfo.hasSectorCrc, infoOf, hf]
  exact ⟨h1, h2, h3, h4, h5⟩

theorem key_agrees {single crc comp fix : Bool} (hi bi ao : Nat) (lc : U16) (p : FileWriteParams) (w : Written)
    (name : List Byte) (size : U32) (hn : hashString name htFileKey = hashString p.name htFileKey)
    (hf : w.flags = mkFlags single crc comp true fix) :
    readerKey name ao (infoOf hi bi ao lc p w) size = calculateFileKey p.name p.filePos size w.flags := by
  obtain ⟨_, h2, h3, _, _⟩ := infoOf_bits hi bi ao lc p w hf
  obtain ⟨_, _, _, _, _, h6⟩ := mkFlags_bits single crc comp true fix
  unfold readerKey calculateFileKey
  rw [h2, h3, hf, h6, hn]
  simp only [infoOf, Nat.add_sub_cancel_left, if_true]

/-- What `read_file` returns for a file of one sector: the stored data, or what it decompresses to, which then has to
have the checksum of the data. -/
theorem single_exact {e : Env} {crcs : Bool} {p : FileWriteParams} {w : Written} (hw : writeSingle e crcs p = .ok w)
    (pre post : List Byte) (hi bi ao : Nat) (lc shift : U16)
    (name : List Byte) (hn : hashString name htFileKey = hashString p.name htFileKey)
    (hpre : pre.length = ao + p.filePos) :
    ∃ s b, storeUnit e p.compression p.data = .ok (s, b) ∧
    readFileData e (pre ++ w.bytes ++ post) ao shift name (infoOf hi bi ao lc p w) (BitVec.ofNat 32 p.data.length)
      p.data.length =
      if b then do
        let d ← decompress e.codecs s.tail p.compression p.data.length
        if crcs ∧ e.adler d ≠ e.adler p.data then throw .checksumMismatch
        return d
      else .ok p.data := by
  obtain ⟨s, b, hs, hf, hsz, hby⟩ := writeSingle_eq hw
  obtain ⟨h1, h2, h3, h4, h5⟩ := infoOf_bits hi bi ao lc p w hf
  refine ⟨s, b, hs, ?_⟩
  unfold readFileData
  rw [h4, h1, h2, h5]
  simp only [Bool.true_or, if_true, Bool.and_true]
  -- the data read and decrypted is the stored unit
  have hread : ∀ x c, w.bytes = x ++ c → x.length = s.length →
      readAt (pre ++ w.bytes ++ post) (infoOf hi bi ao lc p w).filePos (infoOf hi bi ao lc p w).compressedSize = .ok x := by
    intro x c hx hl
    have : pre ++ w.bytes ++ post = pre ++ x ++ (c ++ post) := by rw [hx]; simp
    rw [this]
    exact readAt_mid _ _ _ _ _ (by simp [infoOf, hpre]) (by simp [infoOf, hsz, hl])
  have hdata : ∃ x, readAt (pre ++ w.bytes ++ post) (infoOf hi bi ao lc p w).filePos
      (infoOf hi bi ao lc p w).compressedSize = .ok x ∧
      (if p.encrypt = true then decryptFileData x (readerKey name ao (infoOf hi bi ao lc p w)
        (BitVec.ofNat 32 p.data.length)) else x) = s := by
    cases henc : p.encrypt with
    | false =>
      rw [henc] at hby
      exact ⟨s, hread _ _ hby rfl, rfl⟩
    | true =>
      rw [henc] at hby
      refine ⟨_, hread _ _ hby (encryptData_length _ _), ?_⟩
      rw [henc] at hf
      rw [if_pos rfl, key_agrees hi bi ao lc p w name _ hn hf, if_pos rfl, decryptFileData_encryptData]
  obtain ⟨x, hx, hd⟩ := hdata
  rw [hx]
  simp only [bind, Except.bind]
  rw [hd]
  have hcrc : crcs = true → readAt (pre ++ w.bytes ++ post) ((infoOf hi bi ao lc p w).filePos +
      (infoOf hi bi ao lc p w).compressedSize) 4 = .ok (le32 (e.adler p.data)) := by
    intro hc
    rw [hc, if_pos rfl] at hby
    rw [hby]
    have : ∀ a : List Byte, a.length = s.length → readAt (pre ++ (a ++ le32 (e.adler p.data)) ++ post)
        ((infoOf hi bi ao lc p w).filePos + (infoOf hi bi ao lc p w).compressedSize) 4 = .ok (le32 (e.adler p.data)) := by
      intro a ha
      have h' : pre ++ (a ++ le32 (e.adler p.data)) ++ post = (pre ++ a) ++ le32 (e.adler p.data) ++ post := by simp
      rw [h']
      exact readAt_mid _ _ _ _ _ (by simp [infoOf, hpre, hsz, ha]) (by simp)
    apply this
    split
    · exact encryptData_length _ _
    · rfl
  rcases storeUnit_cases hs with ⟨hb, hsd⟩ | ⟨hb, hne, _, _, hc⟩
  · subst hb
    subst hsd
    cases crcs with
    | false => simp only [Bool.false_eq_true, if_false]; rfl
    | true =>
      simp only [if_true, Bool.false_eq_true, if_false, hcrc rfl, pure, Except.pure, ofLe32_le32, ne_eq,
        not_true_eq_false]
  · subst hb
    obtain ⟨body, hbody⟩ : ∃ body, s = p.compression :: body := by
      rcases C14_never_grows _ _ _ _ hc with h3 | ⟨_, h3⟩
      · exact absurd h3 hne
      · exact h3
    have hsn : s ≠ [] := by rw [hbody]; simp
    cases crcs with
    | false =>
      simp only [Bool.false_eq_true, if_false, if_true, ne_eq, hsn, not_false_eq_true]
      rw [hbody]
      simp only [splitMethod, List.tail_cons]
      cases decompress e.codecs body p.compression p.data.length with
      | error x => rfl
      | ok d => simp [pure, Except.pure]
    | true =>
      simp only [if_true, hcrc rfl, pure, Except.pure, ne_eq, hsn, not_false_eq_true]
      rw [hbody]
      simp only [splitMethod, ofLe32_le32, List.tail_cons]
      cases decompress e.codecs body p.compression p.data.length with
      | error x => rfl
      | ok d =>
        dsimp only
        by_cases ha : e.adler d = e.adler p.data
        · simp [ha]
        · simp [ha]

/-! ## Several sectors -/

/-- `xs` and `ys` have the same length and correspond element by element. -/
inductive Pairwise₂ {α β : Type} (R : α → β → Prop) : List α → List β → Prop where
  | nil : Pairwise₂ R [] []
  | cons {x y xs ys} : R x y → Pairwise₂ R xs ys → Pairwise₂ R (x :: xs) (y :: ys)

theorem mapM_ok {α β : Type} {g : α → Res β} : ∀ {xs : List α} {ys : List β}, xs.mapM g = .ok ys →
    Pairwise₂ (fun x y => g x = .ok y) xs ys
  | [], ys, h => by
    simp only [List.mapM_nil, pure, Except.pure, Except.ok.injEq] at h
    subst h; exact .nil
  | x :: xs, ys, h => by
    rw [List.mapM_cons] at h
    obtain ⟨y, hy, h⟩ := bind_eq_ok.mp h
    obtain ⟨ys', hys, h⟩ := bind_eq_ok.mp h
    injection h with h; subst h
    exact .cons hy (mapM_ok hys)

theorem sectorsOf_succ (data : List Byte) (ss n : Nat) :
    sectorsOf data ss (n + 1) = data.take ss :: sectorsOf (data.drop ss) ss n := by
  unfold sectorsOf
  rw [List.range_succ_eq_map, List.map_cons, List.map_map]
  simp only [slice, Nat.zero_mul, List.drop_zero]
  congr 1
  apply List.map_congr_left
  intro i _
  simp only [Function.comp, List.drop_drop]
  rw [Nat.add_one_mul, Nat.add_comm]

/-- The sectors of the data: all of `ss` bytes but the last, which has what is left. -/
def SizesOK (fileSize ss : Nat) : Nat → List (List Byte) → Prop
  | _, [] => True
  | done, x :: xs => x.length = min (fileSize - done) ss ∧ done + x.length ≤ fileSize ∧
      SizesOK fileSize ss (done + x.length) xs

theorem sectorsOf_spec (ss : Nat) : ∀ (n : Nat) (data : List Byte) (done : Nat), data.length ≤ n * ss →
    (sectorsOf data ss n).flatten = data ∧ SizesOK (done + data.length) ss done (sectorsOf data ss n)
  | 0, data, done, h => by
    have : data = [] := List.length_eq_zero_iff.mp (by omega)
    subst this
    exact ⟨rfl, trivial⟩
  | n + 1, data, done, h => by
    rw [sectorsOf_succ]
    have hl : (data.drop ss).length ≤ n * ss := by
      rw [List.length_drop]; rw [Nat.add_one_mul] at h; omega
    obtain ⟨h1, h2⟩ := sectorsOf_spec ss n (data.drop ss) (done + (data.take ss).length) hl
    refine ⟨by rw [List.flatten_cons, h1, List.take_append_drop], ?_, ?_, ?_⟩
    · rw [List.length_take]; omega
    · rw [List.length_take]; omega
    · have : done + (data.take ss).length + (data.drop ss).length = done + data.length := by
        rw [List.length_take, List.length_drop]; omega
      rw [this] at h2
      exact h2

theorem divCeil_ok {a b n : Nat} (h : divCeil a b = .ok n) : 0 < b ∧ n = (a + b - 1) / b ∧ a ≤ n * b ∧ (a > 0 → n > 0) ∧
    (n - 1) * b ≤ a := by
  unfold divCeil at h
  split at h
  · cases h
  · rename_i hb
    injection h with h
    have hb : 0 < b := by omega
    subst h
    have h1 : a + b - 1 < b * ((a + b - 1) / b) + b := Nat.lt_mul_div_succ _ hb
    have h2 : b * ((a + b - 1) / b) ≤ a + b - 1 := Nat.mul_div_le _ _
    rw [Nat.mul_comm] at h1 h2
    refine ⟨hb, rfl, by omega, ?_, ?_⟩
    · intro ha
      exact Nat.div_pos (by omega) hb
    · rw [Nat.sub_mul]; omega

/-- What is stored for sector number `i`, `i + 1`, … -/
def finals (enc : Bool) (key : U32) : Nat → List (List Byte) → List (List Byte)
  | _, [] => []
  | i, b :: bs => (if enc then encryptData b (key + BitVec.ofNat 32 i) else b) :: finals enc key (i + 1) bs

theorem final_length (enc : Bool) (key : U32) (b : List Byte) :
    (if enc then encryptData b key else b).length = b.length := by
  split
  · exact encryptData_length _ _
  · rfl

theorem finals_length (enc : Bool) (key : U32) : ∀ (bs : List (List Byte)) (i : Nat),
    (finals enc key i bs).flatten.length = bs.flatten.length
  | [], _ => rfl
  | b :: bs, i => by
    rw [finals, List.flatten_cons, List.flatten_cons, List.length_append, List.length_append, final_length,
      finals_length enc key bs]

theorem finals_false (key : U32) : ∀ (bs : List (List Byte)) (i : Nat), finals false key i bs = bs
  | [], _ => rfl
  | b :: bs, i => by rw [finals, finals_false]; rfl

theorem ofNat32_toNat {n : Nat} (h : n < 2 ^ 32) : (BitVec.ofNat 32 n).toNat = n := by
  rw [BitVec.toNat_ofNat]; exact Nat.mod_eq_of_lt h

theorem offsetsFrom_cons (start : Nat) (bs : List (List Byte)) :
    ∃ rest, offsetsFrom start bs = BitVec.ofNat 32 start :: rest := by
  cases bs with
  | nil => exact ⟨[], rfl⟩
  | cons b bs => exact ⟨_, rfl⟩

theorem offsetsFrom_length (start : Nat) (bs : List (List Byte)) : (offsetsFrom start bs).length = bs.length + 1 := by
  induction bs generalizing start with
  | nil => rfl
  | cons b bs ih => rw [offsetsFrom, List.length_cons, ih, List.length_cons]

theorem encryptSectors_ok (dataStart : Nat) (key : U32) : ∀ (bs : List (List Byte)) (before : List Byte) (i : Nat),
    dataStart + before.length + bs.flatten.length < 2 ^ 32 →
    encryptSectors (BitVec.ofNat 32 dataStart) key (before ++ bs.flatten) i
      (offsetsFrom (dataStart + before.length) bs) = .ok (finals true key i bs).flatten := by
  intro bs
  induction bs with
  | nil => intro before i _; rfl
  | cons b bs ih =>
    intro before i hlt
    rw [List.flatten_cons, List.length_append] at hlt
    have hrec := ih (before ++ b) (i + 1) (by rw [List.length_append]; omega)
    rw [offsetsFrom]
    obtain ⟨rest, hrest⟩ := offsetsFrom_cons (dataStart + before.length + b.length) bs
    rw [List.length_append, ← Nat.add_assoc, hrest] at hrec
    rw [hrest, encryptSectors]
    unfold sub32
    rw [ofNat32_toNat (by omega), ofNat32_toNat (by omega), ofNat32_toNat (by omega)]
    rw [if_pos (by omega), if_pos (by omega)]
    simp only [bind, Except.bind]
    have hs : sliceRange (before ++ (b :: bs).flatten) (dataStart + before.length - dataStart)
        (dataStart + before.length + b.length - dataStart) = .ok b := by
      unfold sliceRange
      rw [if_pos (by rw [List.flatten_cons, List.length_append, List.length_append]; omega)]
      have h1 : dataStart + before.length - dataStart = before.length := by omega
      have h2 : dataStart + before.length + b.length - dataStart - before.length = b.length := by omega
      rw [h1, h2, List.flatten_cons, ← List.append_assoc, slice_mid]
    rw [hs]
    dsimp only
    rw [List.flatten_cons, ← List.append_assoc, hrec]
    dsimp only
    rw [finals, List.flatten_cons, if_pos rfl]
    rfl

theorem writeSectored_eq {e : Env} {crcs : Bool} {p : FileWriteParams} {w : Written}
    (h : writeSectored e crcs p = .ok w) :
    ∃ count stored, divCeil p.data.length p.sectorSize = .ok count ∧
      (sectorsOf p.data p.sectorSize count).mapM (storeUnit e p.compression) = .ok stored ∧
      w.flags = mkFlags false crcs (stored.any (·.2)) p.encrypt p.useFixKey ∧
      ((count + 1) * 4 + (if crcs then count * 4 else 0) + (stored.map (·.1)).flatten.length < 2 ^ 32 →
        w.size = (count + 1) * 4 + (stored.map (·.1)).flatten.length ∧
        let key := calculateFileKey p.name p.filePos (BitVec.ofNat 32 p.data.length) w.flags
        w.bytes = ofDwords (if p.encrypt then
            encryptBlock (offsetsFrom ((count + 1) * 4 + (if crcs then count * 4 else 0)) (stored.map (·.1))) (key - 1)
            else offsetsFrom ((count + 1) * 4 + (if crcs then count * 4 else 0)) (stored.map (·.1))) ++
          (if crcs then ofDwords ((sectorsOf p.data p.sectorSize count).map e.adler) else []) ++
          (finals p.encrypt key 0 (stored.map (·.1))).flatten) := by
  unfold writeSectored at h
  obtain ⟨count, hc, h⟩ := bind_eq_ok.mp h
  dsimp only at h
  obtain ⟨stored, hs, h⟩ := bind_eq_ok.mp h
  refine ⟨count, stored, hc, hs, ?_⟩
  cases henc : p.encrypt with
  | false =>
    rw [henc] at h
    simp only [Bool.false_eq_true, if_false] at h
    injection h with h
    subst h
    refine ⟨?_, fun _ => ⟨rfl, ?_⟩⟩
    · dsimp only
      cases stored.any (·.2) <;> cases crcs <;> cases p.useFixKey <;> decide
    · simp only [finals_false, Bool.false_eq_true, if_false]
  | true =>
    rw [henc, if_pos rfl] at h
    obtain ⟨enc, he, h⟩ := bind_eq_ok.mp h
    injection h with h
    subst h
    have hf : ((if stored.any (·.2) = true then (if crcs = true then flagSectorCrc else 0#32) ||| flagCompress
        else if crcs = true then flagSectorCrc else 0#32) ||| flagEncrypted |||
        if p.useFixKey = true then flagFixKey else 0#32)
        = mkFlags false crcs (stored.any (·.2)) true p.useFixKey := by
      cases stored.any (·.2) <;> cases crcs <;> cases p.useFixKey <;> decide
    refine ⟨hf, fun hlt => ?_⟩
    have := encryptSectors_ok ((count + 1) * 4 + (if crcs then count * 4 else 0))
      (calculateFileKey p.name p.filePos (BitVec.ofNat 32 p.data.length)
        (mkFlags false crcs (stored.any (·.2)) true p.useFixKey)) (stored.map (·.1)) [] 0 (by simpa using hlt)
    simp only [List.nil_append, List.length_nil, Nat.add_zero] at this
    rw [hf] at he
    rw [this] at he
    injection he with he
    subst he
    refine ⟨?_, ?_⟩
    · dsimp only; rw [finals_length]
    · dsimp only
      rw [if_pos rfl, hf]

/-- What the reader makes of a stored sector: the data if it is compressed and strictly shorter, otherwise the stored
bytes as they are. -/
def readBack (sector : List Byte) (stored : List Byte × Bool) : List Byte :=
  if stored.2 = true ∧ stored.1.length < sector.length then sector else stored.1

theorem readSectors_written {e : Env} {m : Byte} {info : FileInfo} {key : U32} {ss : Nat} {enc : Bool}
    (hcomp : info.isCompressed = true) (henc : info.isEncrypted = enc) :
    ∀ {sectors : List (List Byte)} {stored : List (List Byte × Bool)},
    Pairwise₂ (fun x y => storeUnit e m x = .ok y) sectors stored →
    (∀ x ∈ sectors, RoundTrips e.codecs m x) →
    ∀ (i done start : Nat) (pre post : List Byte), SizesOK info.fileSize ss done sectors →
    pre.length = info.filePos + start → start + (stored.map (·.1)).flatten.length < 2 ^ 32 →
    readSectors e (pre ++ (finals enc key i (stored.map (·.1))).flatten ++ post) info key ss i done
      (offsetsFrom start (stored.map (·.1))) = .ok (List.zipWith readBack sectors stored).flatten := by
  intro sectors stored hp
  induction hp with
  | nil => intro _ i done start pre post _ _ _; rfl
  | @cons x y xs ys hxy hp ih =>
    obtain ⟨s, b⟩ := y
    intro hr i done start pre post hsz hpre hlt
    obtain ⟨hx, hxd, hrest⟩ := hsz
    simp only [List.map_cons, List.flatten_cons, List.length_append] at hlt
    -- the stored sector is not longer than the sector, and what is read back is as long as the sector
    have hstored := storeUnit_stored (hr x (by simp)) hxy
    have hback : (readBack x (s, b)).length = x.length := by
      unfold readBack
      split
      · rfl
      · rename_i hn
        rcases hstored with ⟨hb, hs⟩ | ⟨hb, _, hle, _⟩
        · simp [hs]
        · simp only [hb, true_and] at hn; dsimp only; omega
    have hrec := ih (fun x hx => hr x (by simp [hx])) (i + 1) (done + x.length) (start + s.length)
      (pre ++ (if enc then encryptData s (key + BitVec.ofNat 32 i) else s)) post hrest
      (by rw [List.length_append, final_length, hpre]; omega) (by omega)
    simp only [List.map_cons, finals, List.flatten_cons, List.zipWith_cons_cons]
    rw [offsetsFrom]
    obtain ⟨rest, ho⟩ := offsetsFrom_cons (start + s.length) (ys.map (·.1))
    rw [ho] at hrec ⊢
    rw [readSectors, ofNat32_toNat (by omega), ofNat32_toNat (by omega), if_neg (by omega), if_neg (by omega)]
    have hone : readSector e (pre ++ ((if enc then encryptData s (key + BitVec.ofNat 32 i) else s) ++
        (finals enc key (i + 1) (ys.map (·.1))).flatten) ++ post) info key i (info.filePos + start)
        (start + s.length - start) (min (info.fileSize - done) ss) = .ok (readBack x (s, b)) := by
      unfold readSector
      have hf : pre ++ ((if enc then encryptData s (key + BitVec.ofNat 32 i) else s) ++
          (finals enc key (i + 1) (ys.map (·.1))).flatten) ++ post =
          pre ++ (if enc then encryptData s (key + BitVec.ofNat 32 i) else s) ++
          ((finals enc key (i + 1) (ys.map (·.1))).flatten ++ post) := by simp
      rw [hf, readAt_mid _ _ _ _ _ hpre.symm (by rw [final_length]; omega)]
      simp only [bind, Except.bind]
      have hdec : (if info.isEncrypted = true then decryptFileData
          (if enc = true then encryptData s (key + BitVec.ofNat 32 i) else s) (key + BitVec.ofNat 32 i)
          else if enc = true then encryptData s (key + BitVec.ofNat 32 i) else s) = s := by
        rw [henc]
        cases enc
        · rfl
        · simp only [if_true]; exact decryptFileData_encryptData _ _
      rw [hdec, hcomp, ← hx, Nat.add_sub_cancel_left]
      simp only [Bool.true_and, decide_eq_true_eq]
      rcases hstored with ⟨hb, hs⟩ | ⟨hb, hne, hle, body, hbody, hd⟩
      · subst hb; subst hs
        rw [if_neg (by omega)]
        simp [readBack, pure, Except.pure]
      · subst hb
        by_cases hlt' : s.length < x.length
        · rw [if_pos hlt', if_pos (by rw [hbody]; simp)]
          unfold readBack
          rw [if_pos ⟨rfl, hlt'⟩]
          rw [hbody]
          exact hd
        · rw [if_neg hlt']
          unfold readBack
          rw [if_neg (by simp [hlt'])]
          have : min x.length s.length = s.length := by omega
          simp [this, pure, Except.pure]
    rw [hone]
    simp only [bind, Except.bind]
    rw [hback]
    have hf : pre ++ ((if enc then encryptData s (key + BitVec.ofNat 32 i) else s) ++
          (finals enc key (i + 1) (ys.map (·.1))).flatten) ++ post =
        pre ++ (if enc then encryptData s (key + BitVec.ofNat 32 i) else s) ++
          (finals enc key (i + 1) (ys.map (·.1))).flatten ++ post := by simp
    rw [hf, hrec]
    rfl

theorem encryptData_ofDwords (xs : List U32) (key : U32) : encryptData (ofDwords xs) key = ofDwords (encryptBlock xs key) := by
  by_cases h : key = 0
  · simp [encryptData, encryptBlock, h]
  · rw [encryptData_eq _ _ h, ofDwords_length]
    have h1 : 4 * xs.length / 4 * 4 = 4 * xs.length := by omega
    have h2 : 4 * xs.length % 4 = 0 := by omega
    rw [h1, h2, List.take_zero, List.append_nil, ← ofDwords_length xs, List.take_length, toDwords_ofDwords]

theorem pairwise₂_length {α β : Type} {R : α → β → Prop} {xs : List α} {ys : List β} (h : Pairwise₂ R xs ys) :
    xs.length = ys.length := by
  induction h with
  | nil => rfl
  | cons _ _ ih => simp [ih]

/-- What `read_file` returns for a file of several sectors of which at least one is stored compressed. -/
theorem sectored_read {e : Env} {crcs : Bool} {p : FileWriteParams} {w : Written} (hw : writeSectored e crcs p = .ok w)
    (pre post : List Byte) (hi bi ao : Nat) (lc shift : U16) (name : List Byte)
    (hn : hashString name htFileKey = hashString p.name htFileKey) (hpre : pre.length = ao + p.filePos)
    (hshift : sectorSizeOf shift = .ok p.sectorSize) :
    ∃ count stored, divCeil p.data.length p.sectorSize = .ok count ∧
      (sectorsOf p.data p.sectorSize count).mapM (storeUnit e p.compression) = .ok stored ∧
      w.flags = mkFlags false crcs (stored.any (·.2)) p.encrypt p.useFixKey ∧
      (stored.any (·.2) = true → (∀ x ∈ sectorsOf p.data p.sectorSize count, RoundTrips e.codecs p.compression x) →
        (count + 1) * 4 + (if crcs then count * 4 else 0) + (stored.map (·.1)).flatten.length < 2 ^ 32 →
        readFileData e (pre ++ w.bytes ++ post) ao shift name (infoOf hi bi ao lc p w) (BitVec.ofNat 32 p.data.length)
          p.data.length = .ok (List.zipWith readBack (sectorsOf p.data p.sectorSize count) stored).flatten) := by
  obtain ⟨count, stored, hc, hs, hf, hrest⟩ := writeSectored_eq hw
  refine ⟨count, stored, hc, hs, hf, fun hany hr hlt => ?_⟩
  obtain ⟨hsize, hbytes⟩ := hrest hlt
  dsimp only at hbytes
  obtain ⟨h1, h2, h3, h4, h5⟩ := infoOf_bits hi bi ao lc p w hf
  rw [hany] at hf h1
  have hkey : p.encrypt = true → readerKey name ao (infoOf hi bi ao lc p w) (BitVec.ofNat 32 p.data.length) =
      calculateFileKey p.name p.filePos (BitVec.ofNat 32 p.data.length) w.flags := by
    intro henc
    rw [henc] at hf
    exact key_agrees hi bi ao lc p w name _ hn hf
  generalize hk : calculateFileKey p.name p.filePos (BitVec.ofNat 32 p.data.length) w.flags = key at *
  generalize hds : (count + 1) * 4 + (if crcs then count * 4 else 0) = ds at *
  generalize hbl : stored.map (·.1) = blobs at *
  generalize htab : (if p.encrypt then encryptBlock (offsetsFrom ds blobs) (key - 1) else offsetsFrom ds blobs)
    = table at *
  generalize hcrc : (if crcs then ofDwords ((sectorsOf p.data p.sectorSize count).map e.adler) else []) = crcBytes at *
  have hpw := mapM_ok hs
  have hlen : blobs.length = count := by
    rw [← hbl, List.length_map, ← pairwise₂_length hpw]; simp [sectorsOf]
  have htl : table.length = count + 1 := by
    rw [← htab]
    split
    · rw [encryptBlock_length, offsetsFrom_length, hlen]
    · rw [offsetsFrom_length, hlen]
  have hcl : crcBytes.length = if crcs then count * 4 else 0 := by
    rw [← hcrc]
    split
    · rw [ofDwords_length]; simp [sectorsOf]; omega
    · rfl
  unfold readFileData
  rw [h4, h1, if_neg (by simp)]
  unfold readSectoredFile
  rw [hshift]
  simp only [bind, Except.bind]
  have hfs : (infoOf hi bi ao lc p w).fileSize = p.data.length := rfl
  have hfp : (infoOf hi bi ao lc p w).filePos = ao + p.filePos := rfl
  rw [hfs, hc]
  dsimp only
  have hread : readAt (pre ++ w.bytes ++ post) (infoOf hi bi ao lc p w).filePos ((count + 1) * 4) = .ok (ofDwords table) := by
    have : pre ++ w.bytes ++ post = pre ++ ofDwords table ++ (crcBytes ++
        (finals p.encrypt key 0 blobs).flatten ++ post) := by
      rw [hbytes]; simp
    rw [this]
    exact readAt_mid _ _ _ _ _ (by rw [hfp, hpre]) (by rw [ofDwords_length, htl]; omega)
  rw [hread]
  dsimp only
  have hdec : (if (infoOf hi bi ao lc p w).isEncrypted = true then decryptFileData (ofDwords table)
      (readerKey name ao (infoOf hi bi ao lc p w) (BitVec.ofNat 32 p.data.length) - 1) else ofDwords table) =
      ofDwords (offsetsFrom ds blobs) := by
    rw [h2, ← htab]
    cases henc : p.encrypt with
    | false => rfl
    | true =>
      simp only [if_true]
      rw [hkey henc, ← encryptData_ofDwords, decryptFileData_encryptData]
  rw [hdec, toDwords_ofDwords, h5]
  have hcrcread : (crcs && decide ((count + 1) * 4 + count * 4 ≤ ((offsetsFrom ds blobs).headD 0).toNat)) = true →
      readAt (pre ++ w.bytes ++ post) ((infoOf hi bi ao lc p w).filePos + (count + 1) * 4) (count * 4) = .ok crcBytes := by
    intro h
    rw [Bool.and_eq_true] at h
    rw [h.1, if_pos rfl] at hcl
    have : pre ++ w.bytes ++ post = (pre ++ ofDwords table) ++ crcBytes ++
        ((finals p.encrypt key 0 blobs).flatten ++ post) := by
      rw [hbytes]; simp
    rw [this]
    exact readAt_mid _ _ _ _ _ (by rw [hfp, List.length_append, ofDwords_length, hpre, htl]; omega) hcl.symm
  have hmain : ∀ k, (p.encrypt = true → k = key) →
      readSectors e (pre ++ w.bytes ++ post) (infoOf hi bi ao lc p w) k p.sectorSize 0 0 (offsetsFrom ds blobs)
      = .ok (List.zipWith readBack (sectorsOf p.data p.sectorSize count) stored).flatten := by
    intro k hkk
    have hfin : finals p.encrypt key 0 blobs = finals p.encrypt k 0 blobs := by
      cases henc : p.encrypt with
      | false => rw [finals_false, finals_false]
      | true => rw [hkk henc]
    have : pre ++ w.bytes ++ post = (pre ++ ofDwords table ++ crcBytes) ++
        (finals p.encrypt k 0 blobs).flatten ++ post := by
      rw [hbytes, ← hfin]; simp
    rw [this, ← hbl]
    rw [← hbl] at hlt
    obtain ⟨_, _, hle, _⟩ := divCeil_ok hc
    obtain ⟨_, hsz⟩ := sectorsOf_spec p.sectorSize count p.data 0 hle
    refine readSectors_written h1 h2 hpw hr 0 0 ds _ post ?_ ?_ hlt
    · rw [hfs]; rw [Nat.zero_add] at hsz; exact hsz
    · rw [List.length_append, List.length_append, ofDwords_length, hpre, htl, hcl, hfp, ← hds]; omega
  by_cases hcond : (crcs && decide ((count + 1) * 4 + count * 4 ≤ ((offsetsFrom ds blobs).headD 0).toNat)) = true
  · rw [if_pos hcond, hcrcread hcond]
    exact hmain _ hkey
  · rw [if_neg hcond]
    exact hmain _ hkey

theorem append_inj_iff' {a b c d : List Byte} (h : a.length = c.length) : a ++ b = c ++ d ↔ a = c ∧ b = d :=
  ⟨fun he => List.append_inj he h, fun ⟨h1, h2⟩ => by rw [h1, h2]⟩

/-- What is read back is the data exactly when every compressed sector became strictly shorter. -/
theorem readBack_all {e : Env} {m : Byte} : ∀ {sectors : List (List Byte)} {stored : List (List Byte × Bool)},
    Pairwise₂ (fun x y => storeUnit e m x = .ok y) sectors stored → (∀ x ∈ sectors, RoundTrips e.codecs m x) →
    ((List.zipWith readBack sectors stored).flatten = sectors.flatten ↔
      ∀ x ∈ sectors, ∀ s, storeUnit e m x = .ok (s, true) → s.length < x.length) := by
  intro sectors stored hp
  induction hp with
  | nil => intro _; simp
  | @cons x y xs ys hxy hp ih =>
    obtain ⟨s, b⟩ := y
    intro hr
    have ih := ih (fun x hx => hr x (by simp [hx]))
    have hstored := storeUnit_stored (hr x (by simp)) hxy
    have hback : (readBack x (s, b)).length = x.length := by
      unfold readBack
      split
      · rfl
      · rename_i hn
        rcases hstored with ⟨hb, hs⟩ | ⟨hb, _, hle, _⟩
        · simp [hs]
        · simp only [hb, true_and] at hn; dsimp only; omega
    rw [List.zipWith_cons_cons, List.flatten_cons, List.flatten_cons, append_inj_iff' hback, ih]
    constructor
    · rintro ⟨h1, h2⟩ z hz t ht
      rcases List.mem_cons.mp hz with rfl | hz
      · rw [hxy] at ht
        injection ht with ht; injection ht with ht1 ht2; subst ht1; subst ht2
        refine Classical.byContradiction fun hge => ?_
        unfold readBack at h1
        rw [if_neg (by simp only [true_and]; omega)] at h1
        rcases hstored with ⟨hb, _⟩ | ⟨_, hne, _⟩
        · cases hb
        · exact hne h1
      · exact h2 z hz t ht
    · intro h
      refine ⟨?_, fun z hz => h z (by simp [hz])⟩
      unfold readBack
      split
      · rfl
      · rename_i hn
        rcases hstored with ⟨_, hs⟩ | ⟨hb, _, _, _⟩
        · exact hs
        · subst hb
          exact absurd ⟨rfl, h x (by simp) s hxy⟩ hn

end Mopaq
