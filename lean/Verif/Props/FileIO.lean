import Verif.Lemmas.FileIO
import Verif.Lemmas.Clean
import Verif.Spec.FileIO

/-!
# Reading back what was written (C21-C25)

`readFileData` is what `Archive::read_file` does once the file has been found; `info` is what the tables say about
the file. A file written at `filePos` of an archive that starts at `ao` in the file, described by `info`, is

* at `info.filePos = ao + filePos`,
* `info.compressedSize` and `info.flags` are what `write_file` returned (with the "exists" flag added),
* `info.fileSize` is the length of the data.
-/

namespace Mopaq

/-- `info` describes the file `p` that `write_file` stored as `w`, in an archive starting at `ao`. -/
structure Describes (info : FileInfo) (ao : Nat) (p : FileWriteParams) (w : Written) : Prop where
  filePos : info.filePos = ao + p.filePos
  compressedSize : info.compressedSize = w.size
  fileSize : info.fileSize = p.data.length
  flags : info.flags = w.flags ||| 0x80000000#32

theorem Describes.infoOf {info : FileInfo} {ao : Nat} {p : FileWriteParams} {w : Written} (h : Describes info ao p w) :
    info = infoOf info.hashIndex info.blockIndex ao info.locale p w := by
  obtain ⟨h1, h2, h3, h4⟩ := h
  cases info
  simp only at h1 h2 h3 h4
  subst h1 h2 h3 h4
  rfl

theorem roundTrips_of_lossless {e : Codecs} (he : e.Lawful) {m : Byte} {d : List Byte} (h : Spec.LosslessMethod m d) :
    RoundTrips e m d :=
  fun c hc => C15_round_trip_partial e he d c m h.1 h.2.1 h.2.2.1 h.2.2.2.1 h.2.2.2.2 hc

theorem fileKey_sameName {a b : List Byte} (h : Spec.sameName (a.map BitVec.toNat) (b.map BitVec.toNat)) :
    hashString a htFileKey = hashString b htFileKey := (C04_case_and_separator a b h).1 htFileKey (by decide)

theorem sameName_refl : ∀ l : List Nat, Spec.sameName l l
  | [] => trivial
  | a :: l => ⟨.inl rfl, sameName_refl l⟩

/-! ## C24 -/

/-- C24: the key with which the reader decrypts a file is the key with which it was encrypted: for every name, any
spelling of it (up to case and separator) when reading, every position of the file and of the archive, every size and
flags, and whether the key depends on the position or not. -/
theorem C24_key_agreement (name name' : List Byte) (ao filePos : Nat) (size : Nat) (fix : Bool) (info : FileInfo)
    (hn : Spec.sameName (name'.map BitVec.toNat) (name.map BitVec.toNat)) (hpos : info.filePos = ao + filePos)
    (henc : info.isEncrypted = true) (hfix : info.hasFixKey = fix) (flags : U32)
    (hflags : hasBits flags 0x20000#32 = fix) :
    readerKey name' ao info (BitVec.ofNat 32 size) = calculateFileKey name filePos (BitVec.ofNat 32 size) flags := by
  unfold readerKey calculateFileKey
  have : hasBits flags flagFixKey = fix := hflags
  rw [henc, hfix, this, hpos, Nat.add_sub_cancel_left, fileKey_sameName hn, if_pos rfl]

/-- C24: the key is the name hash of type 3, moved by the position and combined with the size when the file asks
for it. -/
theorem C24_key_value (name : List Byte) (filePos size : Nat) (flags : U32) :
    (calculateFileKey name filePos (BitVec.ofNat 32 size) flags).toNat =
      let base := Spec.nameHash 3 (name.map BitVec.toNat)
      if hasBits flags 0x20000#32 then ((base + filePos) % 2 ^ 32) ^^^ (size % 2 ^ 32) else base := by
  unfold calculateFileKey
  have hb : (hashString name htFileKey).toNat = Spec.nameHash 3 (name.map BitVec.toNat) := hashString_spec 3 (by decide) name
  have hf : flagFixKey = 0x20000#32 := by decide
  dsimp only
  rw [hf]
  split
  · rw [BitVec.toNat_xor, BitVec.toNat_add, hb, BitVec.toNat_ofNat, BitVec.toNat_ofNat, Nat.add_mod_mod]
  · exact hb

example : Spec.sameName ((ascii "War3/Units.SLK").map BitVec.toNat) ((ascii "war3\\units.slk").map BitVec.toNat) := by
  simp [ascii, Spec.sameName, Spec.sameChar]

/-! ## C21 -/

/-- C21: a file of at most one sector is read back byte for byte, wherever it is stored, whatever surrounds it,
whatever its name, with or without encryption, position-dependent key and checksum; also under another spelling of the
name. The part left out: methods that lose data (see C15). -/
theorem C21_single_unit_round_trip_partial (e : Env) (he : e.codecs.Lawful) (crcs : Bool) (p : FileWriteParams)
    (w : Written) (hw : writeFile e crcs p = .ok w) (hlen : p.data.length ≤ p.sectorSize)
    (hm : Spec.LosslessMethod p.compression p.data) (info : FileInfo) (ao : Nat) (hi : Describes info ao p w)
    (pre post : List Byte) (hpre : pre.length = ao + p.filePos) (shift : U16) (name : List Byte)
    (hn : Spec.sameName (name.map BitVec.toNat) (p.name.map BitVec.toNat)) :
    readFileData e (pre ++ w.bytes ++ post) ao shift name info (BitVec.ofNat 32 p.data.length) p.data.length
      = .ok p.data := by
  unfold writeFile at hw
  rw [if_pos hlen] at hw
  rw [hi.infoOf]
  obtain ⟨s, b, hs, h⟩ := single_exact hw pre post info.hashIndex info.blockIndex ao info.locale shift name
    (fileKey_sameName hn) hpre
  rw [h]
  rcases storeUnit_stored (roundTrips_of_lossless he hm) hs with ⟨hb, _⟩ | ⟨hb, _, _, body, hbody, hd⟩
  · subst hb; rfl
  · subst hb
    rw [hbody, if_pos rfl, List.tail_cons, hd]
    simp [bind, Except.bind, pure, Except.pure]

/-- C21: for every method, also lossy ones: a file of at most one sector is read back if and only if it was stored as
it is, or the stored bytes after the method byte decompress to the data. So encryption, keys, checksums and positions
never cost data. -/
theorem C21_single_unit_exact (e : Env) (crcs : Bool) (p : FileWriteParams)
    (w : Written) (hw : writeFile e crcs p = .ok w) (hlen : p.data.length ≤ p.sectorSize)
    (info : FileInfo) (ao : Nat) (hi : Describes info ao p w)
    (pre post : List Byte) (hpre : pre.length = ao + p.filePos) (shift : U16) (name : List Byte)
    (hn : Spec.sameName (name.map BitVec.toNat) (p.name.map BitVec.toNat)) :
    readFileData e (pre ++ w.bytes ++ post) ao shift name info (BitVec.ofNat 32 p.data.length) p.data.length
      = .ok p.data ↔
    (p.compression = 0#8 ∨ p.data = [] ∨ ∃ c, compress e.codecs p.data p.compression = .ok c ∧
      (c = p.data ∨ decompress e.codecs c.tail p.compression p.data.length = .ok p.data)) := by
  unfold writeFile at hw
  rw [if_pos hlen] at hw
  rw [hi.infoOf]
  obtain ⟨s, b, hs, h⟩ := single_exact hw pre post info.hashIndex info.blockIndex ao info.locale shift name
    (fileKey_sameName hn) hpre
  rw [h]
  have hs' := hs
  unfold storeUnit at hs'
  rcases storeUnit_cases hs with ⟨hb, hsd⟩ | ⟨hb, hne, hm0, hd0, hc⟩
  · subst hb; subst hsd
    simp only [Bool.false_eq_true, if_false, true_iff]
    split at hs'
    · obtain ⟨c, hc, hs'⟩ := bind_eq_ok.mp hs'
      split at hs'
      · injection hs' with hs'; injection hs' with _ hs'; cases hs'
      · rename_i hcd
        exact .inr (.inr ⟨c, hc, .inl (Classical.not_not.mp hcd)⟩)
    · rename_i hcond
      by_cases h1 : p.compression = 0#8
      · exact .inl h1
      · exact .inr (.inl (Classical.not_not.mp fun h2 => hcond ⟨h1, h2⟩))
  · subst hb
    rw [if_pos rfl]
    constructor
    · intro h'
      obtain ⟨d, hd, h'⟩ := bind_eq_ok.mp h'
      refine .inr (.inr ⟨s, hc, .inr ?_⟩)
      rw [hd]
      split at h'
      · cases h'
      · exact h'
    · rintro (h' | h' | ⟨c, hc', h'⟩)
      · exact absurd h' hm0
      · exact absurd h' hd0
      · rw [hc] at hc'
        injection hc' with hc'; subst hc'
        rcases h' with h' | h'
        · exact absurd h' hne
        · rw [h']
          simp [bind, Except.bind, pure, Except.pure]

/-- A codec environment for examples: the toy codecs and Adler-32. -/
def toyEnv : Env := { codecs := toyCodecs, adler := fun d => BitVec.ofNat 32 (Spec.adler32 d) }

/-- A file of one sector, compressed, encrypted with a position-dependent key, with a checksum. -/
def sampleFile : FileWriteParams :=
  { data := List.replicate 40 7#8, name := ascii "a/B.txt", compression := 0x02#8, encrypt := true, useFixKey := true,
    sectorSize := 512, filePos := 32 }

example : Spec.LosslessMethod sampleFile.compression sampleFile.data := by
  refine ⟨by decide, by decide, by decide, ?_, by decide⟩
  rintro (h | h) <;> exact absurd h (by decide)
/-- Writing it succeeds and stores less than the data. -/
example : ∃ w, writeFile toyEnv true sampleFile = .ok w ∧ w.size = 4 ∧ w.bytes.length = 8 := by
  have hs : storeUnit toyEnv sampleFile.compression sampleFile.data = .ok ([2#8, 1#8, 7#8, 40#8], true) := by
    decide +kernel
  have hw : ∃ w, writeSingle toyEnv true sampleFile = .ok w := by
    unfold writeSingle
    rw [hs]
    exact ⟨_, rfl⟩
  obtain ⟨w, hw⟩ := hw
  refine ⟨w, by unfold writeFile; rw [if_pos (by decide), hw], ?_⟩
  obtain ⟨s, b, hs', _, hsz, hb⟩ := writeSingle_eq hw
  rw [hs] at hs'
  injection hs' with hs'; injection hs' with h1 h2; subst h1
  refine ⟨hsz, ?_⟩
  rw [hb, List.length_append, final_length]
  rfl

/-! ## C22 -/

theorem mem_sectorsOf {data : List Byte} {ss count : Nat} (hc : divCeil data.length ss = .ok count) (x : List Byte) :
    x ∈ sectorsOf data ss count ↔ Spec.IsSector ss data x := by
  obtain ⟨hss, hcount, _⟩ := divCeil_ok hc
  unfold sectorsOf Spec.IsSector
  rw [List.mem_map]
  have hlt : ∀ i, i < count ↔ i * ss < data.length := by
    intro i
    rw [hcount, Nat.lt_iff_add_one_le, Nat.le_div_iff_mul_le hss, Nat.add_one_mul]
    omega
  constructor
  · rintro ⟨i, hi, rfl⟩
    exact ⟨i, (hlt i).mp (List.mem_range.mp hi), rfl⟩
  · rintro ⟨i, hi, rfl⟩
    exact ⟨i, List.mem_range.mpr ((hlt i).mpr hi), rfl⟩

theorem noLongZeroRun_sector {ss : Nat} {d x : List Byte} (h : Spec.NoLongZeroRun d) (hx : Spec.IsSector ss d x) :
    Spec.NoLongZeroRun x := by
  obtain ⟨i, _, rfl⟩ := hx
  intro before after hba b hb
  apply h (d.take (i * ss) ++ before) (after ++ (d.drop (i * ss)).drop ss)
  · have h1 : d = d.take (i * ss) ++ ((d.drop (i * ss)).take ss ++ (d.drop (i * ss)).drop ss) := by
      rw [List.take_append_drop, List.take_append_drop]
    rw [hba] at h1
    have h2 : d.take (i * ss) ++ (before ++ List.replicate 127 0#8 ++ after ++ (d.drop (i * ss)).drop ss) =
        d.take (i * ss) ++ before ++ List.replicate 127 0#8 ++ (after ++ (d.drop (i * ss)).drop ss) := by
      simp only [List.append_assoc]
    exact h1.trans h2
  · simp [hb]

theorem sectorSizeOf_512 {shift : U16} {ss : Nat} (h : sectorSizeOf shift = .ok ss) (h0 : 0 < ss) : 512 ≤ ss := by
  unfold sectorSizeOf at h
  split at h
  · rename_i hlt
    injection h with h
    subst h
    by_cases hs : shift.toNat ≤ 54
    · have h1 : 2 ^ shift.toNat ≤ 2 ^ 54 := Nat.pow_le_pow_right (by decide) hs
      have h2 : 1 ≤ 2 ^ shift.toNat := Nat.one_le_two_pow
      rw [Nat.mod_eq_of_lt (by omega)]
      omega
    · have : 512 * 2 ^ shift.toNat % 2 ^ 64 = 0 := by
        have : 512 * 2 ^ shift.toNat = 2 ^ 64 * 2 ^ (shift.toNat - 55) := by
          rw [show 512 = 2 ^ 9 by decide, ← Nat.pow_add, ← Nat.pow_add]
          congr 1; omega
        rw [this, Nat.mul_mod_right]
      omega
  · cases h

theorem flatten_stored_le {e : Env} {m : Byte} : ∀ {sectors : List (List Byte)} {stored : List (List Byte × Bool)},
    Pairwise₂ (fun x y => storeUnit e m x = .ok y) sectors stored →
    (stored.map (·.1)).flatten.length ≤ sectors.flatten.length := by
  intro sectors stored hp
  induction hp with
  | nil => simp
  | @cons x y xs ys hxy hp ih =>
    obtain ⟨s, b⟩ := y
    have : s.length ≤ x.length := by
      rcases storeUnit_cases hxy with ⟨_, h⟩ | ⟨_, hne, _, _, hc⟩
      · rw [h]; exact Nat.le_refl _
      · rcases C14_never_grows _ _ _ _ hc with h | ⟨h, _⟩
        · exact absurd h hne
        · exact h
    simp only [List.map_cons, List.flatten_cons, List.length_append]
    omega

theorem any_stored {e : Env} {m : Byte} : ∀ {sectors : List (List Byte)} {stored : List (List Byte × Bool)},
    Pairwise₂ (fun x y => storeUnit e m x = .ok y) sectors stored →
    (stored.any (·.2) = true ↔ ∃ x ∈ sectors, ∃ s, storeUnit e m x = .ok (s, true)) := by
  intro sectors stored hp
  induction hp with
  | nil => simp
  | @cons x y xs ys hxy hp ih =>
    obtain ⟨s, b⟩ := y
    rw [List.any_cons, Bool.or_eq_true, ih]
    constructor
    · rintro (h | ⟨x', hx', s', hs'⟩)
      · dsimp only at h; subst h; exact ⟨x, by simp, s, hxy⟩
      · exact ⟨x', by simp [hx'], s', hs'⟩
    · rintro ⟨x', hx', s', hs'⟩
      rcases List.mem_cons.mp hx' with rfl | hx'
      · rw [hxy] at hs'
        injection hs' with hs'; injection hs' with _ hs'
        exact .inl hs'
      · exact .inr ⟨x', hx', s', hs'⟩

theorem storeUnit_true_iff {e : Env} {m : Byte} {x s : List Byte} (hm0 : m = 0#8 ∨ x = [] → compress e.codecs x m = .ok x) :
    storeUnit e m x = .ok (s, true) ↔ compress e.codecs x m = .ok s ∧ s ≠ x := by
  constructor
  · intro h
    rcases storeUnit_cases h with ⟨hb, _⟩ | ⟨_, hne, _, _, hc⟩
    · cases hb
    · exact ⟨hc, hne⟩
  · rintro ⟨hc, hne⟩
    unfold storeUnit
    by_cases h : m ≠ 0#8 ∧ x ≠ []
    · rw [if_pos h, hc]
      simp only [bind, Except.bind, ne_eq, hne, not_false_eq_true, if_true]
      rfl
    · have : m = 0#8 ∨ x = [] := by
        by_cases h1 : m = 0#8
        · exact .inl h1
        · exact .inr (Classical.not_not.mp fun h2 => h ⟨h1, h2⟩)
      rw [hm0 this] at hc
      injection hc with hc
      exact absurd hc.symm hne

/-- A sector of `data` is stored compressed: compression gave something else than the sector. -/
def CompressedSector (e : Codecs) (m : Byte) (x c : List Byte) : Prop := compress e x m = .ok c ∧ c ≠ x

theorem compress_zero (e : Codecs) (x : List Byte) : compress e x 0#8 = .ok x := by
  unfold compress
  rw [show compressInternal e x 0#8 = .ok x from rfl]
  simp [bind, Except.bind, pure, Except.pure]

theorem storeUnit_true {e : Env} {m : Byte} {x s : List Byte} (hx : x ≠ []) :
    storeUnit e m x = .ok (s, true) ↔ CompressedSector e.codecs m x s := by
  apply storeUnit_true_iff
  rintro (h | h)
  · subst h; exact compress_zero _ _
  · exact absurd h hx

theorem isSector_ne {ss : Nat} {d x : List Byte} (hss : 0 < ss) (h : Spec.IsSector ss d x) : x ≠ [] := by
  obtain ⟨i, hi, rfl⟩ := h
  intro h
  have := congrArg List.length h
  rw [List.length_take, List.length_drop, List.length_nil] at this
  omega

/-- C22: a file of more than one sector is read back byte for byte **if and only if** at least one sector is stored
compressed and every sector stored compressed is strictly shorter than the sector. For every name (in any spelling),
position, surrounding bytes, sector size, encryption, key and checksum option. The other cases are the defects below.
Left out: methods that lose data (C15) and files at the 4 GiB limit of the offset table. -/
theorem C22_multi_sector_exact_partial (e : Env) (he : e.codecs.Lawful) (crcs : Bool) (p : FileWriteParams)
    (w : Written) (hw : writeFile e crcs p = .ok w) (hlen : p.sectorSize < p.data.length) (shift : U16)
    (hss : sectorSizeOf shift = .ok p.sectorSize) (hsize : p.data.length + p.data.length / 64 + 12 < 2 ^ 32)
    (hm : Spec.LosslessMethod p.compression p.data) (info : FileInfo) (ao : Nat) (hi : Describes info ao p w)
    (pre post : List Byte) (hpre : pre.length = ao + p.filePos) (name : List Byte)
    (hn : Spec.sameName (name.map BitVec.toNat) (p.name.map BitVec.toNat)) :
    readFileData e (pre ++ w.bytes ++ post) ao shift name info (BitVec.ofNat 32 p.data.length) p.data.length
      = .ok p.data ↔
    (∃ x c, Spec.IsSector p.sectorSize p.data x ∧ CompressedSector e.codecs p.compression x c) ∧
    (∀ x c, Spec.IsSector p.sectorSize p.data x → CompressedSector e.codecs p.compression x c → c.length < x.length) := by
  unfold writeFile at hw
  rw [if_neg (by omega)] at hw
  rw [hi.infoOf]
  obtain ⟨count, stored, hc, hs, hf, hread⟩ := sectored_read hw pre post info.hashIndex info.blockIndex ao info.locale
    shift name (fileKey_sameName hn) hpre hss
  obtain ⟨hss0, hcount, hle, hpos, hge⟩ := divCeil_ok hc
  have h512 := sectorSizeOf_512 hss hss0
  have hpw := mapM_ok hs
  obtain ⟨hflat, _⟩ := sectorsOf_spec p.sectorSize count p.data 0 hle
  have hrt : ∀ x ∈ sectorsOf p.data p.sectorSize count, RoundTrips e.codecs p.compression x := by
    intro x hx
    have hx := (mem_sectorsOf hc x).mp hx
    refine roundTrips_of_lossless he ⟨hm.1, hm.2.1, hm.2.2.1, fun h => noLongZeroRun_sector (hm.2.2.2.1 h) hx, ?_⟩
    obtain ⟨i, _, rfl⟩ := hx
    have h61 := hm.2.2.2.2
    rw [List.length_take, List.length_drop]
    omega
  have htot := flatten_stored_le hpw
  rw [hflat] at htot
  have hcb : (count - 1) * 512 ≤ p.data.length := Nat.le_trans (Nat.mul_le_mul_left _ h512) hge
  have hbound : (count + 1) * 4 + (if crcs then count * 4 else 0) + (stored.map (·.1)).flatten.length < 2 ^ 32 := by
    split <;> omega
  have hany : stored.any (·.2) = true ↔
      ∃ x c, Spec.IsSector p.sectorSize p.data x ∧ CompressedSector e.codecs p.compression x c := by
    rw [any_stored hpw]
    constructor
    · rintro ⟨x, hx, c, hc'⟩
      have hx' := (mem_sectorsOf hc x).mp hx
      exact ⟨x, c, hx', (storeUnit_true (isSector_ne hss0 hx')).mp hc'⟩
    · rintro ⟨x, c, hx, hc'⟩
      exact ⟨x, (mem_sectorsOf hc x).mpr hx, c, (storeUnit_true (isSector_ne hss0 hx)).mpr hc'⟩
  cases hb : stored.any (·.2) with
  | true =>
    rw [hread hb hrt hbound]
    have h1 := readBack_all hpw hrt
    rw [hflat] at h1
    constructor
    · intro h
      injection h with h
      refine ⟨hany.mp hb, fun x c hx hxc => ?_⟩
      exact h1.mp h x ((mem_sectorsOf hc x).mpr hx) c ((storeUnit_true (isSector_ne hss0 hx)).mpr hxc)
    · rintro ⟨_, h⟩
      rw [h1.mpr]
      intro x hx c hxc
      have hx' := (mem_sectorsOf hc x).mp hx
      exact h x c hx' ((storeUnit_true (isSector_ne hss0 hx')).mp hxc)
  | false =>
    constructor
    · intro h
      exfalso
      obtain ⟨count', stored', hc', hs', hf', hrest⟩ := writeSectored_eq hw
      rw [hc] at hc'; injection hc' with hc'; subst hc'
      rw [hs] at hs'; injection hs' with hs'; subst hs'
      obtain ⟨hsize', _⟩ := hrest hbound
      rw [hb] at hf
      obtain ⟨h1, h2, h3, h4, h5⟩ := infoOf_bits info.hashIndex info.blockIndex ao info.locale p w hf
      unfold readFileData at h
      rw [h1, h4, h5] at h
      dsimp only at h
      rw [if_pos (show (false || !false) = true from rfl)] at h
      obtain ⟨raw, hraw, h⟩ := bind_eq_ok.mp h
      have hrl := readAt_length hraw
      simp only [Bool.and_false, Bool.false_eq_true, if_false] at h
      injection h with h
      have hl : raw.length = p.data.length := by
        have := congrArg List.length h
        split at this
        · rwa [decryptFileData_length] at this
        · exact this
      have hfl : (stored.map (·.1)).flatten.length = p.data.length := by
        have : ∀ {sectors : List (List Byte)} {stored : List (List Byte × Bool)},
            Pairwise₂ (fun x y => storeUnit e p.compression x = .ok y) sectors stored → stored.any (·.2) = false →
            stored.map (·.1) = sectors := by
          intro sectors stored hp
          induction hp with
          | nil => intro _; rfl
          | @cons x y xs ys hxy hp ih =>
            obtain ⟨s, b⟩ := y
            intro h
            rw [List.any_cons, Bool.or_eq_false_iff] at h
            rcases storeUnit_cases hxy with ⟨_, h'⟩ | ⟨h', _⟩
            · rw [List.map_cons, ih h.2, h']
            · dsimp only at h; rw [h'] at h; cases h.1
        rw [this hpw hb, hflat]
      have : (infoOf info.hashIndex info.blockIndex ao info.locale p w).compressedSize = w.size := rfl
      rw [this, hsize', hfl] at hrl
      omega
    · rintro ⟨h, _⟩
      rw [hany.mpr h] at hb
      cases hb

/-- C22 fails: a file of more than one sector stored without compression never reads back as its data (the reader
returns the sector offset table as part of the file), whatever the name, position, encryption and checksum options. -/
theorem C22_stored_multi_sector_unreadable (e : Env) (he : e.codecs.Lawful) (crcs : Bool) (p : FileWriteParams)
    (w : Written) (hw : writeFile e crcs p = .ok w) (hlen : p.sectorSize < p.data.length) (shift : U16)
    (hss : sectorSizeOf shift = .ok p.sectorSize) (hsize : p.data.length + p.data.length / 64 + 12 < 2 ^ 32)
    (hm : p.compression = 0#8) (info : FileInfo) (ao : Nat) (hi : Describes info ao p w)
    (pre post : List Byte) (hpre : pre.length = ao + p.filePos) :
    readFileData e (pre ++ w.bytes ++ post) ao shift p.name info (BitVec.ofNat 32 p.data.length) p.data.length
      ≠ .ok p.data := by
  have hm' : Spec.LosslessMethod p.compression p.data := by
    rw [hm]; exact ⟨by decide, by decide, by decide, fun h => by rcases h with h | h <;> exact absurd h (by decide), by omega⟩
  have hn := sameName_refl (p.name.map BitVec.toNat)
  rw [Ne, C22_multi_sector_exact_partial e he crcs p w hw hlen shift hss hsize hm' info ao hi pre post hpre p.name hn]
  rintro ⟨⟨x, c, _, hc, hne⟩, _⟩
  rw [hm, compress_zero] at hc
  injection hc with hc
  exact hne hc.symm

/-- C22 fails, exactly: without compression, encryption and checksums the reader returns the offset table followed by
the data. -/
theorem C22_offset_table_returned (e : Env) (p : FileWriteParams) (w : Written) (hw : writeFile e false p = .ok w)
    (hlen : p.sectorSize < p.data.length) (hm : p.compression = 0#8) (henc : p.encrypt = false)
    (info : FileInfo) (ao : Nat) (hi : Describes info ao p w) (pre post : List Byte)
    (hpre : pre.length = ao + p.filePos) (shift : U16) (name : List Byte) (size : U32) (actual : Nat) :
    ∃ table, table.length = 4 * ((p.data.length + p.sectorSize - 1) / p.sectorSize + 1) ∧
      readFileData e (pre ++ w.bytes ++ post) ao shift name info size actual = .ok (table ++ p.data) := by
  unfold writeFile at hw
  rw [if_neg (by omega)] at hw
  have hi' := hi.infoOf
  unfold writeSectored at hw
  obtain ⟨count, hc, hw⟩ := bind_eq_ok.mp hw
  obtain ⟨stored, hs, hw⟩ := bind_eq_ok.mp hw
  obtain ⟨_, hcount, hle, _⟩ := divCeil_ok hc
  obtain ⟨hflat, _⟩ := sectorsOf_spec p.sectorSize count p.data 0 hle
  have hpw := mapM_ok hs
  have hraw : ∀ {sectors : List (List Byte)} {stored : List (List Byte × Bool)},
      Pairwise₂ (fun x y => storeUnit e p.compression x = .ok y) sectors stored →
      stored.map (·.1) = sectors ∧ stored.any (·.2) = false := by
    intro sectors stored hp
    induction hp with
    | nil => exact ⟨rfl, rfl⟩
    | @cons x y xs ys hxy hp ih =>
      obtain ⟨s, b⟩ := y
      rcases storeUnit_cases hxy with ⟨hb, h'⟩ | ⟨_, _, h', _⟩
      · rw [List.map_cons, ih.1, h', List.any_cons, ih.2, hb]; exact ⟨rfl, rfl⟩
      · exact absurd hm h'
  obtain ⟨hmap, hany⟩ := hraw hpw
  have hcl : (sectorsOf p.data p.sectorSize count).length = count := by simp [sectorsOf]
  rw [hmap, hany, henc] at hw
  simp only [hflat, Bool.false_eq_true, if_false, Nat.add_zero, List.append_nil] at hw
  injection hw with hw
  refine ⟨ofDwords (offsetsFrom ((count + 1) * 4) (sectorsOf p.data p.sectorSize count)), ?_, ?_⟩
  · rw [ofDwords_length, offsetsFrom_length, hcl, hcount]
  · have hf : w.flags = mkFlags false false false false false := by rw [← hw]; rfl
    have hsz : w.size = (count + 1) * 4 + p.data.length := by rw [← hw]
    have hb : w.bytes = ofDwords (offsetsFrom ((count + 1) * 4) (sectorsOf p.data p.sectorSize count)) ++ p.data := by
      rw [← hw]
    obtain ⟨h1, h2, h3, h4, h5⟩ := infoOf_bits info.hashIndex info.blockIndex ao info.locale p w hf
    rw [← hi'] at h1 h2 h4 h5
    unfold readFileData
    rw [h1, h2, h4, h5]
    dsimp only
    rw [if_pos (show (false || !false) = true from rfl), hb,
      readAt_mid pre _ post _ _ (by rw [hi.filePos, hpre]) (by
        rw [hi.compressedSize, hsz, List.length_append, ofDwords_length, offsetsFrom_length, hcl]; omega)]
    rfl

/-- Two sectors: 512 bytes that do not compress and 100 that do. -/
def twoSectors (n : Nat) (m : Byte) : FileWriteParams :=
  { data := List.replicate (512 + n) 7#8, name := ascii "a", compression := m, encrypt := false, useFixKey := false,
    sectorSize := 512, filePos := 32 }

theorem twoSectors_isSector {n : Nat} (m : Byte) (h0 : 0 < n) (hn : n ≤ 512) (x : List Byte) :
    Spec.IsSector 512 (twoSectors n m).data x ↔ x = List.replicate 512 7#8 ∨ x = List.replicate n 7#8 := by
  unfold Spec.IsSector twoSectors
  simp only [List.length_replicate, List.drop_replicate, List.take_replicate]
  constructor
  · rintro ⟨i, hi, rfl⟩
    have : i = 0 ∨ i = 1 := by omega
    rcases this with rfl | rfl
    · left
      have : min 512 (512 + n - 0 * 512) = 512 := by omega
      rw [this]
    · right
      have : min 512 (512 + n - 1 * 512) = n := by omega
      rw [this]
  · rintro (rfl | rfl)
    · refine ⟨0, by omega, ?_⟩
      have : min 512 (512 + n - 0 * 512) = 512 := by omega
      rw [this]
    · refine ⟨1, by omega, ?_⟩
      have : min 512 (512 + n - 1 * 512) = n := by omega
      rw [this]

theorem writeSectored_unencrypted {e : Env} {crcs : Bool} {p : FileWriteParams} {count : Nat} {stored}
    (henc : p.encrypt = false) (hc : divCeil p.data.length p.sectorSize = .ok count)
    (hs : (sectorsOf p.data p.sectorSize count).mapM (storeUnit e p.compression) = .ok stored) :
    ∃ w, writeSectored e crcs p = .ok w := by
  unfold writeSectored
  rw [hc]
  simp only [bind, Except.bind]
  rw [hs, henc]
  exact ⟨_, rfl⟩

/-- The condition of `C22_multi_sector_exact_partial` is met by a file of 612 bytes … -/
example : ∃ w, writeFile toyEnv true (twoSectors 100 0x02#8) = .ok w := by
  have h : (sectorsOf (twoSectors 100 0x02#8).data 512 2).mapM (storeUnit toyEnv 0x02#8) =
      .ok [(List.replicate 512 7#8, false), ([2#8, 1#8, 7#8, 100#8], true)] := by decide +kernel
  unfold writeFile
  rw [if_neg (by decide +kernel)]
  exact writeSectored_unencrypted (count := 2) rfl (by decide +kernel) h
example : (∃ x c, Spec.IsSector 512 (twoSectors 100 0x02#8).data x ∧ CompressedSector toyCodecs 0x02#8 x c) ∧
    (∀ x c, Spec.IsSector 512 (twoSectors 100 0x02#8).data x → CompressedSector toyCodecs 0x02#8 x c →
      c.length < x.length) := by
  have h1 : compress toyCodecs (List.replicate 512 7#8) 0x02#8 = .ok (List.replicate 512 7#8) := by decide +kernel
  have h2 : compress toyCodecs (List.replicate 100 7#8) 0x02#8 = .ok [2#8, 1#8, 7#8, 100#8] := by decide +kernel
  refine ⟨⟨_, _, (twoSectors_isSector _ (by decide) (by decide) _).mpr (.inr rfl), h2, by decide +kernel⟩, ?_⟩
  intro x c hx ⟨hc, hne⟩
  rcases (twoSectors_isSector _ (by decide) (by decide) _).mp hx with rfl | rfl
  · rw [h1] at hc; injection hc with hc; exact absurd hc.symm hne
  · rw [h2] at hc; injection hc with hc; rw [← hc]; decide +kernel
/-- … and not met by one of 516 bytes, whose last sector compresses to as many bytes as it has: it is not read back. -/
example : ∃ x c, Spec.IsSector 512 (twoSectors 4 0x02#8).data x ∧ CompressedSector toyCodecs 0x02#8 x c ∧
    ¬ c.length < x.length :=
  ⟨List.replicate 4 7#8, [2#8, 1#8, 7#8, 4#8], (twoSectors_isSector _ (by decide) (by decide) _).mpr (.inr rfl),
    ⟨by decide +kernel, by decide⟩, by decide⟩

/-! ## C23 -/

/-- C23, the part that holds: when a single-unit file carries a checksum, whatever the archive contains and whatever
key is used, data is only returned if its checksum is the one stored behind the file. Missing: files of several
sectors, see `C23_sector_checksums_ignored`. -/
theorem C23_single_unit_checked_partial (e : Env) (f : List Byte) (ao : Nat) (shift : U16) (name : List Byte)
    (info : FileInfo) (size : U32) (actual : Nat) (hs : info.isSingleUnit = true) (hc : info.hasSectorCrc = true)
    (d : List Byte) (h : readFileData e f ao shift name info size actual = .ok d) :
    ∃ stored, readAt f (info.filePos + info.compressedSize) 4 = .ok stored ∧ e.adler d = ofLe32 stored := by
  unfold readFileData at h
  dsimp only at h
  rw [hs, hc] at h
  simp only [Bool.true_or, if_true, Bool.and_true] at h
  obtain ⟨raw, hraw, h⟩ := bind_eq_ok.mp h
  obtain ⟨stored, hst, h⟩ := bind_eq_ok.mp h
  refine ⟨stored, hst, ?_⟩
  generalize (if info.isEncrypted = true then decryptFileData raw (readerKey name ao info size) else raw) = data at h
  cases hcomp : info.isCompressed with
  | false =>
    rw [hcomp] at h
    simp only [Bool.false_eq_true, if_false] at h
    obtain ⟨x, hx, h⟩ := bind_eq_ok.mp h
    injection hx with hx
    subst hx
    by_cases ha : e.adler data = ofLe32 stored
    · rw [if_neg (by simp [ha])] at h
      injection h with h
      rw [← h, ha]
    · rw [if_pos ha] at h
      cases h
  | true =>
    rw [hcomp] at h
    simp only [if_true] at h
    obtain ⟨⟨m, body⟩, hm, h⟩ := bind_eq_ok.mp h
    dsimp only at h
    obtain ⟨x, hx, h⟩ := bind_eq_ok.mp h
    by_cases ha : e.adler x = ofLe32 stored
    · rw [if_neg (by simp [ha])] at h
      have hne : data ≠ [] := by
        intro h0; rw [h0] at hm; cases hm
      rw [if_pos hne, hm] at h
      simp only [bind, Except.bind] at h
      rw [hx] at h
      injection h with h
      rw [← h, ha]
    · rw [if_pos ha] at h
      cases h

theorem adlerSums_fst (d : List Byte) : ∀ a b : Nat, (Spec.adlerSums (a % 65521, b) d).1 =
    (a + (d.map BitVec.toNat).sum) % 65521 := by
  induction d with
  | nil => intro a b; simp [Spec.adlerSums]
  | cons x xs ih =>
    intro a b
    rw [Spec.adlerSums]
    rw [Nat.mod_add_mod, ih]
    simp only [List.map_cons, List.sum_cons]
    rw [Nat.add_assoc]

theorem adlerSums_lt (d : List Byte) : ∀ a b : Nat, a < 65521 → b < 65521 →
    (Spec.adlerSums (a, b) d).1 < 65521 ∧ (Spec.adlerSums (a, b) d).2 < 65521 := by
  induction d with
  | nil => intro a b ha hb; exact ⟨ha, hb⟩
  | cons x xs ih =>
    intro a b _ _
    rw [Spec.adlerSums]
    exact ih _ _ (Nat.mod_lt _ (by decide)) (Nat.mod_lt _ (by decide))

theorem adler32_mod (d : List Byte) : Spec.adler32 d % 65536 = (1 + (d.map BitVec.toNat).sum) % 65521 ∧
    Spec.adler32 d < 2 ^ 32 := by
  have h1 := adlerSums_fst d 1 0
  have h2 := adlerSums_lt d 1 0 (by decide) (by decide)
  rw [Nat.mod_eq_of_lt (by decide)] at h1
  unfold Spec.adler32
  generalize Spec.adlerSums (1, 0) d = s at *
  obtain ⟨a, b⟩ := s
  dsimp only at *
  omega

/-- Changing one byte changes Adler-32. -/
theorem adler32_byte (a b : List Byte) (x y : Byte) (hxy : x ≠ y) :
    Spec.adler32 (a ++ x :: b) ≠ Spec.adler32 (a ++ y :: b) := by
  intro h
  have hne : x.toNat ≠ y.toNat := fun h => hxy (BitVec.eq_of_toNat_eq h)
  have h1 := (adler32_mod (a ++ x :: b)).1
  have h2 := (adler32_mod (a ++ y :: b)).1
  rw [h] at h1
  rw [h1] at h2
  simp only [List.map_append, List.map_cons, List.sum_append, List.sum_cons] at h2
  have := x.isLt; have := y.isLt
  omega

/-- C23: if the checksum is Adler-32, changing any single byte of the stored data of an uncompressed, unencrypted
single-unit file makes reading fail with a checksum error. -/
theorem C23_byte_change_detected (e : Env) (hadler : ∀ d, (e.adler d).toNat = Spec.adler32 d) (p : FileWriteParams)
    (w : Written) (hw : writeFile e true p = .ok w) (hlen : p.data.length ≤ p.sectorSize)
    (hm : p.compression = 0#8) (henc : p.encrypt = false) (info : FileInfo) (ao : Nat) (hi : Describes info ao p w)
    (pre post : List Byte) (hpre : pre.length = ao + p.filePos) (shift : U16) (name : List Byte) (size : U32)
    (a b : List Byte) (x y : Byte) (hd : p.data = a ++ x :: b) (hxy : x ≠ y) :
    ∃ crc, w.bytes = (a ++ x :: b) ++ crc ∧
      readFileData e (pre ++ ((a ++ y :: b) ++ crc) ++ post) ao shift name info size p.data.length
        = .error .checksumMismatch := by
  unfold writeFile at hw
  rw [if_pos hlen] at hw
  obtain ⟨s, c, hs, hf, hsz, hby⟩ := writeSingle_eq hw
  have hs' : s = p.data ∧ c = false := by
    rcases storeUnit_cases hs with ⟨h1, h2⟩ | ⟨_, _, h, _⟩
    · exact ⟨h2, h1⟩
    · exact absurd hm h
  obtain ⟨hs1, hc⟩ := hs'
  subst hs1; subst hc
  rw [henc] at hby hf
  simp only [Bool.false_eq_true, if_false, if_true] at hby
  refine ⟨le32 (e.adler p.data), by rw [hby, hd], ?_⟩
  have hi' := hi.infoOf
  obtain ⟨h1, h2, _, h4, h5⟩ := infoOf_bits info.hashIndex info.blockIndex ao info.locale p w hf
  rw [← hi'] at h1 h2 h4 h5
  have hcs : info.compressedSize = (a ++ y :: b).length := by
    rw [hi.compressedSize, hsz, hd]; simp
  unfold readFileData
  rw [h1, h2, h4, h5]
  dsimp only
  rw [if_pos (show (true || !false) = true from rfl)]
  simp only [Bool.and_self, if_true]
  have hr1 : readAt (pre ++ (a ++ y :: b ++ le32 (e.adler p.data)) ++ post) info.filePos info.compressedSize =
      .ok (a ++ y :: b) := by
    have : pre ++ (a ++ y :: b ++ le32 (e.adler p.data)) ++ post =
        pre ++ (a ++ y :: b) ++ (le32 (e.adler p.data) ++ post) := by simp
    rw [this]
    exact readAt_mid _ _ _ _ _ (by rw [hi.filePos, hpre]) hcs
  have hr2 : readAt (pre ++ (a ++ y :: b ++ le32 (e.adler p.data)) ++ post) (info.filePos + info.compressedSize) 4 =
      .ok (le32 (e.adler p.data)) := by
    have : pre ++ (a ++ y :: b ++ le32 (e.adler p.data)) ++ post =
        (pre ++ (a ++ y :: b)) ++ le32 (e.adler p.data) ++ post := by simp
    rw [this]
    exact readAt_mid _ _ _ _ _ (by rw [hi.filePos, hcs, List.length_append (as := pre), hpre]) (by simp)
  rw [hr1]
  simp only [bind, Except.bind, Bool.false_eq_true, if_false]
  rw [hr2]
  dsimp only
  rw [ofLe32_le32]
  have hne : e.adler (a ++ y :: b) ≠ e.adler p.data := by
    intro h
    have := congrArg BitVec.toNat h
    rw [hadler, hadler, hd] at this
    exact adler32_byte a b x y hxy this.symm
  simp only [pure, Except.pure]
  rw [if_pos hne]
  rfl

example : ∀ d, (toyEnv.adler d).toNat = Spec.adler32 d := by
  intro d
  show (BitVec.ofNat 32 (Spec.adler32 d)).toNat = _
  rw [BitVec.toNat_ofNat, Nat.mod_eq_of_lt (adler32_mod d).2]
/-- Adler-32 of "Wikipedia". -/
example : Spec.adler32 (ascii "Wikipedia") = 0x11E60398 := by decide +kernel

/-- C23 fails for files of several sectors: what reading returns does not depend on the checksum function at all, so
no checksum is ever compared with a consequence; damaged sectors are returned as data. -/
theorem C23_sector_checksums_ignored (e : Env) (other : List Byte → U32) (f : List Byte) (ao : Nat) (shift : U16)
    (name : List Byte) (info : FileInfo) (size : U32) (actual : Nat) (hs : info.isSingleUnit = false) :
    readFileData { e with adler := other } f ao shift name info size actual =
      readFileData e f ao shift name info size actual := by
  have h1 : ∀ (raw : List U32) (key : U32) (ss i done : Nat),
      readSectors { e with adler := other } f info key ss i done raw = readSectors e f info key ss i done raw := by
    intro raw key ss
    induction raw with
    | nil => intro i done; rfl
    | cons o0 rest ih =>
      intro i done
      cases rest with
      | nil => rfl
      | cons o1 rest =>
        rw [readSectors, readSectors]
        split
        · rfl
        · split
          · rfl
          · have : ∀ a b c, readSector { e with adler := other } f info key i a b c = readSector e f info key i a b c :=
              fun _ _ _ => rfl
            rw [this]
            congr 1
            funext x
            rw [ih]
  unfold readFileData
  rw [hs]
  dsimp only
  rw [Bool.and_false]
  simp only [Bool.false_eq_true, if_false]
  split
  · rfl
  · unfold readSectoredFile
    simp only [h1]

/-! ## C25 -/

/-- C25 fails: a file of several sectors in an archive whose header has a sector size shift of 55 or more makes the
reader panic, whatever else the archive contains. Headers with such shifts are accepted (see C12). -/
theorem C25_sector_shift_panics (e : Env) (f : List Byte) (ao : Nat) (shift : U16) (name : List Byte) (info : FileInfo)
    (size : U32) (actual : Nat) (hs : info.isSingleUnit = false) (hc : info.isCompressed = true)
    (h : 55 ≤ shift.toNat) : readFileData e f ao shift name info size actual = .error .panic := by
  unfold readFileData
  dsimp only
  rw [hs, hc]
  rw [if_neg (by decide)]
  unfold readSectoredFile sectorSizeOf
  split
  · have : 512 * 2 ^ shift.toNat % 2 ^ 64 = 0 := by
      have : 512 * 2 ^ shift.toNat = 2 ^ 64 * 2 ^ (shift.toNat - 55) := by
        rw [show 512 = 2 ^ 9 by decide, ← Nat.pow_add, ← Nat.pow_add]
        congr 1; omega
      rw [this, Nat.mul_mod_right]
    rw [this]
    rfl
  · rfl

/-- C25 fails: a compressed single-unit file of stored size 0 with a checksum makes the reader panic whenever there are
four bytes for the checksum. -/
theorem C25_empty_checked_file_panics (e : Env) (f : List Byte) (ao : Nat) (shift : U16) (name : List Byte)
    (info : FileInfo) (size : U32) (actual : Nat) (hs : info.isSingleUnit = true) (hc : info.isCompressed = true)
    (hcrc : info.hasSectorCrc = true) (h0 : info.compressedSize = 0) (hlen : info.filePos + 4 ≤ f.length) :
    readFileData e f ao shift name info size actual = .error .panic := by
  unfold readFileData
  dsimp only
  rw [hs, hc, hcrc, h0]
  rw [if_pos (show (true || !true) = true from rfl)]
  simp only [Bool.and_self, if_true]
  have h1 : readAt f info.filePos 0 = .ok [] := by simp [readAt]
  have h2 : readAt f (info.filePos + 0) 4 = .ok (slice f info.filePos 4) := by
    rw [Nat.add_zero]; exact readAt_ok hlen
  rw [h1]
  simp only [bind, Except.bind]
  rw [h2]
  have : (if info.isEncrypted = true then decryptFileData [] (readerKey name ao info size) else []) = [] := by
    split
    · simp [decryptFileData]
    · rfl
  rw [this]
  rfl

/-- C25 fails: a sector that decompresses to more than the reader wants, followed by another sector, makes it panic
(here: run-length encoded zeros). -/
theorem C25_long_sector_panics : ∃ f info, info.isSingleUnit = false ∧
    readFileData toyEnv f 0 0 (ascii "a") info 0 600 = .error .panic := by
  refine ⟨ofDwords [12#32, 18#32, 19#32] ++ [0x20#8, 0xFE#8, 0xFE#8, 0xFE#8, 0xFE#8, 0xFE#8, 0x20#8],
    { hashIndex := 0, blockIndex := 0, filePos := 0, compressedSize := 19, fileSize := 600, flags := flagCompress,
      locale := 0 }, ?_⟩
  decide +kernel

theorem buffered_methods : ∀ m : Byte, m &&& 0x33#8 ≠ 0#8 →
    Method.fromFlags m = .zlib ∨ Method.fromFlags m = .bzip2 ∨ Method.fromFlags m = .lzma ∨ Method.fromFlags m = .sparse ∨
    Method.fromFlags m = .huffman ∨ Method.fromFlags m = .multiple m ∧
      (hasFlag m 0x01#8 = true ∨ (hasFlag m 0x02#8 || hasFlag m 0x10#8 || hasFlag m 0x20#8) = true) := by decide

theorem combined_methods : ∀ m : Byte, m &&& 0x32#8 ≠ 0#8 → m ≠ 0x02#8 → m ≠ 0x10#8 → m ≠ 0x12#8 → m ≠ 0x20#8 → m &&& 1#8 = 0#8 →
    Method.fromFlags m = .multiple m ∧ hasFlag m 0x01#8 = false ∧
      (hasFlag m 0x02#8 || hasFlag m 0x10#8 || hasFlag m 0x20#8) = true := by decide

/-- C25 fails: a declared size of 2^63 bytes or more is a panic for every method with Huffman, zlib, bzip2, LZMA or sparse
encoding, and a declared size of 2^61 bytes or more for every combination of zlib, bzip2 or sparse encoding with another
method, whatever the stored bytes are. Sizes like the latter can be stated in a BET table. -/
theorem C25_declared_size_panics (e : Codecs) (data : List Byte) (hd : data ≠ []) (m : Byte) (size : Nat) :
    (m &&& 0x33#8 ≠ 0#8 → 2 ^ 63 ≤ size → decompress e data m size = .error .panic) ∧
    (m &&& 0x32#8 ≠ 0#8 → m &&& 0x01#8 = 0#8 → m ≠ 0x02#8 → m ≠ 0x10#8 → m ≠ 0x12#8 → m ≠ 0x20#8 → 2 ^ 61 ≤ size →
      decompress e data m size = .error .panic) := by
  have go : m ≠ 0#8 → sizePanics m size = true → decompress e data m size = .error .panic := by
    intro h0 h
    unfold decompress
    rw [if_neg hd, if_neg h0, if_pos h]
  constructor
  · intro hm hs
    refine go (by rintro rfl; exact hm (by decide)) ?_
    unfold sizePanics
    rcases buffered_methods m hm with h | h | h | h | h | ⟨h, h1⟩ <;> rw [h] <;> dsimp only
    · exact decide_eq_true hs
    · exact decide_eq_true hs
    · exact decide_eq_true hs
    · exact decide_eq_true hs
    · exact decide_eq_true hs
    · by_cases hh : hasFlag m 0x01#8 = true
      · rw [if_pos hh]; exact decide_eq_true (by omega)
      · rw [if_neg hh, if_pos (h1.resolve_left hh)]; exact decide_eq_true (by omega)
  · intro hm h1 h2 h3 h4 h5 hs
    refine go (by rintro rfl; exact hm (by decide)) ?_
    obtain ⟨q1, q2, q3⟩ := combined_methods m hm h2 h3 h4 h5 h1
    unfold sizePanics
    rw [q1]
    dsimp only
    rw [q2, q3, if_neg (by decide), if_pos rfl]
    exact decide_eq_true (by omega)

/-- Sparse encoding together with bzip2, a stored byte, and a size of 2^61. -/
example : decompress toyCodecs [7#8] 0x30#8 (2 ^ 61) = .error .panic :=
  (C25_declared_size_panics toyCodecs [7#8] (by decide) 0x30#8 (2 ^ 61)).2 (by decide) (by decide) (by decide) (by decide)
    (by decide) (by decide) (by decide)

/-- The stored bytes at offset `o0` up to `o1` of the file `info`, decrypted as sector number `i`. -/
def sectorContent (f : List Byte) (info : FileInfo) (key : U32) (i : Nat) (o0 o1 : U32) : List Byte :=
  let raw := slice f (info.filePos + o0.toNat) (o1.toNat - o0.toNat)
  if info.isEncrypted then decryptFileData raw (key + BitVec.ofNat 32 i) else raw

/-- Content whose decompression neither uses the audio codecs nor yields more than asked for, if at least `lim` bytes
are asked for. -/
def TameContent (e : Codecs) (lim : Nat) (content : List Byte) : Prop :=
  ∀ m body, content = m :: body → m.toNat < 64 ∧
    ∀ n out, lim ≤ n → decompress e body m n = .ok out → out.length ≤ n

theorem clean_readSectors (e : Env) (f : List Byte) (info : FileInfo) (key : U32) (ss : Nat) (hbig : info.fileSize < 2 ^ 61) :
    ∀ (offsets : List U32) (i done : Nat), done ≤ info.fileSize → done ≤ i * ss →
    (∀ j o0 o1, offsets[j]? = some o0 → offsets[j + 1]? = some o1 →
      TameContent e.codecs (min (info.fileSize - (i + j) * ss) ss) (sectorContent f info key (i + j) o0 o1)) →
    Clean (readSectors e f info key ss i done offsets) := by
  intro offsets
  induction offsets with
  | nil => intro i done _ _ _; exact clean_ok _
  | cons o0 rest ih =>
    intro i done hdone hdone' htame
    cases rest with
    | nil => exact clean_ok _
    | cons o1 rest =>
      rw [readSectors]
      refine clean_ite (fun _ => clean_error (by decide) (by decide)) fun hle => ?_
      rw [if_neg (by omega)]
      have hsec : Clean (readSector e f info key i (info.filePos + o0.toNat) (o1.toNat - o0.toNat)
          (min (info.fileSize - done) ss)) ∧
          ∀ out, readSector e f info key i (info.filePos + o0.toNat) (o1.toNat - o0.toNat)
            (min (info.fileSize - done) ss) = .ok out → out.length ≤ min (info.fileSize - done) ss := by
        unfold readSector
        have ht := htame 0 o0 o1 rfl rfl
        rw [Nat.add_zero] at ht
        cases hr : readAt f (info.filePos + o0.toNat) (o1.toNat - o0.toNat) with
        | error x =>
          have := clean_readAt f (info.filePos + o0.toNat) (o1.toNat - o0.toNat)
          rw [hr] at this
          exact ⟨clean_bind this (fun a h => by cases h), fun out h => by cases h⟩
        | ok raw =>
          have hraw : raw = slice f (info.filePos + o0.toNat) (o1.toNat - o0.toNat) := by
            unfold readAt at hr
            split at hr
            · rename_i h0
              injection hr with hr
              rw [← hr, h0]; simp [slice]
            · split at hr
              · injection hr with hr; exact hr.symm
              · cases hr
          have hcont : (if info.isEncrypted = true then decryptFileData raw (key + BitVec.ofNat 32 i) else raw) =
              sectorContent f info key i o0 o1 := by
            unfold sectorContent; rw [hraw]
          simp only [bind, Except.bind]
          rw [hcont]
          generalize sectorContent f info key i o0 o1 = content at ht
          split
          · split
            · cases content with
              | nil => exact absurd rfl ‹_›
              | cons m body =>
                obtain ⟨hm, hout⟩ := ht m body rfl
                simp only [splitMethod]
                exact ⟨clean_decompress _ _ _ _ hm (by omega), fun out h => hout _ _ (by omega) h⟩
            · exact ⟨clean_error (by decide) (by decide), fun out h => by cases h⟩
          · refine ⟨clean_ok _, fun out h => ?_⟩
            injection h with h
            rw [← h, List.length_take]
            omega
      refine clean_bind hsec.1 fun out hout => ?_
      have hol := hsec.2 out hout
      refine clean_bind (ih (i + 1) (done + out.length) (by omega) (by rw [Nat.add_one_mul]; omega) ?_) fun _ _ => clean_ok _
      intro j a b ha hb
      have := htame (j + 1) a b ha hb
      rw [show i + (j + 1) = i + 1 + j by omega] at this
      exact this

/-- C25, partial: whatever the archive contains, whatever key is used, reading ends with data or with an error,
provided that

* the size of the file is declared as less than 2^61 bytes (the classic tables declare 32-bit sizes),
* the sector size shift is at most 54 if the file has several sectors,
* a checked compressed single unit is not empty,
* the method byte of a compressed single unit names no audio codec,
* the same for every sector, and no sector decompresses to more than is wanted of it.

Missing: the excluded cases, where it can panic (theorems above and C19). -/
theorem C25_no_panic_partial (e : Env) (f : List Byte) (ao : Nat) (shift : U16) (name : List Byte) (info : FileInfo)
    (size : U32) (actual : Nat) (hfs : info.fileSize < 2 ^ 61) (hact : actual < 2 ^ 61)
    (hshift : info.isSingleUnit = false → info.isCompressed = true → shift.toNat ≤ 54)
    (hempty : info.isSingleUnit = true → info.isCompressed = true → info.hasSectorCrc = true → info.compressedSize ≠ 0)
    (hsingle : info.isSingleUnit = true → info.isCompressed = true → ∀ raw, readAt f info.filePos info.compressedSize = .ok raw →
      ∀ m, (if info.isEncrypted then decryptFileData raw (readerKey name ao info size) else raw).head? = some m →
      m.toNat < 64)
    (hsectors : info.isSingleUnit = false → info.isCompressed = true → ∀ ss count raw i o0 o1,
      sectorSizeOf shift = .ok ss → divCeil info.fileSize ss = .ok count →
      readAt f info.filePos ((count + 1) * 4) = .ok raw →
      let offsets := toDwords (if info.isEncrypted then decryptFileData raw (readerKey name ao info size - 1) else raw)
      offsets[i]? = some o0 → offsets[i + 1]? = some o1 →
      TameContent e.codecs (min (info.fileSize - i * ss) ss)
        (sectorContent f info (readerKey name ao info size) i o0 o1)) :
    readFileData e f ao shift name info size actual ≠ .error .panic ∧
    readFileData e f ao shift name info size actual ≠ .error .diverge := by
  show Clean _
  unfold readFileData
  dsimp only
  refine clean_ite (fun hcond => ?_) (fun hcond => ?_)
  · refine clean_bind (clean_readAt _ _ _) fun raw hraw => ?_
    have hrl := readAt_length hraw
    cases hcomp : info.isCompressed with
    | false =>
      simp only [Bool.false_eq_true, if_false]
      refine clean_ite (fun _ => ?_) (fun _ => clean_ok _)
      refine clean_bind (clean_readAt _ _ _) fun crc _ => clean_bind (clean_ok _) fun x _ => ?_
      refine clean_ite (fun _ => ?_) (fun _ => clean_ok _)
      exact clean_bind (clean_error (by decide) (by decide)) fun _ _ => clean_ok _
    | true =>
      have hsu : info.isSingleUnit = true := by
        rw [hcomp] at hcond
        cases h : info.isSingleUnit with
        | false => rw [h] at hcond; cases hcond
        | true => rfl
      have ht := hsingle hsu hcomp raw hraw
      have hlen : (if info.isEncrypted = true then decryptFileData raw (readerKey name ao info size) else raw).length
          = info.compressedSize := by
        split
        · rw [decryptFileData_length, hrl]
        · exact hrl
      generalize (if info.isEncrypted = true then decryptFileData raw (readerKey name ao info size) else raw) = data
        at ht hlen
      simp only [if_true]
      have hmain : Clean (if data ≠ [] then do
          let __x ← splitMethod data
          match __x with
            | (m, body) => decompress e.codecs body m actual
          else throw Err.compression : Res (List Byte)) := by
        refine clean_ite (fun hne => ?_) (fun _ => clean_error (by decide) (by decide))
        cases data with
        | nil => exact absurd rfl hne
        | cons m body => exact clean_decompress _ _ _ _ (ht m rfl) hact
      refine clean_ite (fun hcrc => ?_) (fun _ => hmain)
      rw [Bool.and_eq_true] at hcrc
      have h0 := hempty hsu hcomp hcrc.1
      refine clean_bind (clean_readAt _ _ _) fun crc _ => ?_
      cases data with
      | nil => exact absurd hlen.symm h0
      | cons m body =>
        refine clean_bind (clean_ok _) fun y hy => ?_
        injection hy with hy
        subst hy
        refine clean_bind (clean_decompress _ _ _ _ (ht m rfl) hact) fun x _ => ?_
        refine clean_ite (fun _ => ?_) (fun _ => hmain)
        exact clean_bind (clean_error (by decide) (by decide)) fun _ _ => hmain
  · have hboth : info.isSingleUnit = false ∧ info.isCompressed = true := by
      cases h1 : info.isSingleUnit <;> cases h2 : info.isCompressed <;> rw [h1, h2] at hcond <;> simp at hcond ⊢
    have hsh := hshift hboth.1 hboth.2
    have hss : ∃ ss, sectorSizeOf shift = .ok ss ∧ 0 < ss := by
      unfold sectorSizeOf
      rw [if_pos (by omega)]
      have h1 : 2 ^ shift.toNat ≤ 2 ^ 54 := Nat.pow_le_pow_right (by decide) hsh
      have h2 : 1 ≤ 2 ^ shift.toNat := Nat.one_le_two_pow
      refine ⟨_, rfl, ?_⟩
      rw [Nat.mod_eq_of_lt (by omega)]; omega
    obtain ⟨ss, hss, h0⟩ := hss
    unfold readSectoredFile
    rw [hss]
    refine clean_bind (clean_ok _) fun ss' h => ?_
    injection h with h; subst h
    have hdc : divCeil info.fileSize ss = .ok ((info.fileSize + ss - 1) / ss) := by
      unfold divCeil; rw [if_neg (by omega)]
    rw [hdc]
    refine clean_bind (clean_ok _) fun count h => ?_
    injection h with h
    refine clean_bind (clean_readAt _ _ _) fun raw hraw => ?_
    have hrs := fun i o0 o1 => hsectors hboth.1 hboth.2 ss count raw i o0 o1 hss (by rw [hdc, h]) hraw
    dsimp only at hrs ⊢
    have hmain := clean_readSectors e f info (readerKey name ao info size) ss hfs _ 0 0 (Nat.zero_le _)
      (Nat.zero_le _)
      (fun j o0 o1 h1 h2 => by rw [Nat.zero_add]; exact hrs j o0 o1 h1 h2)
    refine clean_ite (fun _ => ?_) (fun _ => hmain)
    exact clean_bind (clean_readAt _ _ _) fun _ _ => hmain

/-- The conditions on contents are met by ordinary compressed contents: 40 bytes stored as 4, and as the last of two
sectors. -/
example : TameContent toyCodecs 40 [2#8, 1#8, 7#8, 40#8] := by
  intro m body h
  injection h with h1 h2; subst h1; subst h2
  refine ⟨by decide, fun n out hn h => ?_⟩
  have : decompress toyCodecs [1#8, 7#8, 40#8] 2#8 n = .ok (List.replicate 40 7#8) ∨
      decompress toyCodecs [1#8, 7#8, 40#8] 2#8 n = .error .panic := by
    unfold decompress
    rw [if_neg (by decide), if_neg (by decide)]
    split
    · exact .inr rfl
    · exact .inl rfl
  rcases this with this | this <;> rw [this] at h
  · injection h with h
    rw [← h, List.length_replicate]
    exact hn
  · cases h
/-- A whole archive file of two sectors (one stored, one compressed) on which reading returns the data. -/
example : readFileData toyEnv (ofDwords [12#32, 524#32, 528#32] ++ List.replicate 512 9#8 ++ [2#8, 1#8, 7#8, 40#8]) 0 0
    (ascii "a") { hashIndex := 0, blockIndex := 0, filePos := 0, compressedSize := 528, fileSize := 552,
                  flags := flagCompress, locale := 0 } 0 552
    = .ok (List.replicate 512 9#8 ++ List.replicate 40 7#8) := by decide +kernel

end Mopaq
