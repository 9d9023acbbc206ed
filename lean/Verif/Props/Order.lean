import Verif.Props.Listing

/-! # What a file reads as does not depend on the rest of the archive (C79) -/

namespace Mopaq

/-- An archive made by the builder, placed in a file between other bytes. The conditions are those of C26. -/
structure BuiltArchive (e : Env) (md5 : Md5) where
  builder : Builder
  bytes : List Byte
  built : buildBytes e md5 builder = .ok bytes
  /-- the files of the archive: those added, and the listfile if there is one -/
  files : List PendingFile
  prepared : prepareListfile builder = .ok files
  lookup : ClassicLookup e.codecs builder files
  before : List Byte
  after : List Byte
  aligned : before.length % 512 = 0
  clean : ∀ o < before.length, o % 512 = 0 → ¬ Spec.archiveMark (before ++ bytes ++ after) o ∧
    ¬ Spec.userDataMark (before ++ bytes ++ after) o
  addressed : bytes.length < addressable builder.version
  fits : before.length + bytes.length < 2 ^ 64
  count : files.length < 0xFFFFFFFE
  sizes : ∀ p ∈ files, ∀ data, p.source = some data → data.length + data.length / 64 + 12 < 2 ^ 32
  noAttributes : ∀ p ∈ files, ¬ Spec.sameName (attributesName.map BitVec.toNat) (p.name.map BitVec.toNat)
  noCollision : NoCollision (attributesName :: files.map (·.name))

/-- The file in which the archive is. -/
def BuiltArchive.file {e : Env} {md5 : Md5} (x : BuiltArchive e md5) : List Byte := x.before ++ x.bytes ++ x.after

/-- The file `p` is the first of the archive with the name `name`, up to case and separators. -/
def BuiltArchive.Holds {e : Env} {md5 : Md5} (x : BuiltArchive e md5) (name : List Byte) (p : PendingFile) : Prop :=
  firstNamed x.files name = some p

theorem firstNamed_get {pending : List PendingFile} {name : List Byte} {p : PendingFile} (h : firstNamed pending name = some p) :
    ∃ i : Nat, pending[i]? = some p ∧ Spec.sameName (name.map BitVec.toNat) (p.name.map BitVec.toNat) ∧
      ∀ j < i, ∀ q, pending[j]? = some q → ¬ Spec.sameName (name.map BitVec.toNat) (q.name.map BitVec.toNat) := by
  unfold firstNamed at h
  rw [List.find?_eq_some_iff_getElem] at h
  obtain ⟨hp, i, hi, hpi, hfirst⟩ := h
  refine ⟨i, by rw [List.getElem?_eq_getElem hi, hpi], by simpa using hp, fun j hj q hq => ?_⟩
  have hjl : j < pending.length := by omega
  rw [List.getElem?_eq_getElem hjl] at hq
  cases hq
  simpa using hfirst j hj

theorem BuiltArchive.reads {e : Env} (he : e.codecs.Lawful) {md5 : Md5} (hmd : ∀ x, (md5 x).length = 16) (x : BuiltArchive e md5) :
    ∃ a ss, openArchive e x.file = .ok a ∧ sectorSizeOf x.builder.blockSize = .ok ss ∧
      (∀ name p, x.Holds name p → ∃ data, p.source = some data ∧
        (data.length ≤ ss ∨ Spec.LosslessMethod p.compression data →
          (a.readFile e name = .ok data ↔ Recoverable e.codecs ss p.compression data)) ∧
        (data.length ≤ ss → Spec.LosslessMethod p.compression data → a.readFile e name = .ok data)) ∧
      (∀ name, firstNamed x.files name = none → NoCollision (name :: x.files.map (·.name)) →
        a.readFile e name = .error .fileNotFound) := by
  obtain ⟨a, ss, h1, h2, h3, h4⟩ := C26_read_back_partial e he md5 hmd x.builder x.bytes x.built x.files x.prepared x.lookup
    x.before x.after x.aligned x.clean x.addressed x.fits x.count x.sizes x.noAttributes x.noCollision
  refine ⟨a, ss, h1, h2, fun name p hp => ?_, fun name hn hc => h4 name (fun p hp => ?_) hc⟩
  · obtain ⟨i, g1, g2, g3⟩ := firstNamed_get hp
    exact h3 i p name g1 g2 g3
  · unfold firstNamed at hn
    rw [List.find?_eq_none] at hn
    simpa using hn p hp

/-- C79: a file with the same content, compression method and sector size reads the same from any two archives, whatever else
they hold: other files in any number and order, other versions of the format, with or without listfile, checksums and
encryption, compressed tables, and wherever the archive stands in a larger file. It is read back from the one exactly if it is
read back from the other. -/
theorem C79_rest_is_irrelevant (e : Env) (he : e.codecs.Lawful) (md5 : Md5) (hmd : ∀ x, (md5 x).length = 16)
    (x y : BuiltArchive e md5) (hss : x.builder.blockSize = y.builder.blockSize) :
    ∃ a a' ss, openArchive e x.file = .ok a ∧ openArchive e y.file = .ok a' ∧ sectorSizeOf x.builder.blockSize = .ok ss ∧
      ∀ name name' p q, x.Holds name p → y.Holds name' q → p.source = q.source → p.compression = q.compression →
        ∃ data, p.source = some data ∧ (data.length ≤ ss ∨ Spec.LosslessMethod p.compression data →
          (a.readFile e name = .ok data ↔ a'.readFile e name' = .ok data)) := by
  obtain ⟨a, ss, h1, h2, h3, _⟩ := x.reads he hmd
  obtain ⟨a', ss', g1, g2, g3, _⟩ := y.reads he hmd
  rw [← hss, h2] at g2
  cases g2
  refine ⟨a, a', ss, h1, g1, h2, fun name name' p q hp hq hs hc => ?_⟩
  obtain ⟨data, hd, hr, _⟩ := h3 name p hp
  obtain ⟨data', hd', hr', _⟩ := g3 name' q hq
  rw [← hs, hd] at hd'
  cases hd'
  refine ⟨data, hd, fun hor => ?_⟩
  rw [hr hor]
  rw [hc] at hor ⊢
  exact (hr' hor).symm

theorem prepare_mem {b : Builder} {files : List PendingFile} (h : prepareListfile b = .ok files) :
    ∃ rest, files = b.pending ++ rest ∧ rest.length ≤ 1 ∧ ∀ p ∈ rest, p.name = listfileName := by
  unfold prepareListfile at h
  dsimp only at h
  cases hl : b.listfile with
  | generate =>
    rw [hl] at h
    cases h
    exact ⟨_, rfl, Nat.le_refl 1, fun p hp => by rw [List.mem_singleton] at hp; rw [hp]⟩
  | external o =>
    rw [hl] at h
    cases o with
    | none => cases h
    | some content =>
      cases h
      exact ⟨_, rfl, Nat.le_refl 1, fun p hp => by rw [List.mem_singleton] at hp; rw [hp]⟩
  | none => rw [hl] at h; cases h; exact ⟨[], by rw [List.append_nil], Nat.zero_le _, fun p hp => nomatch hp⟩

/-- In an archive of which no two files have the same name, every file is the first of its name. -/
theorem holds_of_mem {files : List PendingFile} (hd : files.Pairwise fun p q =>
      ¬ Spec.sameName (p.name.map BitVec.toNat) (q.name.map BitVec.toNat)) {p : PendingFile} (hp : p ∈ files)
    {name : List Byte} (hn : Spec.sameName (name.map BitVec.toNat) (p.name.map BitVec.toNat)) :
    firstNamed files name = some p := by
  unfold firstNamed
  induction files with
  | nil => cases hp
  | cons q files ih =>
    rw [List.pairwise_cons] at hd
    rw [List.find?_cons]
    rcases List.mem_cons.1 hp with rfl | hp
    · simp [hn]
    · have hq : ¬ Spec.sameName (name.map BitVec.toNat) (q.name.map BitVec.toNat) := by
        intro h
        refine hd.1 p hp (sameName_of_normalise ?_)
        rw [← normalise_of_sameName h, normalise_of_sameName hn]
      simp only [hq, decide_false]
      exact ih hd.2 hp

/-- C79: in particular, the order in which files are added does not matter if their names differ: each of them is read back
from the archive made in one order exactly if it is read back from the archive made in the other. -/
theorem C79_order_irrelevant (e : Env) (he : e.codecs.Lawful) (md5 : Md5) (hmd : ∀ x, (md5 x).length = 16)
    (x y : BuiltArchive e md5) (qs : List PendingFile) (hperm : x.builder.pending.Perm qs)
    (hy : y.builder = { x.builder with pending := qs })
    (hnames : x.files.Pairwise fun p q => ¬ Spec.sameName (p.name.map BitVec.toNat) (q.name.map BitVec.toNat)) :
    ∃ a a' ss, openArchive e x.file = .ok a ∧ openArchive e y.file = .ok a' ∧ sectorSizeOf x.builder.blockSize = .ok ss ∧
      ∀ p ∈ x.builder.pending, ∀ name, Spec.sameName (name.map BitVec.toNat) (p.name.map BitVec.toNat) →
        ∃ data, p.source = some data ∧ (data.length ≤ ss ∨ Spec.LosslessMethod p.compression data →
          (a.readFile e name = .ok data ↔ a'.readFile e name = .ok data)) := by
  obtain ⟨a, a', ss, h1, h2, h3, h4⟩ := C79_rest_is_irrelevant e he md5 hmd x y (by rw [hy])
  refine ⟨a, a', ss, h1, h2, h3, fun p hp name hn => ?_⟩
  obtain ⟨rest, hx, hr1, hrest⟩ := prepare_mem x.prepared
  obtain ⟨rest', hyf, hr1', hrest'⟩ := prepare_mem y.prepared
  have hyp : y.builder.pending = qs := by rw [hy]
  have hlen : rest.map (·.name) = rest'.map (·.name) := by
    have hl : rest.length = rest'.length := by
      have h1 := x.prepared
      have h2 := y.prepared
      rw [hx] at h1
      rw [hyf, hy] at h2
      unfold prepareListfile at h1 h2
      dsimp only at h1 h2
      cases hl : x.builder.listfile with
      | generate =>
        rw [hl] at h1 h2
        have a1 := congrArg List.length (Except.ok.inj h1)
        have a2 := congrArg List.length (Except.ok.inj h2)
        simp only [List.length_append, List.length_singleton] at a1 a2
        omega
      | external o =>
        cases o with
        | none => rw [hl] at h1; cases h1
        | some content =>
          rw [hl] at h1 h2
          have a1 := congrArg List.length (Except.ok.inj h1)
          have a2 := congrArg List.length (Except.ok.inj h2)
          simp only [List.length_append, List.length_singleton] at a1 a2
          omega
      | none =>
        rw [hl] at h1 h2
        have a1 := congrArg List.length (Except.ok.inj h1)
        have a2 := congrArg List.length (Except.ok.inj h2)
        simp only [List.length_append] at a1 a2
        omega
    match rest, rest', hl, hr1, hrest, hrest' with
    | [], [], _, _, _, _ => rfl
    | [r], [r'], _, _, h, h' =>
      simp only [List.map_cons, List.map_nil]
      rw [h r List.mem_cons_self, h' r' List.mem_cons_self]
    | _ :: _ :: _, _, _, h, _, _ => simp at h
    | [], _ :: _, h, _, _, _ => simp at h
    | [_], [], h, _, _, _ => simp at h
    | [_], _ :: _ :: _, h, _, _, _ => simp at h
  have hpn : (x.files.map (·.name)).Perm (y.files.map (·.name)) := by
    rw [hx, hyf, List.map_append, List.map_append, hlen, hyp]
    exact List.Perm.append_right _ (hperm.map _)
  have hnames' : y.files.Pairwise fun p q => ¬ Spec.sameName (p.name.map BitVec.toNat) (q.name.map BitVec.toNat) := by
    have h1 : (x.files.map (·.name)).Pairwise fun p q => ¬ Spec.sameName (p.map BitVec.toNat) (q.map BitVec.toNat) :=
      List.pairwise_map.2 hnames
    exact List.pairwise_map.1 ((hpn.pairwise_iff fun hxy hyx => hxy (sameName_symm hyx)).1 h1)
  refine h4 name name p p (holds_of_mem hnames ?_ hn) (holds_of_mem hnames' ?_ hn) rfl rfl
  · rw [hx]; exact List.mem_append_left _ hp
  · rw [hyf, hyp]; exact List.mem_append_left _ (hperm.mem_iff.1 hp)

/-- C79: for files with the same name the order does matter, also if their locales differ: it is the first one that is read.
With the files in the other order the same name gives the other content. -/
theorem C79_same_name_order_matters (e : Env) (he : e.codecs.Lawful) (md5 : Md5) (hmd : ∀ x, (md5 x).length = 16)
    (x y : BuiltArchive e md5) (p q : PendingFile) (rest : List PendingFile) (hx : x.builder.pending = p :: q :: rest)
    (hy : y.builder = { x.builder with pending := q :: p :: rest })
    (hname : Spec.sameName (p.name.map BitVec.toNat) (q.name.map BitVec.toNat)) (ss : Nat)
    (hss : sectorSizeOf x.builder.blockSize = .ok ss) (data data' : List Byte) (hp : p.source = some data)
    (hq : q.source = some data') (hl : data.length ≤ ss) (hl' : data'.length ≤ ss)
    (hm : Spec.LosslessMethod p.compression data) (hm' : Spec.LosslessMethod q.compression data') :
    ∃ a a', openArchive e x.file = .ok a ∧ openArchive e y.file = .ok a' ∧
      a.readFile e p.name = .ok data ∧ a'.readFile e p.name = .ok data' := by
  obtain ⟨a, ss1, h1, h2, h3, _⟩ := x.reads he hmd
  obtain ⟨a', ss2, g1, g2, g3, _⟩ := y.reads he hmd
  have hbs : y.builder.blockSize = x.builder.blockSize := by rw [hy]
  rw [hbs, hss] at g2
  rw [hss] at h2
  cases g2
  cases h2
  obtain ⟨r, hxf, _, _⟩ := prepare_mem x.prepared
  obtain ⟨r', hyf, _, _⟩ := prepare_mem y.prepared
  have hyp : y.builder.pending = q :: p :: rest := by rw [hy]
  have hself : Spec.sameName (p.name.map BitVec.toNat) (p.name.map BitVec.toNat) := sameName_of_normalise rfl
  obtain ⟨d, hd, _, hr⟩ := h3 p.name p (by
    unfold BuiltArchive.Holds firstNamed
    rw [hxf, hx]
    simp [hself])
  obtain ⟨d', hd', _, hr'⟩ := g3 p.name q (by
    unfold BuiltArchive.Holds firstNamed
    rw [hyf, hyp]
    simp [hname])
  rw [hp] at hd
  rw [hq] at hd'
  cases hd
  cases hd'
  exact ⟨a, a', h1, g1, hr hl hm, hr' hl' hm'⟩

/-- The sample of version 2 as such an archive. -/
theorem sample_archive (v : FormatVersion) (hv : v ≠ .v1) : ∃ x : BuiltArchive toyEnv zeroMd5, x.builder = sampleBuilder v ∧
    x.files = samplePending := by
  obtain ⟨f, a, hf, hlt, _⟩ := sample_reads v hv
  refine ⟨⟨sampleBuilder v, f, hf, samplePending, samplePending_eq v, fun _ => .inl ⟨rfl, by decide⟩, [], [], rfl,
    (by intro o ho; cases ho), (by unfold addressable; rw [if_neg (show ¬ (sampleBuilder v).version = .v1 from hv)]; exact hlt),
    (by have e48 : (2 : Nat) ^ 48 = 281474976710656 := rfl
        have : (2 : Nat) ^ 64 = 18446744073709551616 := rfl
        simp only [List.length_nil]; omega),
    by decide, sample_sizes, by decide +kernel, noCollision_lit (by decide +kernel)⟩, rfl, rfl⟩

/-- Any builder of version 2 with little to store gives such an archive. -/
theorem small_archive {b : Builder} {files : List PendingFile} (hb : Buildable toyEnv b files) (hv : b.version = .v2)
    (hsum : (files.map storedBound).sum < 1000) (hsmall : ∀ p ∈ files, storedBound p < 1000)
    (hna : ∀ p ∈ files, ¬ Spec.sameName (attributesName.map BitVec.toNat) (p.name.map BitVec.toNat))
    (hc : NoCollision (attributesName :: files.map (·.name))) :
    ∃ x : BuiltArchive toyEnv zeroMd5, x.builder = b ∧ x.files = files := by
  have h47 : (2 : Nat) ^ 47 = 140737488355328 := rfl
  have e48 : (2 : Nat) ^ 48 = 281474976710656 := rfl
  have e64 : (2 : Nat) ^ 64 = 18446744073709551616 := rfl
  obtain ⟨f, hf⟩ := C50_classic_build_succeeds toyEnv zeroMd5 b files hb (.inr hv)
  obtain ⟨L⟩ := layout_of_build (fun _ => List.length_replicate) hf
  have hpe : L.pending = files := Except.ok.inj (L.prepared.symm.trans hb.prepared)
  have hn : files.length < 0xFFFFFFFE := by have := hb.count; omega
  have hlt : f.length < 2 ^ 48 := L.length_lt (fun _ => List.length_replicate) (by rw [hpe]; exact hn)
    (by rw [hpe]; intro p hp; have := hsmall p hp; omega) (by rw [hpe]; omega)
  refine ⟨⟨b, f, hf, files, hb.prepared, fun h => ?_, [], [], rfl, (by intro o ho; cases ho), ?_, ?_, hn, ?_, hna, hc⟩, rfl, rfl⟩
  · rw [hv] at h; cases h
  · unfold addressable; rw [if_neg (by rw [hv]; decide)]; exact hlt
  · simp only [List.length_nil]; omega
  · intro p hp data hd
    obtain ⟨d, hd', hs, _⟩ := hb.readable p hp
    rw [hd] at hd'
    cases hd'
    exact hs

/-- The first file of the sample reads the same from an archive of version 2 and one of version 4. -/
example : ∃ x y : BuiltArchive toyEnv zeroMd5, x.builder = sampleBuilder .v2 ∧ y.builder = sampleBuilder .v4 ∧
    ∃ p, x.Holds (ascii "dir/A.TXT") p ∧ y.Holds (ascii "DIR\\a.txt") p ∧ p.source = some (List.replicate 40 0x41#8) := by
  obtain ⟨x, hx, hxf⟩ := sample_archive .v2 (by decide)
  obtain ⟨y, hy, hyf⟩ := sample_archive .v4 (by decide)
  refine ⟨x, y, hx, hy, (sampleBuilder .v1).pending.head (by decide), ?_, ?_, by decide +kernel⟩
  · unfold BuiltArchive.Holds; rw [hxf]; decide +kernel
  · unfold BuiltArchive.Holds; rw [hyf]; decide +kernel

/-- Two files, one compressed and encrypted and one stored, without listfile. -/
def twoFiles (name name' : List Byte) (locale : U16) (content : List Byte) : List PendingFile :=
  [{ source := some (List.replicate 40 0x41#8), name, compression := 0x02, encrypt := true, useFixKey := true, locale := 0 },
   { source := some content, name := name', compression := 0, encrypt := false, useFixKey := false, locale }]

def twoFilesBuilder (files : List PendingFile) : Builder := { sampleBuilder .v2 with pending := files, listfile := .none }

theorem twoFiles_buildable {files : List PendingFile} (h2 : files.length = 2)
    (hr : ∀ p ∈ files, ∃ data, p.source = some data ∧ data.length ≤ 512 ∧ ∃ c, compress toyEnv.codecs data p.compression = .ok c)
    (hn : NoCollision (files.map (·.name))) (hd : DistinctFiles files) : Buildable toyEnv (twoFilesBuilder files) files where
  shift := by show (3#16).toNat < 55; decide
  prepared := rfl
  count := by rw [h2]; decide
  readable := by
    intro p hp
    obtain ⟨data, h1, h2, c, h3⟩ := hr p hp
    have h32 : (2 : Nat) ^ 32 = 4294967296 := rfl
    refine ⟨data, h1, by omega, ?_⟩
    unfold Compressible
    rw [show (twoFilesBuilder files).blockSize = 3#16 from rfl,
      if_pos (by have : 512 * 2 ^ (3#16 : U16).toNat = 4096 := by decide
                 omega)]
    exact ⟨c, h3⟩
  names := hn
  distinct := hd

/-- Two files in one order and in the other: the conditions of `C79_order_irrelevant` are met. -/
example : ∃ x y : BuiltArchive toyEnv zeroMd5,
    x.builder = twoFilesBuilder (twoFiles (ascii "a") (ascii "b") 0 [1, 2, 3]) ∧
    y.builder = { x.builder with pending := (twoFiles (ascii "a") (ascii "b") 0 [1, 2, 3]).reverse } ∧
    x.files.Pairwise fun p q => ¬ Spec.sameName (p.name.map BitVec.toNat) (q.name.map BitVec.toNat) := by
  obtain ⟨x, hx, hxf⟩ := small_archive (twoFiles_buildable (files := twoFiles (ascii "a") (ascii "b") 0 [1, 2, 3]) rfl
    (by intro p hp
        simp only [twoFiles, List.mem_cons, List.not_mem_nil, or_false] at hp
        rcases hp with rfl | rfl <;> exact ⟨_, rfl, by decide, _, rfl⟩)
    (noCollision_lit (by decide +kernel)) (by unfold DistinctFiles; decide +kernel)) rfl (by decide +kernel) (by decide +kernel)
    (by decide +kernel) (noCollision_lit (by decide +kernel))
  obtain ⟨y, hy, _⟩ := small_archive (twoFiles_buildable
    (files := (twoFiles (ascii "a") (ascii "b") 0 [1, 2, 3]).reverse) rfl
    (by intro p hp
        rw [List.mem_reverse] at hp
        simp only [twoFiles, List.mem_cons, List.not_mem_nil, or_false] at hp
        rcases hp with rfl | rfl <;> exact ⟨_, rfl, by decide, _, rfl⟩)
    (noCollision_lit (by decide +kernel)) (by unfold DistinctFiles; decide +kernel)) rfl (by decide +kernel) (by decide +kernel)
    (by decide +kernel) (noCollision_lit (by decide +kernel))
  refine ⟨x, y, hx, by rw [hy, hx]; rfl, ?_⟩
  rw [hxf]
  decide +kernel

/-- Two files of one name in two locales: read in one order the name gives the one content, in the other order the other. -/
example : ∃ (x y : BuiltArchive toyEnv zeroMd5) (a a' : Archive), openArchive toyEnv x.file = .ok a ∧
    openArchive toyEnv y.file = .ok a' ∧ y.builder.pending = x.builder.pending.reverse ∧
    a.readFile toyEnv (ascii "a") = .ok (List.replicate 40 0x41#8) ∧ a'.readFile toyEnv (ascii "a") = .ok [1, 2, 3] := by
  obtain ⟨x, hx, hxf⟩ := small_archive (twoFiles_buildable (files := twoFiles (ascii "a") (ascii "A") 0x409 [1, 2, 3]) rfl
    (by intro p hp
        simp only [twoFiles, List.mem_cons, List.not_mem_nil, or_false] at hp
        rcases hp with rfl | rfl <;> exact ⟨_, rfl, by decide, _, rfl⟩)
    (noCollision_lit (by decide +kernel)) (by unfold DistinctFiles; decide +kernel)) rfl (by decide +kernel) (by decide +kernel)
    (by decide +kernel) (noCollision_lit (by decide +kernel))
  obtain ⟨y, hy, _⟩ := small_archive (twoFiles_buildable
    (files := (twoFiles (ascii "a") (ascii "A") 0x409 [1, 2, 3]).reverse) rfl
    (by intro p hp
        rw [List.mem_reverse] at hp
        simp only [twoFiles, List.mem_cons, List.not_mem_nil, or_false] at hp
        rcases hp with rfl | rfl <;> exact ⟨_, rfl, by decide, _, rfl⟩)
    (noCollision_lit (by decide +kernel)) (by unfold DistinctFiles; decide +kernel)) rfl (by decide +kernel) (by decide +kernel)
    (by decide +kernel) (noCollision_lit (by decide +kernel))
  obtain ⟨a, a', h1, h2, h3, h4⟩ := C79_same_name_order_matters toyEnv toyCodecs_lawful zeroMd5 (fun _ => List.length_replicate)
    x y ((twoFiles (ascii "a") (ascii "A") 0x409 [1, 2, 3]).head (by decide))
    ((twoFiles (ascii "a") (ascii "A") 0x409 [1, 2, 3]).getLast (by decide)) [] (by rw [hx]; rfl) (by rw [hy, hx]; rfl)
    (by decide +kernel) 4096 (by rw [hx]; rfl) _ _ rfl rfl (by decide) (by decide)
    ⟨by decide, by decide, by decide, fun h => absurd h (by decide), by decide⟩
    ⟨by decide, by decide, by decide, fun h => absurd h (by decide), by decide⟩
  exact ⟨x, y, a, a', h1, h2, by rw [hy, hx]; rfl, h3, h4⟩

end Mopaq
