import Verif.Props.Builder
import Verif.Props.Listfile

/-! # Listing the files of a built archive (C27) and reported sizes (C48) -/

namespace Mopaq

variable {e : Env} {md5 : Md5} {b : Builder} {f : List Byte}

/-- A finished archive opens, and its lookup is the one of the classic tables. -/
theorem Layout.opens (L : Layout e md5 b f) (hmd : ∀ x, (md5 x).length = 16) (hext : ClassicLookup e.codecs b L.pending)
    (before after : List Byte) (hal : before.length % 512 = 0)
    (hclean : ∀ o < before.length, o % 512 = 0 → ¬ Spec.archiveMark (before ++ f ++ after) o ∧
      ¬ Spec.userDataMark (before ++ f ++ after) o)
    (hlen : f.length < addressable b.version) (hfit : before.length + f.length < 2 ^ 64)
    (hcount : L.pending.length < 0xFFFFFFFE)
    (hna : ∀ p ∈ L.pending, ¬ Spec.sameName (attributesName.map BitVec.toNat) (p.name.map BitVec.toNat))
    (hc : NoCollision (attributesName :: L.pending.map (·.name))) :
    ∃ a, openArchive e (before ++ f ++ after) = .ok a ∧ L.Opened before after a ∧ ∀ name, FallsBack a name := by
  obtain ⟨het, bet, hhet, hbet, hfall⟩ := L.fallback hmd before after hlen hfit hext
  obtain ⟨a, ha, hht, hbt, hat, _, hopen⟩ := L.open hmd before after hal hclean hlen hfit hcount het bet hhet hbet
  have hfb := hfall a ha hht hbt
  have hfn : a.findFile attributesName = .ok none := by
    rw [hfb attributesName]
    exact L.find_none ha hcount _ hna hc
  rw [loadAttributes_none hfn hat] at hopen
  have ha' : L.Opened before after { a with attributes := none } := ⟨ha.file, ha.offset, ha.header, ha.hash, ha.block, ha.his⟩
  exact ⟨_, hopen, ha', hfall { a with attributes := none } ha' hht hbt⟩

/-- The file that a name stands for: the first one added under that name, up to case and separator. -/
def firstNamed (pending : List PendingFile) (name : List Byte) : Option PendingFile :=
  pending.find? fun p => decide (Spec.sameName (name.map BitVec.toNat) (p.name.map BitVec.toNat))

/-- The size of a file to be added. -/
def PendingFile.size (p : PendingFile) : Nat := (p.source.getD []).length

theorem Layout.find_named (L : Layout e md5 b f) (hmd : ∀ x, (md5 x).length = 16) {before after : List Byte} {a : Archive}
    (ha : L.Opened before after a) (hlen : f.length < addressable b.version) (hfit : before.length + f.length < 2 ^ 64)
    (hn : L.pending.length < 0xFFFFFFFE) (name : List Byte) (hfb : FallsBack a name)
    (hsize : ∀ p ∈ L.pending, ∀ data, p.source = some data → data.length + data.length / 64 + 12 < 2 ^ 32)
    (hc : NoCollision (name :: L.pending.map (·.name))) :
    ∃ r, a.findFile name = .ok r ∧ r.map (·.fileSize) = (firstNamed L.pending name).map PendingFile.size := by
  unfold FallsBack at hfb
  rw [hfb]
  cases hf : firstNamed L.pending name with
  | none =>
    unfold firstNamed at hf
    rw [List.find?_eq_none] at hf
    refine ⟨none, L.find_none ha hn name (fun p hp => ?_) hc, rfl⟩
    have := hf p hp
    simpa using this
  | some p =>
    unfold firstNamed at hf
    rw [List.find?_eq_some_iff_getElem] at hf
    obtain ⟨hp, i, hi, hpi, hfirst⟩ := hf
    have hgi : L.pending[i]? = some p := by rw [List.getElem?_eq_getElem hi, hpi]
    obtain ⟨s, hashIndex, pre, post, h1, h2, h3, h4⟩ := L.find_some hmd ha hlen hfit hn hgi name (by simpa using hp)
      (fun j hj q hq => by
        have hjl : j < L.pending.length := by omega
        rw [List.getElem?_eq_getElem hjl] at hq
        injection hq with hq
        have := hfirst j hj
        rw [hq] at this
        simpa using this) hc
    refine ⟨_, h4, ?_⟩
    obtain ⟨data, w, hd, hw, hs⟩ := storeFile_ok h3
    have h32 : (2 : Nat) ^ 32 = 4294967296 := rfl
    have := hsize p (List.mem_of_getElem? hgi) data hd
    simp only [Option.map_some, Option.some.injEq]
    rw [hs]
    dsimp only
    unfold PendingFile.size
    rw [hd, BitVec.toNat_ofNat, Nat.mod_eq_of_lt (by omega)]
    rfl

theorem lookupAll_found (a : Archive) (size : List Byte → Option Nat) : ∀ (names : List (List Byte)),
    (∀ n ∈ names, ∃ r, a.findFile n = .ok r ∧ r.map (·.fileSize) = size n) →
    ∃ entries, a.lookupAll names = .ok entries ∧
      entries.map (fun x => (x.name, x.size)) = names.filterMap (fun n => (size n).map fun s => (n, s)) ∧
      ∀ x ∈ entries, ∃ info, a.findFile x.name = .ok (some info) ∧
        x = ⟨x.name, info.fileSize, info.compressedSize, info.flags⟩
  | [], _ => ⟨[], rfl, rfl, by simp⟩
  | n :: names, h => by
    obtain ⟨r, hr, hs⟩ := h n List.mem_cons_self
    obtain ⟨es, h1, h2, h3⟩ := lookupAll_found a size names (fun m hm => h m (List.mem_cons_of_mem _ hm))
    rw [Archive.lookupAll, hr, List.filterMap_cons]
    simp only [bind, Except.bind]
    rw [h1]
    cases r with
    | none =>
      rw [Option.map_none] at hs
      rw [← hs]
      exact ⟨es, rfl, h2, h3⟩
    | some info =>
      rw [Option.map_some] at hs
      rw [← hs]
      refine ⟨_, rfl, ?_, ?_⟩
      · rw [List.map_cons, h2]; rfl
      · intro x hx
        rcases List.mem_cons.1 hx with rfl | hx
        · exact ⟨info, hr, rfl⟩
        · exact h3 x hx

/-- C27 (any listfile): an archive whose listfile can be read lists exactly the names in it that were added, in its order,
each as spelled there and with the size of the file; whatever the listfile contains. -/
theorem C27_listing_follows_listfile (e : Env) (he : e.codecs.Lawful) (md5 : Md5) (hmd : ∀ x, (md5 x).length = 16)
    (b : Builder) (f : List Byte) (hb : buildBytes e md5 b = .ok f) (pending : List PendingFile)
    (hp : prepareListfile b = .ok pending) (hext : ClassicLookup e.codecs b pending) (before after : List Byte)
    (hal : before.length % 512 = 0)
    (hclean : ∀ o < before.length, o % 512 = 0 → ¬ Spec.archiveMark (before ++ f ++ after) o ∧
      ¬ Spec.userDataMark (before ++ f ++ after) o)
    (hlen : f.length < addressable b.version) (hfit : before.length + f.length < 2 ^ 64)
    (hcount : pending.length < 0xFFFFFFFE)
    (hsize : ∀ p ∈ pending, ∀ data, p.source = some data → data.length + data.length / 64 + 12 < 2 ^ 32)
    (hna : ∀ p ∈ pending, ¬ Spec.sameName (attributesName.map BitVec.toNat) (p.name.map BitVec.toNat))
    (l : PendingFile) (hl : firstNamed pending listfileName = some l) (content : List Byte) (hlc : l.source = some content)
    (ss : Nat) (hss : sectorSizeOf b.blockSize = .ok ss)
    (hm : content.length ≤ ss ∨ Spec.LosslessMethod l.compression content)
    (hrec : Recoverable e.codecs ss l.compression content)
    (hc : NoCollision (attributesName :: (parseListfile content ++ pending.map (·.name)))) :
    ∃ a entries, openArchive e (before ++ f ++ after) = .ok a ∧ a.list e = .ok entries ∧
      entries.map (fun x => (x.name, x.size)) =
        (parseListfile content).filterMap (fun n => (firstNamed pending n).map fun p => (n, p.size)) ∧
      ∀ x ∈ entries, ∃ info, a.findFile x.name = .ok (some info) ∧
        x = ⟨x.name, info.fileSize, info.compressedSize, info.flags⟩ := by
  obtain ⟨L⟩ := layout_of_build hmd hb
  have hpe : L.pending = pending := by
    have := L.prepared
    rw [hp] at this
    injection this with this
    exact this.symm
  subst hpe
  have hsec : L.sectorSize = ss := by
    have := L.sector
    rw [hss] at this
    injection this with this
    exact this.symm
  have hsub : ∀ (xs : List (List Byte)), (∀ x ∈ xs, x ∈ attributesName :: (parseListfile content ++ L.pending.map (·.name))) →
      NoCollision xs := fun xs h x hx y hy => hc x (h x hx) y (h y hy)
  have hcp : NoCollision (L.pending.map (·.name)) := hsub _ (fun x hx => by simp [List.mem_append, hx])
  obtain ⟨a, hopen, ha, hfb⟩ := L.opens hmd hext before after hal hclean hlen hfit hcount hna
    (hsub _ (fun x hx => by
      rcases List.mem_cons.1 hx with rfl | hx
      · exact List.mem_cons_self
      · simp [List.mem_append, hx]))
  unfold firstNamed at hl
  rw [List.find?_eq_some_iff_getElem] at hl
  obtain ⟨hlp, i, hi, hli, hfirst⟩ := hl
  have hgi : L.pending[i]? = some l := by rw [List.getElem?_eq_getElem hi, hli]
  have hsame : Spec.sameName (listfileName.map BitVec.toNat) (l.name.map BitVec.toNat) := by simpa using hlp
  have hfst : ∀ j < i, ∀ q, L.pending[j]? = some q →
      ¬ Spec.sameName (listfileName.map BitVec.toNat) (q.name.map BitVec.toNat) := by
    intro j hj q hq
    have hjl : j < L.pending.length := by omega
    rw [List.getElem?_eq_getElem hjl] at hq
    injection hq with hq
    have := hfirst j hj
    rw [hq] at this
    simpa using this
  have hmem : l.name ∈ L.pending.map (·.name) := List.mem_map.2 ⟨l, List.mem_of_getElem? hgi, rfl⟩
  have hread : a.readFile e listfileName = .ok content := by
    rw [← hsec] at hm hrec
    exact ((L.reads hmd ha hlen hfit hcount listfileName (hfb _) hgi hsame hfst hcp content hlc
      (hsize l (List.mem_of_getElem? hgi) content hlc) he).1 hm).2 hrec
  obtain ⟨s, hashIndex, pre, post, _, _, _, hfind⟩ := L.find_some hmd ha hlen hfit hcount hgi listfileName hsame hfst
    (noCollision_respell hcp hmem hsame)
  obtain ⟨entries, h1, h2, h3⟩ := lookupAll_found a (fun n => (firstNamed L.pending n).map PendingFile.size)
    (parseListfile content) (fun n hn => L.find_named hmd ha hlen hfit hcount n (hfb n) hsize
      (hsub _ (fun x hx => by
        rcases List.mem_cons.1 hx with rfl | hx
        · simp [List.mem_append, hn]
        · simp [List.mem_append, hx])))
  refine ⟨a, entries, hopen, ?_, ?_, h3⟩
  · unfold Archive.list
    rw [hfb listfileName, hfind]
    simp only [bind, Except.bind]
    rw [hread]
    exact h1
  · rw [h2]
    congr 1
    funext n
    rw [Option.map_map]
    rfl

/-- Two files to be added have different names. -/
def DistinctNames (pending : List PendingFile) : Prop :=
  pending.Pairwise fun p q => ¬ Spec.sameName (p.name.map BitVec.toNat) (q.name.map BitVec.toNat)

theorem firstNamed_self : ∀ {pending : List PendingFile}, DistinctNames pending → ∀ p ∈ pending,
    firstNamed pending p.name = some p
  | [], _, p, hp => by cases hp
  | q :: ps, hd, p, hp => by
    unfold DistinctNames at hd
    rw [List.pairwise_cons] at hd
    unfold firstNamed
    rw [List.find?_cons]
    rcases List.mem_cons.1 hp with rfl | hp
    · simp [sameName_refl]
    · have : ¬ Spec.sameName (p.name.map BitVec.toNat) (q.name.map BitVec.toNat) := fun h => hd.1 p hp (sameName_symm h)
      simp only [this, decide_false]
      exact firstNamed_self hd.2 p hp

/-- C27: the archive of a builder that generates its listfile lists exactly the added files, in the order they were added,
each once and with its size, and last the listfile itself. The names are texts that can stand on a line of a listfile (C28)
and are pairwise different up to case and separator; the listfile is recoverable (C21, C22), which it is with a lossless
default compression when it fits into one sector. -/
theorem C27_generated_listing_partial (e : Env) (he : e.codecs.Lawful) (md5 : Md5) (hmd : ∀ x, (md5 x).length = 16)
    (b : Builder) (f : List Byte) (hb : buildBytes e md5 b = .ok f) (hg : b.listfile = .generate) (texts : List (List Nat))
    (hnames : b.pending.map (·.name) = texts.map Spec.encode) (hscalar : ∀ n ∈ texts, ∀ c ∈ n, Spec.scalar c)
    (hlist : ∀ n ∈ texts, Spec.listable n) (pending : List PendingFile)
    (hp : prepareListfile b = .ok pending) (hdist : DistinctNames pending) (hext : ClassicLookup e.codecs b pending)
    (before after : List Byte) (hal : before.length % 512 = 0)
    (hclean : ∀ o < before.length, o % 512 = 0 → ¬ Spec.archiveMark (before ++ f ++ after) o ∧
      ¬ Spec.userDataMark (before ++ f ++ after) o)
    (hlen : f.length < addressable b.version) (hfit : before.length + f.length < 2 ^ 64)
    (hcount : pending.length < 0xFFFFFFFE)
    (hsize : ∀ p ∈ pending, ∀ data, p.source = some data → data.length + data.length / 64 + 12 < 2 ^ 32)
    (hna : ∀ p ∈ pending, ¬ Spec.sameName (attributesName.map BitVec.toNat) (p.name.map BitVec.toNat))
    (ss : Nat) (hss : sectorSizeOf b.blockSize = .ok ss)
    (hm : (listfileText (b.pending.map (·.name))).length ≤ ss ∨
      Spec.LosslessMethod b.defaultCompression (listfileText (b.pending.map (·.name))))
    (hrec : Recoverable e.codecs ss b.defaultCompression (listfileText (b.pending.map (·.name))))
    (hc : NoCollision (attributesName :: pending.map (·.name))) :
    ∃ a entries, openArchive e (before ++ f ++ after) = .ok a ∧ a.list e = .ok entries ∧
      entries.map (fun x => (x.name, x.size)) =
        b.pending.map (fun p => (p.name, p.size)) ++
          [(listfileName, (listfileText (b.pending.map (·.name))).length)] ∧
      ∀ x ∈ entries, ∃ info, a.findFile x.name = .ok (some info) ∧
        x = ⟨x.name, info.fileSize, info.compressedSize, info.flags⟩ := by
  have hpend : pending = b.pending ++ [
      { source := some (listfileText (b.pending.map (·.name))), name := listfileName, compression := b.defaultCompression,
        encrypt := false, useFixKey := false, locale := 0 }] := by
    unfold prepareListfile at hp
    rw [hg] at hp
    injection hp with hp
    exact hp.symm
  have hparse : parseListfile (listfileText (b.pending.map (·.name))) = pending.map (·.name) := by
    rw [hnames, (C28_listfile_exact_partial texts hscalar).2 hlist, ← hnames, hpend, List.map_append]
    rfl
  obtain ⟨a, entries, h1, h2, h3, h4⟩ := C27_listing_follows_listfile e he md5 hmd b f hb pending hp hext before after hal
    hclean hlen hfit hcount hsize hna _
    (firstNamed_self hdist _ (by rw [hpend]; exact List.mem_append_right _ (List.mem_singleton.2 rfl))) _ rfl ss hss hm hrec
    (by
      rw [hparse]
      intro x hx y hy
      have key : ∀ x ∈ attributesName :: (pending.map (·.name) ++ pending.map (·.name)),
          x ∈ attributesName :: pending.map (·.name) := by
        intro x hx
        rcases List.mem_cons.1 hx with rfl | hx
        · exact List.mem_cons_self
        · rcases List.mem_append.1 hx with hx | hx <;> exact List.mem_cons_of_mem _ hx
      exact hc x (key x hx) y (key y hy))
  refine ⟨a, entries, h1, h2, ?_, h4⟩
  rw [h3, hparse]
  have : ∀ ps : List PendingFile, (∀ p ∈ ps, p ∈ pending) →
      (ps.map (·.name)).filterMap (fun n => (firstNamed pending n).map fun p => (n, p.size)) =
        ps.map fun p => (p.name, p.size) := by
    intro ps hps
    induction ps with
    | nil => rfl
    | cons p ps ih =>
      rw [List.map_cons, List.filterMap_cons, firstNamed_self hdist p (hps p List.mem_cons_self), List.map_cons,
        ← ih (fun q hq => hps q (List.mem_cons_of_mem _ hq))]
      rfl
  rw [this pending (fun _ h => h)]
  conv => lhs; rw [hpend]
  rw [List.map_append]
  rfl

/-- The listfile as the builder adds it. -/
def listfileEntry (b : Builder) (content : List Byte) : PendingFile :=
  { source := some content, name := listfileName, compression := b.defaultCompression, encrypt := false, useFixKey := false,
    locale := 0 }

/-- C27: the archive of a builder with a given listfile contains that listfile, byte for byte, besides the added files, and
lists exactly the names on it that were added (or are the listfile itself), in its order and spelling, with the sizes of the
files. No file named "(listfile)" was added; the listfile is recoverable (C21, C22). -/
theorem C27_external_listing_partial (e : Env) (he : e.codecs.Lawful) (md5 : Md5) (hmd : ∀ x, (md5 x).length = 16)
    (b : Builder) (f : List Byte) (hb : buildBytes e md5 b = .ok f) (content : List Byte)
    (hx : b.listfile = .external (some content)) (all : List PendingFile) (hall : all = b.pending ++ [listfileEntry b content])
    (hnl : ∀ p ∈ b.pending, ¬ Spec.sameName (listfileName.map BitVec.toNat) (p.name.map BitVec.toNat))
    (hext : ClassicLookup e.codecs b all) (before after : List Byte) (hal : before.length % 512 = 0)
    (hclean : ∀ o < before.length, o % 512 = 0 → ¬ Spec.archiveMark (before ++ f ++ after) o ∧
      ¬ Spec.userDataMark (before ++ f ++ after) o)
    (hlen : f.length < addressable b.version) (hfit : before.length + f.length < 2 ^ 64)
    (hcount : all.length < 0xFFFFFFFE)
    (hsize : ∀ p ∈ all, ∀ data, p.source = some data → data.length + data.length / 64 + 12 < 2 ^ 32)
    (hna : ∀ p ∈ all, ¬ Spec.sameName (attributesName.map BitVec.toNat) (p.name.map BitVec.toNat))
    (ss : Nat) (hss : sectorSizeOf b.blockSize = .ok ss)
    (hm : content.length ≤ ss ∨ Spec.LosslessMethod b.defaultCompression content)
    (hrec : Recoverable e.codecs ss b.defaultCompression content)
    (hc : NoCollision (attributesName :: (parseListfile content ++ all.map (·.name)))) :
    ∃ a entries, openArchive e (before ++ f ++ after) = .ok a ∧ a.readFile e listfileName = .ok content ∧
      a.list e = .ok entries ∧
      entries.map (fun x => (x.name, x.size)) =
        (parseListfile content).filterMap (fun n => (firstNamed all n).map fun p => (n, p.size)) := by
  have hp : prepareListfile b = .ok all := by
    unfold prepareListfile
    rw [hx, hall]
    rfl
  have hlast : all[b.pending.length]? = some (listfileEntry b content) := by rw [hall]; simp
  have hbefore : ∀ j < b.pending.length, ∀ q, all[j]? = some q →
      ¬ Spec.sameName (listfileName.map BitVec.toNat) (q.name.map BitVec.toNat) := by
    intro j hj q hq
    rw [hall, List.getElem?_append_left hj] at hq
    exact hnl q (List.mem_of_getElem? hq)
  have hfirst : firstNamed all listfileName = some (listfileEntry b content) := by
    unfold firstNamed
    rw [hall, List.find?_append, List.find?_eq_none.2 (fun p hp => by simpa using hnl p hp)]
    simp [listfileEntry, sameName_refl]
  obtain ⟨a, entries, h1, h2, h3, _⟩ := C27_listing_follows_listfile e he md5 hmd b f hb all hp hext before after hal hclean
    hlen hfit hcount hsize hna _ hfirst content rfl ss hss hm hrec hc
  obtain ⟨a', ss', h1', hss', h4, _⟩ := C26_read_back_partial e he md5 hmd b f hb all hp hext before after hal hclean hlen hfit
    hcount hsize hna (fun x hx y hy => hc x (by
      rcases List.mem_cons.1 hx with rfl | hx
      · exact List.mem_cons_self
      · exact List.mem_cons_of_mem _ (List.mem_append_right _ hx)) y (by
      rcases List.mem_cons.1 hy with rfl | hy
      · exact List.mem_cons_self
      · exact List.mem_cons_of_mem _ (List.mem_append_right _ hy)))
  rw [h1] at h1'
  cases h1'
  rw [hss] at hss'
  cases hss'
  refine ⟨a, entries, h1, ?_, h2, h3⟩
  obtain ⟨data, hd, hread, _⟩ := h4 b.pending.length _ listfileName hlast (sameName_refl _) hbefore
  cases hd
  exact (hread hm).2 hrec

/-- C27: a builder without a listfile adds nothing of its own: the archive holds the added files only. -/
theorem C27_no_listfile (b : Builder) (hn : b.listfile = .none) : prepareListfile b = .ok b.pending := by
  unfold prepareListfile
  rw [hn]

/-- A file of at most one sector whose method loses nothing is recoverable, if it can be compressed at all. -/
theorem recoverable_of_lossless {e : Codecs} (he : e.Lawful) {ss : Nat} {method : Byte} {data : List Byte}
    (hl : data.length ≤ ss) (hm : Spec.LosslessMethod method data) {c : List Byte} (hc : compress e data method = .ok c) :
    Recoverable e ss method data := by
  unfold Recoverable
  rw [if_pos hl]
  refine Or.inr (Or.inr ⟨c, hc, ?_⟩)
  obtain ⟨m1, m2, m3, m4, m5⟩ := hm
  rcases C15_round_trip_partial e he data c method m1 m2 m3 m4 m5 hc with h | ⟨body, h, hd⟩
  · exact Or.inl h
  · rw [h]; exact Or.inr hd

/-- The sample archive of every version from 2 on lists its two files and the listfile. -/
theorem sample_lists (v : FormatVersion) (hv : v ≠ .v1) : ∃ f a entries, buildBytes toyEnv zeroMd5 (sampleBuilder v) = .ok f ∧
    openArchive toyEnv f = .ok a ∧ a.list toyEnv = .ok entries ∧
    entries.map (fun x => (x.name, x.size)) = [(ascii "Dir\\a.txt", 40), (ascii "b.bin", 5), (listfileName, 30)] := by
  obtain ⟨f, _, hf, hlt, _, _⟩ := sample_reads v hv
  have e48 : (2 : Nat) ^ 48 = 281474976710656 := rfl
  have e64 : (2 : Nat) ^ 64 = 18446744073709551616 := rfl
  have hlm : Spec.LosslessMethod 0x02#8 (listfileText [ascii "Dir\\a.txt", ascii "b.bin"]) :=
    ⟨by decide, by decide, by decide, fun h => by rcases h with h | h <;> exact absurd h (by decide), by decide +kernel⟩
  obtain ⟨a, entries, h1, h2, h3, _⟩ := C27_generated_listing_partial toyEnv toyCodecs_lawful zeroMd5
    (fun _ => List.length_replicate) (sampleBuilder v) f hf rfl
    ["Dir\\a.txt".toList.map Char.toNat, "b.bin".toList.map Char.toNat]
    (show (sampleBuilder .v1).pending.map (·.name) = _ by decide +kernel)
    (by
      have : ∀ n ∈ ["Dir\\a.txt".toList.map Char.toNat, "b.bin".toList.map Char.toNat], ∀ c ∈ n, c < 0xD800 := by decide
      exact fun n hn c hc => Or.inl (this n hn c hc))
    (by
      intro n hn
      unfold Spec.listable Spec.space
      simp only [List.mem_cons, List.not_mem_nil, or_false] at hn
      rcases hn with rfl | rfl
      · refine ⟨by decide, by decide, by decide, by decide, ?_, ?_⟩
        · intro c hc
          have : some (0x44 : Nat) = some c := hc
          injection this with this; omega
        · intro c hc
          have : some (0x74 : Nat) = some c := hc
          injection this with this; omega
      · refine ⟨by decide, by decide, by decide, by decide, ?_, ?_⟩
        · intro c hc
          have : some (0x62 : Nat) = some c := hc
          injection this with this; omega
        · intro c hc
          have : some (0x6E : Nat) = some c := hc
          injection this with this; omega)
    samplePending (samplePending_eq v)
    (by unfold DistinctNames; decide +kernel)
    (fun _ => .inl ⟨rfl, by decide⟩) [] [] rfl (by intro o ho; cases ho)
    (by unfold addressable; rw [if_neg (show ¬ (sampleBuilder v).version = .v1 from hv)]; exact hlt)
    (by simp only [List.length_nil]; omega) (by decide) sample_sizes (by decide +kernel) 4096
    (show sectorSizeOf 3#16 = .ok 4096 by decide) (Or.inr hlm)
    (recoverable_of_lossless toyCodecs_lawful
      (show (listfileText ((sampleBuilder .v1).pending.map (·.name))).length ≤ 4096 by decide +kernel) hlm
      (c := (compress toyCodecs (listfileText ((sampleBuilder .v1).pending.map (·.name))) 0x02#8).toOption.getD [])
      (show compress toyCodecs (listfileText ((sampleBuilder .v1).pending.map (·.name))) 0x02#8 = _ by decide +kernel))
    (noCollision_lit (by decide +kernel))
  rw [List.nil_append, List.append_nil] at h1
  refine ⟨f, a, entries, hf, h1, h2, ?_⟩
  rw [h3]
  show (sampleBuilder .v1).pending.map (fun p => (p.name, p.size)) ++
    [(listfileName, (listfileText ((sampleBuilder .v1).pending.map (·.name))).length)] = _
  decide +kernel

/-- A listfile naming one of the two files of the sample, in another case, and a file that was not added. -/
def externalBuilder : Builder := { sampleBuilder .v2 with listfile := .external (some (ascii "ghost\r\nB.BIN\n")) }

/-- The archive with this listfile lists the one file. -/
example : ∃ f a entries, buildBytes toyEnv zeroMd5 externalBuilder = .ok f ∧ openArchive toyEnv f = .ok a ∧
    a.readFile toyEnv listfileName = .ok (ascii "ghost\r\nB.BIN\n") ∧ a.list toyEnv = .ok entries ∧
    entries.map (fun x => (x.name, x.size)) = [(ascii "B.BIN", 5)] := by
  let all := externalBuilder.pending ++ [listfileEntry externalBuilder (ascii "ghost\r\nB.BIN\n")]
  have hbuild : Buildable toyEnv externalBuilder all :=
    { shift := by show (3#16).toNat < 55; decide
      prepared := rfl
      count := by decide
      readable := by
        intro p hp
        simp only [all, externalBuilder, sampleBuilder, List.cons_append, List.nil_append, List.mem_cons,
          List.not_mem_nil, or_false] at hp
        rcases hp with rfl | rfl | rfl
        · exact ⟨_, rfl, by decide, by unfold Compressible; rw [show externalBuilder.blockSize = 3#16 from rfl, if_pos (by decide +kernel)]; exact ⟨_, by rfl⟩⟩
        · exact ⟨_, rfl, by decide, by unfold Compressible; rw [show externalBuilder.blockSize = 3#16 from rfl, if_pos (by decide +kernel)]; exact ⟨_, by rfl⟩⟩
        · exact ⟨_, rfl, by decide +kernel, by unfold Compressible; rw [show externalBuilder.blockSize = 3#16 from rfl, if_pos (by decide +kernel)]; exact ⟨_, by rfl⟩⟩
      names := noCollision_lit (by decide +kernel)
      distinct := by unfold DistinctFiles; decide +kernel }
  obtain ⟨f, hf⟩ := C50_classic_build_succeeds toyEnv zeroMd5 externalBuilder all hbuild (.inr rfl)
  have hsum : (all.map storedBound).sum < 1000 := by decide +kernel
  have h47 : (2 : Nat) ^ 47 = 140737488355328 := rfl
  have e48 : (2 : Nat) ^ 48 = 281474976710656 := rfl
  have e64 : (2 : Nat) ^ 64 = 18446744073709551616 := rfl
  obtain ⟨L⟩ := layout_of_build (fun _ => List.length_replicate) hf
  have hpe : L.pending = all := (Except.ok.inj (L.prepared.symm.trans hbuild.prepared))
  have hsb : ∀ p ∈ all, storedBound p + (p.source.getD []).length < 1000 := by decide +kernel
  have hlt : f.length < 2 ^ 48 := L.length_lt (fun _ => List.length_replicate) (by rw [hpe]; decide)
    (by rw [hpe]; intro p hp; have := hsb p hp; omega) (by rw [hpe]; omega)
  have hlm : Spec.LosslessMethod 0x02#8 (ascii "ghost\r\nB.BIN\n") :=
    ⟨by decide, by decide, by decide, fun h => by rcases h with h | h <;> exact absurd h (by decide), by decide +kernel⟩
  have hsizes : ∀ p ∈ all, ∀ data, p.source = some data → data.length + data.length / 64 + 12 < 2 ^ 32 := by
    intro p hp data hd
    have := hsb p hp
    rw [hd] at this
    have : storedBound p + data.length < 1000 := this
    omega
  obtain ⟨a, entries, h1, h2, h3, h4⟩ := C27_external_listing_partial toyEnv toyCodecs_lawful zeroMd5
    (fun _ => List.length_replicate) externalBuilder f hf (ascii "ghost\r\nB.BIN\n") rfl all rfl (by decide +kernel)
    (fun _ => .inl ⟨rfl, by decide⟩) [] [] rfl (by intro o ho; cases ho)
    (by unfold addressable; rw [if_neg (show ¬ externalBuilder.version = .v1 by decide)]; exact hlt)
    (by simp only [List.length_nil]; omega) (by decide) hsizes (by decide +kernel) 4096
    (show sectorSizeOf 3#16 = .ok 4096 by decide) (Or.inr hlm)
    (recoverable_of_lossless toyCodecs_lawful (by decide) hlm
      (c := (compress toyCodecs (ascii "ghost\r\nB.BIN\n") 0x02#8).toOption.getD [])
      (show compress toyCodecs (ascii "ghost\r\nB.BIN\n") 0x02#8 = _ by decide +kernel))
    (noCollision_lit (by decide +kernel))
  rw [List.nil_append, List.append_nil] at h1
  refine ⟨f, a, entries, hf, h1, h2, h3, ?_⟩
  rw [h4]
  decide +kernel

/-! ## C48 -/

/-- C48 (partial): in a built archive the size reported for an added file, under any spelling of its name, is the size of
what was added, and so the number of bytes that can be read if its content is recoverable (C21, C22). Missing: the
archives left out in `C26_read_back_partial`, and files that are not recoverable (`C48_stored_multi_sector_longer`). -/
theorem C48_built_sizes_partial (e : Env) (he : e.codecs.Lawful) (md5 : Md5) (hmd : ∀ x, (md5 x).length = 16)
    (b : Builder) (f : List Byte) (hb : buildBytes e md5 b = .ok f) (pending : List PendingFile)
    (hp : prepareListfile b = .ok pending) (hext : ClassicLookup e.codecs b pending) (before after : List Byte)
    (hal : before.length % 512 = 0)
    (hclean : ∀ o < before.length, o % 512 = 0 → ¬ Spec.archiveMark (before ++ f ++ after) o ∧
      ¬ Spec.userDataMark (before ++ f ++ after) o)
    (hlen : f.length < addressable b.version) (hfit : before.length + f.length < 2 ^ 64)
    (hcount : pending.length < 0xFFFFFFFE)
    (hsize : ∀ p ∈ pending, ∀ data, p.source = some data → data.length + data.length / 64 + 12 < 2 ^ 32)
    (hna : ∀ p ∈ pending, ¬ Spec.sameName (attributesName.map BitVec.toNat) (p.name.map BitVec.toNat))
    (hc : NoCollision (attributesName :: pending.map (·.name))) :
    ∃ a ss, openArchive e (before ++ f ++ after) = .ok a ∧ sectorSizeOf b.blockSize = .ok ss ∧
      ∀ (name : List Byte) (p : PendingFile), firstNamed pending name = some p →
        ∃ info, a.findFile name = .ok (some info) ∧ info.fileSize = p.size ∧
          ∀ data, p.source = some data → (data.length ≤ ss ∨ Spec.LosslessMethod p.compression data) →
            Recoverable e.codecs ss p.compression data →
            ∃ read, a.readFile e name = .ok read ∧ info.fileSize = read.length := by
  obtain ⟨L⟩ := layout_of_build hmd hb
  have hpe : L.pending = pending := by
    have := L.prepared
    rw [hp] at this
    injection this with this
    exact this.symm
  subst hpe
  obtain ⟨a, hopen, ha, hfb⟩ := L.opens hmd hext before after hal hclean hlen hfit hcount hna hc
  refine ⟨a, L.sectorSize, hopen, L.sector, ?_⟩
  intro name p hfn
  have hfn' := hfn
  unfold firstNamed at hfn'
  rw [List.find?_eq_some_iff_getElem] at hfn'
  obtain ⟨hlp, i, hi, hli, hfirst⟩ := hfn'
  have hgi : L.pending[i]? = some p := by rw [List.getElem?_eq_getElem hi, hli]
  have hsame : Spec.sameName (name.map BitVec.toNat) (p.name.map BitVec.toNat) := by simpa using hlp
  have hmem : p.name ∈ L.pending.map (·.name) := List.mem_map.2 ⟨p, List.mem_of_getElem? hgi, rfl⟩
  obtain ⟨r, hr, hrs⟩ := L.find_named hmd ha hlen hfit hcount name (hfb _) hsize
    (noCollision_respell (noCollision_tail hc) hmem hsame)
  rw [hfn, Option.map_some] at hrs
  cases r with
  | none => cases hrs
  | some info =>
    injection hrs with hrs
    have hrs : info.fileSize = p.size := hrs
    refine ⟨info, hr, hrs, ?_⟩
    intro data hd hor hrec
    have hfst : ∀ j < i, ∀ q, L.pending[j]? = some q →
        ¬ Spec.sameName (name.map BitVec.toNat) (q.name.map BitVec.toNat) := by
      intro j hj q hq
      have hjl : j < L.pending.length := by omega
      rw [List.getElem?_eq_getElem hjl] at hq
      injection hq with hq
      have := hfirst j hj
      rw [hq] at this
      simpa using this
    refine ⟨data, ((L.reads hmd ha hlen hfit hcount name (hfb _) hgi hsame hfst (noCollision_tail hc) data hd
      (hsize p (List.mem_of_getElem? hgi) data hd) he).1 hor).2 hrec, ?_⟩
    rw [hrs]
    unfold PendingFile.size
    rw [hd]
    rfl

/-- C48 fails: in a built archive, a file of more than one sector that was added without compression and encryption (and
checksums off) reports its size, but reading it gives more bytes: four for every sector and four more. -/
theorem C48_stored_multi_sector_longer (e : Env) (md5 : Md5) (hmd : ∀ x, (md5 x).length = 16)
    (b : Builder) (f : List Byte) (hb : buildBytes e md5 b = .ok f) (pending : List PendingFile)
    (hp : prepareListfile b = .ok pending) (hext : ClassicLookup e.codecs b pending) (before after : List Byte)
    (hal : before.length % 512 = 0)
    (hclean : ∀ o < before.length, o % 512 = 0 → ¬ Spec.archiveMark (before ++ f ++ after) o ∧
      ¬ Spec.userDataMark (before ++ f ++ after) o)
    (hlen : f.length < addressable b.version) (hfit : before.length + f.length < 2 ^ 64)
    (hcount : pending.length < 0xFFFFFFFE)
    (hna : ∀ p ∈ pending, ¬ Spec.sameName (attributesName.map BitVec.toNat) (p.name.map BitVec.toNat))
    (hc : NoCollision (attributesName :: pending.map (·.name))) (hcrc : b.generateCrcs = false) (ss : Nat)
    (hss : sectorSizeOf b.blockSize = .ok ss) (name : List Byte) (p : PendingFile) (hfn : firstNamed pending name = some p)
    (data : List Byte) (hd : p.source = some data) (hbig : ss < data.length)
    (hsize : data.length + data.length / 64 + 12 < 2 ^ 32) (hcomp : p.compression = 0#8) (henc : p.encrypt = false) :
    ∃ a info read, openArchive e (before ++ f ++ after) = .ok a ∧ a.findFile name = .ok (some info) ∧
      info.fileSize = data.length ∧ a.readFile e name = .ok read ∧
      read.length = info.fileSize + 4 * ((data.length + ss - 1) / ss + 1) := by
  obtain ⟨L⟩ := layout_of_build hmd hb
  have hpe : L.pending = pending := by
    have := L.prepared
    rw [hp] at this
    injection this with this
    exact this.symm
  subst hpe
  have hsec : L.sectorSize = ss := by
    have := L.sector
    rw [hss] at this
    injection this with this
    exact this.symm
  obtain ⟨a, hopen, ha, hfb⟩ := L.opens hmd hext before after hal hclean hlen hfit hcount hna hc
  have hfn' := hfn
  unfold firstNamed at hfn'
  rw [List.find?_eq_some_iff_getElem] at hfn'
  obtain ⟨hlp, i, hi, hli, hfirst⟩ := hfn'
  have hgi : L.pending[i]? = some p := by rw [List.getElem?_eq_getElem hi, hli]
  have hsame : Spec.sameName (name.map BitVec.toNat) (p.name.map BitVec.toNat) := by simpa using hlp
  have hmem : p.name ∈ L.pending.map (·.name) := List.mem_map.2 ⟨p, List.mem_of_getElem? hgi, rfl⟩
  have hfst : ∀ j < i, ∀ q, L.pending[j]? = some q →
      ¬ Spec.sameName (name.map BitVec.toNat) (q.name.map BitVec.toNat) := by
    intro j hj q hq
    have hjl : j < L.pending.length := by omega
    rw [List.getElem?_eq_getElem hjl] at hq
    injection hq with hq
    have := hfirst j hj
    rw [hq] at this
    simpa using this
  obtain ⟨s, hashIndex, pre, post, h1, h2, h3, h4⟩ := L.find_some hmd ha hlen hfit hcount hgi name hsame hfst
    (noCollision_respell (noCollision_tail hc) hmem hsame)
  have hfind := hfb name
  unfold FallsBack at hfind
  rw [h4] at hfind
  obtain ⟨w, pre', post', hw, hdesc, hpl, hread⟩ := L.read_found hmd ha h1 h2 h3 data hd hsize name _ hfind rfl rfl rfl rfl rfl
  rw [hcrc] at hw
  obtain ⟨table, htl, hr⟩ := C22_offset_table_returned e _ w hw (by dsimp only; rw [hsec]; exact hbig) hcomp henc _ _ hdesc
    pre' post' hpl b.blockSize name (BitVec.ofNat 32 data.length) data.length
  rw [hr] at hread
  refine ⟨a, _, _, hopen, hfind, hdesc.fileSize, hread, ?_⟩
  dsimp only at htl ⊢
  rw [List.length_append, htl, hsec, ← hdesc.fileSize]
  dsimp only
  omega

/-- A file of 600 bytes, not to be compressed. -/
def storedFile : PendingFile :=
  { source := some (List.replicate 600 7#8), name := ascii "big", compression := 0, encrypt := false, useFixKey := false,
    locale := 0 }

/-- A builder with this file alone, in sectors of 512 bytes. -/
def storedBuilder : Builder where
  version := .v2
  blockSize := 0
  pending := [storedFile]
  listfile := .none
  defaultCompression := 0x02
  generateCrcs := false
  tables := { compressTables := false, tableCompression := 0x02 }

theorem storedBuilder_buildable : Buildable toyEnv storedBuilder storedBuilder.pending where
  shift := by decide
  prepared := rfl
  count := by decide
  readable := by
    intro p hp
    rw [List.mem_singleton.1 hp]
    refine ⟨_, rfl, by decide +kernel, ?_⟩
    unfold Compressible
    rw [show storedBuilder.blockSize = 0#16 from rfl, if_neg (by decide +kernel)]
    intro x _
    exact ⟨_, compress_zero _ _⟩
  names := noCollision_lit (by decide +kernel)
  distinct := by unfold DistinctFiles; decide +kernel

/-- Its file reports 600 bytes, but 612 are read. -/
example : ∃ f a info read, buildBytes toyEnv zeroMd5 storedBuilder = .ok f ∧ openArchive toyEnv f = .ok a ∧
    a.findFile (ascii "BIG") = .ok (some info) ∧ info.fileSize = 600 ∧ a.readFile toyEnv (ascii "BIG") = .ok read ∧
    read.length = 612 := by
  have e48 : (2 : Nat) ^ 48 = 281474976710656 := rfl
  have e64 : (2 : Nat) ^ 64 = 18446744073709551616 := rfl
  obtain ⟨f, hf⟩ := C50_classic_build_succeeds toyEnv zeroMd5 storedBuilder _ storedBuilder_buildable (Or.inr rfl)
  obtain ⟨L⟩ := layout_of_build (fun _ => List.length_replicate) hf
  have hpe : L.pending = storedBuilder.pending := by
    have := L.prepared
    rw [show prepareListfile storedBuilder = .ok storedBuilder.pending from rfl] at this
    exact (Except.ok.inj this).symm
  have hsb : ∀ p ∈ storedBuilder.pending, storedBound p + (p.source.getD []).length < 10000 := by decide +kernel
  have hlt : f.length < 2 ^ 48 := L.length_lt (fun _ => List.length_replicate) (by rw [hpe]; decide)
    (by rw [hpe]; intro p hp; have := hsb p hp; omega) (by rw [hpe]; decide +kernel)
  obtain ⟨a, info, read, h1, h2, h3, h4, h5⟩ := C48_stored_multi_sector_longer toyEnv zeroMd5 (fun _ => List.length_replicate)
    storedBuilder f hf storedBuilder.pending rfl (fun h => by cases h) [] [] rfl (by intro o ho; cases ho) hlt
    (by simp only [List.length_nil]; omega) (by decide) (by decide +kernel) (noCollision_lit (by decide +kernel)) rfl 512
    (by decide) (ascii "BIG") storedFile (by decide +kernel) (List.replicate 600 7#8) rfl (by rw [List.length_replicate]; decide)
    (by rw [List.length_replicate]; decide) rfl rfl
  rw [List.nil_append, List.append_nil] at h1
  rw [List.length_replicate] at h3 h5
  exact ⟨f, a, info, read, hf, h1, h2, h3, h4, by rw [h5, h3]⟩

/-- C48 fails for archives of any origin: the number of bytes read from a file stored without compression is the stored
size, whatever size is reported. -/
theorem C48_uncompressed_reads_stored_size (e : Env) (a : Archive) (name : List Byte) (info : FileInfo)
    (hf : a.findFile name = .ok (some info)) (hcomp : info.isCompressed = false) (data : List Byte)
    (hr : a.readFile e name = .ok data) : data.length = info.compressedSize := by
  have key : ∀ size actual, readFileData e a.file a.archiveOffset a.header.blockSize name info size actual = .ok data →
      data.length = info.compressedSize := by
    intro size actual h
    unfold readFileData at h
    rw [hcomp] at h
    simp only [Bool.not_false, Bool.or_true, if_true, Bool.false_eq_true, if_false] at h
    obtain ⟨raw, hraw, h⟩ := bind_eq_ok.1 h
    have hl := readAt_length hraw
    have hdl : (if info.isEncrypted then decryptFileData raw (readerKey name a.archiveOffset info size) else raw).length =
        info.compressedSize := by
      split
      · rw [decryptFileData_length, hl]
      · exact hl
    generalize (if info.isEncrypted then decryptFileData raw (readerKey name a.archiveOffset info size) else raw) = d at h hdl
    have hfin : data = d := by
      split at h
      · obtain ⟨crc, _, h⟩ := bind_eq_ok.1 h
        simp only [pure_bind] at h
        split at h
        · cases h
        · injection h with h
          exact h.symm
      · injection h with h
        exact h.symm
    rw [hfin, hdl]
  unfold Archive.readFile at hr
  rw [hf] at hr
  simp only [bind, Except.bind] at hr
  split at hr
  · exact key _ _ hr
  · split at hr
    · cases hr
    · split at hr
      · cases hr
      · exact key _ _ hr

end Mopaq
