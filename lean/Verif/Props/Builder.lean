import Verif.Lemmas.ExtCompressed

/-!
# Built archives (C26, C27, C29, C34)

`buildBytes` is the content of the file that `ArchiveBuilder::build` leaves behind; `prepareListfile b` is the list of
files that go into the archive, including the listfile. The archive may stand in a larger file, between `before` and
`after`.
-/

namespace Mopaq

/-! ## C26 -/

/-- What it takes for a file of the given content to be readable (C21, C22): up to one sector, what was compressed must
decompress; beyond, at least one sector must be stored compressed and every sector stored compressed must have become
shorter. -/
def Recoverable (e : Codecs) (sectorSize : Nat) (method : Byte) (data : List Byte) : Prop :=
  if data.length ≤ sectorSize then
    method = 0#8 ∨ data = [] ∨ ∃ c, compress e data method = .ok c ∧
      (c = data ∨ decompress e c.tail method data.length = .ok data)
  else
    (∃ x c, Spec.IsSector sectorSize data x ∧ CompressedSector e method x c) ∧
    (∀ x c, Spec.IsSector sectorSize data x → CompressedSector e method x c → c.length < x.length)

theorem noCollision_respell {names : List (List Byte)} (hc : NoCollision names) {p name : List Byte} (hp : p ∈ names)
    (h : Spec.sameName (name.map BitVec.toNat) (p.map BitVec.toNat)) : NoCollision (name :: names) := by
  have hn := normalise_of_sameName h
  have hh := hashPair_normalise hn
  have key : ∀ x ∈ name :: names, ∃ y ∈ names, hashPair x = hashPair y ∧
      Spec.normalise (x.map BitVec.toNat) = Spec.normalise (y.map BitVec.toNat) := by
    intro x hx
    rcases List.mem_cons.1 hx with rfl | hx
    · exact ⟨p, hp, hh, hn⟩
    · exact ⟨x, hx, rfl, rfl⟩
  intro x hx y hy hxy
  obtain ⟨x', hx', h1, h2⟩ := key x hx
  obtain ⟨y', hy', h3, h4⟩ := key y hy
  rw [h2, h4]
  exact hc x' hx' y' hy' (by rw [← h1, ← h3, hxy])

theorem noCollision_tail {n : List Byte} {names : List (List Byte)} (hc : NoCollision (n :: names)) : NoCollision names :=
  fun a ha b hb => hc a (List.mem_cons_of_mem _ ha) b (List.mem_cons_of_mem _ hb)

variable {e : Env} {md5 : Md5} {b : Builder} {f : List Byte}

/-- Reading an added file of an archive whose lookup is the one of the classic tables. -/
theorem Layout.reads (L : Layout e md5 b f) (hmd : ∀ x, (md5 x).length = 16) {before after : List Byte} {a : Archive}
    (ha : L.Opened before after a) (hlen : f.length < addressable b.version) (hfit : before.length + f.length < 2 ^ 64)
    (hn : L.pending.length < 0xFFFFFFFE) (name : List Byte) (hfb : FallsBack a name)
    {i : Nat} {p : PendingFile} (hp : L.pending[i]? = some p)
    (hname : Spec.sameName (name.map BitVec.toNat) (p.name.map BitVec.toNat))
    (hfirst : ∀ j < i, ∀ q, L.pending[j]? = some q →
      ¬ Spec.sameName (name.map BitVec.toNat) (q.name.map BitVec.toNat))
    (hc : NoCollision (L.pending.map (·.name))) (data : List Byte) (hdata : p.source = some data)
    (hsize : data.length + data.length / 64 + 12 < 2 ^ 32) (he : e.codecs.Lawful) :
    (data.length ≤ L.sectorSize ∨ Spec.LosslessMethod p.compression data →
      (a.readFile e name = .ok data ↔ Recoverable e.codecs L.sectorSize p.compression data)) ∧
    (data.length ≤ L.sectorSize → Spec.LosslessMethod p.compression data → a.readFile e name = .ok data) := by
  have hmem : p.name ∈ L.pending.map (·.name) := List.mem_map.2 ⟨p, List.mem_of_getElem? hp, rfl⟩
  obtain ⟨s, hashIndex, pre, post, h1, h2, h3, h4⟩ := L.find_some hmd ha hlen hfit hn hp name hname hfirst
    (noCollision_respell hc hmem hname)
  unfold FallsBack at hfb
  rw [h4] at hfb
  obtain ⟨w, pre', post', hw, hdesc, hpl, hread⟩ := L.read_found hmd ha h1 h2 h3 data hdata hsize name _ hfb rfl rfl rfl rfl rfl
  rw [hread]
  constructor
  · intro hor
    unfold Recoverable
    by_cases hl : data.length ≤ L.sectorSize
    · rw [if_pos hl]
      exact C21_single_unit_exact e b.generateCrcs _ w hw hl _ before.length hdesc pre' post' hpl b.blockSize name hname
    · rw [if_neg hl]
      exact C22_multi_sector_exact_partial e he b.generateCrcs _ w hw (by dsimp only; omega) b.blockSize L.sector hsize
        (hor.resolve_left hl) _ before.length hdesc pre' post' hpl name hname
  · intro hl hm
    exact C21_single_unit_round_trip_partial e he b.generateCrcs _ w hw hl hm _ before.length hdesc pre' post' hpl
      b.blockSize name hname

/-- The builder options under which the lookup is known to be the one of the classic tables: format versions 1 and 2,
archives of at most four files whose extended tables are not compressed, and archives of any number of files whose
extended tables are compressed with zlib, which are written so that they cannot be read (C33). -/
def ClassicLookup (e : Codecs) (b : Builder) (pending : List PendingFile) : Prop :=
  b.version.ge .v3 = true → b.tables.compressTables = false ∧ pending.length ≤ 4 ∨
    b.tables = ⟨true, 0x02#8⟩ ∧ ZlibTables e (pending.map (·.name))

theorem Layout.fallback (L : Layout e md5 b f) (hmd : ∀ x, (md5 x).length = 16) (before after : List Byte)
    (hlen : f.length < addressable b.version) (hfit : before.length + f.length < 2 ^ 64)
    (hext : ClassicLookup e.codecs b L.pending) :
    ∃ het bet,
      (if b.version.ge .v3 then Mopaq.loadHet e (before ++ f ++ after) before.length L.hdr else pure none) = .ok het ∧
      (if b.version.ge .v3 then Mopaq.loadBet e (before ++ f ++ after) before.length L.hdr else pure none) = .ok bet ∧
      ∀ a, L.Opened before after a → a.hetTable = het → a.betTable = bet → ∀ name, FallsBack a name := by
  by_cases hv : b.version.ge .v3 = true
  · rcases hext hv with ⟨ho, h4⟩ | ⟨ho, hz⟩
    rotate_left
    · obtain ⟨hh, bet, hb⟩ := L.zlib_tables hmd before after hlen hfit hv ho hz
      rw [if_pos hv, if_pos hv]
      refine ⟨none, bet, hh, hb, ?_⟩
      intro a _ hht hbt name
      refine fallsBack_unusable ?_ name
      rw [hht, hbt]
      rfl
    obtain ⟨hd, bd, hhd, hwh, hbd, hwb⟩ := L.extended hv
    obtain ⟨hc, hcc⟩ := createHet_content hhd
    obtain ⟨bc, hbc⟩ := createBet_content hbd
    have h32 : 2 ^ 32 = 4294967296 := rfl
    have hln : (L.pending.map (·.name)).length ≤ 4 := by rw [List.length_map]; exact h4
    have hbl : (L.stored.map (·.block)).length = (L.pending.map (·.name)).length := by
      rw [List.length_map, List.length_map, L.placed.length]
    obtain ⟨pre, post, hF, hh⟩ := L.loadHet hmd before after hlen hfit hv
    obtain ⟨pre', post', hF', hb⟩ := L.loadBet hmd before after hlen hfit hv
    obtain ⟨t, ht, hth, htl⟩ := het_read e.codecs b.tables ho pre post _ (by omega) hc hcc hd L.het hhd hwh
    obtain ⟨u, hu, _⟩ := C33_bet_uncompressed_partial e.codecs b.tables ho pre' post' _ _ hbl (by omega) bc hbc bd L.bet hbd hwb
    rw [if_pos hv, if_pos hv, hh, hb]
    rw [← hF] at ht
    rw [← hF'] at hu
    rw [ht, hu]
    refine ⟨some t, some u, rfl, rfl, ?_⟩
    intro a ha hht hbt name
    cases hus : usableHetBet a.hetTable a.betTable with
    | none => exact fallsBack_unusable hus name
    | some x =>
      obtain ⟨het, bet⟩ := x
      refine fallsBack_unresolved hus ?_ (by rw [ha.hash]; rfl) (by rw [ha.block]; rfl)
      rw [hht, hbt] at hus
      unfold usableHetBet at hus
      dsimp only at hus
      split at hus
      · injection hus with hus
        injection hus with hus _
        subst hus
        exact C31_small_tables_resolve_nothing_partial _ hln hc hcc _ hth htl name
      · cases hus
  · rw [if_neg hv, if_neg hv]
    refine ⟨none, none, rfl, rfl, ?_⟩
    intro a ha hht hbt name
    refine fallsBack_unusable ?_ name
    rw [hht, hbt]
    rfl

theorem sameName_symm : ∀ {a b : List Nat}, Spec.sameName a b → Spec.sameName b a := by
  intro a b h
  exact sameName_of_normalise (normalise_of_sameName h).symm

/-- C26: whatever the pending files, names, contents, listfile option, sector size, compression, encryption and checksum
options, and whatever bytes stand before and after the archive: the finished archive opens, every added file (the first
added under its name) is read back under every spelling of its name if and only if its content is recoverable
(C21, C22), which a file of at most one sector with a lossless method always is; a name that was not added is reported as
missing. Left out: archives of version 3 and 4 with more than four files and uncompressed tables, for which it fails
(`C26_extended_wrong_content`; what holds is `C26_extended_read_partial`), or tables compressed other than by zlib, archives with
a file "(attributes)", names with colliding hashes, and files near 4 GiB. -/
theorem C26_read_back_partial (e : Env) (he : e.codecs.Lawful) (md5 : Md5) (hmd : ∀ x, (md5 x).length = 16) (b : Builder)
    (f : List Byte) (hb : buildBytes e md5 b = .ok f) (pending : List PendingFile) (hp : prepareListfile b = .ok pending)
    (hext : ClassicLookup e.codecs b pending) (before after : List Byte) (hal : before.length % 512 = 0)
    (hclean : ∀ o < before.length, o % 512 = 0 → ¬ Spec.archiveMark (before ++ f ++ after) o ∧
      ¬ Spec.userDataMark (before ++ f ++ after) o)
    (hlen : f.length < addressable b.version) (hfit : before.length + f.length < 2 ^ 64)
    (hcount : pending.length < 0xFFFFFFFE)
    (hsize : ∀ p ∈ pending, ∀ data, p.source = some data → data.length + data.length / 64 + 12 < 2 ^ 32)
    (hna : ∀ p ∈ pending, ¬ Spec.sameName (attributesName.map BitVec.toNat) (p.name.map BitVec.toNat))
    (hc : NoCollision (attributesName :: pending.map (·.name))) :
    ∃ a ss, openArchive e (before ++ f ++ after) = .ok a ∧ sectorSizeOf b.blockSize = .ok ss ∧
      (∀ (i : Nat) (p : PendingFile) (name : List Byte), pending[i]? = some p →
        Spec.sameName (name.map BitVec.toNat) (p.name.map BitVec.toNat) →
        (∀ j < i, ∀ q, pending[j]? = some q → ¬ Spec.sameName (name.map BitVec.toNat) (q.name.map BitVec.toNat)) →
        ∃ data, p.source = some data ∧
          (data.length ≤ ss ∨ Spec.LosslessMethod p.compression data →
            (a.readFile e name = .ok data ↔ Recoverable e.codecs ss p.compression data)) ∧
          (data.length ≤ ss → Spec.LosslessMethod p.compression data → a.readFile e name = .ok data)) ∧
      (∀ name, (∀ p ∈ pending, ¬ Spec.sameName (name.map BitVec.toNat) (p.name.map BitVec.toNat)) →
        NoCollision (name :: pending.map (·.name)) → a.readFile e name = .error .fileNotFound) := by
  obtain ⟨L⟩ := layout_of_build hmd hb
  have hpe : L.pending = pending := by
    have := L.prepared
    rw [hp] at this
    injection this with this
    exact this.symm
  subst hpe
  obtain ⟨het, bet, hhet, hbet, hfall⟩ := L.fallback hmd before after hlen hfit hext
  obtain ⟨a, ha, hht, hbt, hat, _, hopen⟩ := L.open hmd before after hal hclean hlen hfit hcount het bet hhet hbet
  have hfb := hfall a ha hht hbt
  have hfn : a.findFile attributesName = .ok none := by
    rw [hfb attributesName]
    exact L.find_none ha hcount _ hna hc
  rw [loadAttributes_none hfn hat] at hopen
  have ha' : L.Opened before after { a with attributes := none } := ⟨ha.file, ha.offset, ha.header, ha.hash, ha.block, ha.his⟩
  have hfb' := hfall { a with attributes := none } ha' hht hbt
  refine ⟨{ a with attributes := none }, L.sectorSize, hopen, L.sector, ?_, ?_⟩
  · intro i p name hp' hname hfirst
    obtain ⟨s, _, _, _, _, _, hst⟩ := L.placed.get hp'
    obtain ⟨data, _, hdata, _⟩ := storeFile_ok hst
    refine ⟨data, hdata, ?_⟩
    exact L.reads hmd ha' hlen hfit hcount name (hfb' name) hp' hname hfirst (noCollision_tail hc) data hdata
      (hsize p (List.mem_of_getElem? hp') data hdata) he
  · intro name hnone hcn
    have hfn := L.find_none ha' hcount name hnone hcn
    rw [← hfb' name] at hfn
    unfold Archive.readFile
    rw [hfn]
    rfl

/-- A builder with two files, one compressed, the other encrypted, and a generated listfile. -/
def sampleBuilder (v : FormatVersion) : Builder where
  version := v
  blockSize := 3
  pending := [{ source := some (List.replicate 40 0x41#8), name := ascii "Dir\\a.txt", compression := 0x02, encrypt := false,
                useFixKey := false, locale := 0 },
              { source := some [1, 2, 3, 4, 5], name := ascii "b.bin", compression := 0, encrypt := true,
                useFixKey := true, locale := 0 }]
  listfile := .generate
  defaultCompression := 0x02
  generateCrcs := true
  tables := { compressTables := false, tableCompression := 0x02 }

def zeroMd5 : Md5 := fun _ => List.replicate 16 0

instance (names : List (List Byte)) : Decidable (NoCollision names) := by unfold NoCollision; infer_instance

instance decSameName : ∀ a b : List Nat, Decidable (Spec.sameName a b)
  | [], [] => .isTrue trivial
  | [], _ :: _ => .isFalse id
  | _ :: _, [] => .isFalse id
  | a :: as, b :: bs =>
    have : Decidable (Spec.sameChar a b) := by unfold Spec.sameChar; infer_instance
    have := decSameName as bs
    inferInstanceAs (Decidable (Spec.sameChar a b ∧ Spec.sameName as bs))

theorem noCollision_lit {names : List (List Byte)}
    (h : ∀ a ∈ names, ∀ b ∈ names, hashLit 1 0x7FED7FED 0xEEEEEEEE (a.map BitVec.toNat) =
      hashLit 1 0x7FED7FED 0xEEEEEEEE (b.map BitVec.toNat) →
      Spec.normalise (a.map BitVec.toNat) = Spec.normalise (b.map BitVec.toNat)) : NoCollision names := by
  intro a ha b hb hab
  refine h a ha b hb ?_
  have h1 := congrArg BitVec.toNat (Prod.mk.inj hab).1
  have key : ∀ n : List Byte, (hashString n htNameA).toNat = hashLit 1 0x7FED7FED 0xEEEEEEEE (n.map BitVec.toNat) := by
    intro n
    rw [hashLit_eq 1 (by decide) _ (by simp; intro a _; exact a.isLt)]
    exact hashString_spec 1 (by decide) n
  rw [key, key] at h1
  exact h1

/-! ## C50 -/

/-- C50: building an archive of version 1 or 2 succeeds whenever every source can be read and is below 4 GiB, every
piece can be compressed, no two files share name (up to case and separator) and locale, the sector size is in range, and
there are fewer than 2^30 files; whatever the names, contents and options. -/
theorem C50_classic_build_succeeds (e : Env) (md5 : Md5) (b : Builder) (pending : List PendingFile)
    (h : Buildable e b pending) (hv : b.version = .v1 ∨ b.version = .v2) : ∃ f, buildBytes e md5 b = .ok f := by
  refine build_classic h ?_
  rcases hv with hv | hv <;> rw [hv] <;> rfl

/-- C50 (partial): in versions 3 and 4 the same holds for archives of less than 2 MiB without table compression, or with a
method that can compress every table. Missing: larger archives, which may panic while the BET table is made (`C32_build_panics`). -/
theorem C50_extended_build_succeeds_partial (e : Env) (md5 : Md5) (b : Builder) (pending : List PendingFile)
    (h : Buildable e b pending)
    (ho : b.tables.compressTables = false ∨ ∀ x, ∃ c, compress e.codecs x b.tables.tableCompression = .ok c)
    (hsum : (pending.map storedBound).sum + b.version.headerSize.toNat < 2 ^ 21) : ∃ f, buildBytes e md5 b = .ok f := by
  by_cases hv : b.version.ge .v3 = true
  · exact build_extended_small h hv ho hsum
  · exact build_classic h (by simpa using hv)

def samplePending : List PendingFile :=
  (sampleBuilder .v1).pending ++ [
    { source := some (listfileText [ascii "Dir\\a.txt", ascii "b.bin"]), name := listfileName, compression := 0x02,
      encrypt := false, useFixKey := false, locale := 0 }]

theorem samplePending_eq (v : FormatVersion) : prepareListfile (sampleBuilder v) = .ok samplePending := rfl

theorem sample_names : NoCollision (attributesName :: ascii "c" :: samplePending.map (·.name)) :=
  noCollision_lit (by decide +kernel)

theorem sample_buildable (v : FormatVersion) : Buildable toyEnv (sampleBuilder v) samplePending where
  shift := by show (3#16).toNat < 55; decide
  prepared := samplePending_eq v
  count := by decide
  readable := by
    intro p hp
    simp only [samplePending, sampleBuilder, List.cons_append, List.nil_append, List.mem_cons, List.not_mem_nil,
      or_false] at hp
    rcases hp with rfl | rfl | rfl
    · exact ⟨_, rfl, by decide, by unfold Compressible; rw [show (sampleBuilder v).blockSize = 3#16 from rfl, if_pos (by decide +kernel)]; exact ⟨_, by rfl⟩⟩
    · exact ⟨_, rfl, by decide, by unfold Compressible; rw [show (sampleBuilder v).blockSize = 3#16 from rfl, if_pos (by decide +kernel)]; exact ⟨_, by rfl⟩⟩
    · exact ⟨_, rfl, by decide +kernel, by unfold Compressible; rw [show (sampleBuilder v).blockSize = 3#16 from rfl, if_pos (by decide +kernel)]; exact ⟨_, by rfl⟩⟩
  names := noCollision_tail (noCollision_tail sample_names)
  distinct := by
    unfold DistinctFiles
    decide +kernel

theorem sample_sizes : ∀ p ∈ samplePending, ∀ data, p.source = some data → data.length + data.length / 64 + 12 < 2 ^ 32 := by
  have hsb : ∀ p ∈ samplePending, (p.source.getD []).length < 1000 := by decide +kernel
  intro p hp data hd
  have := hsb p hp
  rw [hd] at this
  have : data.length < 1000 := this
  omega

/-- The sample builds in every version from 2 on, opens, and its file is read back under another spelling. -/
theorem sample_reads (v : FormatVersion) (hv : v ≠ .v1) : ∃ f a, buildBytes toyEnv zeroMd5 (sampleBuilder v) = .ok f ∧
    f.length < 2 ^ 48 ∧ openArchive toyEnv f = .ok a ∧ a.readFile toyEnv (ascii "dir/A.TXT") = .ok (List.replicate 40 0x41#8) ∧
    a.readFile toyEnv (ascii "c") = .error .fileNotFound := by
  have hsum : (samplePending.map storedBound).sum < 1000 := by decide +kernel
  have h21 : (2 : Nat) ^ 21 = 2097152 := rfl
  have h47 : (2 : Nat) ^ 47 = 140737488355328 := rfl
  have hh : v.headerSize.toNat ≤ 208 := by cases v <;> decide
  obtain ⟨f, hf⟩ := C50_extended_build_succeeds_partial toyEnv zeroMd5 (sampleBuilder v) samplePending (sample_buildable v)
    (.inl rfl) (by show _ + v.headerSize.toNat < _; omega)
  obtain ⟨L⟩ := layout_of_build (fun _ => List.length_replicate) hf
  have hpe : L.pending = samplePending := by
    have := L.prepared
    rw [samplePending_eq] at this
    injection this with this
    exact this.symm
  have hsb : ∀ p ∈ samplePending, storedBound p + (p.source.getD []).length < 1000 := by decide +kernel
  have hlt : f.length < 2 ^ 48 := L.length_lt (fun _ => List.length_replicate) (by rw [hpe]; decide)
    (by rw [hpe]; intro p hp; have := hsb p hp; omega) (by rw [hpe]; omega)
  obtain ⟨a, ss, ho, hss, hr, hn⟩ := C26_read_back_partial toyEnv toyCodecs_lawful zeroMd5 (fun _ => List.length_replicate)
    (sampleBuilder v) f hf samplePending (samplePending_eq v) (fun _ => .inl ⟨rfl, by decide⟩) [] [] rfl
    (by intro o ho; cases ho) (by unfold addressable; rw [if_neg (show ¬ (sampleBuilder v).version = .v1 from hv)]; exact hlt)
    (by have e48 : (2 : Nat) ^ 48 = 281474976710656 := rfl
        have : (2 : Nat) ^ 64 = 18446744073709551616 := rfl
        simp only [List.length_nil]; omega)
    (by decide) sample_sizes (by decide +kernel)
    (noCollision_lit (by decide +kernel))
  rw [List.nil_append, List.append_nil] at ho
  refine ⟨f, a, hf, hlt, ho, ?_, ?_⟩
  · obtain ⟨data, hd, _, hok⟩ := hr 0 _ (ascii "dir/A.TXT") rfl (by decide +kernel) (by intro j hj; omega)
    injection hd with hd
    subst hd
    have h4096 : sectorSizeOf 3#16 = .ok 4096 := by decide
    have hss' : sectorSizeOf 3#16 = .ok ss := hss
    rw [h4096] at hss'
    injection hss' with hss'
    exact hok (by rw [← hss']; decide) ⟨by decide, by decide, by decide, fun h => by rcases h with h | h <;> exact absurd h (by decide), by decide +kernel⟩
  · exact hn _ (by decide +kernel) (noCollision_tail sample_names)

end Mopaq
