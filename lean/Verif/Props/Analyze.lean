import Verif.Model.Analyze
import Verif.Props.Listing

/-!
# C63: the analysis of compression methods
-/

namespace Mopaq

variable {e : Env} {md5 : Md5} {b : Builder} {f : List Byte}

theorem storeFile_low {crcs : Bool} {ss pos : Nat} {p : PendingFile} {s : Stored} (h : storeFile e crcs ss pos p = .ok s) :
    s.block.flags.setWidth 8 = 0#8 := by
  obtain ⟨data, w, _, hw, hs⟩ := storeFile_ok h
  rw [hs]
  have key : ∀ x c y z u, (mkFlags x c y z u ||| flagExists).setWidth 8 = 0#8 := by decide
  show (w.flags ||| flagExists).setWidth 8 = 0#8
  unfold writeFile at hw
  split at hw
  · obtain ⟨_, _, _, hf, _⟩ := writeSingle_eq hw
    rw [hf]; exact key ..
  · obtain ⟨_, _, _, _, hf, _⟩ := writeSectored_eq hw
    rw [hf]; exact key ..

/-- What an analysis says when no file has a method in the place it looks at: `n` files without compression. -/
theorem analyzeLoop_none (a : Archive) : ∀ (entries : List FileEntry) (r : Analysis),
    (∀ x ∈ entries, ∃ info, a.findFile x.name = .ok (some info) ∧ x = ⟨x.name, info.fileSize, info.compressedSize, info.flags⟩ ∧
      info.flags.setWidth 8 = 0#8) →
    r.compressed + (entries.map (·.compressedSize)).sum < 2 ^ 64 → r.uncompressed + (entries.map (·.size)).sum < 2 ^ 64 →
    a.analyzeLoop entries r = .ok
      { r with count := fun m => if m = .none then r.count m + entries.length else r.count m
               compressed := r.compressed + (entries.map (·.compressedSize)).sum
               uncompressed := r.uncompressed + (entries.map (·.size)).sum }
  | [], r, _, _, _ => by
    simp only [Archive.analyzeLoop, List.map_nil, List.sum_nil, Nat.add_zero, List.length_nil, ite_self]
  | x :: rest, r, h, h1, h2 => by
    obtain ⟨info, hf, hx, hz⟩ := h x List.mem_cons_self
    have hs : x.size = info.fileSize := by rw [hx]
    have hcs : x.compressedSize = info.compressedSize := by rw [hx]
    simp only [List.map_cons, List.sum_cons] at h1 h2
    rw [Archive.analyzeLoop, hf]
    simp only [bind, Except.bind]
    unfold addChecked
    rw [if_pos (by omega), if_pos (by omega)]
    simp only
    rw [hz, show Method.fromFlags 0#8 = .none from by decide]
    rw [analyzeLoop_none a rest _ (fun y hy => h y (List.mem_cons_of_mem _ hy)) (by dsimp only; omega) (by dsimp only; omega)]
    dsimp only
    simp only [Method.supported, if_true, List.map_cons, List.sum_cons, List.length_cons]
    have e1 : (fun m => if m = Method.none then (if m = Method.none then r.count m + 1 else r.count m) + rest.length
        else if m = Method.none then r.count m + 1 else r.count m) =
        fun m => if m = Method.none then r.count m + (rest.length + 1) else r.count m := by
      funext m
      split <;> omega
    rw [e1, hs, hcs, Nat.add_assoc, Nat.add_assoc]

theorem findFileClassic_block {a : Archive} {name : List Byte} {info : FileInfo}
    (h : a.findFileClassic name = .ok (some info)) : ∃ bt block, a.blockTable = some bt ∧ block ∈ bt ∧
      info.flags = block.flags ∧ info.compressedSize = block.compressedSize.toNat ∧ info.fileSize = block.fileSize.toNat := by
  unfold Archive.findFileClassic at h
  split at h
  · cases h
  split at h
  · cases h
  rename_i bt hbt
  obtain ⟨r, _, h⟩ := bind_eq_ok.1 h
  split at h
  · cases h
  rename_i hashIndex entry
  split at h
  · cases h
  rename_i block hb
  obtain ⟨pos, _, h⟩ := bind_eq_ok.1 h
  have h := Option.some.inj (Except.ok.inj h)
  exact ⟨bt, block, hbt, List.mem_of_getElem? hb, by rw [← h], by rw [← h], by rw [← h]⟩

theorem analyzeLoop_only_none (a : Archive) (hx : usableHetBet a.hetTable a.betTable = none)
    (hlow : ∀ bt, a.blockTable = some bt → ∀ block ∈ bt, block.flags.setWidth 8 = 0#8) :
    ∀ (entries : List FileEntry) (r r' : Analysis), a.analyzeLoop entries r = .ok r' →
      (∀ m, m ≠ .none → r'.count m = r.count m) ∧ r'.unsupported = r.unsupported
  | [], r, r', h => by
    rw [Archive.analyzeLoop] at h
    cases h
    exact ⟨fun _ _ => rfl, rfl⟩
  | x :: rest, r, r', h => by
    rw [Archive.analyzeLoop] at h
    obtain ⟨o, ho, h⟩ := bind_eq_ok.1 h
    cases o with
    | none => exact analyzeLoop_only_none a hx hlow rest r r' h
    | some info =>
      unfold Archive.findFile at ho
      rw [hx] at ho
      obtain ⟨bt, block, hbt, hmem, hfl, _, _⟩ := findFileClassic_block ho
      dsimp only at h
      rw [hfl, hlow bt hbt block hmem, show Method.fromFlags 0#8 = .none from by decide] at h
      obtain ⟨c, _, h⟩ := bind_eq_ok.1 h
      obtain ⟨u, _, h⟩ := bind_eq_ok.1 h
      obtain ⟨h1, h2⟩ := analyzeLoop_only_none a hx hlow rest _ r' h
      refine ⟨fun m hm => ?_, h2⟩
      rw [h1 m hm]
      exact if_neg hm

/-- The methods that the analysis calls supported. -/
def Spec.supportedMethods : List Method := [.none, .zlib, .bzip2, .lzma, .sparse, .adpcmMono, .adpcmStereo]

/-- What was found for a file, and the method its flags name, as the analysis understands them. -/
def Spec.methodOf (info : FileInfo) : Method := Method.fromFlags (info.flags.setWidth 8)

theorem analyzeLoop_figures (a : Archive) : ∀ (entries : List FileEntry) (r r' : Analysis),
    a.analyzeLoop entries r = .ok r' → ∃ found : List (FileEntry × FileInfo),
      (∀ x ∈ found, a.findFile x.1.name = .ok (some x.2)) ∧ (found.map (·.1)).Sublist entries ∧
      (∀ x ∈ entries, x ∈ found.map (·.1) ∨ a.findFile x.name = .ok none) ∧
      (∀ m, r'.count m = r.count m + (found.filter fun x => Spec.methodOf x.2 = m).length) ∧
      r'.compressed = r.compressed + (found.map fun x => x.2.compressedSize).sum ∧
      r'.uncompressed = r.uncompressed + (found.map fun x => x.2.fileSize).sum ∧
      r'.unsupported = r.unsupported ++
        (found.filter fun x => Spec.methodOf x.2 ∉ Spec.supportedMethods).map (fun x => (x.1.name, Spec.methodOf x.2)) ∧
      r'.totalFiles = r.totalFiles
  | [], r, r', h => by
    rw [Archive.analyzeLoop] at h
    cases h
    exact ⟨[], by simp, by simp, by simp, by simp, by simp, by simp, by simp, rfl⟩
  | x :: rest, r, r', h => by
    rw [Archive.analyzeLoop] at h
    obtain ⟨o, ho, h⟩ := bind_eq_ok.1 h
    cases o with
    | none =>
      obtain ⟨found, h1, h2, h3, h4⟩ := analyzeLoop_figures a rest r r' h
      refine ⟨found, h1, h2.cons _, fun y hy => ?_, h4⟩
      rcases List.mem_cons.1 hy with rfl | hy
      · exact .inr ho
      · exact h3 y hy
    | some info =>
      dsimp only at h
      obtain ⟨c, hc, h⟩ := bind_eq_ok.1 h
      obtain ⟨u, hu, h⟩ := bind_eq_ok.1 h
      obtain ⟨found, h1, h2, h3, h4, h5, h6, h7, h8⟩ := analyzeLoop_figures a rest _ r' h
      have hc' : c = r.compressed + info.compressedSize := by
        unfold addChecked at hc
        split at hc
        · exact (Except.ok.inj hc).symm
        · cases hc
      have hu' : u = r.uncompressed + info.fileSize := by
        unfold addChecked at hu
        split at hu
        · exact (Except.ok.inj hu).symm
        · cases hu
      refine ⟨(x, info) :: found, ?_, ?_, ?_, ?_, ?_, ?_, ?_, h8⟩
      · intro y hy
        rcases List.mem_cons.1 hy with rfl | hy
        · exact ho
        · exact h1 y hy
      · rw [List.map_cons]; exact h2.cons_cons _
      · intro y hy
        rcases List.mem_cons.1 hy with rfl | hy
        · exact .inl List.mem_cons_self
        · rcases h3 y hy with h | h
          · exact .inl (List.mem_cons_of_mem _ h)
          · exact .inr h
      · intro m
        rw [h4 m, List.filter_cons]
        show (if m = Spec.methodOf info then r.count m + 1 else r.count m) + _ = _
        by_cases hm : m = Spec.methodOf info
        · rw [if_pos hm, if_pos (by simp [hm]), List.length_cons]; omega
        · rw [if_neg hm, if_neg (by simpa using fun h => hm h.symm)]
      · rw [h5, List.map_cons, List.sum_cons]
        dsimp only
        omega
      · rw [h6, List.map_cons, List.sum_cons]
        dsimp only
        omega
      · rw [h7, List.filter_cons]
        have hsup : ∀ m : Method, m.supported = true ↔ m ∈ Spec.supportedMethods := by
          intro m
          cases m <;> simp [Method.supported, Spec.supportedMethods]
        show (if (Spec.methodOf info).supported = true then r.unsupported
          else r.unsupported ++ [(x.name, Spec.methodOf info)]) ++ _ = _
        by_cases hs : Spec.methodOf info ∈ Spec.supportedMethods
        · rw [if_pos ((hsup _).2 hs), if_neg (by simp [hs])]
        · rw [if_neg (fun h => hs ((hsup _).1 h)), if_pos (by simp [hs]), List.map_cons, List.append_assoc]
          rfl

/-- C63: the figures for any archive. They are made from the files listed that are found, in the order of the list: the
sizes are added up, the files are counted by method, and the files whose method is not one of the seven supported ones are named.
All files listed count in the total. -/
theorem C63_figures (e : Env) (a : Archive) (r : Analysis) (h : a.analyze e = .ok (some r)) :
    ∃ (entries : List FileEntry) (found : List (FileEntry × FileInfo)), a.list e = .ok entries ∧ entries ≠ [] ∧
      (∀ x ∈ found, a.findFile x.1.name = .ok (some x.2)) ∧ (found.map (·.1)).Sublist entries ∧
      (∀ x ∈ entries, x ∈ found.map (·.1) ∨ a.findFile x.name = .ok none) ∧
      r.totalFiles = entries.length ∧
      (∀ m, r.count m = (found.filter fun x => Spec.methodOf x.2 = m).length) ∧
      r.compressed = (found.map fun x => x.2.compressedSize).sum ∧ r.uncompressed = (found.map fun x => x.2.fileSize).sum ∧
      r.unsupported = (found.filter fun x => Spec.methodOf x.2 ∉ Spec.supportedMethods).map
        (fun x => (x.1.name, Spec.methodOf x.2)) := by
  unfold Archive.analyze Archive.listWithHashes at h
  obtain ⟨entries, hl, h⟩ := bind_eq_ok.1 h
  obtain ⟨es, hes, hl⟩ := bind_eq_ok.1 hl
  have hl := Except.ok.inj hl
  subst hl
  rw [List.map_map, show ((fun x : HashedEntry => x.1) ∘ fun x : FileEntry =>
    (x, some (hashString x.name htNameA, hashString x.name htNameB))) = id from rfl, List.map_id, List.length_map] at h
  split at h
  · cases h
  rename_i hne
  obtain ⟨r', hr, h⟩ := bind_eq_ok.1 h
  cases Option.some.inj (Except.ok.inj h)
  obtain ⟨found, h1, h2, h3, h4, h5, h6, h7, h8⟩ := analyzeLoop_figures a es _ r hr
  refine ⟨es, found, hes, fun h0 => hne (by rw [h0]; rfl), h1, h2, h3, h8, fun m => ?_, ?_, ?_, ?_⟩
  · rw [h4 m]; exact Nat.zero_add _
  · rw [h5]; exact Nat.zero_add _
  · rw [h6]; exact Nat.zero_add _
  · rw [h7]; rfl

/-- C63: nothing is reported exactly if nothing is listed. -/
theorem C63_nothing_iff (e : Env) (a : Archive) : a.analyze e = .ok none ↔ a.list e = .ok [] := by
  unfold Archive.analyze Archive.listWithHashes
  cases hl : a.list e with
  | error err => constructor <;> intro h <;> cases h
  | ok entries =>
    cases entries with
    | nil => constructor <;> intro _ <;> rfl
    | cons x rest =>
      constructor
      · intro h
        simp only [bind, Except.bind, pure, Except.pure, List.map_cons, reduceCtorEq, if_false] at h
        split at h <;> cases h
      · intro h; cases h

/-- C63: in an archive without extended tables, whoever made it, whose block flags leave the lowest eight bits unused, as
the format does, every file is reported as not compressed and none as using an unsupported method, whatever the methods the
files are stored with. -/
theorem C63_no_method_reported (e : Env) (a : Archive) (hx : a.hetTable = none ∨ a.betTable = none)
    (hlow : ∀ bt, a.blockTable = some bt → ∀ block ∈ bt, block.flags.toNat % 256 = 0) (r : Analysis)
    (h : a.analyze e = .ok (some r)) : (∀ m, m ≠ .none → r.count m = 0) ∧ r.unsupported = [] := by
  unfold Archive.analyze at h
  obtain ⟨entries, _, h⟩ := bind_eq_ok.1 h
  split at h
  · cases h
  obtain ⟨r', hr, h⟩ := bind_eq_ok.1 h
  cases Option.some.inj (Except.ok.inj h)
  have hu : usableHetBet a.hetTable a.betTable = none := by
    unfold usableHetBet
    rcases hx with hx | hx
    · rw [hx]
    · rw [hx]; cases a.hetTable <;> rfl
  refine analyzeLoop_only_none a hu ?_ _ _ _ hr
  intro bt hbt block hb
  apply BitVec.eq_of_toNat_eq
  rw [BitVec.toNat_setWidth]
  exact hlow bt hbt block hb

/-- The name of the first file of a list without names. -/
def placeholder : List Byte := ascii "file_00000000.dat"

/-- An archive without a listfile and with one file, whose block says that it is compressed. -/
def methodArchive (h1 h2 : U32) : Archive where
  file := []
  archiveOffset := 0
  userData := none
  header := parsedHeader .v1 3 ⟨0, 0, 0, 0, 0, none, none, none, none⟩
  hashTable := some [⟨h1, h2, 0, 0, 0⟩]
  blockTable := some [⟨2, 5, 9, 0x81000200⟩]
  hiBlockTable := none
  hetTable := none
  betTable := none
  attributes := none

theorem method_loop (k1 k2 h1 h2 s : U32) (h : ¬ (k1 = h1 ∧ k2 = h2)) :
    findLoop [⟨k1, k2, 0, 0, 0⟩] h1 h2 0 (s.toNat &&& 0) 1 (s.toNat &&& 0) = .ok none := by
  rw [Nat.and_zero]
  have hs : ((k1 == h1) && (k2 == h2)) = false := by
    rw [Bool.eq_false_iff, ne_eq, Bool.and_eq_true, beq_iff_eq, beq_iff_eq]
    exact h
  unfold findLoop
  simp only [List.getElem?_cons_zero, HashEntry.isHit, hs, Bool.false_and, List.length_singleton, Nat.sub_self,
    Nat.and_zero, if_true]
  rfl

theorem method_loop_hit (h1 h2 s : U32) :
    findLoop [⟨h1, h2, 0, 0, 0⟩] h1 h2 0 (s.toNat &&& 0) 1 (s.toNat &&& 0) = .ok (some (0, ⟨h1, h2, 0, 0, 0⟩)) := by
  rw [Nat.and_zero]
  unfold findLoop
  simp only [List.getElem?_cons_zero, HashEntry.isHit, beq_self_eq_true, Bool.and_self, Bool.true_and]
  rfl

theorem methodArchive_find (k1 k2 : U32) (name : List Byte) :
    (¬ (k1 = hashString name htNameA ∧ k2 = hashString name htNameB) →
      (methodArchive k1 k2).findFile name = .ok none) ∧
    (k1 = hashString name htNameA → k2 = hashString name htNameB → (methodArchive k1 k2).findFile name =
      .ok (some ⟨0, 0, 2, 5, 9, 0x81000200, 0⟩)) := by
  have hx : (methodArchive k1 k2).findFile name = (methodArchive k1 k2).findFileClassic name := rfl
  rw [hx]
  unfold Archive.findFileClassic methodArchive
  dsimp only
  have hfind : findFileHash [⟨k1, k2, 0, 0, 0⟩] name 0 = findLoop [⟨k1, k2, 0, 0, 0⟩] (hashString name htNameA)
      (hashString name htNameB) 0 ((hashString name htTableOffset).toNat &&& 0) 1
      ((hashString name htTableOffset).toNat &&& 0) := by
    unfold findFileHash
    rw [if_neg (by simp)]
    rfl
  rw [hfind]
  refine ⟨fun h => ?_, fun h1 h2 => ?_⟩
  · rw [method_loop _ _ _ _ _ h]
    rfl
  · rw [h1, h2, method_loop_hit]
    rfl

theorem analyze_of_list {a : Archive} {entries : List FileEntry} (hl : a.list e = .ok entries) (hne : entries ≠ []) {r : Analysis}
    (hr : a.analyzeLoop entries ⟨fun _ => 0, [], 0, 0, entries.length⟩ = .ok r) : a.analyze e = .ok (some r) := by
  unfold Archive.analyze Archive.listWithHashes
  rw [hl]
  simp only [bind, Except.bind, pure, Except.pure]
  rw [if_neg (by simpa using hne), List.map_map, show ((fun x : HashedEntry => x.1) ∘ fun x : FileEntry =>
    (x, some (hashString x.name htNameA, hashString x.name htNameB))) = id from rfl, List.map_id, List.length_map, hr]

theorem methodArchive_analyze (h1 h2 : U32) (hl : (methodArchive h1 h2).findFile listfileName = .ok none)
    (hf : (methodArchive h1 h2).findFile (placeholder) = .ok (some ⟨0, 0, 2, 5, 9, 0x81000200, 0⟩)) :
    ∃ r, (methodArchive h1 h2).analyze toyEnv = .ok (some r) ∧ r.totalFiles = 1 ∧ r.count .none = 1 := by
  have hlist : (methodArchive h1 h2).list toyEnv = .ok [⟨placeholder, 9, 5, 0x81000200⟩] := by
    unfold Archive.list
    rw [hl]
    have : slotEntries [⟨2, 5, 9, 0x81000200⟩] 0 [⟨h1, h2, 0, 0, 0⟩] = [⟨placeholder, 9, 5, 0x81000200⟩] := by
      simp only [slotEntries]
      rw [if_pos (show (⟨h1, h2, 0, 0, 0⟩ : HashEntry).isValid = true from by simp [HashEntry.isValid])]
      rw [show blockEntryOf [⟨2, 5, 9, 0x81000200⟩] (0 : U32).toNat 0 = some ⟨placeholder, 9, 5, 0x81000200⟩ from
        by decide +kernel]
    show Except.ok (slotEntries [⟨2, 5, 9, 0x81000200⟩] 0 [⟨h1, h2, 0, 0, 0⟩]) = _
    rw [this]
  have hm : Method.fromFlags (BitVec.setWidth 8 0x81000200#32) = .none := by decide
  refine ⟨⟨fun m => if m = .none then 0 + 1 else 0, [], 5, 9, 1⟩, analyze_of_list hlist (List.cons_ne_nil _ _) ?_, rfl, rfl⟩
  rw [Archive.analyzeLoop, hf]
  simp only [bind, Except.bind, Archive.analyzeLoop, show addChecked 0 5 = .ok 5 from by decide,
    show addChecked 0 9 = .ok 9 from by decide, List.length_singleton]
  refine congrArg Except.ok ?_
  rw [show (0x81000200 : U32) = 0x81000200#32 from rfl, hm]
  rfl

theorem methodArchive_sample (h1 h2 : U32) (e1 : h1 = hashString placeholder htNameA)
    (e2 : h2 = hashString placeholder htNameB) : ∃ r, (methodArchive h1 h2).analyze toyEnv = .ok (some r) ∧
      r.totalFiles = 1 ∧ r.count .none = 1 ∧ r.count .zlib = 0 := by
  have hc : NoCollision [listfileName, placeholder] := noCollision_lit (by decide +kernel)
  have hd : Spec.normalise (placeholder.map BitVec.toNat) ≠ Spec.normalise (listfileName.map BitVec.toNat) := by
    decide +kernel
  obtain ⟨r, h, h1, h2⟩ := methodArchive_analyze h1 h2
    ((methodArchive_find _ _ _).1 fun h => hd (hc placeholder (by simp) listfileName (by simp)
      (Prod.ext (e1.symm.trans h.1) (e2.symm.trans h.2))))
    ((methodArchive_find _ _ _).2 e1 e2)
  exact ⟨r, h, h1, h2, (C63_no_method_reported toyEnv _ (.inl rfl) (fun bt hb => by cases hb; decide) r h).1 _ (by decide)⟩

example : ∃ a r, Archive.analyze toyEnv a = .ok (some r) ∧ r.totalFiles = 1 ∧ r.count .none = 1 ∧ r.count .zlib = 0 :=
  ⟨_, methodArchive_sample _ _ rfl rfl⟩

theorem Layout.block_low (L : Layout e md5 b f) : ∀ block ∈ L.stored.map (·.block), block.flags.setWidth 8 = 0#8 := by
  intro block hb
  obtain ⟨s, hs, rfl⟩ := List.mem_map.1 hb
  obtain ⟨i, hi, hsi⟩ := List.mem_iff_getElem.1 hs
  have hi' : i < L.pending.length := by rw [← L.placed.length]; exact hi
  obtain ⟨s', _, _, h1, _, _, h4⟩ := L.placed.get (List.getElem?_eq_getElem hi')
  rw [List.getElem?_eq_getElem hi, hsi] at h1
  cases h1
  exact storeFile_low h4

theorem sum_lt_of_each : ∀ (l : List Nat), (∀ x ∈ l, x < 2 ^ 32) → l.sum ≤ l.length * (2 ^ 32 - 1)
  | [], _ => by simp
  | x :: l, h => by
    have h1 := h x List.mem_cons_self
    have h2 := sum_lt_of_each l (fun y hy => h y (List.mem_cons_of_mem _ hy))
    have h32 : (2 : Nat) ^ 32 = 4294967296 := rfl
    simp only [List.sum_cons, List.length_cons]
    omega

/-- C63: an archive with a generated listfile is analysed completely: all files and the listfile are counted and the sizes
added up; but every file counts as not compressed, whatever its method. Partial: the restrictions of C27. -/
theorem C63_built_partial (e : Env) (he : e.codecs.Lawful) (md5 : Md5) (hmd : ∀ x, (md5 x).length = 16)
    (b : Builder) (f : List Byte) (hb : buildBytes e md5 b = .ok f) (hg : b.listfile = .generate) (texts : List (List Nat))
    (hnames : b.pending.map (·.name) = texts.map Spec.encode) (hscalar : ∀ n ∈ texts, ∀ c ∈ n, Spec.scalar c)
    (hlist : ∀ n ∈ texts, Spec.listable n) (pending : List PendingFile)
    (hp : prepareListfile b = .ok pending) (hdist : DistinctNames pending) (hext : ClassicLookup e.codecs b pending)
    (before after : List Byte) (hal : before.length % 512 = 0)
    (hclean : ∀ o < before.length, o % 512 = 0 → ¬ Spec.archiveMark (before ++ f ++ after) o ∧
      ¬ Spec.userDataMark (before ++ f ++ after) o)
    (hlen : f.length < addressable b.version) (hfit : before.length + f.length < 2 ^ 64)
    (hcount : pending.length < 0xFFFFFFFE)
    (hsize : ∀ p ∈ pending, ∀ data, p.source = some data → data.length + data.length / 64 + 12 < 2 ^ 32)
    (hna : ∀ p ∈ pending, ¬ Spec.sameName (attributesName.map BitVec.toNat) (p.name.map BitVec.toNat))
    (ss : Nat) (hss : sectorSizeOf b.blockSize = .ok ss)
    (hm : (listfileText (b.pending.map (·.name))).length ≤ ss ∨
      Spec.LosslessMethod b.defaultCompression (listfileText (b.pending.map (·.name))))
    (hrec : Recoverable e.codecs ss b.defaultCompression (listfileText (b.pending.map (·.name))))
    (hc : NoCollision (attributesName :: pending.map (·.name))) :
    ∃ a r entries, openArchive e (before ++ f ++ after) = .ok a ∧ a.analyze e = .ok (some r) ∧ a.list e = .ok entries ∧
      r.totalFiles = b.pending.length + 1 ∧ r.count .none = b.pending.length + 1 ∧ (∀ m, m ≠ .none → r.count m = 0) ∧
      r.unsupported = [] ∧
      r.uncompressed = (b.pending.map PendingFile.size).sum + (listfileText (b.pending.map (·.name))).length ∧
      r.compressed = (entries.map (·.compressedSize)).sum := by
  obtain ⟨a, entries, ho, hl, hmap, hinfo⟩ := C27_generated_listing_partial e he md5 hmd b f hb hg texts hnames hscalar hlist
    pending hp hdist hext before after hal hclean hlen hfit hcount hsize hna ss hss hm hrec hc
  obtain ⟨L⟩ := layout_of_build hmd hb
  have hpe : L.pending = pending := Except.ok.inj (L.prepared.symm.trans hp)
  subst hpe
  obtain ⟨a', ho', ha, hfb⟩ := L.opens hmd hext before after hal hclean hlen hfit hcount hna hc
  cases Except.ok.inj (ho.symm.trans ho')
  have hlenE : entries.length = b.pending.length + 1 := by
    have := congrArg List.length hmap
    simpa using this
  have hpl : L.pending.length = b.pending.length + 1 := by
    have := L.prepared
    unfold prepareListfile at this
    rw [hg] at this
    rw [← Except.ok.inj this]
    simp
  have hblock : ∀ x ∈ entries, ∃ info, a.findFile x.name = .ok (some info) ∧
      x = ⟨x.name, info.fileSize, info.compressedSize, info.flags⟩ ∧ info.flags.setWidth 8 = 0#8 ∧
      info.compressedSize < 2 ^ 32 ∧ info.fileSize < 2 ^ 32 := by
    intro x hx
    obtain ⟨info, h1, h2⟩ := hinfo x hx
    have h1' := h1
    rw [hfb x.name] at h1'
    obtain ⟨bt, block, hbt, hmem, hfl, hcs, hfs⟩ := findFileClassic_block h1'
    rw [ha.block] at hbt
    cases hbt
    refine ⟨info, h1, h2, ?_, ?_, ?_⟩
    · rw [hfl]; exact L.block_low block hmem
    · rw [hcs]; exact block.compressedSize.isLt
    · rw [hfs]; exact block.fileSize.isLt
  have hb1 := sum_lt_of_each (entries.map (·.compressedSize)) (by
    intro n hn
    obtain ⟨x, hx, rfl⟩ := List.mem_map.1 hn
    obtain ⟨info, _, h2, _, h4, _⟩ := hblock x hx
    rw [h2]; exact h4)
  have hb2 := sum_lt_of_each (entries.map (·.size)) (by
    intro n hn
    obtain ⟨x, hx, rfl⟩ := List.mem_map.1 hn
    obtain ⟨info, _, h2, _, _, h5⟩ := hblock x hx
    rw [h2]; exact h5)
  rw [List.length_map] at hb1 hb2
  have hr : entries.length * (2 ^ 32 - 1) < 2 ^ 64 := by
    rw [hlenE, ← hpl]
    refine Nat.lt_of_lt_of_le (Nat.mul_lt_mul_of_pos_right hcount (by decide)) (by decide)
  refine ⟨a, ⟨fun m => if m = .none then 0 + entries.length else 0, [], 0 + (entries.map (·.compressedSize)).sum,
    0 + (entries.map (·.size)).sum, entries.length⟩, entries, ho, ?_, hl, ?_⟩
  · unfold Archive.analyze Archive.listWithHashes
    rw [hl]
    simp only [bind, Except.bind, pure, Except.pure]
    rw [if_neg (by
      intro h
      have := congrArg List.length h
      rw [List.length_map, List.length_nil] at this
      omega)]
    rw [List.map_map, show ((fun x : HashedEntry => x.1) ∘ fun x : FileEntry =>
      (x, some (hashString x.name htNameA, hashString x.name htNameB))) = id from rfl, List.map_id,
      analyzeLoop_none a entries _ (fun x hx => by
        obtain ⟨info, h1, h2, h3, _⟩ := hblock x hx
        exact ⟨info, h1, h2, h3⟩) (by dsimp only; omega) (by dsimp only; omega)]
    simp only [List.length_map]
  · dsimp only
    refine ⟨hlenE, by rw [if_pos rfl]; omega, fun m hm => if_neg hm, rfl, ?_, by omega⟩
    have := congrArg (fun l => (l.map Prod.snd).sum) hmap
    simp only [List.map_map, List.map_append, List.sum_append, List.map_cons, List.map_nil, List.sum_cons, List.sum_nil,
      Nat.add_zero] at this
    rw [Nat.zero_add]
    exact this

/-- The sample: of its three files one is stored with zlib, and the analysis reports three files without compression. -/
theorem sample_analysis (v : FormatVersion) (hv : v ≠ .v1) : ∃ f a r, buildBytes toyEnv zeroMd5 (sampleBuilder v) = .ok f ∧
    openArchive toyEnv f = .ok a ∧ a.analyze toyEnv = .ok (some r) ∧ r.totalFiles = 3 ∧ r.count .none = 3 ∧ r.count .zlib = 0 ∧
    r.unsupported = [] ∧ r.uncompressed = 75 := by
  obtain ⟨f, _, hf, hlt, _, _⟩ := sample_reads v hv
  have e48 : (2 : Nat) ^ 48 = 281474976710656 := rfl
  have e64 : (2 : Nat) ^ 64 = 18446744073709551616 := rfl
  have hlm : Spec.LosslessMethod 0x02#8 (listfileText [ascii "Dir\\a.txt", ascii "b.bin"]) :=
    ⟨by decide, by decide, by decide, fun h => by rcases h with h | h <;> exact absurd h (by decide), by decide +kernel⟩
  obtain ⟨a, r, entries, h1, h2, _, h3⟩ := C63_built_partial toyEnv toyCodecs_lawful zeroMd5
    (fun _ => List.length_replicate) (sampleBuilder v) f hf rfl
    ["Dir\\a.txt".toList.map Char.toNat, "b.bin".toList.map Char.toNat]
    (show (sampleBuilder .v1).pending.map (·.name) = _ by decide +kernel)
    (by
      have : ∀ n ∈ ["Dir\\a.txt".toList.map Char.toNat, "b.bin".toList.map Char.toNat], ∀ c ∈ n, c < 0xD800 := by decide
      exact fun n hn c hc => Or.inl (this n hn c hc))
    (by
      intro n hn
      unfold Spec.listable Spec.space
      simp only [List.mem_cons, List.not_mem_nil, or_false] at hn
      rcases hn with rfl | rfl
      · refine ⟨by decide, by decide, by decide, by decide, ?_, ?_⟩
        · intro c hc
          have : some (0x44 : Nat) = some c := hc
          injection this with this; omega
        · intro c hc
          have : some (0x74 : Nat) = some c := hc
          injection this with this; omega
      · refine ⟨by decide, by decide, by decide, by decide, ?_, ?_⟩
        · intro c hc
          have : some (0x62 : Nat) = some c := hc
          injection this with this; omega
        · intro c hc
          have : some (0x6E : Nat) = some c := hc
          injection this with this; omega)
    samplePending (samplePending_eq v)
    (by unfold DistinctNames; decide +kernel)
    (fun _ => .inl ⟨rfl, by decide⟩) [] [] rfl (by intro o ho; cases ho)
    (by unfold addressable; rw [if_neg (show ¬ (sampleBuilder v).version = .v1 from hv)]; exact hlt)
    (by simp only [List.length_nil]; omega) (by decide) sample_sizes (by decide +kernel) 4096
    (show sectorSizeOf 3#16 = .ok 4096 by decide) (Or.inr hlm)
    (recoverable_of_lossless toyCodecs_lawful
      (show (listfileText ((sampleBuilder .v1).pending.map (·.name))).length ≤ 4096 by decide +kernel) hlm
      (c := (compress toyCodecs (listfileText ((sampleBuilder .v1).pending.map (·.name))) 0x02#8).toOption.getD [])
      (show compress toyCodecs (listfileText ((sampleBuilder .v1).pending.map (·.name))) 0x02#8 = _ by decide +kernel))
    (noCollision_lit (by decide +kernel))
  rw [List.nil_append, List.append_nil] at h1
  obtain ⟨h3, h4, h5, h6, h7, _⟩ := h3
  exact ⟨f, a, r, hf, h1, h2, h3, h4, h5 _ (by decide), h6, h7.trans
    (show ((sampleBuilder .v1).pending.map PendingFile.size).sum +
      (listfileText ((sampleBuilder .v1).pending.map (·.name))).length = 75 by decide +kernel)⟩

end Mopaq
