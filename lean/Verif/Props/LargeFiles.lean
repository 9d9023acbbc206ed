import Verif.Props.Builder

/-! # Large files in versions 3 and 4 (C50) -/

namespace Mopaq

theorem storeUnit_kept {e : Env} {m : Byte} {x s : List Byte} {b : Bool} (hk : m = 0#8 ∨ compress e.codecs x m = .ok x)
    (h : storeUnit e m x = .ok (s, b)) : s = x := by
  rcases storeUnit_cases h with ⟨_, h⟩ | ⟨_, hne, hm, _, hc⟩
  · exact h
  · rcases hk with hk | hk
    · exact absurd hk hm
    · rw [hk] at hc
      cases hc
      rfl

theorem mapM_kept {e : Env} {m : Byte} : ∀ {xs : List (List Byte)} {stored : List (List Byte × Bool)},
    (∀ x ∈ xs, m = 0#8 ∨ compress e.codecs x m = .ok x) → xs.mapM (storeUnit e m) = .ok stored → stored.map (·.1) = xs
  | [], stored, _, h => by
    rw [List.mapM_nil] at h
    cases h
    rfl
  | x :: xs, stored, hk, h => by
    rw [List.mapM_cons] at h
    obtain ⟨⟨s, b⟩, hs, h⟩ := bind_eq_ok.1 h
    obtain ⟨rest, hr, h⟩ := bind_eq_ok.1 h
    cases h
    rw [List.map_cons, mapM_kept (fun y hy => hk y (List.mem_cons_of_mem _ hy)) hr]
    rw [storeUnit_kept (hk x List.mem_cons_self) hs]

/-- What is not made smaller takes at least its own size. -/
theorem writeFile_kept {e : Env} {crcs : Bool} {p : FileWriteParams} {w : Written} (hw : writeFile e crcs p = .ok w)
    {shift : U16} (hss : sectorSizeOf shift = .ok p.sectorSize) (hsize : p.data.length + p.data.length / 64 + 12 < 2 ^ 32)
    (hk : p.compression = 0#8 ∨ ∀ x, Spec.IsSector p.sectorSize p.data x → compress e.codecs x p.compression = .ok x) :
    p.data.length ≤ w.size := by
  unfold writeFile at hw
  by_cases hlen : p.data.length ≤ p.sectorSize
  · rw [if_pos hlen] at hw
    obtain ⟨s, b, hs, hf, hsz, hbytes⟩ := writeSingle_eq hw
    rcases Nat.eq_zero_or_pos p.data.length with h0 | h0
    · omega
    have : s = p.data := storeUnit_kept (hk.imp id fun h => h p.data ⟨0, by omega, by
      show p.data = slice p.data (0 * p.sectorSize) p.sectorSize
      unfold slice
      rw [Nat.zero_mul, List.drop_zero, List.take_of_length_le hlen]⟩) hs
    rw [hsz, this]
    exact Nat.le_refl _
  · rw [if_neg hlen] at hw
    obtain ⟨count, stored, hc, hs, hf, hread⟩ := writeSectored_eq hw
    obtain ⟨hss0, hcount, hle, hpos, hge⟩ := divCeil_ok hc
    have h512 := sectorSizeOf_512 hss hss0
    obtain ⟨hflat, _⟩ := sectorsOf_spec p.sectorSize count p.data 0 hle
    have hcb : (count - 1) * 512 ≤ p.data.length := Nat.le_trans (Nat.mul_le_mul_left _ h512) hge
    have hst := mapM_kept (fun x hx => hk.imp id fun h => h x ((mem_sectorsOf hc x).1 hx)) hs
    rw [hst, hflat] at hread
    obtain ⟨hsz, _⟩ := hread (by split <;> omega)
    omega

theorem storeFile_kept {e : Env} {crcs : Bool} {shift : U16} {ss pos : Nat} {p : PendingFile} {s : Stored} {data : List Byte}
    (hss : sectorSizeOf shift = .ok ss) (h : storeFile e crcs ss pos p = .ok s) (hd : p.source = some data)
    (hsize : data.length + data.length / 64 + 12 < 2 ^ 32)
    (hk : p.compression = 0#8 ∨ ∀ x, Spec.IsSector ss data x → compress e.codecs x p.compression = .ok x) :
    data.length ≤ s.bytes.length ∧ data.length ≤ s.block.compressedSize.toNat ∧ s.block.fileSize.toNat = data.length ∧
      s.block.filePos = BitVec.ofNat 32 pos := by
  unfold storeFile at h
  rw [hd] at h
  simp only [pure_bind] at h
  obtain ⟨w, hw, h⟩ := bind_eq_ok.1 h
  cases h
  have k := writeFile_kept hw hss hsize hk
  obtain ⟨f1, f2⟩ := writeFile_facts hw hss hsize
  dsimp only at k f1 f2 ⊢
  refine ⟨by omega, ?_, ?_, rfl⟩
  · rw [BitVec.toNat_ofNat, Nat.mod_eq_of_lt f1]
    exact k
  · rw [BitVec.toNat_ofNat, Nat.mod_eq_of_lt (by omega)]

theorem storeFile_pos {e : Env} {crcs : Bool} {ss pos : Nat} {p : PendingFile} {s : Stored}
    (h : storeFile e crcs ss pos p = .ok s) : s.block.filePos = BitVec.ofNat 32 pos := by
  unfold storeFile at h
  cases hs : p.source with
  | none => rw [hs] at h; cases h
  | some data =>
    rw [hs] at h
    simp only [pure_bind] at h
    obtain ⟨w, _, h⟩ := bind_eq_ok.1 h
    cases h
    rfl

/-- Two files that are written one after the other. -/
theorem storedAt_two {e : Env} {crcs : Bool} {ss : Nat} {p q : PendingFile} {after : List PendingFile} :
    ∀ {before : List PendingFile} {st : List Stored} {pos : Nat}, StoredAt e crcs ss pos (before ++ p :: q :: after) st →
    ∃ sp ∈ st, ∃ sq ∈ st, ∃ at', storeFile e crcs ss at' p = .ok sp ∧ storeFile e crcs ss (at' + sp.bytes.length) q = .ok sq ∧
      at' + sp.bytes.length ≤ pos + (st.flatMap (·.bytes)).length
  | [], [], _, h => h.elim
  | [], [_], _, h => h.2.elim
  | [], sp :: sq :: st, pos, h => by
    refine ⟨sp, List.mem_cons_self, sq, List.mem_cons_of_mem _ List.mem_cons_self, pos, h.1, h.2.1, ?_⟩
    rw [List.flatMap_cons, List.length_append]
    omega
  | _ :: _, [], _, h => h.elim
  | x :: before, s :: st, pos, h => by
    obtain ⟨sp, h1, sq, h2, at', h3, h4, h5⟩ := storedAt_two (before := before) h.2
    refine ⟨sp, List.mem_cons_of_mem _ h1, sq, List.mem_cons_of_mem _ h2, at', h3, h4, ?_⟩
    rw [List.flatMap_cons, List.length_append]
    omega

/-- C50 does not hold in versions 3 and 4 from 2 MiB on: an archive of less than 4 GiB with a file of 2 MiB or more that is not
compressed, or cannot be, and that is not the last one, is not built; building panics. The generated listfile is the last one. -/
theorem C50_large_file_panics (e : Env) (md5 : Md5) (b : Builder) (pending : List PendingFile) (h : Buildable e b pending)
    (hv : b.version = .v3 ∨ b.version = .v4)
    (ho : b.tables.compressTables = false ∨ ∀ x, ∃ c, compress e.codecs x b.tables.tableCompression = .ok c)
    (hn : pending.length ≤ 2 ^ 22) (hsum : (pending.map storedBound).sum + b.version.headerSize.toNat < 2 ^ 32)
    (before after : List PendingFile) (p q : PendingFile) (hp : pending = before ++ p :: q :: after) (data : List Byte)
    (hd : p.source = some data) (hlarge : 2 ^ 21 ≤ data.length)
    (hk : p.compression = 0#8 ∨ ∀ x, Spec.IsSector (512 * 2 ^ b.blockSize.toNat) data x →
      compress e.codecs x p.compression = .ok x) :
    buildBytes e md5 b = .error .panic := by
  have hge : b.version.ge .v3 = true := by rcases hv with h | h <;> rw [h] <;> rfl
  have hbound : ∀ p ∈ pending, storedBound p < 2 ^ 32 := by
    intro p hp
    obtain ⟨data, hd, hs, _⟩ := h.readable p hp
    unfold storedBound; rw [hd]; exact hs
  have hcnt := h.count
  obtain ⟨st, hst⟩ := storeFiles_plain b.version.headerSize.toNat (limit := pending.length % 2 ^ 32) (t := [])
    (h.stores b.generateCrcs) (index := 0) (by rw [Nat.mod_eq_of_lt (by omega)]; omega)
  obtain ⟨hplaced, _⟩ := storeFiles_ok hst
  have hlen := storedAt_length h.sector hplaced hbound
  have hp' := hplaced
  rw [hp] at hp'
  obtain ⟨sp, m1, sq, m2, at', k1, k2, k3⟩ := storedAt_two hp'
  obtain ⟨data', hd', hsz, _⟩ := h.readable p (by rw [hp]; simp)
  rw [hd] at hd'
  cases hd'
  obtain ⟨w1, w2, w3, _⟩ := storeFile_kept h.sector k1 hd hsz hk
  have w4 := storeFile_pos k2
  obtain ⟨c, hc⟩ := hetContent_returns (pending.map (·.name)) (by rw [List.length_map]; exact hn)
  have hhd : createHetTable (pending.map (·.name)) = .ok (extHeaderBytes 0x1A544548#32 c.dataSize ++
      (c.header.toBytes ++ (c.hashArea ++ c.indexArea))) := by unfold createHetTable; rw [hc]; rfl
  obtain ⟨w, hw⟩ := writeExt_returns e.codecs b.tables
    (extHeaderBytes 0x1A544548#32 c.dataSize ++ (c.header.toBytes ++ (c.hashArea ++ c.indexArea))) hashTableKey
    (by rw [List.length_append, extHeaderBytes_length]; omega) ho
  have hbet : createBetTable (pending.map (·.name)) (st.map (·.block)) = .error .panic := by
    unfold createBetTable
    rw [C32_build_panics (pending.map (·.name)) (st.map (·.block)) (by rw [List.length_map, List.length_map, hplaced.length])
      (by rw [List.length_map, hp, List.length_append, List.length_cons, List.length_cons]; omega) (by rw [List.length_map]; omega) 21 21 21
      ⟨_, List.mem_map_of_mem m2, by rw [w4, BitVec.toNat_ofNat, Nat.mod_eq_of_lt (by omega)]; omega⟩
      ⟨_, List.mem_map_of_mem m1, by omega⟩ ⟨_, List.mem_map_of_mem m1, by omega⟩ (by decide)]
    rfl
  unfold buildBytes
  rw [h.prepared]
  simp only [bind, Except.bind, hge, if_true]
  unfold writeArchiveHetBet
  simp only [bind, Except.bind, h.sector, hst, hhd, hw, hbet]

/-- A builder with one file that is stored as it is, and the generated listfile after it. -/
def largeBuilder (v : FormatVersion) (data : List Byte) : Builder where
  version := v
  blockSize := 3
  pending := [{ source := some data, name := ascii "movie.smk", compression := 0, encrypt := false, useFixKey := false,
                locale := 0 }]
  listfile := .generate
  defaultCompression := 0
  generateCrcs := false
  tables := { compressTables := false, tableCompression := 0x02 }

def largeFile (data : List Byte) : PendingFile where
  source := some data
  name := ascii "movie.smk"
  compression := 0
  encrypt := false
  useFixKey := false
  locale := 0

def largeList : PendingFile where
  source := some (listfileText [ascii "movie.smk"])
  name := listfileName
  compression := 0
  encrypt := false
  useFixKey := false
  locale := 0

theorem large_buildable (v : FormatVersion) (data : List Byte) (h : data.length < 2 ^ 31) :
    Buildable toyEnv (largeBuilder v data) [largeFile data, largeList] where
  shift := by show (3#16).toNat < 55; decide
  prepared := rfl
  count := by show (2 + 1) * 2 ≤ 2 ^ 31; decide
  readable := by
    intro p hp
    simp only [List.mem_cons, List.not_mem_nil, or_false] at hp
    have hc : ∀ x : List Byte, ∃ c, compress toyCodecs x 0#8 = .ok c := fun x => by
      have hi : compressInternal toyCodecs x 0#8 = .ok x := rfl
      unfold compress
      rw [hi]
      simp only [bind, Except.bind]
      split
      · exact ⟨_, rfl⟩
      · exact ⟨_, rfl⟩
    rcases hp with rfl | rfl
    · refine ⟨data, rfl, by omega, ?_⟩
      unfold Compressible
      split
      · exact hc _
      · exact fun _ _ => hc _
    · refine ⟨_, rfl, by decide +kernel, ?_⟩
      unfold Compressible
      split
      · exact hc _
      · exact fun _ _ => hc _
  names := noCollision_lit (names := [ascii "movie.smk", listfileName]) (by decide +kernel)
  distinct := by
    have h : ¬ Spec.sameName ((ascii "movie.smk").map BitVec.toNat) (listfileName.map BitVec.toNat) := by decide +kernel
    unfold DistinctFiles
    refine List.pairwise_cons.2 ⟨?_, List.pairwise_singleton _ _⟩
    intro q hq
    rw [List.mem_singleton] at hq
    subst hq
    exact fun k => h k.1

/-- Two zero-filled mebibytes (and every other content from there up to 2 GiB) under a name, nothing else. -/
example (data : List Byte) (h1 : 2 ^ 21 ≤ data.length) (h2 : data.length < 2 ^ 31) :
    buildBytes toyEnv zeroMd5 (largeBuilder .v3 data) = .error .panic := by
  have hl : storedBound largeList < 100 := by decide +kernel
  have hs : storedBound (largeFile data) = data.length + data.length / 64 + 12 := rfl
  exact C50_large_file_panics toyEnv zeroMd5 _ _ (large_buildable .v3 data h2) (.inl rfl) (.inl rfl) (by simp)
    (by rw [List.map_cons, List.map_cons, List.map_nil, List.sum_cons, List.sum_cons, List.sum_nil, hs]
        have : (largeBuilder .v3 data).version.headerSize.toNat ≤ 208 := by show (FormatVersion.headerSize .v3).toNat ≤ 208; decide
        omega)
    [] [] (largeFile data) largeList rfl data rfl h1 (.inl rfl)

end Mopaq
