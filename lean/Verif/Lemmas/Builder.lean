import Verif.Model.Builder
import Verif.Props.HashTable
import Verif.Props.Tables
import Verif.Props.Header
import Verif.Props.FileIO
import Verif.Props.HetBet

/-! # What a successful build has written -/

namespace Mopaq

/-- The additions to the hash table for a list of files, numbered from `index`. -/
def opsFrom : Nat → List PendingFile → List AddOp
  | _, [] => []
  | index, p :: rest => ⟨p.name, BitVec.ofNat 32 index, p.locale⟩ :: opsFrom (index + 1) rest

theorem opsFrom_length : ∀ (ps : List PendingFile) (i : Nat), (opsFrom i ps).length = ps.length
  | [], _ => rfl
  | _ :: ps, i => by rw [opsFrom, List.length_cons, opsFrom_length ps, List.length_cons]

theorem opsFrom_names : ∀ (ps : List PendingFile) (i : Nat), (opsFrom i ps).map AddOp.name = ps.map (·.name)
  | [], _ => rfl
  | _ :: ps, i => by rw [opsFrom, List.map_cons, opsFrom_names ps, List.map_cons]

theorem opsFrom_get : ∀ (ps : List PendingFile) (i j : Nat),
    (opsFrom i ps)[j]? = ps[j]?.map fun p => ⟨p.name, BitVec.ofNat 32 (i + j), p.locale⟩
  | [], _, _ => by simp [opsFrom]
  | p :: ps, i, 0 => by simp [opsFrom]
  | p :: ps, i, j + 1 => by
    rw [opsFrom, List.getElem?_cons_succ, opsFrom_get ps, List.getElem?_cons_succ]
    congr 1
    funext p
    rw [show i + 1 + j = i + (j + 1) by omega]

theorem opsFrom_valid {ps : List PendingFile} (h : ps.length < 0xFFFFFFFE) : ValidBlocks (opsFrom 0 ps) := by
  intro op hop
  obtain ⟨j, hj⟩ := List.mem_iff_getElem?.1 hop
  rw [opsFrom_get] at hj
  cases hp : ps[j]? with
  | none => rw [hp] at hj; cases hj
  | some p =>
    rw [hp] at hj
    simp only [Option.map_some, Option.some.injEq] at hj
    subst hj
    have := (List.getElem?_eq_some_iff.1 hp).1
    rw [BitVec.toNat_ofNat]
    exact Nat.lt_of_le_of_lt (Nat.mod_le _ _) (by omega)

/-- The files have been written one after the other from `pos` on. -/
def StoredAt (e : Env) (crcs : Bool) (ss : Nat) : Nat → List PendingFile → List Stored → Prop
  | _, [], [] => True
  | pos, p :: ps, s :: rest => storeFile e crcs ss pos p = .ok s ∧ StoredAt e crcs ss (pos + s.bytes.length) ps rest
  | _, _, _ => False

theorem StoredAt.length {e : Env} {crcs : Bool} {ss : Nat} : ∀ {ps : List PendingFile} {st : List Stored} {pos : Nat},
    StoredAt e crcs ss pos ps st → st.length = ps.length
  | [], [], _, _ => rfl
  | [], _ :: _, _, h => h.elim
  | _ :: _, [], _, h => h.elim
  | _ :: _, _ :: _, _, h => by rw [List.length_cons, List.length_cons, h.2.length]

theorem StoredAt.get {e : Env} {crcs : Bool} {ss : Nat} : ∀ {ps : List PendingFile} {st : List Stored} {pos : Nat},
    StoredAt e crcs ss pos ps st → ∀ {i : Nat} {p : PendingFile}, ps[i]? = some p → ∃ s before after,
      st[i]? = some s ∧ st.flatMap (·.bytes) = before ++ s.bytes ++ after ∧ before = (st.take i).flatMap (·.bytes) ∧
      storeFile e crcs ss (pos + before.length) p = .ok s
  | [], _, _, _, i, p, hp => by simp at hp
  | _ :: _, [], _, h, _, _, _ => h.elim
  | q :: ps, s :: st, pos, h, 0, p, hp => by
    simp only [List.getElem?_cons_zero, Option.some.injEq] at hp
    subst hp
    exact ⟨s, [], st.flatMap (·.bytes), rfl, by simp [List.flatMap_cons], rfl, h.1⟩
  | q :: ps, s :: st, pos, h, i + 1, p, hp => by
    rw [List.getElem?_cons_succ] at hp
    obtain ⟨s', before, after, h1, h2, h3, h4⟩ := h.2.get hp
    refine ⟨s', s.bytes ++ before, after, by rw [List.getElem?_cons_succ]; exact h1, ?_, ?_, ?_⟩
    · rw [List.flatMap_cons, h2]; simp only [List.append_assoc]
    · rw [List.take_succ_cons, List.flatMap_cons, h3]
    · rw [List.length_append, ← Nat.add_assoc]; exact h4

theorem addAll_eq : ∀ (ps : List PendingFile) (i : Nat) (t : HashTable),
    addAll i t ps = (opsFrom i ps).foldlM (fun t op => addToHashTable t op.name op.block op.locale) t
  | [], _, _ => rfl
  | p :: ps, i, t => by
    rw [addAll, opsFrom, List.foldlM_cons]
    congr 1
    funext t'
    exact addAll_eq ps _ _

theorem storeFiles_ok {e : Env} {crcs hashing : Bool} {ss limit : Nat} : ∀ {ps : List PendingFile} {index pos : Nat}
    {t t' : HashTable} {st : List Stored}, storeFiles e crcs hashing ss limit index pos t ps = .ok (t', st) →
    StoredAt e crcs ss pos ps st ∧ (hashing = true → addAll index t ps = .ok t') ∧
      (0 < ps.length → index + ps.length ≤ limit)
  | [], _, _, t, t', st, h => by
    simp only [storeFiles, Except.ok.injEq, Prod.mk.injEq] at h
    obtain ⟨rfl, rfl⟩ := h
    exact ⟨trivial, fun _ => rfl, fun h => absurd h (by simp)⟩
  | p :: ps, index, pos, t, t', st, h => by
    rw [storeFiles] at h
    obtain ⟨s, hs, h⟩ := bind_eq_ok.1 h
    have key : ∃ t1, (hashing = true → addToHashTable t p.name (BitVec.ofNat 32 index) p.locale = .ok t1) ∧
        index < limit ∧ ∃ more, storeFiles e crcs hashing ss limit (index + 1) (pos + s.bytes.length) t1 ps = .ok (t', more) ∧
          st = s :: more := by
      cases hashing with
      | false =>
        simp only [Bool.false_eq_true, if_false, pure, Except.pure, bind, Except.bind, throw, throwThe,
          MonadExceptOf.throw] at h
        refine ⟨t, fun h => absurd h (by simp), ?_⟩
        split at h
        · cases h
        · rename_i hl
          split at h
          · cases h
          · rename_i v hv
            injection h with h
            injection h with h1 h2
            refine ⟨by omega, v.2, ?_, h2.symm⟩
            rw [hv, ← h1]
      | true =>
        simp only [if_true, pure, Except.pure, bind, Except.bind, throw, throwThe,
          MonadExceptOf.throw] at h
        split at h
        · cases h
        · rename_i t1 ht1
          refine ⟨t1, fun _ => ht1, ?_⟩
          split at h
          · cases h
          · rename_i hl
            split at h
            · cases h
            · rename_i v hv
              injection h with h
              injection h with h1 h2
              refine ⟨by omega, v.2, ?_, h2.symm⟩
              rw [hv, ← h1]
    obtain ⟨t1, ha, hl, more, hm, rfl⟩ := key
    obtain ⟨h1, h2, h3⟩ := storeFiles_ok hm
    refine ⟨⟨hs, h1⟩, fun hh => ?_, fun _ => ?_⟩
    · rw [addAll, ha hh]
      exact h2 hh
    · rw [List.length_cons]
      cases ps with
      | nil => simp only [List.length_nil]; omega
      | cons q qs => have := h3 (by simp); omega

/-- What was written for a version 4 header, apart from the checksum of the header itself. -/
def v4DataOf (md5 : Md5) (k : Nat) (pending : List PendingFile) (het bet hash block hi : List Byte) (hiNeeded : Bool)
    (md5MpqHeader : List Byte) : V4Data :=
  { hashTableSize64 := BitVec.ofNat 64 (2 ^ k * 16), blockTableSize64 := BitVec.ofNat 64 (pending.length * 16),
    hiBlockTableSize64 := BitVec.ofNat 64 (pending.length * 2), hetTableSize64 := BitVec.ofNat 64 het.length,
    betTableSize64 := BitVec.ofNat 64 bet.length, rawChunkSize := 0x4000, md5BlockTable := md5 block,
    md5HashTable := md5 hash, md5HiBlockTable := if hiNeeded then md5 hi else List.replicate 16 0,
    md5BetTable := md5 bet, md5HetTable := md5 het, md5MpqHeader }

/-- The parts of a finished archive and how they were made. -/
structure Layout (e : Env) (md5 : Md5) (b : Builder) (f : List Byte) where
  pending : List PendingFile
  prepared : prepareListfile b = .ok pending
  count : pending.length < 2 ^ 32
  sectorSize : Nat
  sector : sectorSizeOf b.blockSize = .ok sectorSize
  stored : List Stored
  placed : StoredAt e b.generateCrcs sectorSize b.version.headerSize.toNat pending stored
  k : Nat
  hk : k < 32
  slots : hashSizeOf b pending = .ok (2 ^ k)
  table : HashTable
  adds : runAdds (2 ^ k) (opsFrom 0 pending) = .ok table
  het : List Byte
  bet : List Byte
  classic : b.version.ge .v3 = false → het = [] ∧ bet = []
  extended : b.version.ge .v3 = true → ∃ hd bd, createHetTable (pending.map (·.name)) = .ok hd ∧
    writeExtTable e.codecs b.tables hd hashTableKey = .ok het ∧
    createBetTable (pending.map (·.name)) (stored.map (·.block)) = .ok bd ∧
    writeExtTable e.codecs b.tables bd blockTableKey = .ok bet
  hiNeeded : Bool
  hiNeeded_eq : hiNeeded = (b.version.ge .v2 && hiBlockNeeded (stored.map (·.hi)))
  hi : List Byte
  hi_eq : hi = if hiNeeded then hiBlockTableBytes (stored.map (·.hi)) else []
  files : List Byte
  files_eq : files = stored.flatMap (·.bytes)
  hash : List Byte
  hash_eq : hash = hashTableBytes table
  block : List Byte
  block_eq : block = blockTableBytes (stored.map (·.block))
  v4Data : Option V4Data
  v4_none : b.version ≠ .v4 → v4Data = none
  params : HeaderParams
  params_eq : params =
    { archiveSize := BitVec.ofNat 64
        (b.version.headerSize.toNat + files.length + het.length + bet.length + hash.length + block.length + hi.length)
      hashTablePos := BitVec.ofNat 64 (b.version.headerSize.toNat + files.length + het.length + bet.length)
      blockTablePos := BitVec.ofNat 64 (b.version.headerSize.toNat + files.length + het.length + bet.length + hash.length)
      hashTableSize := BitVec.ofNat 32 (2 ^ k), blockTableSize := BitVec.ofNat 32 pending.length
      hiBlockTablePos := if hiNeeded then some (BitVec.ofNat 64
        (b.version.headerSize.toNat + files.length + het.length + bet.length + hash.length + block.length)) else none
      hetTablePos := if b.version.ge .v3 then some (BitVec.ofNat 64 (b.version.headerSize.toNat + files.length)) else none
      betTablePos := if b.version.ge .v3 then
        some (BitVec.ofNat 64 (b.version.headerSize.toNat + files.length + het.length)) else none
      v4Data }
  header : List Byte
  header_eq : writeHeader b.version b.blockSize params = .ok header
  v4_some : b.version = .v4 → v4Data = some (v4DataOf md5 k pending het bet hash block hi hiNeeded (md5 (header.take 192)))
  bytes : f = header ++ files ++ het ++ bet ++ hash ++ block ++ hi

theorem writeHeader_v4_patch (md5 : Md5) (blockSize : U16) (p : HeaderParams) (v : V4Data)
    (hv : p.v4Data = some v) (hs : v.Sized) (header : List Byte) (h : writeHeader .v4 blockSize p = .ok header) :
    writeHeader .v4 blockSize { p with v4Data := some { v with md5MpqHeader := md5 (header.take 192) } } =
      .ok (header.take 192 ++ md5 (header.take 192)) ∧
    (header.take 192 ++ md5 (header.take 192)).take 192 = header.take 192 := by
  obtain ⟨s1, s2, s3, s4, s5, s6⟩ := hs
  have hlen := writeHeader_length .v4 blockSize p header
    (fun v' hv' => by rw [hv] at hv'; cases hv'; exact ⟨s1, s2, s3, s4, s5, s6⟩) h
  have h208 : header.length = 208 := hlen
  simp only [writeHeader, hv, Except.ok.injEq] at h
  let A := headerCommonBytes .v4 blockSize p ++ (headerV2Bytes p ++ (headerV3Bytes p ++ (le64 v.hashTableSize64 ++
    (le64 v.blockTableSize64 ++ (le64 v.hiBlockTableSize64 ++ (le64 v.hetTableSize64 ++
    (le64 v.betTableSize64 ++ (le32 v.rawChunkSize ++ (v.md5BlockTable ++ (v.md5HashTable ++ (v.md5HiBlockTable ++
    (v.md5BetTable ++ v.md5HetTable))))))))))))
  have hA : header = A ++ v.md5MpqHeader := by
    rw [← h]; simp only [A, headerV4Bytes, List.append_assoc]
  have hAl : A.length = 192 := by
    rw [hA, List.length_append, s6] at h208; omega
  have ht : header.take 192 = A := by rw [hA, List.take_left' hAl]
  refine ⟨?_, ?_⟩
  · simp only [writeHeader, Except.ok.injEq]
    rw [ht]
    simp only [A, headerV4Bytes, headerCommonBytes, headerV2Bytes, headerV3Bytes, List.append_assoc]
  · rw [ht, List.take_left' hAl]

theorem hashSizeOf_ok {b : Builder} {pending : List PendingFile} {n : Nat} (h : hashSizeOf b pending = .ok n) :
    ∃ k, k < 32 ∧ n = 2 ^ k := by
  unfold hashSizeOf calculateHashTableSize at h
  obtain ⟨k, hk, hn, _⟩ := nextPowerOfTwo_ok h
  exact ⟨k, hk, hn⟩

theorem count_lt {e : Env} {crcs hashing : Bool} {ss : Nat} {ps : List PendingFile} {pos : Nat} {t t' : HashTable}
    {st : List Stored} (h : storeFiles e crcs hashing ss (ps.length % 2 ^ 32) 0 pos t ps = .ok (t', st)) :
    ps.length < 2 ^ 32 := by
  have := (storeFiles_ok h).2.2
  have h32 : 2 ^ 32 = 4294967296 := rfl
  by_cases h0 : 0 < ps.length
  · have := this h0
    have := Nat.mod_lt ps.length (show 2 ^ 32 > 0 by decide)
    omega
  · omega

/-- A successful build leaves an archive of this layout. -/
theorem layout_of_build {e : Env} {md5 : Md5} (hmd : ∀ x, (md5 x).length = 16) {b : Builder} {f : List Byte}
    (h : buildBytes e md5 b = .ok f) : Nonempty (Layout e md5 b f) := by
  unfold buildBytes at h
  obtain ⟨pending, hprep, h⟩ := bind_eq_ok.1 h
  by_cases hv : b.version.ge .v3 = true
  · rw [if_pos hv] at h
    unfold writeArchiveHetBet at h
    obtain ⟨ss, hss, h⟩ := bind_eq_ok.1 h
    obtain ⟨⟨t0, stored⟩, hst, h⟩ := bind_eq_ok.1 h
    dsimp only at h
    obtain ⟨hd, hhd, h⟩ := bind_eq_ok.1 h
    obtain ⟨het, hhet, h⟩ := bind_eq_ok.1 h
    obtain ⟨bd, hbd, h⟩ := bind_eq_ok.1 h
    obtain ⟨bet, hbet, h⟩ := bind_eq_ok.1 h
    obtain ⟨size, hsize, h⟩ := bind_eq_ok.1 h
    obtain ⟨k, hk, rfl⟩ := hashSizeOf_ok hsize
    obtain ⟨t1, ht1, h⟩ := bind_eq_ok.1 h
    obtain ⟨table, hadd, h⟩ := bind_eq_ok.1 h
    obtain ⟨header, hheader, h⟩ := bind_eq_ok.1 h
    have hv2 : b.version.ge .v2 = true := by
      revert hv; cases b.version <;> decide
    have hadds : runAdds (2 ^ k) (opsFrom 0 pending) = .ok table := by
      unfold runAdds
      rw [ht1]
      dsimp only
      rw [← addAll_eq]; exact hadd
    injection h with h
    obtain ⟨hplaced, _, _⟩ := storeFiles_ok hst
    by_cases h4 : b.version = .v4
    · rw [if_pos h4] at h hheader
      obtain ⟨p, hp, hheader'⟩ : ∃ p : HeaderParams, _ = p ∧ writeHeader b.version b.blockSize p = .ok header :=
        ⟨_, rfl, hheader⟩
      rw [h4] at hheader'
      obtain ⟨hw, htk⟩ := writeHeader_v4_patch md5 b.blockSize p _ (by rw [← hp]) ⟨hmd _, hmd _, by
        dsimp only; split
        · exact hmd _
        · exact List.length_replicate, hmd _, hmd _, List.length_replicate⟩ header hheader'
      rw [← h4] at hw
      exact ⟨{
        pending := pending, prepared := hprep, count := count_lt hst, sectorSize := ss, sector := hss, stored := stored
        placed := hplaced, k := k, hk := hk, slots := hsize, table := table, adds := hadds, het := het, bet := bet
        classic := fun hc => by rw [hv] at hc; cases hc
        extended := fun _ => ⟨hd, bd, hhd, hhet, hbd, hbet⟩
        hiNeeded := hiBlockNeeded (stored.map (·.hi)), hiNeeded_eq := by rw [hv2, Bool.true_and]
        hi := _, hi_eq := rfl, files := _, files_eq := rfl, hash := _, hash_eq := rfl, block := _, block_eq := rfl
        v4Data := some (v4DataOf md5 k pending het bet (hashTableBytes table) (blockTableBytes (stored.map (·.block)))
          (if hiBlockNeeded (stored.map (·.hi)) then hiBlockTableBytes (stored.map (·.hi)) else [])
          (hiBlockNeeded (stored.map (·.hi))) (md5 (header.take 192)))
        v4_none := fun hc => absurd h4 hc
        params := _, params_eq := rfl
        header := header.take 192 ++ md5 (header.take 192)
        header_eq := by
          rw [← hw, if_pos hv, if_pos hv, ← hp]; rfl
        v4_some := fun _ => by rw [htk]
        bytes := h.symm }⟩
    · rw [if_neg h4] at h hheader
      exact ⟨{
        pending := pending, prepared := hprep, count := count_lt hst, sectorSize := ss, sector := hss, stored := stored
        placed := hplaced, k := k, hk := hk, slots := hsize, table := table, adds := hadds, het := het, bet := bet
        classic := fun hc => by rw [hv] at hc; cases hc
        extended := fun _ => ⟨hd, bd, hhd, hhet, hbd, hbet⟩
        hiNeeded := hiBlockNeeded (stored.map (·.hi)), hiNeeded_eq := by rw [hv2, Bool.true_and]
        hi := _, hi_eq := rfl, files := _, files_eq := rfl, hash := _, hash_eq := rfl, block := _, block_eq := rfl
        v4Data := none
        v4_none := fun _ => rfl
        params := _, params_eq := rfl
        header := header
        header_eq := by rw [← hheader, if_pos hv, if_pos hv]
        v4_some := fun hc => absurd hc h4
        bytes := h.symm }⟩
  · rw [if_neg hv] at h
    have hv' : b.version.ge .v3 = false := by simpa using hv
    unfold writeArchiveClassic at h
    obtain ⟨size, hsize, h⟩ := bind_eq_ok.1 h
    obtain ⟨k, hk, rfl⟩ := hashSizeOf_ok hsize
    obtain ⟨ss, hss, h⟩ := bind_eq_ok.1 h
    obtain ⟨t0, ht0, h⟩ := bind_eq_ok.1 h
    obtain ⟨⟨table, stored⟩, hst, h⟩ := bind_eq_ok.1 h
    dsimp only at h
    obtain ⟨header, hheader, h⟩ := bind_eq_ok.1 h
    injection h with h
    obtain ⟨hplaced, hadd, _⟩ := storeFiles_ok hst
    have hadds : runAdds (2 ^ k) (opsFrom 0 pending) = .ok table := by
      unfold runAdds
      rw [ht0]
      dsimp only
      rw [← addAll_eq]; exact hadd rfl
    exact ⟨{
      pending := pending, prepared := hprep, count := count_lt hst, sectorSize := ss, sector := hss, stored := stored
      placed := hplaced, k := k, hk := hk, slots := hsize, table := table, adds := hadds, het := [], bet := []
      classic := fun _ => ⟨rfl, rfl⟩
      extended := fun hc => absurd hc hv
      hiNeeded := _, hiNeeded_eq := rfl
      hi := _, hi_eq := rfl, files := _, files_eq := rfl, hash := _, hash_eq := rfl, block := _, block_eq := rfl
      v4Data := none
      v4_none := fun _ => rfl
      params := _, params_eq := rfl
      header := header
      header_eq := by rw [← hheader, if_neg hv, if_neg hv]; simp only [List.length_nil, Nat.add_zero]
      v4_some := fun hc => by rw [hc] at hv; exact absurd rfl hv
      bytes := by rw [← h]; simp only [List.append_nil] }⟩

end Mopaq
