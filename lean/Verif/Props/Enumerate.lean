import Verif.Lemmas.Enumerate
import Verif.Props.Listing

/-!
# Listing files whose names are unknown (C57)

`listAll` is `list_all`; `list` without a listfile falls back to the same tables.
-/

namespace Mopaq

theorem nameLe_iff : ∀ a b : List Byte, nameLe a b = true ↔ a.map BitVec.toNat ≤ b.map BitVec.toNat
  | [], b => by simp [nameLe]
  | _ :: _, [] => by simp [nameLe]
  | x :: xs, y :: ys => by
    rw [List.map_cons, List.map_cons, List.cons_le_cons_iff, ← nameLe_iff xs ys]
    simp only [nameLe, Bool.or_eq_true, Bool.and_eq_true, decide_eq_true_eq, beq_iff_eq]
    have : x.toNat = y.toNat ↔ x = y := ⟨BitVec.eq_of_toNat_eq, congrArg _⟩
    rw [this]

/-- The block `i` of the block table exists and is referred to by a valid entry of the hash table. -/
def usedBlock (hashTable : HashTable) (blockTable : List BlockEntry) (i : Nat) (block : BlockEntry) : Prop :=
  (∃ h ∈ hashTable, h.blockIndex.toNat = i ∧ i < 0xFFFFFFFE) ∧ blockTable[i]? = some block ∧ block.flags.getLsbD 31 = true

/-- The entry of a listing for a block under the given number. -/
def numberedEntry (i : Nat) (block : BlockEntry) : FileEntry :=
  { name := Spec.numbered i, size := block.fileSize.toNat, compressedSize := block.compressedSize.toNat,
    flags := block.flags }

theorem exists_bit (flags : U32) : flags &&& flagExists ≠ 0#32 ↔ flags.getLsbD 31 = true := by
  constructor
  · intro h
    cases hb : flags.getLsbD 31 with
    | true => rfl
    | false =>
      refine absurd ?_ h
      apply BitVec.eq_of_getLsbD_eq
      intro i hi
      rw [BitVec.getLsbD_and, BitVec.getLsbD_zero]
      have : ∀ i < 32, flagExists.getLsbD i = decide (i = 31) := by decide
      rw [this i hi]
      by_cases h31 : i = 31
      · subst h31; rw [hb]; rfl
      · simp [h31]
  · intro h h0
    have := congrArg (fun v => BitVec.getLsbD v 31) h0
    rw [BitVec.getLsbD_and, h] at this
    exact absurd this (by decide)

theorem blockEntryOf_some {bt : List BlockEntry} {i label : Nat} {x : FileEntry} :
    blockEntryOf bt i label = some x ↔ ∃ b, bt[i]? = some b ∧ b.flags.getLsbD 31 = true ∧
      x = { name := anonymousName label, size := b.fileSize.toNat, compressedSize := b.compressedSize.toNat, flags := b.flags } := by
  unfold blockEntryOf
  cases bt[i]? with
  | none => simp
  | some b =>
    by_cases hf : b.flags &&& flagExists ≠ 0#32
    · dsimp only
      rw [if_pos hf]
      have := (exists_bit _).1 hf
      constructor
      · intro h; exact ⟨b, rfl, this, (Option.some.inj h).symm⟩
      · rintro ⟨b', hb, _, rfl⟩; cases hb; rfl
    · dsimp only
      rw [if_neg hf]
      constructor
      · intro h; cases h
      · rintro ⟨b', hb, h, _⟩; cases hb; exact absurd ((exists_bit _).2 h) hf

theorem listAll_classic {a : Archive} {ht : HashTable} {bt : List BlockEntry} (hht : a.hashTable = some ht)
    (hbt : a.blockTable = some bt) (hx : a.betListing = .ok []) :
    a.listAll = .ok ((blockEntries bt [] ht).mergeSort fun x y => nameLe x.name y.name) := by
  unfold Archive.listAll
  rw [hx, hht, hbt]
  rfl

theorem entries_sorted (l : List FileEntry) :
    (l.mergeSort fun x y => nameLe x.name y.name).Pairwise fun x y => nameLe x.name y.name = true :=
  List.pairwise_mergeSort (le := fun x y : FileEntry => nameLe x.name y.name)
    (fun _ _ _ => nameLe_trans _ _ _) (fun _ _ => nameLe_total _ _) l

/-- C57: whatever the hash and block tables of an archive without extended tables hold, enumerating all files reports
every existing block that a valid hash entry refers to exactly once, however often it is referred to, under its number and
with its sizes and flags, and nothing else, sorted by name. -/
theorem C57_every_block_once (a : Archive) (ht : HashTable) (bt : List BlockEntry) (hht : a.hashTable = some ht)
    (hbt : a.blockTable = some bt) (hx : a.betTable = none) :
    ∃ (entries : List FileEntry) (blocks : List (Nat × BlockEntry)), a.listAll = .ok entries ∧
      (blocks.map Prod.fst).Nodup ∧ (∀ i block, (i, block) ∈ blocks ↔ usedBlock ht bt i block) ∧
      entries.Perm (blocks.map fun x => numberedEntry x.1 x.2) ∧
      entries.Pairwise fun x y => x.name.map BitVec.toNat ≤ y.name.map BitVec.toNat := by
  have hbl : a.betListing = .ok [] := by
    unfold Archive.betListing usableHetBet
    rw [hx]
    cases a.hetTable <;> rfl
  refine ⟨_, (newBlocks [] ht).filterMap fun i => (bt[i]?.filter fun b => b.flags.getLsbD 31).map (i, ·),
    listAll_classic hht hbt hbl, ?_, ?_, ?_, ?_⟩
  · have hsub : ∀ l : List Nat, ((l.filterMap fun i => (bt[i]?.filter fun b => b.flags.getLsbD 31).map (i, ·)).map
        Prod.fst).Sublist l := by
      intro l
      induction l with
      | nil => exact List.Sublist.refl _
      | cons i l ih =>
        rw [List.filterMap_cons]
        cases hb : bt[i]?.filter fun b => b.flags.getLsbD 31 with
        | none => exact ih.cons _
        | some b => exact ih.cons_cons _
    exact (nodup_newBlocks ht []).sublist (hsub _)
  · intro i block
    rw [List.mem_filterMap]
    unfold usedBlock
    constructor
    · rintro ⟨j, hj, hm⟩
      obtain ⟨b, hb, he⟩ := Option.map_eq_some_iff.1 hm
      cases he
      rw [mem_newBlocks] at hj
      obtain ⟨_, h, h1, h2, h3⟩ := hj
      unfold HashEntry.isValid at h2
      rw [decide_eq_true_eq, h3] at h2
      obtain ⟨h4, h5⟩ := Option.filter_eq_some_iff.1 hb
      exact ⟨⟨h, h1, h3, h2⟩, h4, h5⟩
    · rintro ⟨⟨h, h1, h3, h2⟩, h4, h5⟩
      refine ⟨i, (mem_newBlocks _ _ _).2 ⟨by simp, h, h1, ?_, h3⟩, ?_⟩
      · unfold HashEntry.isValid
        rw [decide_eq_true_eq, h3]; exact h2
      · rw [h4, Option.filter_some, if_pos h5]; rfl
  · refine (List.mergeSort_perm _ _).trans ?_
    rw [blockEntries_eq, List.map_filterMap]
    refine List.Perm.of_eq ?_
    have : ∀ l : List Nat, (∀ i ∈ l, i < 10 ^ 20) → l.filterMap (fun i => blockEntryOf bt i i) =
        l.filterMap fun i => ((bt[i]?.filter fun b => b.flags.getLsbD 31).map (i, ·)).map fun x => numberedEntry x.1 x.2 := by
      intro l hl
      have hone : ∀ i ∈ l, blockEntryOf bt i i =
          ((bt[i]?.filter fun b => b.flags.getLsbD 31).map (i, ·)).map fun x => numberedEntry x.1 x.2 := by
        intro i hi
        unfold blockEntryOf
        cases bt[i]? with
        | none => rfl
        | some b =>
          dsimp only
          rw [Option.filter_some]
          by_cases hf : b.flags.getLsbD 31 = true
          · rw [if_pos ((exists_bit _).2 hf), if_pos hf, anonymousName_eq i (hl i hi)]; rfl
          · rw [if_neg (fun h => hf ((exists_bit _).1 h)), if_neg hf]; rfl
      clear hl
      induction l with
      | nil => rfl
      | cons i l ih =>
        rw [List.filterMap_cons, List.filterMap_cons, hone i List.mem_cons_self,
          ih fun j hj => hone j (List.mem_cons_of_mem _ hj)]
    refine this _ fun i hi => ?_
    obtain ⟨_, h, _, h2, h3⟩ := (mem_newBlocks _ _ _).1 hi
    unfold HashEntry.isValid at h2
    rw [decide_eq_true_eq, h3] at h2
    have : (10 : Nat) ^ 20 = 100000000000000000000 := rfl
    omega
  · refine (entries_sorted _).imp ?_
    intro x y h
    exact (nameLe_iff _ _).1 h

variable {e : Env} {md5 : Md5} {b : Builder} {f : List Byte}

/-- What opening a finished archive leaves, including the extended tables. -/
theorem Layout.opened_tables (L : Layout e md5 b f) (hmd : ∀ x, (md5 x).length = 16) (before after : List Byte)
    (hal : before.length % 512 = 0)
    (hclean : ∀ o < before.length, o % 512 = 0 → ¬ Spec.archiveMark (before ++ f ++ after) o ∧
      ¬ Spec.userDataMark (before ++ f ++ after) o)
    (hlen : f.length < addressable b.version) (hfit : before.length + f.length < 2 ^ 64)
    (hn : L.pending.length < 0xFFFFFFFE) {a : Archive} (ha : openArchive e (before ++ f ++ after) = .ok a) :
    L.Opened before after a ∧
      (if b.version.ge .v3 then Mopaq.loadHet e (before ++ f ++ after) before.length L.hdr else pure none) = .ok a.hetTable ∧
      (if b.version.ge .v3 then Mopaq.loadBet e (before ++ f ++ after) before.length L.hdr else pure none) = .ok a.betTable ∧
      a.userData = none := by
  have hfv : L.hdr.formatVersion = b.version := rfl
  have key : ∃ het bet,
      (if b.version.ge .v3 then Mopaq.loadHet e (before ++ f ++ after) before.length L.hdr else pure none) = .ok het ∧
      (if b.version.ge .v3 then Mopaq.loadBet e (before ++ f ++ after) before.length L.hdr else pure none) = .ok bet := by
    have ha := ha
    unfold openArchive at ha
    rw [L.findHeader hmd before after hal hclean] at ha
    simp only [bind, Except.bind, if_true] at ha
    unfold Archive.loadTables at ha
    dsimp only at ha
    rw [hfv] at ha
    cases hv : b.version.ge .v3 with
    | false => exact ⟨none, none, rfl, rfl⟩
    | true =>
      simp only [hv, if_true] at ha
      obtain ⟨het, hhet, ha⟩ := bind_eq_ok.1 ha
      obtain ⟨bet, hbet, ha⟩ := bind_eq_ok.1 ha
      exact ⟨het, bet, hhet, hbet⟩
  obtain ⟨het, bet, hhet, hbet⟩ := key
  obtain ⟨a', ha', h1, h2, _, h3, hop⟩ := L.open hmd before after hal hclean hlen hfit hn het bet hhet hbet
  rw [hop] at ha
  cases hl : a'.loadAttributes e with
  | error err => rw [hl] at ha; cases ha
  | ok at_ =>
    rw [hl] at ha
    injection ha with ha
    subst ha
    exact ⟨⟨ha'.file, ha'.offset, ha'.header, ha'.hash, ha'.block, ha'.his⟩, by rw [hhet, ← h1], by rw [hbet, ← h2], h3⟩

/-- The blocks of an archive: one for each file, marked as existing, with its length. -/
theorem Layout.block_get (L : Layout e md5 b f)
    (hsize : ∀ p ∈ L.pending, ∀ data, p.source = some data → data.length < 2 ^ 32)
    {i : Nat} {p : PendingFile} (hp : L.pending[i]? = some p) :
    ∃ blk, (L.stored.map (·.block))[i]? = some blk ∧ blk.flags.getLsbD 31 = true ∧ blk.fileSize.toNat = p.size := by
  obtain ⟨s, pre, post, h1, _, _, hst⟩ := L.placed.get hp
  obtain ⟨data, w, hd, _, hs⟩ := storeFile_ok hst
  refine ⟨s.block, by rw [List.getElem?_map, h1]; rfl, ?_, ?_⟩
  · rw [hs]
    dsimp only
    rw [BitVec.getLsbD_or]
    have : flagExists.getLsbD 31 = true := by decide
    rw [this, Bool.or_true]
  · rw [hs]
    dsimp only
    have := hsize p (List.mem_of_getElem? hp) data hd
    rw [BitVec.toNat_ofNat, Nat.mod_eq_of_lt this]
    unfold PendingFile.size
    rw [hd]; rfl

theorem Layout.blocks_length (L : Layout e md5 b f) : (L.stored.map (·.block)).length = L.pending.length := by
  rw [List.length_map, L.placed.length]

/-- The hash table of an archive refers to every block once. -/
theorem Layout.newBlocks_perm (L : Layout e md5 b f) (hn : L.pending.length < 0xFFFFFFFE) :
    (newBlocks [] L.table).Perm (List.range L.pending.length) := by
  rw [List.perm_ext_iff_of_nodup (nodup_newBlocks _ _) List.nodup_range]
  intro i
  have hperm := runAdds_perm rfl L.hk _ (opsFrom_valid hn) L.adds
  rw [mem_newBlocks, List.mem_range]
  have hmem : ∀ h, (h ∈ L.table ∧ h.isEmpty = false) ↔ ∃ op ∈ opsFrom 0 L.pending, op.entry = h := by
    intro h
    have := hperm.mem_iff (a := h)
    rw [List.mem_filter, List.mem_map] at this
    simpa using this
  constructor
  · rintro ⟨_, h, h1, h2, h3⟩
    have hne : h.isEmpty = false := by
      unfold HashEntry.isValid at h2
      unfold HashEntry.isEmpty
      rw [decide_eq_true_eq] at h2
      rw [beq_eq_false_iff_ne]
      intro he; rw [he] at h2; revert h2; decide
    obtain ⟨op, ho, rfl⟩ := (hmem h).1 ⟨h1, hne⟩
    obtain ⟨j, hj⟩ := List.mem_iff_getElem?.1 ho
    rw [opsFrom_get] at hj
    obtain ⟨p, hp, rfl⟩ := Option.map_eq_some_iff.1 hj
    have hjl := (List.getElem?_eq_some_iff.1 hp).1
    simp only [AddOp.entry, BitVec.toNat_ofNat] at h3
    rw [← h3]
    exact Nat.lt_of_le_of_lt (Nat.mod_le _ _) (by omega)
  · intro hi
    refine ⟨by simp, ?_⟩
    have h32 : (2 : Nat) ^ 32 = 4294967296 := rfl
    have hop : (opsFrom 0 L.pending)[i]? = some ⟨L.pending[i].name, BitVec.ofNat 32 (0 + i), L.pending[i].locale⟩ := by
      rw [opsFrom_get, List.getElem?_eq_getElem hi]; rfl
    obtain ⟨h1, _⟩ := (hmem _).2 ⟨_, List.mem_of_getElem? hop, rfl⟩
    have hib : (BitVec.ofNat 32 (0 + i)).toNat = i := by
      rw [BitVec.toNat_ofNat, Nat.zero_add, Nat.mod_eq_of_lt (by omega)]
    refine ⟨_, h1, ?_, hib⟩
    unfold HashEntry.isValid AddOp.entry
    rw [decide_eq_true_eq]
    dsimp only
    rw [hib]; omega

theorem entries_numbered : ∀ (ps : List PendingFile) (g : Nat → Option FileEntry) (k : Nat),
    (∀ i (hi : i < ps.length), ∃ x, g (k + i) = some x ∧ x.name = Spec.numbered (k + i) ∧ x.size = ps[i].size) →
    ((List.range' k ps.length).filterMap g).map (fun x => (x.name, x.size)) =
      (ps.zipIdx k).map fun x => (Spec.numbered x.2, x.1.size)
  | [], _, _, _ => rfl
  | p :: ps, g, k, h => by
    obtain ⟨x, h1, h2, h3⟩ := h 0 (by simp)
    rw [List.length_cons, List.range'_succ, List.filterMap_cons]
    rw [Nat.add_zero] at h1 h2
    rw [h1, List.zipIdx_cons, List.map_cons, List.map_cons, h2, h3]
    refine congrArg (_ :: ·) (entries_numbered ps g (k + 1) fun i hi => ?_)
    obtain ⟨y, h4, h5, h6⟩ := h (i + 1) (by simpa using hi)
    have e : k + (i + 1) = k + 1 + i := by omega
    rw [e] at h4 h5
    exact ⟨y, h4, h5, h6⟩

/-- C57: enumerating all files of a built archive of version 1 or 2 reports every file exactly once: the files in the
order they were added, numbered from zero, with their sizes; whatever their names, contents and options, and also when
names are given several times for different locales. -/
theorem C57_built_listing (e : Env) (md5 : Md5) (hmd : ∀ x, (md5 x).length = 16) (b : Builder)
    (hv : b.version = .v1 ∨ b.version = .v2)
    (f : List Byte) (hb : buildBytes e md5 b = .ok f) (pending : List PendingFile) (hp : prepareListfile b = .ok pending)
    (before after : List Byte) (hal : before.length % 512 = 0)
    (hclean : ∀ o < before.length, o % 512 = 0 → ¬ Spec.archiveMark (before ++ f ++ after) o ∧
      ¬ Spec.userDataMark (before ++ f ++ after) o)
    (hlen : f.length < addressable b.version) (hfit : before.length + f.length < 2 ^ 64)
    (hcount : pending.length ≤ 10 ^ 8) (hsize : ∀ p ∈ pending, ∀ data, p.source = some data → data.length < 2 ^ 32)
    (a : Archive) (ha : openArchive e (before ++ f ++ after) = .ok a) :
    ∃ entries, a.listAll = .ok entries ∧
      entries.map (fun x => (x.name, x.size)) = pending.zipIdx.map fun x => (Spec.numbered x.2, x.1.size) := by
  obtain ⟨L⟩ := layout_of_build hmd hb
  have hpe : L.pending = pending := Except.ok.inj (L.prepared.symm.trans hp)
  subst hpe
  have e8 : (10 : Nat) ^ 8 = 100000000 := rfl
  have e20 : (10 : Nat) ^ 20 = 100000000000000000000 := rfl
  have hn : L.pending.length < 0xFFFFFFFE := by omega
  obtain ⟨ho, hhet, hbet, _⟩ := L.opened_tables hmd before after hal hclean hlen hfit hn ha
  have hge : b.version.ge .v3 = false := by rcases hv with h | h <;> rw [h] <;> rfl
  rw [hge] at hbet
  have hbet : a.betTable = none := (Except.ok.inj hbet).symm
  have hbl : a.betListing = .ok [] := by
    unfold Archive.betListing usableHetBet
    rw [hbet]
    cases a.hetTable <;> rfl
  refine ⟨_, listAll_classic ho.hash ho.block hbl, ?_⟩
  -- the entry of block `i`
  have hentry : ∀ i (hi : i < L.pending.length), ∃ x, blockEntryOf (L.stored.map (·.block)) i i = some x ∧
      x.name = anonymousName i ∧ x.size = L.pending[i].size := by
    intro i hi
    obtain ⟨blk, h1, h2, h3⟩ := L.block_get hsize (List.getElem?_eq_getElem hi)
    exact ⟨_, blockEntryOf_some.2 ⟨blk, h1, h2, rfl⟩, rfl, h3⟩
  have hsorted : (blockEntries (L.stored.map (·.block)) [] L.table).mergeSort (fun x y => nameLe x.name y.name) =
      (List.range L.pending.length).filterMap fun i => blockEntryOf (L.stored.map (·.block)) i i := by
    have hP : ((blockEntries (L.stored.map (·.block)) [] L.table).mergeSort (fun x y => nameLe x.name y.name)).Perm
        ((List.range L.pending.length).filterMap fun i => blockEntryOf (L.stored.map (·.block)) i i) := by
      refine (List.mergeSort_perm _ _).trans ?_
      rw [blockEntries_eq]
      exact (L.newBlocks_perm hn).filterMap _
    have hnum : ∀ x ∈ (List.range L.pending.length).filterMap (fun i => blockEntryOf (L.stored.map (·.block)) i i),
        ∃ i < L.pending.length, blockEntryOf (L.stored.map (·.block)) i i = some x ∧ x.name = anonymousName i := by
      intro x hx
      obtain ⟨i, hi, hix⟩ := List.mem_filterMap.1 hx
      have hi := List.mem_range.1 hi
      obtain ⟨y, hy, hyn, _⟩ := hentry i hi
      rw [hix] at hy; cases hy
      exact ⟨i, hi, hix, hyn⟩
    refine List.Perm.eq_of_pairwise (le := fun x y => nameLe x.name y.name = true) ?_ ?_ ?_ hP
    · intro x y hx hy h1 h2
      have hname := nameLe_antisymm _ _ h1 h2
      obtain ⟨i, hi, hix, hin⟩ := hnum x (hP.mem_iff.1 hx)
      obtain ⟨j, hj, hjy, hjn⟩ := hnum y hy
      have : i = j := anonymousName_inj (by omega) (by omega) (by rw [← hin, ← hjn, hname])
      subst this
      rw [hix] at hjy
      exact Option.some.inj hjy
    · exact entries_sorted _
    · rw [List.pairwise_filterMap]
      refine List.Pairwise.imp_of_mem ?_ List.pairwise_lt_range
      intro i j hi hj hij x hx y hy
      have hi := List.mem_range.1 hi
      have hj := List.mem_range.1 hj
      obtain ⟨x', hx', hxn, _⟩ := hentry i hi
      obtain ⟨y', hy', hyn, _⟩ := hentry j hj
      rw [hx] at hx'; cases hx'
      rw [hy] at hy'; cases hy'
      rw [hxn, hyn]
      exact anonymousName_le (by omega) (by omega) (by omega)
  rw [hsorted, List.range_eq_range']
  refine entries_numbered L.pending _ 0 (fun i hi => ?_)
  obtain ⟨x, h1, h2, h3⟩ := hentry i hi
  exact ⟨x, by rw [Nat.zero_add]; exact h1, by rw [Nat.zero_add, h2, anonymousName_eq i (by omega)], h3⟩

/-! ## Versions 3 and 4 -/

/-- The entry for a BET record, if there is one and it exists. -/
def betEntryOf (i : Nat) (info : Option BetFileInfo) : Option FileEntry :=
  info.bind fun info => if info.flags &&& flagExists ≠ 0#32 then
    some { name := anonymousName i, size := info.fileSize.toNat, compressedSize := info.compressedSize.toNat,
           flags := info.flags } else none

theorem betEntries_eq {bet : BetTable} {g : Nat → Option BetFileInfo} : ∀ (n i : Nat),
    (∀ j, i ≤ j → j < i + n → bet.getFileInfo (BitVec.ofNat 32 j) = .ok (g j)) →
    betEntries bet i n = .ok ((List.range' i n).filterMap fun j => betEntryOf j (g j))
  | 0, _, _ => rfl
  | n + 1, i, h => by
    rw [betEntries, h i (Nat.le_refl _) (by omega), betEntries_eq n (i + 1) fun j h1 h2 => h j (by omega) (by omega),
      List.range'_succ, List.filterMap_cons]
    simp only [bind, Except.bind]
    cases g i with
    | none => rfl
    | some info =>
      dsimp only
      have hx : betEntryOf i (some info) = if info.flags &&& flagExists ≠ 0#32 then
          some { name := anonymousName i, size := info.fileSize.toNat, compressedSize := info.compressedSize.toNat,
                 flags := info.flags } else none := rfl
      rw [hx]
      by_cases hf : info.flags &&& flagExists ≠ 0#32
      · rw [if_pos hf, if_pos hf]; rfl
      · rw [if_neg hf, if_neg hf]; rfl

theorem getFileInfo_no_room {t : BetTable} {i : Nat} (h32 : i < 2 ^ 32)
    (h : t.fileTable.length < i * t.header.tableEntrySize.toNat / 8 + 8) : t.getFileInfo (BitVec.ofNat 32 i) = .ok none := by
  have hin : (BitVec.ofNat 32 i).toNat = i := by rw [BitVec.toNat_ofNat, Nat.mod_eq_of_lt h32]
  unfold BetTable.getFileInfo
  rw [hin]
  split
  · rfl
  · unfold BetTable.readTableEntry
    dsimp only
    rw [if_pos (by omega)]
    rfl

theorem filterMap_congr' {α β : Type} {g h : α → Option β} : ∀ (l : List α), (∀ x ∈ l, g x = h x) →
    l.filterMap g = l.filterMap h
  | [], _ => rfl
  | x :: l, hl => by
    rw [List.filterMap_cons, List.filterMap_cons, hl x List.mem_cons_self,
      filterMap_congr' l fun y hy => hl y (List.mem_cons_of_mem _ hy)]

theorem filterMap_zipIdx_map {β : Type} (P : Nat → Bool) (φ : PendingFile × Nat → β) (g : Nat → Option FileEntry)
    (ψ : FileEntry → β) : ∀ (ps : List PendingFile) (k : Nat),
    (∀ i (hi : i < ps.length), if P (k + i) then ∃ x, g (k + i) = some x ∧ ψ x = φ (ps[i], k + i) else g (k + i) = none) →
    ((List.range' k ps.length).filterMap g).map ψ = ((ps.zipIdx k).filter fun x => P x.2).map φ
  | [], _, _ => rfl
  | p :: ps, k, h => by
    have h0 := h 0 (by simp)
    rw [Nat.add_zero] at h0
    have ih := filterMap_zipIdx_map P φ g ψ ps (k + 1) fun i hi => by
      have := h (i + 1) (by simpa using hi)
      rw [show k + (i + 1) = k + 1 + i by omega] at this
      exact this
    rw [List.length_cons, List.range'_succ, List.filterMap_cons, List.zipIdx_cons]
    cases hP : P k with
    | true =>
      rw [hP, if_pos rfl] at h0
      obtain ⟨x, h1, h2⟩ := h0
      rw [h1, List.filter_cons_of_pos (by exact hP), List.map_cons, List.map_cons, h2, ih]
      rfl
    | false =>
      rw [hP, if_neg (by simp)] at h0
      rw [h0, List.filter_cons_of_neg (by simp [hP])]
      exact ih

/-- C57 (what holds in versions 3 and 4): for a built archive without table compression whose BET records have at most 57
bits, enumerating all files reports exactly those files whose record ends at least a few bytes before the end of the table
(record number times width, in whole bytes, plus eight within the table); if there is none of those, all files as in
versions 1 and 2. Missing: the other files, see `C57_last_file_missing`. -/
theorem C57_extended_listing_partial (e : Env) (md5 : Md5) (hmd : ∀ x, (md5 x).length = 16) (b : Builder)
    (hv : b.version = .v3 ∨ b.version = .v4) (hno : b.tables.compressTables = false)
    (f : List Byte) (hb : buildBytes e md5 b = .ok f) (pending : List PendingFile) (hp : prepareListfile b = .ok pending)
    (before after : List Byte) (hal : before.length % 512 = 0)
    (hclean : ∀ o < before.length, o % 512 = 0 → ¬ Spec.archiveMark (before ++ f ++ after) o ∧
      ¬ Spec.userDataMark (before ++ f ++ after) o)
    (hlen : f.length < addressable b.version) (hfit : before.length + f.length < 2 ^ 64)
    (hcount : pending.length < 0xFFFFFFFE) (hsize : ∀ p ∈ pending, ∀ data, p.source = some data → data.length < 2 ^ 32)
    (hone : 2 ≤ pending.length)
    (a : Archive) (ha : openArchive e (before ++ f ++ after) = .ok a) :
    ∃ bet, a.betTable = some bet ∧ ∀ w, w = bet.header.tableEntrySize.toNat → w ≤ 57 → 57 ≤ pending.length * w →
      ∃ entries, a.listAll = .ok entries ∧ entries.map (fun x => (x.name, x.size)) =
        (pending.zipIdx.filter fun x => x.2 * w / 8 + 8 ≤ (pending.length * w + 7) / 8).map
          fun x => (Spec.numbered x.2, x.1.size) := by
  obtain ⟨L⟩ := layout_of_build hmd hb
  have hpe : L.pending = pending := Except.ok.inj (L.prepared.symm.trans hp)
  subst hpe
  have h32 : (2 : Nat) ^ 32 = 4294967296 := rfl
  have e20 : (10 : Nat) ^ 20 = 100000000000000000000 := rfl
  obtain ⟨ho, hhet, hbet, _⟩ := L.opened_tables hmd before after hal hclean hlen hfit hcount ha
  have hge : b.version.ge .v3 = true := by rcases hv with h | h <;> rw [h] <;> rfl
  obtain ⟨hd, bd, hhd, hwh, hbd, hwb⟩ := L.extended hge
  obtain ⟨hc, hcc⟩ := createHet_content hhd
  obtain ⟨bc, hbc⟩ := createBet_content hbd
  have hbl : (L.stored.map (·.block)).length = (L.pending.map (·.name)).length := by
    rw [List.length_map, List.length_map, L.placed.length]
  have hnl : (L.pending.map (·.name)).length = L.pending.length := List.length_map _
  obtain ⟨pre, post, hF, hh⟩ := L.loadHet hmd before after hlen hfit hge
  obtain ⟨pre', post', hF', hb'⟩ := L.loadBet hmd before after hlen hfit hge
  obtain ⟨t, ht, hth, htl⟩ := het_read e.codecs b.tables hno pre post _ (by omega) hc hcc hd L.het hhd hwh
  obtain ⟨u, hu, hu1, hu2, hu3, _⟩ := C33_bet_uncompressed_partial e.codecs b.tables hno pre' post' _ _ hbl (by omega) bc hbc
    bd L.bet hbd hwb
  rw [if_pos hge, hh] at hhet
  rw [if_pos hge, hb'] at hbet
  rw [← hF] at ht
  rw [← hF'] at hu
  rw [ht] at hhet
  rw [hu] at hbet
  have hhet : some t = a.hetTable := Except.ok.inj hhet
  have hbet : some u = a.betTable := Except.ok.inj hbet
  refine ⟨u, hbet.symm, ?_⟩
  intro w hw hw57 hroom
  have hf := betContent_facts hbl (by omega) hbc
  obtain ⟨_, hmax, _⟩ := hetContent_facts hcc
  have hwt : (betWidths (L.stored.map (·.block))).total = w := by rw [hw, hu1, hf.entrySize]
  have hftl : u.fileTable.length = (L.pending.length * w + 7) / 8 := by rw [hu3, hf.tableLength, hnl, hwt]
  have husable : usableHetBet a.hetTable a.betTable = some (t, u) := by
    rw [← hhet, ← hbet]
    unfold usableHetBet
    dsimp only
    rw [if_pos]
    rw [hth, hu1, hf.count, hnl]
    refine ⟨?_, by omega⟩
    rw [hmax, hnl]
    omega
  let g : Nat → Option BetFileInfo := fun i =>
    if i * w / 8 + 8 ≤ (L.pending.length * w + 7) / 8 then
      (L.stored.map (·.block))[i]?.map fun blk =>
        ({ filePos := blk.filePos.setWidth 64, fileSize := blk.fileSize.setWidth 64,
           compressedSize := blk.compressedSize.setWidth 64, flags := blk.flags } : BetFileInfo)
    else none
  have hinfo : ∀ j, 0 ≤ j → j < 0 + L.pending.length → u.getFileInfo (BitVec.ofNat 32 j) = .ok (g j) := by
    intro j _ hj
    rw [Nat.zero_add] at hj
    by_cases hr : j * w / 8 + 8 ≤ (L.pending.length * w + 7) / 8
    · have hjb : j < (L.stored.map (·.block)).length := by rw [hbl, hnl]; exact hj
      rw [C32_record_round_trip_partial _ _ hbl (by omega) bc hbc u hu1 hu2 hu3 j hjb w (by rw [hw, hu1]) (by omega)
        (by have := Nat.mod_lt (j * w) (show 8 > 0 by decide); omega) (by rw [← hu3, hftl]; exact hr)]
      simp only [g]
      rw [if_pos hr, List.getElem?_eq_getElem hjb]
      rfl
    · simp only [g]
      rw [if_neg hr, getFileInfo_no_room (by omega) (by rw [← hw, hftl]; omega)]
  have hlist := betEntries_eq (bet := u) L.pending.length 0 hinfo
  have hcnt : u.header.fileCount.toNat = L.pending.length := by rw [hu1, hf.count, hnl]
  have hbetl : a.betListing = .ok ((List.range' 0 L.pending.length).filterMap fun j => betEntryOf j (g j)) := by
    unfold Archive.betListing
    rw [husable]
    dsimp only
    rw [hcnt, hlist]
  have hentry : ∀ i (hi : i < L.pending.length),
      if decide (0 + i * w / 8 + 8 ≤ (L.pending.length * w + 7) / 8) then
        ∃ x, betEntryOf (0 + i) (g (0 + i)) = some x ∧ (x.name, x.size) = (Spec.numbered (0 + i), L.pending[i].size)
      else betEntryOf (0 + i) (g (0 + i)) = none := by
    intro i hi
    obtain ⟨blk, h1, h2, h3⟩ := L.block_get hsize (List.getElem?_eq_getElem hi)
    simp only [Nat.zero_add]
    by_cases hr : i * w / 8 + 8 ≤ (L.pending.length * w + 7) / 8
    · rw [if_pos (by simpa using hr)]
      simp only [g]
      rw [if_pos hr, h1]
      refine ⟨_, by unfold betEntryOf; rw [Option.map_some, Option.bind_some, if_pos ((exists_bit _).2 h2)], ?_⟩
      dsimp only
      rw [anonymousName_eq i (by omega), BitVec.toNat_setWidth, ← h3, Nat.mod_eq_of_lt]
      exact Nat.lt_of_lt_of_le blk.fileSize.isLt (by decide)
    · rw [if_neg (by simpa using hr)]
      simp only [g]
      rw [if_neg hr]
      rfl
  have hmap := filterMap_zipIdx_map (fun i => decide (i * w / 8 + 8 ≤ (L.pending.length * w + 7) / 8))
    (fun x => (Spec.numbered x.2, x.1.size)) (fun j => betEntryOf j (g j)) (fun x => (x.name, x.size)) L.pending 0
    (by intro i hi; have := hentry i hi; simpa only [Nat.zero_add] using this)
  refine ⟨_, ?_, hmap⟩
  unfold Archive.listAll
  rw [hbetl]
  simp only [bind, Except.bind]
  rw [if_pos]
  · rfl
  · intro hnil
    have h0 := hentry 0 (by omega)
    rw [Nat.zero_add, Nat.zero_mul, Nat.zero_div, if_pos (by rw [decide_eq_true_eq]; omega)] at h0
    obtain ⟨x, hx, _⟩ := h0
    have : x ∈ (List.range' 0 L.pending.length).filterMap fun j => betEntryOf j (g j) :=
      List.mem_filterMap.2 ⟨0, by rw [← List.range_eq_range']; exact List.mem_range.2 (by omega), hx⟩
    rw [hnil] at this
    cases this

/-- C57 fails in versions 3 and 4: the last file of a built archive is never reported when the BET records have at most 49
bits (and the table has at least 57 in all). -/
theorem C57_last_file_missing (e : Env) (md5 : Md5) (hmd : ∀ x, (md5 x).length = 16) (b : Builder)
    (hv : b.version = .v3 ∨ b.version = .v4) (hno : b.tables.compressTables = false)
    (f : List Byte) (hb : buildBytes e md5 b = .ok f) (pending : List PendingFile) (hp : prepareListfile b = .ok pending)
    (before after : List Byte) (hal : before.length % 512 = 0)
    (hclean : ∀ o < before.length, o % 512 = 0 → ¬ Spec.archiveMark (before ++ f ++ after) o ∧
      ¬ Spec.userDataMark (before ++ f ++ after) o)
    (hlen : f.length < addressable b.version) (hfit : before.length + f.length < 2 ^ 64)
    (hcount : pending.length < 0xFFFFFFFE) (hsize : ∀ p ∈ pending, ∀ data, p.source = some data → data.length < 2 ^ 32)
    (hone : 2 ≤ pending.length)
    (a : Archive) (ha : openArchive e (before ++ f ++ after) = .ok a) (bet : BetTable) (hbt : a.betTable = some bet)
    (hw : bet.header.tableEntrySize.toNat ≤ 49) (hroom : 57 ≤ pending.length * bet.header.tableEntrySize.toNat) :
    ∃ entries, a.listAll = .ok entries ∧ entries.length < pending.length ∧
      Spec.numbered (pending.length - 1) ∉ entries.map (·.name) := by
  obtain ⟨bet', h1, h2⟩ := C57_extended_listing_partial e md5 hmd b hv hno f hb pending hp before after hal hclean hlen hfit
    hcount hsize hone a ha
  rw [hbt] at h1; cases h1
  obtain ⟨entries, h3, h4⟩ := h2 _ rfl (by omega) hroom
  have e20 : (10 : Nat) ^ 20 = 100000000000000000000 := rfl
  have key : ∀ x ∈ pending.zipIdx.filter (fun x => decide (x.2 * bet.header.tableEntrySize.toNat / 8 + 8 ≤
      (pending.length * bet.header.tableEntrySize.toNat + 7) / 8)), x.2 < pending.length - 1 := by
    intro x hx
    obtain ⟨hx1, hx2⟩ := List.mem_filter.1 hx
    rw [decide_eq_true_eq] at hx2
    obtain ⟨x, i⟩ := x
    have hi := (List.mem_zipIdx_iff_getElem?.1 hx1)
    have hil := (List.getElem?_eq_some_iff.1 hi).1
    dsimp only at hil hx2 ⊢
    rcases Nat.lt_or_ge i (pending.length - 1) with h | h
    · exact h
    · have hi1 : i = pending.length - 1 := by omega
      subst hi1
      have hmul : pending.length * bet.header.tableEntrySize.toNat =
          (pending.length - 1) * bet.header.tableEntrySize.toNat + bet.header.tableEntrySize.toNat := by
        rw [← Nat.add_one_mul]; congr 1; omega
      rw [hmul] at hx2
      omega
  refine ⟨entries, h3, ?_, ?_⟩
  · have := congrArg List.length h4
    rw [List.length_map, List.length_map] at this
    rw [this]
    rcases Nat.lt_or_ge (pending.zipIdx.filter (fun x => decide (x.2 * bet.header.tableEntrySize.toNat / 8 + 8 ≤
      (pending.length * bet.header.tableEntrySize.toNat + 7) / 8))).length pending.length with h | h
    · exact h
    · have hsub := List.filter_sublist (p := fun x : PendingFile × Nat => decide (x.2 * bet.header.tableEntrySize.toNat / 8 + 8 ≤
        (pending.length * bet.header.tableEntrySize.toNat + 7) / 8)) (l := pending.zipIdx)
      have heq := hsub.eq_of_length_le (by rw [List.length_zipIdx]; exact h)
      have hlast : (pending[pending.length - 1], pending.length - 1) ∈ pending.zipIdx :=
        List.mem_zipIdx_iff_getElem?.2 (List.getElem?_eq_getElem _)
      have := key _ (by rw [heq]; exact hlast)
      omega
  · intro hmem
    have hnames := congrArg (List.map Prod.fst) h4
    rw [List.map_map, List.map_map] at hnames
    have hnames : entries.map (·.name) = _ := hnames
    rw [hnames] at hmem
    obtain ⟨x, hx, hxn⟩ := List.mem_map.1 hmem
    have hlt := key x hx
    have hxn : Spec.numbered x.2 = Spec.numbered (pending.length - 1) := hxn
    rw [← anonymousName_eq _ (by omega), ← anonymousName_eq _ (by omega)] at hxn
    have := anonymousName_inj (by omega) (by omega) hxn
    omega

/-- The BET table of an opened archive has the widths its blocks need. -/
theorem Layout.betWidth (L : Layout e md5 b f) (hmd : ∀ x, (md5 x).length = 16) (hge : b.version.ge .v3 = true)
    (hno : b.tables.compressTables = false) (before after : List Byte) (hal : before.length % 512 = 0)
    (hclean : ∀ o < before.length, o % 512 = 0 → ¬ Spec.archiveMark (before ++ f ++ after) o ∧
      ¬ Spec.userDataMark (before ++ f ++ after) o)
    (hlen : f.length < addressable b.version) (hfit : before.length + f.length < 2 ^ 64)
    (hn : L.pending.length < 0xFFFFFFFE) {a : Archive} (ha : openArchive e (before ++ f ++ after) = .ok a) :
    ∃ u, a.betTable = some u ∧ u.header.tableEntrySize.toNat = (betWidths (L.stored.map (·.block))).total := by
  obtain ⟨_, _, hbet, _⟩ := L.opened_tables hmd before after hal hclean hlen hfit hn ha
  obtain ⟨hd, bd, hhd, hwh, hbd, hwb⟩ := L.extended hge
  obtain ⟨bc, hbc⟩ := createBet_content hbd
  have hbl : (L.stored.map (·.block)).length = (L.pending.map (·.name)).length := by
    rw [List.length_map, List.length_map, L.placed.length]
  have hnl : (L.pending.map (·.name)).length = L.pending.length := List.length_map _
  have h32 : (2 : Nat) ^ 32 = 4294967296 := rfl
  obtain ⟨pre', post', hF', hb'⟩ := L.loadBet hmd before after hlen hfit hge
  obtain ⟨u, hu, hu1, _⟩ := C33_bet_uncompressed_partial e.codecs b.tables hno pre' post' _ _ hbl (by omega) bc hbc
    bd L.bet hbd hwb
  rw [if_pos hge, hb'] at hbet
  rw [← hF'] at hu
  rw [hu] at hbet
  have hbet : some u = a.betTable := Except.ok.inj hbet
  exact ⟨u, hbet.symm, by rw [hu1, (betContent_facts hbl (by omega) hbc).entrySize]⟩

/-- C57 fails in versions 3 and 4: enumerating all files of an archive of 9 to 128 files with at most 16 KiB in all leaves
out the last file; also of an archive of 3 to 128 files if one has at least 512 bytes. -/
theorem C57_small_archive_misses_last (e : Env) (md5 : Md5) (hmd : ∀ x, (md5 x).length = 16) (b : Builder)
    (hv : b.version = .v3 ∨ b.version = .v4) (hno : b.tables.compressTables = false)
    (f : List Byte) (hb : buildBytes e md5 b = .ok f) (pending : List PendingFile) (hp : prepareListfile b = .ok pending)
    (before after : List Byte) (hal : before.length % 512 = 0)
    (hclean : ∀ o < before.length, o % 512 = 0 → ¬ Spec.archiveMark (before ++ f ++ after) o ∧
      ¬ Spec.userDataMark (before ++ f ++ after) o)
    (hlen : f.length < addressable b.version) (hfit : before.length + f.length < 2 ^ 64)
    (hcount : pending.length ≤ 128)
    (hmany : 9 ≤ pending.length ∨ 3 ≤ pending.length ∧ ∃ p ∈ pending, 512 ≤ p.size)
    (hsum : (pending.map storedBound).sum + b.version.headerSize.toNat < 2 ^ 14)
    (a : Archive) (ha : openArchive e (before ++ f ++ after) = .ok a) :
    ∃ entries, a.listAll = .ok entries ∧ entries.length < pending.length ∧
      Spec.numbered (pending.length - 1) ∉ entries.map (·.name) := by
  obtain ⟨L⟩ := layout_of_build hmd hb
  have hpe : L.pending = pending := Except.ok.inj (L.prepared.symm.trans hp)
  subst hpe
  have h14 : (2 : Nat) ^ 14 = 16384 := rfl
  have h32 : (2 : Nat) ^ 32 = 4294967296 := rfl
  have hge : b.version.ge .v3 = true := by rcases hv with h | h <;> rw [h] <;> rfl
  have hmem : ∀ p ∈ L.pending, storedBound p < 2 ^ 14 := by
    intro p hp
    have : ∀ l : List PendingFile, p ∈ l → storedBound p ≤ (l.map storedBound).sum := by
      intro l
      induction l with
      | nil => intro h; cases h
      | cons q l ih =>
        intro h
        rw [List.map_cons, List.sum_cons]
        rcases List.mem_cons.1 h with rfl | h
        · omega
        · have := ih h; omega
    have := this _ hp
    omega
  obtain ⟨u, hu, hw⟩ := L.betWidth hmd hge hno before after hal hclean hlen hfit (by omega) ha
  have hall := storedAt_bound L.sector L.placed fun p hp => by have := hmem p hp; omega
  have hbits : ∀ field : BlockEntry → U32, (∀ s ∈ L.stored, (field s.block).toNat < 2 ^ 14) →
      bitsNeeded (maxField field (L.stored.map (·.block))) ≤ 14 := by
    intro field hf
    refine bitsNeeded_le (by omega) ?_
    have := maxField_le field (2 ^ 14 - 1) (L.stored.map (·.block)) (by
      intro b' hb'
      obtain ⟨s, hs, rfl⟩ := List.mem_map.1 hb'
      have := hf s hs
      omega)
    omega
  have w1 := hbits (·.filePos) (fun s hs => by have := (hall s hs).1; omega)
  have w2 := hbits (·.fileSize) (fun s hs => by have := (hall s hs).2.1; omega)
  have w3 := hbits (·.compressedSize) (fun s hs => by have := (hall s hs).2.2; omega)
  have w4 : (betWidths (L.stored.map (·.block))).flag ≤ 7 := by
    have := flagArray_length_le (L.stored.map (·.block))
    rw [L.blocks_length] at this
    unfold betWidths
    dsimp only
    split
    · omega
    · exact bitsNeeded_le (by omega) (by omega)
  have w5 : 7 ≤ (betWidths (L.stored.map (·.block))).pos := by
    have hl := L.blocks_length
    cases hst : L.stored with
    | nil => rw [hst] at hl; simp only [List.map_nil, List.length_nil] at hl; omega
    | cons s st =>
      have hpl := L.placed
      rw [hst] at hpl
      cases hpend : L.pending with
      | nil => rw [hpend] at hmany; simp at hmany
      | cons p ps =>
        rw [hpend] at hpl
        obtain ⟨_, _, _, _, hs⟩ := storeFile_ok hpl.1
        have hfit := (betWidths_fit ((s :: st).map (·.block)) s.block (by simp)).1
        have hpos : 68 ≤ s.block.filePos.toNat := by
          rw [hs]
          dsimp only
          rw [BitVec.toNat_ofNat]
          rcases hv with h | h <;> rw [h] <;> decide
        rcases Nat.lt_or_ge (betWidths ((s :: st).map (·.block))).pos 7 with h | h
        · have := Nat.pow_le_pow_right (show 0 < 2 by decide) (Nat.le_of_lt_succ h)
          have h64 : (2 : Nat) ^ 6 = 64 := rfl
          omega
        · exact h
  have hw49 : u.header.tableEntrySize.toNat ≤ 49 := by
    rw [hw]; unfold BetWidths.total
    unfold betWidths at w4 ⊢
    dsimp only at w4 ⊢
    omega
  have hw7 : 7 ≤ u.header.tableEntrySize.toNat := by
    rw [hw]; unfold BetWidths.total
    omega
  have hsz : ∀ p ∈ L.pending, ∀ data, p.source = some data → data.length < 2 ^ 32 := by
    intro p hp data hd
    have := hmem p hp
    unfold storedBound at this
    rw [hd] at this
    dsimp only at this
    omega
  have hw19 : (∃ p ∈ L.pending, 512 ≤ p.size) → 19 ≤ u.header.tableEntrySize.toNat := by
    rintro ⟨p, hp, hps⟩
    obtain ⟨i, hi⟩ := List.mem_iff_getElem?.1 hp
    obtain ⟨blk, h1, _, h3⟩ := L.block_get hsz hi
    have hfs := (betWidths_fit _ blk (List.mem_of_getElem? h1)).2.1
    have w6 : 10 ≤ (betWidths (L.stored.map (·.block))).size := by
      rcases Nat.lt_or_ge (betWidths (L.stored.map (·.block))).size 10 with h | h
      · have := Nat.pow_le_pow_right (show 0 < 2 by decide) (Nat.le_of_lt_succ h)
        have h9 : (2 : Nat) ^ 9 = 512 := rfl
        omega
      · exact h
    have w7 : 0 < (betWidths (L.stored.map (·.block))).cmp := bitsNeeded_pos _
    have w8 : 0 < (betWidths (L.stored.map (·.block))).flag := by
      have hne : flagArray (L.stored.map (·.block)) ≠ [] :=
        List.ne_nil_of_mem ((mem_flagArray blk.flags _).2 ⟨blk, List.mem_of_getElem? h1, rfl⟩)
      unfold betWidths
      dsimp only
      rw [if_neg hne]
      exact bitsNeeded_pos _
    rw [hw]; unfold BetWidths.total
    omega
  refine C57_last_file_missing e md5 hmd b hv hno f hb _ hp before after hal hclean hlen hfit (by omega) hsz
    (by rcases hmany with h | h <;> omega) a ha u hu hw49 ?_
  rcases hmany with h | h
  · have := Nat.mul_le_mul h hw7
    omega
  · have := Nat.mul_le_mul h.1 (hw19 h.2)
    omega

/-! ## Listing without a listfile -/

/-- The entry for a hash table slot. -/
def slotEntryOf (blockTable : List BlockEntry) (h : HashEntry) (i : Nat) : Option FileEntry :=
  if h.isValid then blockEntryOf blockTable h.blockIndex.toNat i else none

theorem slotEntries_eq (bt : List BlockEntry) : ∀ (ht : HashTable) (i : Nat),
    slotEntries bt i ht = (ht.zipIdx i).filterMap fun x => slotEntryOf bt x.1 x.2
  | [], _ => rfl
  | h :: ht, i => by
    rw [slotEntries, List.zipIdx_cons, List.filterMap_cons, slotEntries_eq bt ht (i + 1)]
    unfold slotEntryOf
    dsimp only
    split <;> rename_i hx <;> rw [hx]

/-- The slot `i` of the hash table refers to the given existing block. -/
def usedSlot (hashTable : HashTable) (blockTable : List BlockEntry) (i : Nat) (block : BlockEntry) : Prop :=
  ∃ h, hashTable[i]? = some h ∧ h.blockIndex.toNat < 0xFFFFFFFE ∧ blockTable[h.blockIndex.toNat]? = some block ∧
    block.flags.getLsbD 31 = true

theorem slotEntryOf_some {bt : List BlockEntry} {h : HashEntry} {i : Nat} {x : FileEntry} (hi : i < 10 ^ 20) :
    slotEntryOf bt h i = some x ↔ ∃ blk, h.blockIndex.toNat < 0xFFFFFFFE ∧ bt[h.blockIndex.toNat]? = some blk ∧
      blk.flags.getLsbD 31 = true ∧ x = numberedEntry i blk := by
  unfold slotEntryOf HashEntry.isValid
  by_cases hv : h.blockIndex.toNat < 0xFFFFFFFE
  · rw [if_pos (by rw [decide_eq_true_eq]; exact hv), blockEntryOf_some, anonymousName_eq _ hi]
    constructor
    · rintro ⟨blk, h1, h2, h3⟩; exact ⟨blk, hv, h1, h2, h3⟩
    · rintro ⟨blk, _, h1, h2, h3⟩; exact ⟨blk, h1, h2, h3⟩
  · rw [if_neg (by rw [decide_eq_true_eq]; exact hv)]
    constructor
    · intro h; cases h
    · rintro ⟨blk, h1, _⟩; exact absurd h1 hv

/-- The existing block of a slot. -/
def slotBlock (bt : List BlockEntry) (h : HashEntry) : Option BlockEntry :=
  if h.blockIndex.toNat < 0xFFFFFFFE then bt[h.blockIndex.toNat]?.filter fun b => b.flags.getLsbD 31 else none

theorem slotBlock_some {bt : List BlockEntry} {h : HashEntry} {blk : BlockEntry} :
    slotBlock bt h = some blk ↔ h.blockIndex.toNat < 0xFFFFFFFE ∧ bt[h.blockIndex.toNat]? = some blk ∧
      blk.flags.getLsbD 31 = true := by
  unfold slotBlock
  split
  · rename_i hv
    rw [Option.filter_eq_some_iff]
    exact ⟨fun h => ⟨hv, h⟩, fun h => h.2⟩
  · rename_i hv
    exact ⟨fun h => (nomatch h), fun h => absurd h.1 hv⟩

/-- The used slots of a table with their blocks. -/
def slotsOf (bt : List BlockEntry) (ht : HashTable) : List (Nat × BlockEntry) :=
  ht.zipIdx.filterMap fun x => (slotBlock bt x.1).map (x.2, ·)

theorem slotsOf_snd (bt : List BlockEntry) (ht : HashTable) : (slotsOf bt ht).map Prod.snd = ht.filterMap (slotBlock bt) := by
  unfold slotsOf
  generalize 0 = k
  induction ht generalizing k with
  | nil => rfl
  | cons h ht ih =>
    rw [List.zipIdx_cons, List.filterMap_cons, List.filterMap_cons]
    dsimp only
    cases slotBlock bt h with
    | none => exact ih _
    | some blk =>
      rw [Option.map_some]
      dsimp only
      rw [List.map_cons, ih]

theorem slotsOf_sorted (bt : List BlockEntry) (ht : HashTable) : ((slotsOf bt ht).map Prod.fst).Pairwise (· < ·) := by
  have hsub : ∀ l : List (HashEntry × Nat), ((l.filterMap fun x => (slotBlock bt x.1).map (x.2, ·)).map Prod.fst).Sublist
      (l.map Prod.snd) := by
    intro l
    induction l with
    | nil => exact List.Sublist.slnil
    | cons x l ih =>
      rw [List.filterMap_cons, List.map_cons]
      cases slotBlock bt x.1 with
      | none => exact ih.cons _
      | some blk => exact ih.cons_cons _
  refine List.Pairwise.sublist (hsub _) ?_
  have : ht.zipIdx.map Prod.snd = List.range' 0 ht.length := List.zipIdx_map_snd 0 ht
  rw [this]
  exact List.pairwise_lt_range'

theorem slotEntryOf_eq {bt : List BlockEntry} {h : HashEntry} {i : Nat} (hi : i < 10 ^ 20) :
    slotEntryOf bt h i = (slotBlock bt h).map (numberedEntry i) := by
  apply Option.ext
  intro x
  rw [slotEntryOf_some hi, Option.map_eq_some_iff]
  constructor
  · rintro ⟨blk, h1, h2, h3, h4⟩; exact ⟨blk, slotBlock_some.2 ⟨h1, h2, h3⟩, h4.symm⟩
  · rintro ⟨blk, h1, h2⟩
    obtain ⟨h3, h4, h5⟩ := slotBlock_some.1 h1
    exact ⟨blk, h3, h4, h5, h2.symm⟩

theorem list_slots {e : Env} {a : Archive} {ht : HashTable} {bt : List BlockEntry} (hht : a.hashTable = some ht)
    (hbt : a.blockTable = some bt) (hbet : a.betTable = none) (hsmall : ht.length ≤ 10 ^ 20)
    (hno : a.findFile listfileName = .ok none) :
    a.list e = .ok ((slotsOf bt ht).map fun x => numberedEntry x.1 x.2) := by
  have hbl : a.betListing = .ok [] := by
    unfold Archive.betListing usableHetBet
    rw [hbet]
    cases a.hetTable <;> rfl
  have hlist : a.list e = .ok (slotEntries bt 0 ht) := by
    unfold Archive.list
    rw [hno]
    simp only [bind, Except.bind, hbl, hht, hbt]
    rfl
  have hall : ∀ x ∈ ht.zipIdx, x.2 < 10 ^ 20 := by
    rintro ⟨x, i⟩ hx
    have := (List.getElem?_eq_some_iff.1 (List.mem_zipIdx_iff_getElem?.1 hx)).1
    dsimp only at this ⊢
    omega
  unfold slotsOf
  rw [hlist, slotEntries_eq, filterMap_congr' _ fun x hx => slotEntryOf_eq (hall x hx), List.map_filterMap]
  refine congrArg Except.ok (filterMap_congr' _ fun x _ => ?_)
  rw [Option.map_map]; rfl

/-- C57: without a listfile, listing an archive without BET table reports one file for every hash table slot that refers to
an existing file, in the order of the slots, numbered by slot; every such slot, and nothing else. -/
theorem C57_slots_listed (e : Env) (a : Archive) (ht : HashTable) (bt : List BlockEntry) (hht : a.hashTable = some ht)
    (hbt : a.blockTable = some bt) (hbet : a.betTable = none) (hsmall : ht.length ≤ 10 ^ 20)
    (hno : a.findFile listfileName = .ok none) :
    ∃ slots : List (Nat × BlockEntry), a.list e = .ok (slots.map fun x => numberedEntry x.1 x.2) ∧
      (slots.map Prod.fst).Pairwise (· < ·) ∧ ∀ i block, (i, block) ∈ slots ↔ usedSlot ht bt i block := by
  refine ⟨slotsOf bt ht, list_slots hht hbt hbet hsmall hno, slotsOf_sorted _ _, ?_⟩
  intro i block
  unfold slotsOf
  rw [List.mem_filterMap]
  constructor
  · rintro ⟨⟨h, j⟩, hm, hx⟩
    obtain ⟨blk, h1, h2⟩ := Option.map_eq_some_iff.1 hx
    cases h2
    exact ⟨h, List.mem_zipIdx_iff_getElem?.1 hm, slotBlock_some.1 h1⟩
  · rintro ⟨h, h1, h2⟩
    exact ⟨(h, i), List.mem_zipIdx_iff_getElem?.2 h1, Option.map_eq_some_iff.2 ⟨block, slotBlock_some.2 h2, rfl⟩⟩

theorem filterMap_filter_empty (bt : List BlockEntry) : ∀ ht : HashTable,
    ht.filterMap (slotBlock bt) = (ht.filter fun h => !h.isEmpty).filterMap (slotBlock bt)
  | [] => rfl
  | h :: ht => by
    rw [List.filterMap_cons, List.filter_cons]
    cases he : h.isEmpty with
    | false => rw [if_pos (by rfl), List.filterMap_cons, filterMap_filter_empty bt ht]
    | true =>
      rw [if_neg (by decide), ← filterMap_filter_empty bt ht]
      have : slotBlock bt h = none := by
        unfold slotBlock
        unfold HashEntry.isEmpty at he
        rw [beq_iff_eq] at he
        rw [if_neg (by rw [he]; decide)]
      rw [this]

theorem opsFrom_blocks {bt : List BlockEntry} : ∀ (ps : List PendingFile) (k : Nat),
    (∀ i (hi : i < ps.length), ∃ blk, bt[k + i]? = some blk ∧ blk.flags.getLsbD 31 = true ∧ blk.fileSize.toNat = ps[i].size) →
    k + ps.length < 0xFFFFFFFE →
    (((opsFrom k ps).map AddOp.entry).filterMap (slotBlock bt)).map (fun blk => blk.fileSize.toNat) = ps.map (·.size)
  | [], _, _, _ => rfl
  | p :: ps, k, h, hk => by
    rw [List.length_cons] at hk
    obtain ⟨blk, h1, h2, h3⟩ := h 0 (by simp)
    have hb : (BitVec.ofNat 32 k).toNat = k := by
      rw [BitVec.toNat_ofNat, Nat.mod_eq_of_lt]
      have : (2 : Nat) ^ 32 = 4294967296 := rfl
      omega
    rw [opsFrom, List.map_cons, List.filterMap_cons]
    have hs : slotBlock bt (AddOp.entry ⟨p.name, BitVec.ofNat 32 k, p.locale⟩) = some blk := by
      rw [slotBlock_some]
      show (BitVec.ofNat 32 k).toNat < _ ∧ bt[(BitVec.ofNat 32 k).toNat]? = _ ∧ _
      rw [hb]
      exact ⟨by omega, h1, h2⟩
    rw [hs]
    dsimp only
    rw [List.map_cons, List.map_cons, opsFrom_blocks ps (k + 1) _ (by omega), h3]
    · rfl
    · intro i hi
      have := h (i + 1) (by simpa using hi)
      rw [show k + (i + 1) = k + 1 + i by omega] at this
      exact this

/-- C57: a built archive of version 1 or 2 without a listfile lists exactly as many files as were added, with the sizes of
the files added, all under different names "file_" number ".dat", the numbers being below the number of hash table slots. -/
theorem C57_list_without_listfile (e : Env) (md5 : Md5) (hmd : ∀ x, (md5 x).length = 16) (b : Builder)
    (hv : b.version = .v1 ∨ b.version = .v2)
    (f : List Byte) (hb : buildBytes e md5 b = .ok f) (pending : List PendingFile) (hp : prepareListfile b = .ok pending)
    (before after : List Byte) (hal : before.length % 512 = 0)
    (hclean : ∀ o < before.length, o % 512 = 0 → ¬ Spec.archiveMark (before ++ f ++ after) o ∧
      ¬ Spec.userDataMark (before ++ f ++ after) o)
    (hlen : f.length < addressable b.version) (hfit : before.length + f.length < 2 ^ 64)
    (hcount : pending.length < 0xFFFFFFFE) (hsize : ∀ p ∈ pending, ∀ data, p.source = some data → data.length < 2 ^ 32)
    (hnone : ∀ p ∈ pending, ¬ Spec.sameName (listfileName.map BitVec.toNat) (p.name.map BitVec.toNat))
    (hc : NoCollision (listfileName :: pending.map (·.name)))
    (a : Archive) (ha : openArchive e (before ++ f ++ after) = .ok a) :
    ∃ entries, a.list e = .ok entries ∧ (entries.map (·.size)).Perm (pending.map (·.size)) ∧
      (entries.map (·.name)).Nodup ∧
      ∃ slots, hashSizeOf b pending = .ok slots ∧ ∀ x ∈ entries, ∃ i < slots, x.name = Spec.numbered i := by
  obtain ⟨L⟩ := layout_of_build hmd hb
  have hpe : L.pending = pending := Except.ok.inj (L.prepared.symm.trans hp)
  subst hpe
  have h32 : (2 : Nat) ^ 32 = 4294967296 := rfl
  have e20 : (10 : Nat) ^ 20 = 100000000000000000000 := rfl
  obtain ⟨ho, _, hbet, _⟩ := L.opened_tables hmd before after hal hclean hlen hfit hcount ha
  have hge : b.version.ge .v3 = false := by rcases hv with h | h <;> rw [h] <;> rfl
  rw [hge] at hbet
  have hbet : a.betTable = none := (Except.ok.inj hbet).symm
  have htl : L.table.length < 2 ^ 32 := by
    rw [L.table_length hcount]; exact Nat.pow_lt_pow_right (by decide) L.hk
  have hno : a.findFile listfileName = .ok none := by
    have hus : usableHetBet a.hetTable a.betTable = none := by
      unfold usableHetBet; rw [hbet]; cases a.hetTable <;> rfl
    rw [fallsBack_unusable hus listfileName]
    exact L.find_none ho hcount _ hnone hc
  have hlist := list_slots (e := e) ho.hash ho.block hbet (by omega) hno
  refine ⟨_, hlist, ?_, ?_, ?_⟩
  · have hsz : ((slotsOf (L.stored.map (·.block)) L.table).map fun x => numberedEntry x.1 x.2).map (·.size) =
        ((slotsOf (L.stored.map (·.block)) L.table).map Prod.snd).map fun blk => blk.fileSize.toNat := by
      rw [List.map_map, List.map_map]; rfl
    rw [hsz, slotsOf_snd, filterMap_filter_empty]
    have hperm := runAdds_perm rfl L.hk _ (opsFrom_valid hcount) L.adds
    refine ((hperm.filterMap _).map _).trans ?_
    rw [opsFrom_blocks L.pending 0 _ (by omega)]
    intro i hi
    rw [Nat.zero_add]
    exact L.block_get hsize (List.getElem?_eq_getElem hi)
  · have hnm : ((slotsOf (L.stored.map (·.block)) L.table).map fun x => numberedEntry x.1 x.2).map (·.name) =
        ((slotsOf (L.stored.map (·.block)) L.table).map Prod.fst).map Spec.numbered := by
      rw [List.map_map, List.map_map]; rfl
    rw [hnm]
    have hbound : ∀ i ∈ (slotsOf (L.stored.map (·.block)) L.table).map Prod.fst, i < 10 ^ 20 := by
      intro i hi
      obtain ⟨x, hx, rfl⟩ := List.mem_map.1 hi
      obtain ⟨⟨h, j⟩, hm, hx⟩ := List.mem_filterMap.1 hx
      obtain ⟨blk, _, rfl⟩ := Option.map_eq_some_iff.1 hx
      have := (List.getElem?_eq_some_iff.1 (List.mem_zipIdx_iff_getElem?.1 hm)).1
      dsimp only at this ⊢
      omega
    have hso := slotsOf_sorted (L.stored.map (·.block)) L.table
    generalize (slotsOf (L.stored.map (·.block)) L.table).map Prod.fst = l at hbound hso
    rw [List.nodup_iff_pairwise_ne, List.pairwise_map]
    refine hso.imp_of_mem ?_
    intro i j hi hj hij heq
    rw [← anonymousName_eq _ (hbound i hi), ← anonymousName_eq _ (hbound j hj)] at heq
    have := anonymousName_inj (hbound i hi) (hbound j hj) heq
    omega
  · refine ⟨_, L.slots, fun x hx => ?_⟩
    obtain ⟨y, hy, rfl⟩ := List.mem_map.1 hx
    obtain ⟨⟨h, j⟩, hm, hy⟩ := List.mem_filterMap.1 hy
    obtain ⟨blk, _, rfl⟩ := Option.map_eq_some_iff.1 hy
    have := (List.getElem?_eq_some_iff.1 (List.mem_zipIdx_iff_getElem?.1 hm)).1
    rw [L.table_length hcount] at this
    exact ⟨j, this, rfl⟩

/-! ## Samples -/

/-- The sample archive reports its two files and the listfile, in this order. -/
example : ∃ f a entries, buildBytes toyEnv zeroMd5 (sampleBuilder .v2) = .ok f ∧ openArchive toyEnv f = .ok a ∧
    a.listAll = .ok entries ∧ entries.map (fun x => (x.name, x.size)) =
      [(ascii "file_00000000.dat", 40), (ascii "file_00000001.dat", 5), (ascii "file_00000002.dat", 30)] := by
  obtain ⟨f, a, hf, hlt, ha, _⟩ := sample_reads .v2 (by decide)
  have e48 : (2 : Nat) ^ 48 = 281474976710656 := rfl
  have e64 : (2 : Nat) ^ 64 = 18446744073709551616 := rfl
  obtain ⟨entries, h1, h2⟩ := C57_built_listing toyEnv zeroMd5 (fun _ => List.length_replicate) (sampleBuilder .v2) (Or.inr rfl)
    f hf samplePending (samplePending_eq .v2) [] [] rfl (by intro o ho; cases ho) (by exact hlt)
    (by simp only [List.length_nil]; omega) (by decide)
    (fun p hp data hd => by have := sample_sizes p hp data hd; omega) a (by rw [List.nil_append, List.append_nil]; exact ha)
  exact ⟨f, a, entries, hf, ha, h1, by rw [h2]; decide +kernel⟩

/-- The sample without listfile. -/
def namelessBuilder : Builder := { sampleBuilder .v2 with listfile := .none }

theorem nameless_buildable : Buildable toyEnv namelessBuilder namelessBuilder.pending where
  shift := by show (3#16).toNat < 55; decide
  prepared := rfl
  count := by decide
  readable := by
    have hb := (sample_buildable .v2).readable
    intro p hp
    exact hb p (List.mem_append_left _ hp)
  names := noCollision_lit (by decide +kernel)
  distinct := by unfold DistinctFiles; decide +kernel

example : ∃ f a entries, buildBytes toyEnv zeroMd5 namelessBuilder = .ok f ∧ openArchive toyEnv f = .ok a ∧
    a.list toyEnv = .ok entries ∧ (entries.map (·.size)).Perm [40, 5] := by
  have h47 : (2 : Nat) ^ 47 = 140737488355328 := rfl
  have e48 : (2 : Nat) ^ 48 = 281474976710656 := rfl
  have e64 : (2 : Nat) ^ 64 = 18446744073709551616 := rfl
  have hsb : ∀ p ∈ namelessBuilder.pending, storedBound p + (p.source.getD []).length < 1000 := by decide +kernel
  have hsum : (namelessBuilder.pending.map storedBound).sum < 1000 := by decide +kernel
  obtain ⟨f, hf⟩ := C50_extended_build_succeeds_partial toyEnv zeroMd5 namelessBuilder _ nameless_buildable (.inl rfl)
    (by show _ + FormatVersion.v2.headerSize.toNat < _
        have : FormatVersion.v2.headerSize.toNat = 44 := by decide
        have h21 : (2 : Nat) ^ 21 = 2097152 := rfl
        omega)
  obtain ⟨L⟩ := layout_of_build (fun _ => List.length_replicate) hf
  have hpe : L.pending = namelessBuilder.pending := Except.ok.inj (L.prepared.symm.trans rfl)
  have hlt : f.length < 2 ^ 48 := L.length_lt (fun _ => List.length_replicate) (by rw [hpe]; decide)
    (by rw [hpe]; intro p hp; have := hsb p hp; omega) (by rw [hpe]; omega)
  have hsz : ∀ p ∈ namelessBuilder.pending, ∀ data, p.source = some data → data.length < 1000 := by
    intro p hp data hd
    have := hsb p hp
    rw [hd] at this
    have : storedBound p + data.length < 1000 := this
    omega
  obtain ⟨a, _, ha, _⟩ := C26_read_back_partial toyEnv toyCodecs_lawful zeroMd5 (fun _ => List.length_replicate)
    namelessBuilder f hf _ rfl (fun _ => .inl ⟨rfl, by decide⟩) [] [] rfl (by intro o ho; cases ho) (by exact hlt)
    (by simp only [List.length_nil]; omega) (by decide)
    (fun p hp data hd => by have := hsz p hp data hd; omega) (by decide +kernel) (noCollision_lit (by decide +kernel))
  obtain ⟨entries, h1, h2, _⟩ := C57_list_without_listfile toyEnv zeroMd5 (fun _ => List.length_replicate) namelessBuilder
    (Or.inr rfl) f hf _ rfl [] [] rfl (by intro o ho; cases ho) (by exact hlt)
    (by simp only [List.length_nil]; omega) (by decide)
    (fun p hp data hd => by have := hsz p hp data hd; omega) (by decide +kernel) (noCollision_lit (by decide +kernel)) a ha
  rw [List.nil_append, List.append_nil] at ha
  exact ⟨f, a, entries, hf, ha, h1, h2⟩

/-- Some 600 bytes. -/
@[irreducible] def sixHundred : List Byte := List.replicate 600 0x41#8

/-- Three stored files, one of 600 bytes, without listfile, in version 3. -/
def threeBuilder : Builder :=
  { sampleBuilder .v3 with
    listfile := .none
    pending := [
      { source := some sixHundred, name := ascii "a", compression := 0, encrypt := false, useFixKey := false,
        locale := 0 },
      { source := some [1, 2, 3], name := ascii "b", compression := 0, encrypt := true, useFixKey := true, locale := 0 },
      { source := some [], name := ascii "c", compression := 0x02, encrypt := false, useFixKey := false, locale := 0 }] }

theorem three_buildable : Buildable toyEnv threeBuilder threeBuilder.pending where
  shift := by show (3#16).toNat < 55; decide
  prepared := rfl
  count := by decide
  readable := by
    intro p hp
    simp only [threeBuilder, List.mem_cons, List.not_mem_nil, or_false] at hp
    rcases hp with rfl | rfl | rfl
    · exact ⟨_, rfl, by decide +kernel, by
        unfold Compressible
        rw [show threeBuilder.blockSize = 3#16 from rfl, if_pos (by decide +kernel)]
        exact ⟨(compress toyCodecs sixHundred 0#8).toOption.getD [],
          show compress toyCodecs sixHundred 0#8 = _ by decide +kernel⟩⟩
    · exact ⟨_, rfl, by decide, by unfold Compressible; rw [show threeBuilder.blockSize = 3#16 from rfl, if_pos (by decide +kernel)]; exact ⟨_, by rfl⟩⟩
    · exact ⟨_, rfl, by decide, by unfold Compressible; rw [show threeBuilder.blockSize = 3#16 from rfl, if_pos (by decide +kernel)]; exact ⟨_, by rfl⟩⟩
  names := noCollision_lit (by decide +kernel)
  distinct := by unfold DistinctFiles; decide +kernel

/-- Enumerating this archive misses the third file. -/
example : ∃ f a entries, buildBytes toyEnv zeroMd5 threeBuilder = .ok f ∧ openArchive toyEnv f = .ok a ∧
    a.listAll = .ok entries ∧ entries.length < 3 ∧ ascii "file_00000002.dat" ∉ entries.map (·.name) := by
  have h14 : (2 : Nat) ^ 14 = 16384 := rfl
  have h47 : (2 : Nat) ^ 47 = 140737488355328 := rfl
  have e48 : (2 : Nat) ^ 48 = 281474976710656 := rfl
  have e64 : (2 : Nat) ^ 64 = 18446744073709551616 := rfl
  have hh : FormatVersion.v3.headerSize.toNat = 68 := by decide
  have hsb : ∀ p ∈ threeBuilder.pending, storedBound p + (p.source.getD []).length < 2000 := by decide +kernel
  have hsum : (threeBuilder.pending.map storedBound).sum < 1000 := by decide +kernel
  obtain ⟨f, hf⟩ := C50_extended_build_succeeds_partial toyEnv zeroMd5 threeBuilder _ three_buildable (.inl rfl)
    (by show _ + FormatVersion.v3.headerSize.toNat < _
        have h21 : (2 : Nat) ^ 21 = 2097152 := rfl
        omega)
  obtain ⟨L⟩ := layout_of_build (fun _ => List.length_replicate) hf
  have hpe : L.pending = threeBuilder.pending := Except.ok.inj (L.prepared.symm.trans rfl)
  have hlt : f.length < 2 ^ 48 := L.length_lt (fun _ => List.length_replicate) (by rw [hpe]; decide)
    (by rw [hpe]; intro p hp; have := hsb p hp; omega) (by rw [hpe]; omega)
  have hsz : ∀ p ∈ threeBuilder.pending, ∀ data, p.source = some data → data.length < 2000 := by
    intro p hp data hd
    have := hsb p hp
    rw [hd] at this
    have : storedBound p + data.length < 2000 := this
    omega
  obtain ⟨a, _, ha, _⟩ := C26_read_back_partial toyEnv toyCodecs_lawful zeroMd5 (fun _ => List.length_replicate)
    threeBuilder f hf _ rfl (fun _ => .inl ⟨rfl, by decide⟩) [] [] rfl (by intro o ho; cases ho) (by exact hlt)
    (by simp only [List.length_nil]; omega) (by decide)
    (fun p hp data hd => by have := hsz p hp data hd; omega) (by decide +kernel) (noCollision_lit (by decide +kernel))
  obtain ⟨entries, h1, h2, h3⟩ := C57_small_archive_misses_last toyEnv zeroMd5 (fun _ => List.length_replicate) threeBuilder
    (Or.inl rfl) rfl f hf _ rfl [] [] rfl (by intro o ho; cases ho) (by exact hlt)
    (by simp only [List.length_nil]; omega) (by decide) (Or.inr ⟨by decide, by decide +kernel⟩)
    (by show _ + FormatVersion.v3.headerSize.toNat < _; omega) a ha
  rw [List.nil_append, List.append_nil] at ha
  exact ⟨f, a, entries, hf, ha, h1, h2, h3⟩

end Mopaq
