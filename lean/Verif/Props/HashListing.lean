import Verif.Model.HashListing
import Verif.Props.Enumerate
import Verif.Props.Crypto

/-! # Listings with name hashes (C61) -/

namespace Mopaq

/-- The two hashes by which the format knows a name. -/
def Spec.namePair (name : List Byte) : Nat × Nat :=
  (Spec.nameHash 1 (name.map BitVec.toNat), Spec.nameHash 2 (name.map BitVec.toNat))

/-- The hashes beside an entry, as numbers. -/
def HashedEntry.pair (x : HashedEntry) : Option (Nat × Nat) := x.2.map fun h => (h.1.toNat, h.2.toNat)

theorem pair_spec (name : List Byte) :
    ((hashString name htNameA).toNat, (hashString name htNameB).toNat) = Spec.namePair name := by
  unfold Spec.namePair
  rw [← hashString_spec 1 (by decide) name, ← hashString_spec 2 (by decide) name]
  rfl

/-- C61: listing with hashes lists the same entries in the same order, or fails in the same way, and the hashes beside an
entry are those of the name in the entry. -/
theorem C61_listing_same (e : Env) (a : Archive) :
    (a.listWithHashes e).map (List.map Prod.fst) = a.list e ∧
    ∀ entries, a.listWithHashes e = .ok entries → ∀ x ∈ entries, x.pair = some (Spec.namePair x.1.name) := by
  unfold Archive.listWithHashes
  cases a.list e with
  | error err => exact ⟨rfl, fun _ h => nomatch h⟩
  | ok l =>
    refine ⟨?_, fun entries h x hx => ?_⟩
    · show Except.ok _ = _
      rw [List.map_map]
      exact congrArg Except.ok (List.map_id'' (fun _ => rfl) l)
    · cases Except.ok.inj h
      obtain ⟨y, _, rfl⟩ := List.mem_map.1 hx
      exact congrArg some (pair_spec y.name)

theorem hashedEntries_fst (bt : List BlockEntry) : ∀ (t : HashTable) (seen : List Nat),
    (hashedEntries bt seen t).map Prod.fst = blockEntries bt seen t
  | [], _ => rfl
  | entry :: rest, seen => by
    rw [hashedEntries, blockEntries]
    split
    · split
      · exact hashedEntries_fst bt rest seen
      · cases blockEntryOf bt entry.blockIndex.toNat entry.blockIndex.toNat with
        | none => exact hashedEntries_fst bt rest _
        | some x => exact congrArg (x :: ·) (hashedEntries_fst bt rest _)
    · exact hashedEntries_fst bt rest seen

theorem mem_hashedEntries (bt : List BlockEntry) : ∀ (t : HashTable) (seen : List Nat) (x : HashedEntry),
    x ∈ hashedEntries bt seen t → ∃ entry ∈ t, entry.isValid = true ∧
      blockEntryOf bt entry.blockIndex.toNat entry.blockIndex.toNat = some x.1 ∧ x.2 = some (entry.name1, entry.name2)
  | [], _, x, h => by cases h
  | entry :: rest, seen, x, h => by
    have tail : ∀ seen', x ∈ hashedEntries bt seen' rest → ∃ en ∈ entry :: rest, en.isValid = true ∧
        blockEntryOf bt en.blockIndex.toNat en.blockIndex.toNat = some x.1 ∧ x.2 = some (en.name1, en.name2) := fun seen' h' => by
      obtain ⟨en, h1, h2⟩ := mem_hashedEntries bt rest seen' x h'
      exact ⟨en, List.mem_cons_of_mem _ h1, h2⟩
    rw [hashedEntries] at h
    split at h
    · rename_i hv
      split at h
      · exact tail _ h
      · cases hb : blockEntryOf bt entry.blockIndex.toNat entry.blockIndex.toNat with
        | none => rw [hb] at h; exact tail _ h
        | some y =>
          rw [hb] at h
          rcases List.mem_cons.1 h with rfl | h
          · exact ⟨entry, List.mem_cons_self, hv, hb, rfl⟩
          · exact tail _ h
    · exact tail _ h

/-- C61: enumerating with hashes reports the same entries in the same order as without, or fails in the same way. -/
theorem C61_enumeration_same (a : Archive) : a.listAllWithHashes.map (List.map Prod.fst) = a.listAll := by
  unfold Archive.listAllWithHashes Archive.listAll
  cases a.betListing with
  | error err => rfl
  | ok l =>
    by_cases hl : l ≠ []
    · simp only [bind, Except.bind, if_pos hl]
      show Except.ok _ = _
      rw [List.map_map]
      exact congrArg Except.ok (List.map_id'' (fun _ => rfl) l)
    · simp only [bind, Except.bind, if_neg hl]
      cases a.hashTable with
      | none => rfl
      | some ht =>
        cases a.blockTable with
        | none => rfl
        | some bt =>
          show Except.ok _ = _
          rw [List.map_mergeSort (s := fun x y : FileEntry => nameLe x.name y.name) (fun _ _ _ _ => rfl), hashedEntries_fst]
          rfl

/-- C61: the hashes beside an enumerated entry are those of a valid entry of the hash table for the same block. -/
theorem C61_enumeration_hashes (a : Archive) (ht : HashTable) (bt : List BlockEntry) (hht : a.hashTable = some ht)
    (hbt : a.blockTable = some bt) (hx : a.betTable = none) (entries : List HashedEntry)
    (h : a.listAllWithHashes = .ok entries) : ∀ x ∈ entries, ∃ entry ∈ ht, ∃ block,
      bt[entry.blockIndex.toNat]? = some block ∧ x = (numberedEntry entry.blockIndex.toNat block, some (entry.name1, entry.name2)) := by
  intro x hxm
  have hbl : a.betListing = .ok [] := by
    unfold Archive.betListing usableHetBet
    rw [hx]
    cases a.hetTable <;> rfl
  unfold Archive.listAllWithHashes at h
  rw [hbl, hht, hbt] at h
  cases Except.ok.inj h
  obtain ⟨entry, h1, h2, h3, h4⟩ := mem_hashedEntries bt ht [] x ((List.mergeSort_perm _ _).mem_iff.1 hxm)
  obtain ⟨block, hb, _, hx1⟩ := blockEntryOf_some.1 h3
  refine ⟨entry, h1, block, hb, ?_⟩
  have h32 : (2 : Nat) ^ 32 = 4294967296 := rfl
  have e20 : (10 : Nat) ^ 20 = 100000000000000000000 := rfl
  have := entry.blockIndex.isLt
  rw [anonymousName_eq _ (by omega)] at hx1
  exact Prod.ext hx1 h4

variable {e : Env} {md5 : Md5} {b : Builder} {f : List Byte}

/-- The entries of the hash table of an archive. -/
theorem Layout.table_entry (L : Layout e md5 b f) (hn : L.pending.length < 0xFFFFFFFE) {h : HashEntry} (hm : h ∈ L.table)
    (hv : h.isValid = true) : ∃ p, L.pending[h.blockIndex.toNat]? = some p ∧ (h.name1, h.name2) = hashPair p.name := by
  have hperm := runAdds_perm rfl L.hk _ (opsFrom_valid hn) L.adds
  have hne : h.isEmpty = false := by
    unfold HashEntry.isValid at hv
    unfold HashEntry.isEmpty
    rw [decide_eq_true_eq] at hv
    rw [beq_eq_false_iff_ne]
    intro he; rw [he] at hv; revert hv; decide
  have := hperm.mem_iff (a := h)
  rw [List.mem_filter, List.mem_map] at this
  obtain ⟨op, ho, rfl⟩ := this.1 ⟨hm, by rw [hne]; rfl⟩
  obtain ⟨j, hj⟩ := List.mem_iff_getElem?.1 ho
  rw [opsFrom_get] at hj
  obtain ⟨p, hp, rfl⟩ := Option.map_eq_some_iff.1 hj
  have hjl := (List.getElem?_eq_some_iff.1 hp).1
  refine ⟨p, ?_, rfl⟩
  have h32 : (2 : Nat) ^ 32 = 4294967296 := rfl
  simp only [AddOp.entry, BitVec.toNat_ofNat, Nat.zero_add]
  rw [Nat.mod_eq_of_lt (by omega)]
  exact hp

/-- C61: enumerating a built archive of version 1 or 2 with hashes reports every file exactly once, in the order they were
added, with the hashes of the name it was added under. -/
theorem C61_built_hashes (e : Env) (md5 : Md5) (hmd : ∀ x, (md5 x).length = 16) (b : Builder)
    (hv : b.version = .v1 ∨ b.version = .v2)
    (f : List Byte) (hb : buildBytes e md5 b = .ok f) (pending : List PendingFile) (hp : prepareListfile b = .ok pending)
    (before after : List Byte) (hal : before.length % 512 = 0)
    (hclean : ∀ o < before.length, o % 512 = 0 → ¬ Spec.archiveMark (before ++ f ++ after) o ∧
      ¬ Spec.userDataMark (before ++ f ++ after) o)
    (hlen : f.length < addressable b.version) (hfit : before.length + f.length < 2 ^ 64)
    (hcount : pending.length ≤ 10 ^ 8) (hsize : ∀ p ∈ pending, ∀ data, p.source = some data → data.length < 2 ^ 32)
    (a : Archive) (ha : openArchive e (before ++ f ++ after) = .ok a) :
    ∃ entries, a.listAllWithHashes = .ok entries ∧
      entries.map (fun x => (x.1.name, x.1.size, x.pair)) =
        pending.zipIdx.map fun x => (Spec.numbered x.2, x.1.size, some (Spec.namePair x.1.name)) := by
  obtain ⟨plain, hpl, hmap⟩ := C57_built_listing e md5 hmd b hv f hb pending hp before after hal hclean hlen hfit hcount hsize a ha
  have hsame := C61_enumeration_same a
  rw [hpl] at hsame
  cases hw : a.listAllWithHashes with
  | error err => rw [hw] at hsame; cases hsame
  | ok entries =>
    rw [hw] at hsame
    have hsame : entries.map Prod.fst = plain := Except.ok.inj hsame
    refine ⟨entries, rfl, ?_⟩
    obtain ⟨L⟩ := layout_of_build hmd hb
    have hpe : L.pending = pending := Except.ok.inj (L.prepared.symm.trans hp)
    subst hpe
    have e8 : (10 : Nat) ^ 8 = 100000000 := rfl
    have e20 : (10 : Nat) ^ 20 = 100000000000000000000 := rfl
    have h32 : (2 : Nat) ^ 32 = 4294967296 := rfl
    have hn : L.pending.length < 0xFFFFFFFE := by omega
    obtain ⟨ho, _, hbet, _⟩ := L.opened_tables hmd before after hal hclean hlen hfit hn ha
    have hge : b.version.ge .v3 = false := by rcases hv with h | h <;> rw [h] <;> rfl
    rw [hge] at hbet
    have hbet : a.betTable = none := (Except.ok.inj hbet).symm
    have hbl : a.betListing = .ok [] := by
      unfold Archive.betListing usableHetBet
      rw [hbet]
      cases a.hetTable <;> rfl
    have hmem : ∀ x ∈ entries, ∃ i p, L.pending[i]? = some p ∧ x.1.name = Spec.numbered i ∧
        x.pair = some (Spec.namePair p.name) := by
      intro x hx
      unfold Archive.listAllWithHashes at hw
      rw [hbl, ho.hash, ho.block] at hw
      cases Except.ok.inj hw
      obtain ⟨entry, h1, h2, h3, h4⟩ := mem_hashedEntries _ _ [] x ((List.mergeSort_perm _ _).mem_iff.1 hx)
      obtain ⟨block, _, _, hx1⟩ := blockEntryOf_some.1 h3
      obtain ⟨p, hp, hpair⟩ := L.table_entry hn h1 h2
      have := entry.blockIndex.isLt
      refine ⟨_, p, hp, by rw [hx1, anonymousName_eq _ (by omega)], ?_⟩
      unfold HashedEntry.pair
      rw [h4, ← pair_spec, hpair]
      rfl
    refine List.ext_getElem? fun i => ?_
    have hi : (plain.map fun x => (x.name, x.size))[i]? = _ := congrArg (·[i]?) hmap
    rw [← hsame, List.map_map, List.getElem?_map, List.getElem?_map, List.getElem?_zipIdx] at hi
    rw [List.getElem?_map, List.getElem?_map, List.getElem?_zipIdx]
    cases hx : entries[i]? with
    | none =>
      rw [hx] at hi
      cases hq : L.pending[i]? with
      | none => rfl
      | some q => rw [hq] at hi; cases hi
    | some x =>
      rw [hx] at hi
      cases hq : L.pending[i]? with
      | none => rw [hq] at hi; cases hi
      | some q =>
        rw [hq] at hi
        have hi : (x.1.name, x.1.size) = (Spec.numbered (0 + i), q.size) := Option.some.inj hi
        obtain ⟨j, p, hp, hnj, hpair⟩ := hmem x (List.mem_of_getElem? hx)
        have hj := (List.getElem?_eq_some_iff.1 hp).1
        have hil := (List.getElem?_eq_some_iff.1 hq).1
        have hij : j = i := by
          have h1 := congrArg Prod.fst hi
          dsimp only at h1
          rw [Nat.zero_add] at h1
          refine anonymousName_inj (i := j) (j := i) (by omega) (by omega) ?_
          rw [anonymousName_eq _ (by omega), anonymousName_eq _ (by omega), ← hnj, h1]
        subst hij
        rw [hp] at hq
        cases Option.some.inj hq
        show some (x.1.name, x.1.size, x.pair) = some _
        rw [hpair]
        have h1 := congrArg Prod.fst hi
        have h2 := congrArg Prod.snd hi
        dsimp only at h1 h2
        rw [h1, h2]

/-- C61 fails: where no listfile names the files, listing with hashes gives the hashes of the made-up names, not those by which
the hash table knows the files. -/
theorem C61_placeholder_hashes (e : Env) (a : Archive) (ht : HashTable) (bt : List BlockEntry) (hht : a.hashTable = some ht)
    (hbt : a.blockTable = some bt) (hbet : a.betTable = none) (hsmall : ht.length ≤ 10 ^ 20)
    (hno : a.findFile listfileName = .ok none) :
    ∃ entries, a.listWithHashes e = .ok entries ∧ (∀ i block, usedSlot ht bt i block →
        ∃ x ∈ entries, x.1 = numberedEntry i block ∧ x.pair = some (Spec.namePair (Spec.numbered i))) ∧
      ∀ x ∈ entries, ∃ i block, usedSlot ht bt i block ∧ x.1 = numberedEntry i block ∧
        x.pair = some (Spec.namePair (Spec.numbered i)) := by
  obtain ⟨slots, h1, _, h3⟩ := C57_slots_listed e a ht bt hht hbt hbet hsmall hno
  have hw : a.listWithHashes e = .ok ((slots.map fun x => numberedEntry x.1 x.2).map fun x =>
      (x, some (hashString x.name htNameA, hashString x.name htNameB))) := by
    unfold Archive.listWithHashes
    rw [h1]
    rfl
  refine ⟨_, hw, fun i block hu => ?_, fun x hx => ?_⟩
  · refine ⟨_, List.mem_map.2 ⟨_, List.mem_map.2 ⟨(i, block), (h3 i block).2 hu, rfl⟩, rfl⟩, rfl, ?_⟩
    exact congrArg some (pair_spec _)
  · obtain ⟨y, hy, rfl⟩ := List.mem_map.1 hx
    obtain ⟨z, hz, rfl⟩ := List.mem_map.1 hy
    exact ⟨z.1, z.2, (h3 _ _).1 hz, rfl, congrArg some (pair_spec _)⟩

/-- C61 (what is missing in versions 3 and 4): where the extended tables deliver any file, enumerating with hashes delivers no
hashes at all. -/
theorem C61_extended_no_hashes (a : Archive) (files : List FileEntry) (h : a.betListing = .ok files) (hne : files ≠ []) :
    ∃ entries, a.listAllWithHashes = .ok entries ∧ entries ≠ [] ∧ ∀ x ∈ entries, x.pair = none := by
  have hw : a.listAllWithHashes = .ok (files.map fun x => (x, none)) := by
    unfold Archive.listAllWithHashes
    rw [h]
    simp only [bind, Except.bind, if_pos hne]
    rfl
  refine ⟨_, hw, by simpa using hne, fun x hx => ?_⟩
  obtain ⟨y, _, rfl⟩ := List.mem_map.1 hx
  rfl

/-- The sample archive of version 2: the hashes of the three names. -/
example : ∃ f a entries, buildBytes toyEnv zeroMd5 (sampleBuilder .v2) = .ok f ∧ openArchive toyEnv f = .ok a ∧
    a.listAllWithHashes = .ok entries ∧ entries.map (fun x => (x.1.name, x.pair)) =
      [(ascii "file_00000000.dat", some (Spec.namePair (ascii "Dir\\a.txt"))),
       (ascii "file_00000001.dat", some (Spec.namePair (ascii "b.bin"))),
       (ascii "file_00000002.dat", some (Spec.namePair listfileName))] := by
  obtain ⟨f, a, hf, hlt, ha, _⟩ := sample_reads .v2 (by decide)
  have e48 : (2 : Nat) ^ 48 = 281474976710656 := rfl
  have e64 : (2 : Nat) ^ 64 = 18446744073709551616 := rfl
  obtain ⟨entries, h1, h2⟩ := C61_built_hashes toyEnv zeroMd5 (fun _ => List.length_replicate) (sampleBuilder .v2) (Or.inr rfl)
    f hf samplePending (samplePending_eq .v2) [] [] rfl (by intro o ho; cases ho) (by exact hlt)
    (by simp only [List.length_nil]; omega) (by decide)
    (fun p hp data hd => by have := sample_sizes p hp data hd; omega) a (by rw [List.nil_append, List.append_nil]; exact ha)
  refine ⟨f, a, entries, hf, ha, h1, ?_⟩
  have h3 := congrArg (List.map fun x : List Byte × Nat × Option (Nat × Nat) => (x.1, x.2.2)) h2
  rw [List.map_map] at h3
  refine h3.trans ?_
  have hn : (Spec.numbered 0, Spec.numbered 1, Spec.numbered 2) =
      (ascii "file_00000000.dat", ascii "file_00000001.dat", ascii "file_00000002.dat") := by decide +kernel
  rw [← (Prod.mk.inj hn).1, ← (Prod.mk.inj (Prod.mk.inj hn).2).1, ← (Prod.mk.inj (Prod.mk.inj hn).2).2]
  rfl

/-- An archive with one file, in the only slot, and no listfile. -/
def slotEntry : HashEntry := ⟨0, 2, 0, 0, 0⟩

def slotArchive : Archive :=
  ⟨[], 0, none, ⟨32, 0, .v1, 3, 0, 0, 2, 1, none, none, none, none, none, none, none⟩,
   some [slotEntry], some [⟨32, 5, 5, 0x80000000⟩], none, none, none, none⟩

theorem slot_loop (h1 h2 : U32) (h : h1 ≠ 0) : findLoop [slotEntry] h1 h2 0 0 1 0 = .ok none := by
  have hs : (slotEntry.name1 == h1) = false := beq_eq_false_iff_ne.2 fun he => h he.symm
  unfold findLoop
  simp only [List.getElem?_cons_zero, HashEntry.isHit, hs, Bool.false_and, List.length_singleton, Nat.sub_self,
    Nat.and_zero, if_true]
  rfl

theorem slot_search (h1 h2 s : U32) (h : h1 ≠ 0) :
    findLoop [slotEntry] h1 h2 0 (s.toNat &&& ([slotEntry].length - 1)) [slotEntry].length
      (s.toNat &&& ([slotEntry].length - 1)) = .ok none := by
  rw [List.length_singleton, Nat.sub_self, Nat.and_zero]
  exact slot_loop h1 h2 h

theorem listfileName_hash : hashString listfileName htNameA ≠ 0 := by
  rw [show htNameA = 1 from rfl, hashString_lit 1 (by decide)]
  decide +kernel

theorem slotArchive_find : slotArchive.findFile listfileName = .ok none := by
  have hf : findFileHash [slotEntry] listfileName 0 = .ok none := by
    unfold findFileHash
    rw [if_neg (by decide)]
    exact slot_search _ _ _ listfileName_hash
  have hc : slotArchive.findFileClassic listfileName = .ok none := by
    unfold Archive.findFileClassic slotArchive
    simp only [hf]
    rfl
  exact hc

/-- Its file is listed with the hash of the made-up name. -/
example : ∃ entries, slotArchive.listWithHashes toyEnv = .ok entries ∧ ∃ x ∈ entries, x.1.size = 5 ∧
    x.pair = some (Spec.namePair (Spec.numbered 0)) := by
  obtain ⟨entries, h1, h2, _⟩ := C61_placeholder_hashes toyEnv slotArchive _ _ rfl rfl rfl
    (show [slotEntry].length ≤ 10 ^ 20 from Nat.one_le_pow _ _ (by decide)) slotArchive_find
  obtain ⟨x, hx, h3, h4⟩ := h2 0 ⟨32, 5, 5, 0x80000000⟩ ⟨slotEntry, rfl, by decide, rfl, by decide⟩
  exact ⟨entries, h1, x, hx, by rw [h3]; rfl, h4⟩

/-- An archive whose BET table describes one file of 7 bytes. -/
def betArchive : Archive :=
  { slotArchive with
    hetTable := some ⟨⟨0, 1, 1, 8, 1, 0, 1, 1⟩, [0x80], [0]⟩
    betTable := some ⟨⟨0, 1, 0x10, 32, 0, 8, 16, 24, 32, 8, 8, 8, 8, 0, 8, 0, 8, 1, 1⟩, [0x80000000],
      [32, 7, 7, 0, 0, 0, 0, 0], [0]⟩ }

example : ∃ entries, betArchive.listAllWithHashes = .ok entries ∧ entries ≠ [] ∧ ∀ x ∈ entries, x.pair = none :=
  C61_extended_no_hashes betArchive [⟨ascii "file_00000000.dat", 7, 7, 0x80000000⟩] (by decide +kernel) (by decide)

end Mopaq
