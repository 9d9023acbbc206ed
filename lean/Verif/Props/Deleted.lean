import Verif.Props.Memory
import Verif.Props.Damage

/-! # Deleted files are gone and the others stay (C83) -/

namespace Mopaq

/-- Slot `i` of the hash table held a file and is marked as deleted, whatever else is written into it; the other slots are as they
were. -/
structure Spec.SlotDeleted (t t' : HashTable) (i : Nat) : Prop where
  length : t'.length = t.length
  others : ∀ k, k ≠ i → t'[k]? = t[k]?
  held : ∃ e, t[i]? = some e ∧ e.blockIndex.toNat < 0xFFFFFFFE
  deleted : ∃ e', t'[i]? = some e' ∧ e'.blockIndex = 0xFFFFFFFE#32

/-- A slot of the table is one of the file `name`, in a locale that suits `l`. -/
def Spec.SlotOf (name : List Byte) (l : U16) (e : HashEntry) : Prop :=
  e.name1 = hashString name htNameA ∧ e.name2 = hashString name htNameB ∧ (l = 0 ∨ e.locale = 0 ∨ e.locale = l) ∧
    e.blockIndex.toNat < 0xFFFFFFFE

theorem isHit_iff (name : List Byte) (l : U16) (e : HashEntry) :
    e.isHit (hashString name htNameA) (hashString name htNameB) l = true ↔ Spec.SlotOf name l e := by
  unfold HashEntry.isHit Spec.SlotOf HashEntry.isValid
  simp only [Bool.and_eq_true, beq_iff_eq, Bool.or_eq_true, decide_eq_true_eq]
  constructor
  · rintro ⟨⟨h1, h2⟩, (h | h) | h, h4⟩
    · exact ⟨h1, h2, .inl h, h4⟩
    · exact ⟨h1, h2, .inr (.inl h), h4⟩
    · exact ⟨h1, h2, .inr (.inr h), h4⟩
  · rintro ⟨h1, h2, h | h | h, h4⟩
    · exact ⟨⟨h1, h2⟩, .inl (.inl h), h4⟩
    · exact ⟨⟨h1, h2⟩, .inl (.inr h), h4⟩
    · exact ⟨⟨h1, h2⟩, .inr h, h4⟩

section
variable {t t' : HashTable} {i : Nat}

theorem deleted_at (hd : Spec.SlotDeleted t t' i) (k : Nat) (hk : k ≠ i) : t'.at k = t.at k := by
  unfold HashTable.at; rw [hd.others k hk]

theorem deleted_here (hd : Spec.SlotDeleted t t' i) (name : List Byte) (l : U16) :
    (t'.at i).isHit (hashString name htNameA) (hashString name htNameB) l = false ∧ (t'.at i).isEmpty = false ∧ (t.at i).isEmpty = false := by
  obtain ⟨e, he, hv⟩ := hd.held
  obtain ⟨e', he', hv'⟩ := hd.deleted
  refine ⟨?_, ?_, ?_⟩
  · cases hh : (t'.at i).isHit (hashString name htNameA) (hashString name htNameB) l with
    | false => rfl
    | true =>
      have := ((isHit_iff name l _).1 hh).2.2.2
      unfold HashTable.at at this
      rw [he'] at this
      simp only [Option.getD_some, hv'] at this
      exact absurd this (by decide)
  · unfold HashTable.at HashEntry.isEmpty
    rw [he']
    simp only [Option.getD_some, hv']
    decide
  · unfold HashTable.at HashEntry.isEmpty
    rw [he]
    simp only [Option.getD_some, beq_eq_false_iff_ne, ne_eq]
    intro h
    rw [h] at hv
    exact absurd hv (by decide)

/-- C83: in the hash table, marking a slot as deleted takes this slot away and nothing else. For all tables, names and locales: a lookup
that did not end at the slot ends where it did before, no lookup ends at the slot, and one that ended there ends at another slot of
the name or finds nothing. -/
theorem C83_slot_deleted (k : Nat) (hn : t.length = 2 ^ k) (hd : Spec.SlotDeleted t t' i) (name : List Byte) (l : U16) :
    ∃ r r', findFileHash t name l = .ok r ∧ findFileHash t' name l = .ok r' ∧
      ((∀ e, r ≠ some (i, e)) → r' = r) ∧
      (∀ s e, r' = some (s, e) → s ≠ i ∧ t[s]? = some e ∧ Spec.SlotOf name l e) := by
  have hn' : t'.length = 2 ^ k := hd.length.trans hn
  refine ⟨_, _, findFileHash_findO hn name l, findFileHash_findO hn' name l, ?_, ?_⟩
  · intro hr
    cases hf : findO t name l with
    | none =>
      rw [findO_eq_none hn] at hf
      rw [findO_eq_none hn']
      intro j hj hh
      by_cases hji : probe (2 ^ k) (startOf (2 ^ k) name) j = i
      · rw [hji, (deleted_here hd name l).1] at hh; cases hh
      · rw [deleted_at hd _ hji] at hh
        obtain ⟨j', hj', he⟩ := hf j hj hh
        refine ⟨j', hj', ?_⟩
        by_cases hji' : probe (2 ^ k) (startOf (2 ^ k) name) j' = i
        · rw [hji', (deleted_here hd name l).2.2] at he; cases he
        · rw [deleted_at hd _ hji']; exact he
    | some r =>
      rw [hf] at hr
      rw [findO_eq_some hn] at hf
      rw [findO_eq_some hn']
      obtain ⟨j, hj, hh, hrj, hb⟩ := hf
      have hji : probe (2 ^ k) (startOf (2 ^ k) name) j ≠ i := by
        intro h
        rw [h] at hrj
        exact hr _ (congrArg some hrj)
      refine ⟨j, hj, by rw [deleted_at hd _ hji]; exact hh, by rw [deleted_at hd _ hji]; exact hrj, fun j' hj' => ?_⟩
      by_cases hji' : probe (2 ^ k) (startOf (2 ^ k) name) j' = i
      · rw [hji']; exact ⟨(deleted_here hd name l).1, (deleted_here hd name l).2.1⟩
      · rw [deleted_at hd _ hji']; exact hb j' hj'
  · intro s e hr
    rw [findO_eq_some hn'] at hr
    obtain ⟨j, hj, hh, hrj, hb⟩ := hr
    have hji : probe (2 ^ k) (startOf (2 ^ k) name) j ≠ i := by
      intro h
      rw [h, (deleted_here hd name l).1] at hh
      cases hh
    injection hrj with h1 h2
    have hat := deleted_at hd _ hji
    rw [hat] at hh h2
    subst h1 h2
    refine ⟨hji, HashTable.get_at ?_, (isHit_iff name l _).1 hh⟩
    rw [hn]
    exact probe_lt (Nat.two_pow_pos k)

theorem findFile_classic {a : Archive} (hu : usableHetBet a.hetTable a.betTable = none) (name : List Byte) :
    a.findFile name = a.findFileClassic name := by
  unfold Archive.findFile
  rw [hu]

/-- The slot of a lookup in the archive is the one of the lookup in the hash table. -/
theorem findFileClassic_slot {a : Archive} {ht : HashTable} (hht : a.hashTable = some ht) {name : List Byte} {r : Option FileInfo}
    (h : a.findFileClassic name = .ok r) : ∃ q, findFileHash ht name 0 = .ok q ∧ q.map Prod.fst = r.map FileInfo.hashIndex := by
  unfold Archive.findFileClassic at h
  rw [hht] at h
  dsimp only at h
  split at h
  · cases h
  obtain ⟨q, hq, h⟩ := bind_eq_ok.1 h
  refine ⟨q, hq, ?_⟩
  cases q with
  | none => cases h; rfl
  | some q =>
    obtain ⟨s, en⟩ := q
    dsimp only at h
    split at h
    · cases h
    obtain ⟨p, hp, h⟩ := bind_eq_ok.1 h
    cases h
    rfl

theorem readFile_of_find {e : Env} {a a' : Archive} {name : List Byte} (hf : a'.findFile name = a.findFile name) (h1 : a'.file = a.file)
    (h2 : a'.archiveOffset = a.archiveOffset) (h3 : a'.header = a.header) (h4 : a'.hetTable = a.hetTable) (h5 : a'.betTable = a.betTable)
    (h6 : a'.blockTable = a.blockTable) : a'.readFile e name = a.readFile e name := by
  unfold Archive.readFile
  rw [hf, h1, h2, h3, h4, h5, h6]

theorem file_deleted (e : Env) (a : Archive) (hu : usableHetBet a.hetTable a.betTable = none) (ht : a.hashTable = some t) (k : Nat)
    (hn : t.length = 2 ^ k) (hd : Spec.SlotDeleted t t' i) (hb : a.blockTable ≠ none) :
    (∀ name r, a.findFile name = .ok r → (∀ info, r = some info → info.hashIndex ≠ i) →
      ({ a with hashTable := some t' } : Archive).findFile name = .ok r ∧
      ({ a with hashTable := some t' } : Archive).readFile e name = a.readFile e name) ∧
    ∀ name, (∀ s en, t[s]? = some en → Spec.SlotOf name 0 en → s = i) →
      ({ a with hashTable := some t' } : Archive).findFile name = .ok none ∧
      ({ a with hashTable := some t' } : Archive).readFile e name = .error .fileNotFound := by
  constructor
  · intro name r hr hne
    have hfind : ({ a with hashTable := some t' } : Archive).findFile name = .ok r := by
      have hu' : usableHetBet ({ a with hashTable := some t' } : Archive).hetTable ({ a with hashTable := some t' } : Archive).betTable = none := hu
      rw [findFile_classic hu']
      rw [findFile_classic hu] at hr
      obtain ⟨q, hq, hqr⟩ := findFileClassic_slot ht hr
      obtain ⟨r1, r2, h1, h2, h3, _⟩ := C83_slot_deleted k hn hd name 0
      rw [hq] at h1
      injection h1 with h1
      subst h1
      have : r2 = q := by
        refine h3 fun en hq' => ?_
        subst hq'
        cases r with
        | none => cases hqr
        | some info =>
          injection hqr with hqr
          exact hne info rfl hqr.symm
      subst this
      unfold Archive.findFileClassic at hr ⊢
      rw [ht] at hr
      dsimp only at hr ⊢
      rw [hq] at hr
      rw [h2]
      exact hr
    exact ⟨hfind, readFile_of_find (hfind.trans hr.symm) rfl rfl rfl rfl rfl rfl⟩
  · intro name hname
    have hfind : ({ a with hashTable := some t' } : Archive).findFile name = .ok none := by
      have hu' : usableHetBet ({ a with hashTable := some t' } : Archive).hetTable ({ a with hashTable := some t' } : Archive).betTable = none := hu
      rw [findFile_classic hu']
      obtain ⟨r1, r2, h1, h2, _, h4⟩ := C83_slot_deleted k hn hd name 0
      cases r2 with
      | some r =>
        obtain ⟨s, en⟩ := r
        obtain ⟨hs, hg, ho⟩ := h4 s en rfl
        exact absurd (hname s en hg ho) hs
      | none =>
        unfold Archive.findFileClassic
        dsimp only
        cases hbt : a.blockTable with
        | none => exact absurd hbt hb
        | some bt =>
          dsimp only
          rw [h2]
          rfl
    refine ⟨hfind, ?_⟩
    unfold Archive.readFile
    rw [hfind]
    rfl

end

/-- `f'` is `f` with `bytes` written over what stands at `p`. -/
structure Spec.Overwritten (f f' : List Byte) (p : Nat) (bytes : List Byte) : Prop where
  within : p + bytes.length ≤ f.length
  eq : f' = f.take p ++ bytes ++ f.drop (p + bytes.length)

theorem Spec.Overwritten.damaged {f f' bytes : List Byte} {p : Nat} (h : Spec.Overwritten f f' p bytes) :
    Spec.Damaged f f' p (p + bytes.length) := by
  obtain ⟨hw, rfl⟩ := h
  have ht : (f.take p).length = p := by rw [List.length_take]; omega
  constructor
  · simp only [List.length_append, List.length_drop, ht]; omega
  · intro i hi
    rcases hi with hi | hi
    · rw [List.append_assoc, List.getElem?_append_left (by omega), List.getElem?_take, if_pos hi]
    · rw [List.getElem?_append_right (by rw [List.length_append, ht]; exact hi), List.getElem?_drop, List.length_append, ht]
      congr 1
      omega

/-- The places from `lo` up to `hi` are apart from the header, from what is looked at to find it, and from the table of high places. -/
structure Spec.ApartFromHeader (f : List Byte) (off : Nat) (h : MpqHeader) (lo hi : Nat) : Prop where
  header : off + h.formatVersion.headerSize.toNat ≤ lo
  userData : ∀ o target, o % 512 = 0 → o < off → _root_.Spec.pointsTo f o target → Spec.Apart lo hi target 4
  hiBlock : ∀ pos, h.hiBlockTablePos = some pos → pos ≠ 0#64 → Spec.Apart lo hi (off + pos.toNat) (2 * h.blockTableSize.toNat)

theorem classic_parts {f : List Byte} {off : Nat} {h : MpqHeader} {c : Option (HashTable × List BlockEntry)}
    (hc : loadClassic f off h false = .ok c) : ∃ t bt, c = some (t, bt) ∧
      off + h.getHashTablePos.toNat < 2 ^ 64 ∧ readHashTable f (off + h.getHashTablePos.toNat) h.hashTableSize = .ok t ∧
      off + h.getBlockTablePos.toNat < 2 ^ 64 ∧ readBlockTable f (off + h.getBlockTablePos.toNat) h.blockTableSize = .ok bt := by
  unfold loadClassic addPos at hc
  rw [if_pos (show (!false || decide (0 < h.hashTableSize.toNat)) = true from rfl)] at hc
  obtain ⟨o, ho, hc⟩ := bind_eq_ok.1 hc
  obtain ⟨t, ht, hc⟩ := bind_eq_ok.1 hc
  obtain ⟨o', ho', hc⟩ := bind_eq_ok.1 hc
  obtain ⟨bt, hbt, hc⟩ := bind_eq_ok.1 hc
  cases hc
  split at ho
  · rename_i h1
    split at ho'
    · rename_i h2
      cases ho; cases ho'
      exact ⟨t, bt, rfl, h1, ht, h2, hbt⟩
    · cases ho'
  · cases ho

theorem classic_of_parts {f : List Byte} {off : Nat} {h : MpqHeader} {t : HashTable} {bt : List BlockEntry}
    (h1 : off + h.getHashTablePos.toNat < 2 ^ 64) (h2 : readHashTable f (off + h.getHashTablePos.toNat) h.hashTableSize = .ok t)
    (h3 : off + h.getBlockTablePos.toNat < 2 ^ 64) (h4 : readBlockTable f (off + h.getBlockTablePos.toNat) h.blockTableSize = .ok bt) :
    loadClassic f off h false = .ok (some (t, bt)) := by
  unfold loadClassic addPos
  rw [if_pos (show (!false || decide (0 < h.hashTableSize.toNat)) = true from rfl), if_pos h1, if_pos h3]
  exact bind_eq_ok.2 ⟨_, rfl, bind_eq_ok.2 ⟨_, h2, bind_eq_ok.2 ⟨_, rfl, bind_eq_ok.2 ⟨_, h4, rfl⟩⟩⟩⟩

theorem readHashTable_apart {f f' : List Byte} {lo hi : Nat} (hd : Spec.Damaged f f' lo hi) {o : Nat} {size : U32}
    (ha : Spec.Apart lo hi o (16 * size.toNat)) : readHashTable f' o size = readHashTable f o size := by
  unfold readHashTable
  rw [readAt_apart hd (by rw [Nat.mul_comm]; exact ha)]

theorem readBlockTable_apart {f f' : List Byte} {lo hi : Nat} (hd : Spec.Damaged f f' lo hi) {o : Nat} {size : U32}
    (ha : Spec.Apart lo hi o (16 * size.toNat)) : readBlockTable f' o size = readBlockTable f o size := by
  unfold readBlockTable
  rw [readAt_apart hd (by rw [Nat.mul_comm]; exact ha)]

theorem loadAttributes_of {e : Env} {a a' : Archive} (hr : a'.readFile e attributesName = a.readFile e attributesName)
    (hn : a.attributes = none) (hn' : a'.attributes = none) (hb : a'.blockTable.map List.length = a.blockTable.map List.length)
    (hbet : a'.betTable = a.betTable) : a'.loadAttributes e = a.loadAttributes e := by
  unfold Archive.loadAttributes
  rw [hr, hn, hn', hbet]
  cases h1 : a.blockTable with
  | none =>
    rw [h1] at hb
    cases h2 : a'.blockTable with
    | none => rfl
    | some _ => rw [h2] at hb; cases hb
  | some bt =>
    rw [h1] at hb
    cases h2 : a'.blockTable with
    | none => rw [h2] at hb; cases hb
    | some bt' =>
      rw [h2] at hb
      injection hb with hb
      dsimp only
      rw [hb]

/-- What an archive of version 1 or 2 is made of. -/
theorem opened_classic {e : Env} {f : List Byte} {a : Archive} (h : openArchive e f = .ok a) (hv : a.header.formatVersion.ge .v3 = false) :
    a.file = f ∧ a.hetTable = none ∧ a.betTable = none ∧
    ∃ t bt, a.hashTable = some t ∧ a.blockTable = some bt ∧
      loadClassic f a.archiveOffset a.header false = .ok (some (t, bt)) := by
  obtain ⟨off, ud, hdr, het, bet, classic, hib, attributes, h1, h2, h3, h4, h5, h6, rfl⟩ := openArchive_parts e f a h
  have hv : hdr.formatVersion.ge .v3 = false := hv
  rw [hv] at h2 h3
  cases h2; cases h3
  obtain ⟨t, bt, rfl, _⟩ := classic_parts h4
  exact ⟨rfl, rfl, rfl, t, bt, rfl, rfl, h4⟩

theorem reopened {e : Env} {f f' : List Byte} {a : Archive} (h : openArchive e f = .ok a) (hv : a.header.formatVersion.ge .v3 = false)
    {lo hi : Nat} (hd : Spec.Damaged f f' lo hi) (ho : Spec.ApartFromHeader f a.archiveOffset a.header lo hi) {t' : HashTable}
    {bt' : List BlockEntry} (hc : loadClassic f' a.archiveOffset a.header false = .ok (some (t', bt')))
    (hlen : a.blockTable.map List.length = some bt'.length)
    (hat : ({ a with file := f', hashTable := some t', blockTable := some bt' } : Archive).readFile e attributesName =
      a.readFile e attributesName) :
    openArchive e f' = .ok { a with file := f', hashTable := some t', blockTable := some bt' } := by
  obtain ⟨off, ud, hdr, het, bet, classic, hib, attributes, h1, h2, h3, h4, h5, h6, rfl⟩ := openArchive_parts e f a h
  have hv' : hdr.formatVersion.ge .v3 = false := hv
  rw [hv'] at h2 h3
  cases h2; cases h3
  rw [openArchive_eq e f' off ud hdr (findHeader_apart hd _ _ _ h1 ho.header ho.userData), hv']
  refine bind_eq_ok.2 ⟨none, rfl, bind_eq_ok.2 ⟨none, rfl, bind_eq_ok.2 ⟨_, hc, bind_eq_ok.2 ⟨hib, ?_, bind_eq_ok.2 ⟨attributes, ?_, rfl⟩⟩⟩⟩⟩
  · have hh : ∀ pos, hdr.hiBlockTablePos = some pos → pos ≠ 0#64 →
        Spec.Apart lo hi (off + pos.toNat) (2 * hdr.blockTableSize.toNat) := ho.hiBlock
    rw [loadHiBlock_apart hd hh]; exact h5
  · rw [← h6]
    exact loadAttributes_of hat rfl rfl hlen.symm rfl

/-- C83: deleting a file from an archive of version 1 or 2, whoever made it, by writing its hash table anew with one slot marked as deleted.
The archive still opens; a name that had only this slot is no longer found; every other name is found, or not found, as before, and
reads as before if it does not lie where the hash table is. -/
theorem C83_deleted_in_file (e : Env) (f f' : List Byte) (a : Archive) (h : openArchive e f = .ok a)
    (hv : a.header.formatVersion = .v1 ∨ a.header.formatVersion = .v2) (t t' : HashTable) (i : Nat) (ht : a.hashTable = some t)
    (hd : Spec.SlotDeleted t t' i)
    (hf : Spec.Overwritten f f' (a.archiveOffset + a.header.getHashTablePos.toNat) (hashTableBytes t'))
    (lo hi : Nat) (hlo : lo = a.archiveOffset + a.header.getHashTablePos.toNat) (hhi : hi = lo + 16 * t.length)
    (ho : Spec.ApartFromHeader f a.archiveOffset a.header lo hi)
    (hb : Spec.Apart lo hi (a.archiveOffset + a.header.getBlockTablePos.toNat) (16 * a.header.blockTableSize.toNat))
    (hat : ∃ r, a.findFile attributesName = .ok r ∧ ∀ info, r = some info → info.hashIndex ≠ i ∧
      Spec.Apart lo hi (a.stored attributesName info).1 (a.stored attributesName info).2) :
    ∃ a', openArchive e f' = .ok a' ∧
      (∀ name, (∀ s en, t[s]? = some en → Spec.SlotOf name 0 en → s = i) →
        a'.findFile name = .ok none ∧ a'.readFile e name = .error .fileNotFound) ∧
      ∀ name r, a.findFile name = .ok r → (∀ info, r = some info → info.hashIndex ≠ i) → a'.findFile name = .ok r ∧
        ((∀ info, r = some info → Spec.Apart lo hi (a.stored name info).1 (a.stored name info).2) →
          a'.readFile e name = a.readFile e name) := by
  have hge : a.header.formatVersion.ge .v3 = false := by rcases hv with h | h <;> rw [h] <;> rfl
  obtain ⟨hfile, hhet, hbet, t0, bt, ht0, hbt, hc⟩ := opened_classic h hge
  rw [ht] at ht0
  injection ht0 with ht0
  subst ht0
  obtain ⟨t1, bt1, he, h1, h2, h3, h4⟩ := classic_parts hc
  injection he with he
  injection he with he1 he2
  subst he1 he2
  obtain ⟨hsize, k, hk, hpow⟩ := C10_read_hash_table_size _ _ _ _ h2
  have hn : t.length = 2 ^ k := hsize.trans hpow
  have hn' : t'.length = 2 ^ k := hd.length.trans hn
  have hu : usableHetBet a.hetTable a.betTable = none := by rw [hhet]; rfl
  have hdm : Spec.Damaged f f' lo hi := by
    have := hf.damaged
    rw [hashTableBytes_length, hd.length, ← hlo, ← hhi] at this
    exact this
  have hread : readHashTable f' (a.archiveOffset + a.header.getHashTablePos.toNat) a.header.hashTableSize = .ok t' := by
    have hrt := C10_hash_table_round_trip (f.take (a.archiveOffset + a.header.getHashTablePos.toNat))
      (f.drop (a.archiveOffset + a.header.getHashTablePos.toNat + (hashTableBytes t').length)) t' k hk hn'
    rw [← hf.eq, List.length_take, Nat.min_eq_left (by have := hf.within; omega)] at hrt
    rw [show a.header.hashTableSize = BitVec.ofNat 32 t'.length from BitVec.eq_of_toNat_eq (by
      rw [hn', ofNat32_toNat (Nat.pow_lt_pow_right (by decide) hk), hpow])]
    exact hrt
  have hc' : loadClassic f' a.archiveOffset a.header false = .ok (some (t', bt)) :=
    classic_of_parts h1 hread h3 (by rw [readBlockTable_apart hdm hb]; exact h4)
  obtain ⟨hothers, hgone⟩ := file_deleted e a hu ht k hn hd (by rw [hbt]; exact Option.some_ne_none _)
  have hsame : ∀ name r, a.findFile name = .ok r → (∀ info, r = some info → info.hashIndex ≠ i) →
      (∀ info, r = some info → Spec.Apart lo hi (a.stored name info).1 (a.stored name info).2) →
      ({ a with file := f', hashTable := some t', blockTable := some bt } : Archive).readFile e name = a.readFile e name := by
    intro name r hr hne hap
    obtain ⟨hfi, hre⟩ := hothers name r hr hne
    rw [← hre]
    have hdm' : Spec.Damaged ({ a with hashTable := some t' } : Archive).file f' lo hi := by rw [← hfile] at hdm; exact hdm
    have := C77_other_files_unaffected e { a with hashTable := some t' } f' lo hi hdm' name (by
      intro info hinfo
      rw [hfi] at hinfo
      injection hinfo with hinfo
      exact hap info hinfo)
    rw [← this, ← hbt]
  refine ⟨_, reopened h hge hdm ho hc' (by rw [hbt]; rfl) ?_, ?_, ?_⟩
  · obtain ⟨r, hr, hap⟩ := hat
    exact hsame _ r hr (fun info hi => (hap info hi).1) (fun info hi => (hap info hi).2)
  · intro name hname
    obtain ⟨g1, g2⟩ := hgone name hname
    rw [← hbt]
    refine ⟨g1, ?_⟩
    unfold Archive.readFile
    rw [show ({ a with file := f', hashTable := some t', blockTable := a.blockTable } : Archive).findFile name = .ok none from g1]
    rfl
  · intro name r hr hne
    refine ⟨?_, hsame name r hr hne⟩
    have := (hothers name r hr hne).1
    rw [← hbt]
    exact this

/-- The bits of the flags that say how a file is stored. -/
def Spec.storageBits : U32 := 0x05030300#32

/-- The block table `bt'` describes the files where and as `bt` does; only other bits of the flags may differ, among them those that say
that the file exists (`0x80000000`), that it is a mark for a deleted file (`0x02000000`), and that it is a patch (`0x00100000`). -/
structure Spec.Marked (bt bt' : List BlockEntry) : Prop where
  length : bt'.length = bt.length
  entry : ∀ (j : Nat) (b : BlockEntry), bt[j]? = some b → ∃ flags, bt'[j]? = some { b with flags } ∧
    flags &&& Spec.storageBits = b.flags &&& Spec.storageBits

theorem and_mask {x y m s : U32} (h : x &&& s = y &&& s) (hm : s &&& m = m) : x &&& m = y &&& m := by
  rw [← hm, ← BitVec.and_assoc, ← BitVec.and_assoc, h]

theorem readSectors_flags (e : Env) (f : List Byte) (info : FileInfo) (flags : U32) (h1 : ({ info with flags } : FileInfo).isEncrypted = info.isEncrypted)
    (h2 : ({ info with flags } : FileInfo).isCompressed = info.isCompressed) (key : U32) (ss : Nat) : ∀ (os : List U32) (i done : Nat),
    readSectors e f { info with flags } key ss i done os = readSectors e f info key ss i done os
  | [], _, _ => rfl
  | [_], _, _ => rfl
  | o0 :: o1 :: os, i, done => by
    unfold readSectors
    simp only [readSectors_flags e f info flags h1 h2 key ss (o1 :: os)]
    unfold readSector
    rw [h1, h2]

/-- Reading depends on the flags through the bits for storage alone. -/
theorem readFileData_flags (e : Env) (f : List Byte) (off : Nat) (shift : U16) (name : List Byte) (info : FileInfo) (flags : U32)
    (h : flags &&& Spec.storageBits = info.flags &&& Spec.storageBits) (k : U32) (n : Nat) :
    readFileData e f off shift name { info with flags } k n = readFileData e f off shift name info k n := by
  have hb : ∀ m : U32, Spec.storageBits &&& m = m → hasBits flags m = hasBits info.flags m := by
    intro m hm
    unfold hasBits
    rw [and_mask h hm]
  have h1 : ({ info with flags } : FileInfo).isEncrypted = info.isEncrypted := hb _ (by decide)
  have h2 : ({ info with flags } : FileInfo).isCompressed = info.isCompressed := hb _ (by decide)
  have h3 : ({ info with flags } : FileInfo).isSingleUnit = info.isSingleUnit := hb _ (by decide)
  have h4 : ({ info with flags } : FileInfo).hasSectorCrc = info.hasSectorCrc := hb _ (by decide)
  have h5 : ({ info with flags } : FileInfo).hasFixKey = info.hasFixKey := hb _ (by decide)
  have hk : readerKey name off { info with flags } k = readerKey name off info k := by
    unfold readerKey
    rw [h1, h5]
  unfold readFileData
  rw [hk]
  unfold readSectoredFile
  rw [h1, h2, h3, h4]
  simp only [readSectors_flags e f info flags h1 h2]

/-- Lookups and reads under another block table of the same description. -/
theorem marked_read (e : Env) (a : Archive) (hhet : a.hetTable = none) {bt bt' : List BlockEntry} (hbt : a.blockTable = some bt)
    (hm : Spec.Marked bt bt') (name : List Byte) :
    (∀ r, a.findFile name = .ok r → ∃ r', ({ a with blockTable := some bt' } : Archive).findFile name = .ok r' ∧
      ((r = none ∧ r' = none) ∨ ∃ info flags, r = some info ∧ r' = some { info with flags } ∧
        flags &&& Spec.storageBits = info.flags &&& Spec.storageBits)) ∧
    ({ a with blockTable := some bt' } : Archive).readFile e name = a.readFile e name := by
  have hu : usableHetBet a.hetTable a.betTable = none := by rw [hhet]; rfl
  have hu' : usableHetBet ({ a with blockTable := some bt' } : Archive).hetTable ({ a with blockTable := some bt' } : Archive).betTable = none := hu
  have key : (∃ err, a.findFile name = .error err ∧ ({ a with blockTable := some bt' } : Archive).findFile name = .error err) ∨
      (a.findFile name = .ok none ∧ ({ a with blockTable := some bt' } : Archive).findFile name = .ok none) ∨
      ∃ info b flags, a.findFile name = .ok (some info) ∧ ({ a with blockTable := some bt' } : Archive).findFile name = .ok (some { info with flags }) ∧
        flags &&& Spec.storageBits = info.flags &&& Spec.storageBits ∧ bt[info.blockIndex]? = some b ∧
        bt'[info.blockIndex]? = some { b with flags } := by
    rw [findFile_classic hu, findFile_classic hu']
    unfold Archive.findFileClassic
    rw [hbt]
    dsimp only
    cases a.hashTable with
    | none => exact .inl ⟨_, rfl, rfl⟩
    | some t =>
      dsimp only
      cases findFileHash t name 0 with
      | error err => exact .inl ⟨_, rfl, rfl⟩
      | ok q =>
        cases q with
        | none => exact .inr (.inl ⟨rfl, rfl⟩)
        | some q =>
          obtain ⟨s, en⟩ := q
          simp only [bind, Except.bind]
          cases hg : bt[en.blockIndex.toNat]? with
          | none =>
            have hg' : bt'[en.blockIndex.toNat]? = none := by
              rw [List.getElem?_eq_none_iff] at hg ⊢
              rw [hm.length]; exact hg
            rw [hg']
            exact .inl ⟨.blockTable, rfl, rfl⟩
          | some b =>
            obtain ⟨flags, hg', hfl⟩ := hm.entry _ _ hg
            rw [hg']
            dsimp only
            rw [show fullFilePos a.hiBlockTable en.blockIndex.toNat { b with flags } = fullFilePos a.hiBlockTable en.blockIndex.toNat b from rfl]
            cases addPos a.archiveOffset (fullFilePos a.hiBlockTable en.blockIndex.toNat b) with
            | error err => exact .inl ⟨_, rfl, rfl⟩
            | ok pos => exact .inr (.inr ⟨_, b, flags, rfl, rfl, hfl, hg, hg'⟩)
  rcases key with ⟨err, h1, h2⟩ | ⟨h1, h2⟩ | ⟨info, b, flags, h1, h2, h3, h4, h5⟩
  · rw [h1]
    refine ⟨fun r hr => (nomatch hr), ?_⟩
    unfold Archive.readFile
    rw [h1, h2]
    rfl
  · rw [h1]
    refine ⟨fun r hr => ⟨none, h2, .inl ⟨(Except.ok.inj hr).symm, rfl⟩⟩, ?_⟩
    unfold Archive.readFile
    rw [h1, h2]
    rfl
  · rw [h1]
    refine ⟨fun r hr => ⟨_, h2, .inr ⟨info, flags, (Except.ok.inj hr).symm, rfl, h3⟩⟩, ?_⟩
    unfold Archive.readFile
    rw [h1, h2, hbt, hhet]
    show (match bt'[info.blockIndex]? with | none => _ | some b => _) = (match bt[info.blockIndex]? with | none => _ | some b => _)
    rw [h4, h5]
    exact readFileData_flags e _ _ _ _ info flags h3 _ _

/-- C83 fails for the other mark: an entry that no longer exists, or that only marks a deleted file, or that is a patch, is still found and
read like any file. For every archive of version 1 or 2, whoever made it: if its block table is written anew with such bits changed, it opens
and every name reads as before. -/
theorem C83_marked_still_read (e : Env) (f f' : List Byte) (a : Archive) (h : openArchive e f = .ok a)
    (hv : a.header.formatVersion = .v1 ∨ a.header.formatVersion = .v2) (bt bt' : List BlockEntry) (hbt : a.blockTable = some bt)
    (hm : Spec.Marked bt bt')
    (hf : Spec.Overwritten f f' (a.archiveOffset + a.header.getBlockTablePos.toNat) (blockTableBytes bt'))
    (lo hi : Nat) (hlo : lo = a.archiveOffset + a.header.getBlockTablePos.toNat) (hhi : hi = lo + 16 * bt.length)
    (ho : Spec.ApartFromHeader f a.archiveOffset a.header lo hi)
    (hb : Spec.Apart lo hi (a.archiveOffset + a.header.getHashTablePos.toNat) (16 * a.header.hashTableSize.toNat))
    (hat : ∀ info, a.findFile attributesName = .ok (some info) →
      Spec.Apart lo hi (a.stored attributesName info).1 (a.stored attributesName info).2) :
    ∃ a', openArchive e f' = .ok a' ∧
      ∀ name, (∀ info, a.findFile name = .ok (some info) → Spec.Apart lo hi (a.stored name info).1 (a.stored name info).2) →
        a'.readFile e name = a.readFile e name := by
  have hge : a.header.formatVersion.ge .v3 = false := by rcases hv with h | h <;> rw [h] <;> rfl
  obtain ⟨hfile, hhet, hbet, t, bt0, ht, hbt0, hc⟩ := opened_classic h hge
  rw [hbt] at hbt0
  injection hbt0 with hbt0
  subst hbt0
  obtain ⟨t1, bt1, he, h1, h2, h3, h4⟩ := classic_parts hc
  injection he with he
  injection he with he1 he2
  subst he1 he2
  have hsize : bt.length = a.header.blockTableSize.toNat := by
    unfold readBlockTable at h4
    split at h4
    · cases h4
    · exact parseEntries_length h4
  have hdm : Spec.Damaged f f' lo hi := by
    have := hf.damaged
    rw [blockTableBytes_length, hm.length, ← hlo, ← hhi] at this
    exact this
  have hlt := a.header.blockTableSize.isLt
  have hread : readBlockTable f' (a.archiveOffset + a.header.getBlockTablePos.toNat) a.header.blockTableSize = .ok bt' := by
    have hrt := C10_block_table_round_trip (f.take (a.archiveOffset + a.header.getBlockTablePos.toNat))
      (f.drop (a.archiveOffset + a.header.getBlockTablePos.toNat + (blockTableBytes bt').length)) bt' (by rw [hm.length, hsize]; exact hlt)
    rw [← hf.eq, List.length_take, Nat.min_eq_left (by have := hf.within; omega)] at hrt
    rw [show a.header.blockTableSize = BitVec.ofNat 32 bt'.length from BitVec.eq_of_toNat_eq (by
      rw [hm.length, hsize, ofNat32_toNat hlt])]
    exact hrt
  have hc' : loadClassic f' a.archiveOffset a.header false = .ok (some (t, bt')) :=
    classic_of_parts h1 (by rw [readHashTable_apart hdm hb]; exact h2) h3 hread
  have hsame : ∀ name, (∀ info, a.findFile name = .ok (some info) → Spec.Apart lo hi (a.stored name info).1 (a.stored name info).2) →
      ({ a with file := f', hashTable := some t, blockTable := some bt' } : Archive).readFile e name = a.readFile e name := by
    intro name hap
    have hdm' : Spec.Damaged a.file f' lo hi := by rw [hfile]; exact hdm
    rw [← C77_other_files_unaffected e a f' lo hi hdm' name hap, ← ht]
    exact (marked_read e { a with file := f' } hhet hbt hm name).2
  exact ⟨_, reopened h hge hdm ho hc' (by rw [hbt, hm.length]; rfl) (hsame _ hat), hsame⟩

/-! ## Cases -/

theorem findFileHash_two {x y : HashEntry} (hx : x.isEmpty = false) (hy : y.isEmpty = false) (name : List Byte) (l : U16)
    (h : x.isHit (hashString name htNameA) (hashString name htNameB) l = false ∨
      y.isHit (hashString name htNameA) (hashString name htNameB) l = false) :
    findFileHash [x, y] name l = .ok (if x.isHit (hashString name htNameA) (hashString name htNameB) l then some (0, x)
      else if y.isHit (hashString name htNameA) (hashString name htNameB) l then some (1, y) else none) := by
  unfold findFileHash
  generalize hashString name htNameA = p at *
  generalize hashString name htNameB = q at *
  generalize (hashString name htTableOffset).toNat = s
  show findLoop [x, y] p q l (s &&& 1) 2 (s &&& 1) = _
  have hs : s &&& 1 = 0 ∨ s &&& 1 = 1 := by
    rw [show (1 : Nat) = 2 ^ 1 - 1 from rfl, Nat.and_two_pow_sub_one_eq_mod]; omega
  cases hx' : x.isHit p q l with
  | true =>
    have hy' : y.isHit p q l = false := h.resolve_left (by rw [hx']; decide)
    rcases hs with hs | hs <;> rw [hs] <;> simp [findLoop, hx', hy', hy]
  | false =>
    cases hy' : y.isHit p q l <;> rcases hs with hs | hs <;> rw [hs] <;> simp [findLoop, hx', hy', hx, hy]

/-- The header of an archive of version 1 with two slots and two blocks behind it. -/
def pairParams : HeaderParams :=
  { archiveSize := 99, hashTablePos := 32, blockTablePos := 64, hashTableSize := 2, blockTableSize := 2,
    hiBlockTablePos := none, hetTablePos := none, betTablePos := none, v4Data := none }

/-- Two files of two bytes and of one byte. -/
def pairBlocks : List BlockEntry := [⟨96, 2, 2, 0x80000000⟩, ⟨98, 1, 1, 0x80000000⟩]

/-- An archive of version 1 with two files. -/
def pairFile (header : List Byte) (x y : HashEntry) (bt : List BlockEntry) : List Byte :=
  header ++ hashTableBytes [x, y] ++ blockTableBytes bt ++ [1, 2, 3]

theorem pair_opens (e : Env) {header : List Byte} (hw : writeHeader .v1 3 pairParams = .ok header) {x y : HashEntry} (hx : x.isEmpty = false)
    (hy : y.isEmpty = false)
    (hxa : x.isHit (hashString attributesName htNameA) (hashString attributesName htNameB) 0 = false)
    (hya : y.isHit (hashString attributesName htNameA) (hashString attributesName htNameB) 0 = false) (bt : List BlockEntry) (hbt : bt.length = 2) :
    openArchive e (pairFile header x y bt) =
      .ok (openedFrom (pairFile header x y bt) 0 none (parsedHeader .v1 3 pairParams) none none (some ([x, y], bt)) none none) := by
  have hs : ∀ v, pairParams.v4Data = some v → v.Sized := by intro v hv; cases hv
  have hlen : header.length = 32 := writeHeader_length .v1 3 _ header hs hw
  have hf := header_found .v1 _ hs header (hashTableBytes [x, y] ++ blockTableBytes bt ++ [1, 2, 3]) hw
  have hassoc : header ++ (hashTableBytes [x, y] ++ blockTableBytes bt ++ [1, 2, 3]) = pairFile header x y bt := by
    unfold pairFile; simp only [List.append_assoc]
  rw [hassoc] at hf
  rw [openArchive_eq e _ 0 none _ hf]
  have hc : loadClassic (pairFile header x y bt) 0 (parsedHeader .v1 3 pairParams) false = .ok (some ([x, y], bt)) := by
    refine classic_of_parts (by decide) ?_ (by decide) ?_
    · have := C10_hash_table_round_trip header (blockTableBytes bt ++ [1, 2, 3]) [x, y] 1 (by decide) rfl
      rw [hlen] at this
      unfold pairFile
      rw [List.append_assoc]
      exact this
    · have := C10_block_table_round_trip (header ++ hashTableBytes [x, y]) [1, 2, 3] bt (by rw [hbt]; decide)
      rw [List.length_append, hlen, hashTableBytes_length, hbt] at this
      exact this
  have ha : (openedFrom (pairFile header x y bt) 0 none (parsedHeader .v1 3 pairParams) none none (some ([x, y], bt)) none none).loadAttributes e = .ok none := by
    refine loadAttributes_none ?_ rfl
    rw [findFile_classic rfl]
    unfold Archive.findFileClassic
    dsimp only [openedFrom, Option.map]
    rw [findFileHash_two hx hy _ _ (.inl hxa), hxa, hya]
    rfl
  exact bind_eq_ok.2 ⟨none, rfl, bind_eq_ok.2 ⟨none, rfl, bind_eq_ok.2 ⟨_, hc, bind_eq_ok.2 ⟨none, rfl, bind_eq_ok.2 ⟨none, ha, rfl⟩⟩⟩⟩⟩

/-- The slot of a file in such an archive. -/
def pairSlot (name : List Byte) (block : U32) : HashEntry := ⟨hashString name htNameA, hashString name htNameB, 0, 0, block⟩

theorem pairSlot_other {name other : List Byte} (h : hashString other htNameA ≠ hashString name htNameA) (block : U32) (l : U16) :
    (pairSlot name block).isHit (hashString other htNameA) (hashString other htNameB) l = false := by
  unfold HashEntry.isHit pairSlot
  simp only [Bool.and_eq_false_iff, beq_eq_false_iff_ne]
  exact .inl (.inl (Ne.symm h))

theorem pairSlot_own (name : List Byte) {block : U32} (h : block.toNat < 0xFFFFFFFE) (l : U16) :
    (pairSlot name block).isHit (hashString name htNameA) (hashString name htNameB) l = true :=
  (isHit_iff name l _).2 ⟨rfl, rfl, .inr (.inl rfl), h⟩

theorem pair_reads (e : Env) {header : List Byte} (hlen : header.length = 32) {n m : List Byte} (h : hashString n htNameA ≠ hashString m htNameA) :
    (openedFrom (pairFile header (pairSlot n 0) (pairSlot m 1) pairBlocks) 0 none (parsedHeader .v1 3 pairParams) none none
      (some ([pairSlot n 0, pairSlot m 1], pairBlocks)) none none).findFile n = .ok (some ⟨0, 0, 96, 2, 2, 0x80000000, 0⟩) ∧
    (openedFrom (pairFile header (pairSlot n 0) (pairSlot m 1) pairBlocks) 0 none (parsedHeader .v1 3 pairParams) none none
      (some ([pairSlot n 0, pairSlot m 1], pairBlocks)) none none).findFile m = .ok (some ⟨1, 1, 98, 1, 1, 0x80000000, 0⟩) ∧
    (openedFrom (pairFile header (pairSlot n 0) (pairSlot m 1) pairBlocks) 0 none (parsedHeader .v1 3 pairParams) none none
      (some ([pairSlot n 0, pairSlot m 1], pairBlocks)) none none).readFile e n = .ok [1, 2] ∧
    (openedFrom (pairFile header (pairSlot n 0) (pairSlot m 1) pairBlocks) 0 none (parsedHeader .v1 3 pairParams) none none
      (some ([pairSlot n 0, pairSlot m 1], pairBlocks)) none none).readFile e m = .ok [3] := by
  have f1 : (openedFrom (pairFile header (pairSlot n 0) (pairSlot m 1) pairBlocks) 0 none (parsedHeader .v1 3 pairParams) none none
      (some ([pairSlot n 0, pairSlot m 1], pairBlocks)) none none).findFile n = .ok (some ⟨0, 0, 96, 2, 2, 0x80000000, 0⟩) := by
    rw [findFile_classic rfl]
    unfold Archive.findFileClassic
    dsimp only [openedFrom, Option.map]
    rw [findFileHash_two rfl rfl _ _ (.inr (pairSlot_other h 1 0)), if_pos (pairSlot_own n (by decide) 0)]
    rfl
  have f2 : (openedFrom (pairFile header (pairSlot n 0) (pairSlot m 1) pairBlocks) 0 none (parsedHeader .v1 3 pairParams) none none
      (some ([pairSlot n 0, pairSlot m 1], pairBlocks)) none none).findFile m = .ok (some ⟨1, 1, 98, 1, 1, 0x80000000, 0⟩) := by
    rw [findFile_classic rfl]
    unfold Archive.findFileClassic
    dsimp only [openedFrom, Option.map]
    rw [findFileHash_two rfl rfl _ _ (.inl (pairSlot_other (Ne.symm h) 0 0)), if_neg (by rw [pairSlot_other (Ne.symm h) 0 0]; decide),
      if_pos (pairSlot_own m (by decide) 0)]
    rfl
  have hl : (header ++ hashTableBytes [pairSlot n 0, pairSlot m 1] ++ blockTableBytes pairBlocks).length = 96 := by
    rw [List.length_append, List.length_append, hashTableBytes_length, blockTableBytes_length, hlen]; rfl
  have hread : ∀ o k, 0 < k → o + k ≤ 3 → readAt (pairFile header (pairSlot n 0) (pairSlot m 1) pairBlocks) (96 + o) k = .ok (([1, 2, 3].drop o).take k) := by
    intro o k hk hok
    unfold readAt pairFile
    rw [if_neg (by omega), if_pos (by rw [List.length_append, hl]; show _ ≤ 99; omega)]
    unfold slice
    rw [← List.drop_drop, List.drop_left' hl]
  refine ⟨f1, f2, ?_, ?_⟩
  · unfold Archive.readFile
    rw [f1]
    show readFileData e _ 0 3 n ⟨0, 0, 96, 2, 2, 0x80000000, 0⟩ 2 2 = _
    unfold readFileData
    show (readAt (pairFile header (pairSlot n 0) (pairSlot m 1) pairBlocks) (96 + 0) 2 >>= _) = _
    rw [hread 0 2 (by decide) (by decide)]
    rfl
  · unfold Archive.readFile
    rw [f2]
    show readFileData e _ 0 3 m ⟨1, 1, 98, 1, 1, 0x80000000, 0⟩ 1 1 = _
    unfold readFileData
    show (readAt (pairFile header (pairSlot n 0) (pairSlot m 1) pairBlocks) (96 + 2) 1 >>= _) = _
    rw [hread 2 1 (by decide) (by decide)]
    rfl

theorem pair_ne (h : List Byte) {t t' b b' : List Byte} (ht : t.length = t'.length) (hb : b.length = b'.length) (d : List Byte) :
    (h.length + t.length ≤ (h ++ t ++ b ++ d).length) ∧ h ++ t' ++ b ++ d = (h ++ t ++ b ++ d).take h.length ++ t' ++ (h ++ t ++ b ++ d).drop (h.length + t'.length) ∧
    (h ++ t).length + b.length ≤ (h ++ t ++ b ++ d).length ∧
    h ++ t ++ b' ++ d = (h ++ t ++ b ++ d).take (h ++ t).length ++ b' ++ (h ++ t ++ b ++ d).drop ((h ++ t).length + b'.length) := by
  refine ⟨by simp only [List.length_append]; omega, ?_, by simp only [List.length_append]; omega, ?_⟩
  · rw [← ht, ← List.length_append, List.append_assoc (h ++ t), List.drop_left' rfl, List.append_assoc h t, List.take_left' rfl]
    simp only [List.append_assoc]
  · rw [← hb, ← List.length_append, List.drop_left' rfl, List.append_assoc (h ++ t) b, List.take_left' rfl]

/-- Two files, of which the first is deleted in the hash table: it is no longer found, and the second is read as before. Likewise for all
names whose hash values differ. -/
example : ∃ f f' a a', openArchive toyEnv f = .ok a ∧ a.readFile toyEnv (ascii "a") = .ok [1, 2] ∧ openArchive toyEnv f' = .ok a' ∧
    a'.readFile toyEnv (ascii "a") = .error .fileNotFound ∧ a'.readFile toyEnv (ascii "b") = .ok [3] := by
  have hlit : ∀ name, hashString name htNameA = BitVec.ofNat 32 (hashLit 1 0x7FED7FED 0xEEEEEEEE (name.map BitVec.toNat)) :=
    hashString_lit 1 (by decide)
  have h12 : hashString (ascii "a") htNameA ≠ hashString (ascii "b") htNameA := by rw [hlit, hlit]; decide +kernel
  have ha1 : hashString attributesName htNameA ≠ hashString (ascii "a") htNameA := by rw [hlit, hlit]; decide +kernel
  have ha2 : hashString attributesName htNameA ≠ hashString (ascii "b") htNameA := by rw [hlit, hlit]; decide +kernel
  clear hlit
  generalize ascii "a" = n at *
  generalize ascii "b" = m at *
  obtain ⟨header, hw⟩ : ∃ bytes, writeHeader .v1 3 pairParams = .ok bytes := ⟨_, rfl⟩
  have hs : ∀ v, pairParams.v4Data = some v → v.Sized := by intro v hv; cases hv
  have hlen : header.length = 32 := writeHeader_length .v1 3 _ header hs hw
  have hopen := pair_opens toyEnv hw (x := pairSlot n 0) (y := pairSlot m 1) rfl rfl (pairSlot_other ha1 0 0) (pairSlot_other ha2 1 0) pairBlocks rfl
  obtain ⟨f1, f2, r1, r2⟩ := pair_reads toyEnv hlen h12
  have hd : Spec.SlotDeleted [pairSlot n 0, pairSlot m 1] [pairSlot n 0xFFFFFFFE, pairSlot m 1] 0 := by
    refine ⟨rfl, ?_, ⟨_, rfl, by show (0 : U32).toNat < _; decide⟩, ⟨_, rfl, rfl⟩⟩
    intro k hk
    cases k with
    | zero => exact absurd rfl hk
    | succ k => rfl
  have hne := pair_ne header (t := hashTableBytes [pairSlot n 0, pairSlot m 1]) (t' := hashTableBytes [pairSlot n 0xFFFFFFFE, pairSlot m 1])
    (by rw [hashTableBytes_length, hashTableBytes_length]; rfl) (b := blockTableBytes pairBlocks) (b' := blockTableBytes pairBlocks) rfl [1, 2, 3]
  rw [hlen] at hne
  obtain ⟨a', ho', hgone, hrest⟩ := C83_deleted_in_file toyEnv _ (pairFile header (pairSlot n 0xFFFFFFFE) (pairSlot m 1) pairBlocks) _ hopen (.inl rfl)
    _ _ 0 rfl hd ⟨by have := hne.1; rw [hashTableBytes_length] at this ⊢; exact this, hne.2.1⟩ 32 64 rfl rfl
    ⟨by show 32 ≤ 32; decide, fun o _ _ h => absurd h (Nat.not_lt_zero _), fun pos h => (nomatch h)⟩ (.inr (.inr (by show 64 ≤ 64; decide)))
    ⟨none, by
      rw [findFile_classic rfl]
      unfold Archive.findFileClassic
      dsimp only [openedFrom, Option.map]
      rw [findFileHash_two rfl rfl _ _ (.inl (pairSlot_other ha1 0 0)), pairSlot_other ha1 0 0, pairSlot_other ha2 1 0]
      rfl, fun info h => (nomatch h)⟩
  refine ⟨_, _, _, a', hopen, r1, ho', (hgone n ?_).2, ?_⟩
  · intro s en hg ho
    match s, hg with
    | 0, _ => rfl
    | 1, hg =>
      injection hg with hg
      subst hg
      exact absurd ho.1 (Ne.symm h12)
    | s + 2, hg => cases hg
  · rw [← r2]
    refine (hrest m _ f2 (fun info h => ?_)).2 (fun info h => ?_)
    · injection h with h; subst h; decide
    · injection h with h; subst h; exact .inr (.inr (by show 64 ≤ 98; decide))

/-- The same two files, the first marked as not existing in the block table: it is still read. -/
example : ∃ f f' a a', openArchive toyEnv f = .ok a ∧ a.readFile toyEnv (ascii "a") = .ok [1, 2] ∧ openArchive toyEnv f' = .ok a' ∧
    (a'.blockTable.getD [])[0]? = some ⟨96, 2, 2, 0⟩ ∧ a'.readFile toyEnv (ascii "a") = .ok [1, 2] := by
  have hlit : ∀ name, hashString name htNameA = BitVec.ofNat 32 (hashLit 1 0x7FED7FED 0xEEEEEEEE (name.map BitVec.toNat)) :=
    hashString_lit 1 (by decide)
  have h12 : hashString (ascii "a") htNameA ≠ hashString (ascii "b") htNameA := by rw [hlit, hlit]; decide +kernel
  have ha1 : hashString attributesName htNameA ≠ hashString (ascii "a") htNameA := by rw [hlit, hlit]; decide +kernel
  have ha2 : hashString attributesName htNameA ≠ hashString (ascii "b") htNameA := by rw [hlit, hlit]; decide +kernel
  clear hlit
  generalize ascii "a" = n at *
  generalize ascii "b" = m at *
  obtain ⟨header, hw⟩ : ∃ bytes, writeHeader .v1 3 pairParams = .ok bytes := ⟨_, rfl⟩
  have hs : ∀ v, pairParams.v4Data = some v → v.Sized := by intro v hv; cases hv
  have hlen : header.length = 32 := writeHeader_length .v1 3 _ header hs hw
  obtain ⟨bt', hbt'⟩ : ∃ bt', bt' = [(⟨96, 2, 2, 0⟩ : BlockEntry), ⟨98, 1, 1, 0x80000000⟩] := ⟨_, rfl⟩
  have hopen := pair_opens toyEnv hw (x := pairSlot n 0) (y := pairSlot m 1) rfl rfl (pairSlot_other ha1 0 0) (pairSlot_other ha2 1 0) pairBlocks rfl
  have hopen' := pair_opens toyEnv hw (x := pairSlot n 0) (y := pairSlot m 1) rfl rfl (pairSlot_other ha1 0 0) (pairSlot_other ha2 1 0) bt'
    (by rw [hbt']; rfl)
  obtain ⟨f1, f2, r1, r2⟩ := pair_reads toyEnv hlen h12
  have hm : Spec.Marked pairBlocks bt' := by
    rw [hbt']
    refine ⟨rfl, fun j b hj => ?_⟩
    match j, hj with
    | 0, hj => injection hj with hj; subst hj; exact ⟨0, rfl, by decide⟩
    | 1, hj => injection hj with hj; subst hj; exact ⟨0x80000000, rfl, by decide⟩
    | j + 2, hj => cases hj
  have hne := pair_ne header (t := hashTableBytes [pairSlot n 0, pairSlot m 1]) (t' := hashTableBytes [pairSlot n 0, pairSlot m 1]) rfl
    (b := blockTableBytes pairBlocks) (b' := blockTableBytes bt') (by rw [blockTableBytes_length, blockTableBytes_length, hm.length]) [1, 2, 3]
  have hl2 : (header ++ hashTableBytes [pairSlot n 0, pairSlot m 1]).length = 64 := by
    rw [List.length_append, hlen, hashTableBytes_length]; rfl
  rw [hl2] at hne
  obtain ⟨a', ho', hsame⟩ := C83_marked_still_read toyEnv _ (pairFile header (pairSlot n 0) (pairSlot m 1) bt') _ hopen (.inl rfl)
    _ _ rfl hm ⟨by have := hne.2.2.1; rw [blockTableBytes_length] at this ⊢; rw [hm.length]; exact this, hne.2.2.2⟩ 64 96 rfl rfl
    ⟨by show 32 ≤ 64; decide, fun o _ _ h => absurd h (Nat.not_lt_zero _), fun pos h => (nomatch h)⟩ (.inr (.inl (by show 64 ≤ 64; decide)))
    (by
      rw [findFile_classic rfl]
      unfold Archive.findFileClassic
      dsimp only [openedFrom, Option.map]
      rw [findFileHash_two rfl rfl _ _ (.inl (pairSlot_other ha1 0 0)), pairSlot_other ha1 0 0, pairSlot_other ha2 1 0]
      intro info h
      cases h)
  refine ⟨_, _, _, a', hopen, r1, ho', ?_, ?_⟩
  · rw [hopen'] at ho'
    injection ho' with ho'
    rw [← ho', hbt']
    rfl
  · rw [← r1]
    refine hsame n fun info h => ?_
    rw [f1] at h
    injection h with h; injection h with h; subst h; exact .inr (.inr (by show 96 ≤ 96; decide))

end Mopaq
