import Verif.Lemmas.HashTableInv

/-! # Properties C06-C09: the hash table as a directory -/

namespace Mopaq

/-- The additions as the specification sees them. -/
def toLog (ops : List AddOp) : List Spec.Added :=
  ops.map fun op => ⟨op.name.map BitVec.toNat, op.locale.toNat, op.block.toNat⟩

/-- No two of these names collide: an equal 64-bit hash pair means the same name up to case and separator. -/
def NoCollision (names : List (List Byte)) : Prop :=
  ∀ a ∈ names, ∀ b ∈ names, hashPair a = hashPair b →
    Spec.normalise (a.map BitVec.toNat) = Spec.normalise (b.map BitVec.toNat)

/-- File numbers an addition may carry: the two values above are reserved as markers. -/
def ValidBlocks (ops : List AddOp) : Prop := ∀ op ∈ ops, op.block.toNat < 0xFFFFFFFE

theorem hashString_normalise {a b : List Byte}
    (h : Spec.normalise (a.map BitVec.toNat) = Spec.normalise (b.map BitVec.toNat)) (t : Nat) (ht : t < 5) :
    hashString a t = hashString b t := by
  apply BitVec.eq_of_toNat_eq
  rw [hashString_spec t ht, hashString_spec t ht]
  unfold Spec.nameHash
  generalize ((0x7FED7FED : Nat), (0xEEEEEEEE : Nat)) = s
  have : ∀ (xs ys : List Nat) (s : Nat × Nat), Spec.normalise xs = Spec.normalise ys →
      xs.foldl (Spec.hashStep t) s = ys.foldl (Spec.hashStep t) s := by
    intro xs
    induction xs with
    | nil => intro ys s h; cases ys with
      | nil => rfl
      | cons y ys => simp [Spec.normalise] at h
    | cons x xs ih => intro ys s h; cases ys with
      | nil => simp [Spec.normalise] at h
      | cons y ys =>
        simp only [Spec.normalise, List.map_cons, List.cons.injEq] at h
        simp only [List.foldl_cons]
        have hs : Spec.hashStep t s x = Spec.hashStep t s y := by unfold Spec.hashStep; rw [h.1]
        rw [hs]; exact ih ys _ h.2
  rw [this _ _ _ h]

theorem hashPair_normalise {a b : List Byte}
    (h : Spec.normalise (a.map BitVec.toNat) = Spec.normalise (b.map BitVec.toNat)) : hashPair a = hashPair b := by
  unfold hashPair
  rw [hashString_normalise h _ (by decide), hashString_normalise h _ (by decide)]

theorem startOf_normalise {a b : List Byte} (n : Nat)
    (h : Spec.normalise (a.map BitVec.toNat) = Spec.normalise (b.map BitVec.toNat)) : startOf n a = startOf n b := by
  unfold startOf; rw [hashString_normalise h _ (by decide)]

theorem normalise_of_sameName : ∀ {a b : List Nat}, Spec.sameName a b → Spec.normalise a = Spec.normalise b
  | [], [], _ => rfl
  | x :: xs, y :: ys, h => by
    simp only [Spec.normalise, List.map_cons, List.cons.injEq]
    exact ⟨upper_sameChar h.1, normalise_of_sameName h.2⟩
  | [], _ :: _, h => h.elim
  | _ :: _, [], h => h.elim

theorem sameStart_of_noCollision {n : Nat} {ops : List AddOp} {x : List Byte}
    (hc : NoCollision (x :: ops.map AddOp.name)) : SameStart n ops x := by
  intro op hop h
  exact startOf_normalise n (hc op.name (by simp; right; exact ⟨op, hop, rfl⟩) x (by simp) h)

theorem beq_toNat_zero (l : U16) : (l == 0) = (l.toNat == 0) := by
  by_cases h : l = 0
  · subst h; rfl
  · have : l.toNat ≠ 0 := fun h' => h (BitVec.eq_of_toNat_eq (by simpa using h'))
    rw [beq_eq_false_iff_ne.2 h, beq_eq_false_iff_ne.2 this]

theorem beq_toNat {w : Nat} (a b : BitVec w) : (a == b) = (a.toNat == b.toNat) := by
  by_cases h : a = b
  · subst h; simp
  · have : a.toNat ≠ b.toNat := fun h' => h (BitVec.eq_of_toNat_eq h')
    rw [beq_eq_false_iff_ne.2 h, beq_eq_false_iff_ne.2 this]

theorem find?_toLog {ops : List AddOp} {x : List Byte} {l : U16}
    (hc : NoCollision (x :: ops.map AddOp.name)) :
    ((ops.find? (·.matches x l)).map AddOp.entry).map (fun e => (e.blockIndex.toNat, e.locale.toNat)) =
    (Spec.lookup (toLog ops) (x.map BitVec.toNat) l.toNat).map fun a => (a.file, a.locale) := by
  unfold Spec.lookup toLog
  rw [List.find?_map]
  have hp : ∀ op ∈ ops, op.matches x l =
      ((fun a => Spec.normalise a.name == Spec.normalise (x.map BitVec.toNat) && Spec.acceptsLocale l.toNat a.locale)
        ∘ fun op : AddOp => (⟨op.name.map BitVec.toNat, op.locale.toNat, op.block.toNat⟩ : Spec.Added)) op := by
    intro op hop
    have hpair : (hashPair op.name == hashPair x) =
        (Spec.normalise (op.name.map BitVec.toNat) == Spec.normalise (x.map BitVec.toNat)) := by
      by_cases h : Spec.normalise (op.name.map BitVec.toNat) = Spec.normalise (x.map BitVec.toNat)
      · rw [hashPair_normalise h, h]; simp
      · rw [beq_eq_false_iff_ne.2 h, beq_eq_false_iff_ne.2]
        intro h'
        exact h (hc op.name (by simp; right; exact ⟨op, hop, rfl⟩) x (by simp) h')
    show op.matches x l = _
    unfold AddOp.matches
    simp only [Function.comp, Spec.acceptsLocale, hpair, beq_toNat_zero, beq_toNat op.locale l]
  have hfind : ops.find? (·.matches x l) = ops.find?
      ((fun a => Spec.normalise a.name == Spec.normalise (x.map BitVec.toNat) && Spec.acceptsLocale l.toNat a.locale)
        ∘ fun op : AddOp => (⟨op.name.map BitVec.toNat, op.locale.toNat, op.block.toNat⟩ : Spec.Added)) := by
    clear hc
    induction ops with
    | nil => rfl
    | cons op ops ih =>
      rw [List.find?_cons, List.find?_cons, hp op (by simp), ih (fun o ho => hp o (by simp [ho]))]
  rw [hfind]
  simp only [Option.map_map]
  rfl

/-! ## C06 -/

/-- C06: after any successful sequence of additions to a fresh table of any power-of-two size, looking a name up
gives exactly the file number and locale the directory log gives: the earliest added entry of that name (up to case
and separator) with an acceptable locale, and nothing when there is none. `NoCollision` excludes two different
names with equal 64-bit hash pairs. -/
theorem C06_lookup_is_directory_lookup (k : Nat) (hk : k < 32) (ops : List AddOp) (hb : ValidBlocks ops)
    (t : HashTable) (h : runAdds (2 ^ k) ops = .ok t) (x : List Byte) (l : U16)
    (hc : NoCollision (x :: ops.map AddOp.name)) :
    (findFileHash t x l).map (Option.map fun r => (r.2.blockIndex.toNat, r.2.locale.toNat)) =
      .ok ((Spec.lookup (toLog ops) (x.map BitVec.toNat) l.toNat).map fun a => (a.file, a.locale)) := by
  obtain ⟨hinv, hfind⟩ := runAdds_inv rfl hk ops hb h
  rw [findFileHash_findO hinv.len]
  have := hfind x l (sameStart_of_noCollision hc)
  rw [← find?_toLog hc, ← this]
  cases findO t x l <;> rfl

/-- C06 without any assumption on hashes: whatever a lookup returns was added, with the same hash pair and an
acceptable locale, and it is in the slot reported. -/
theorem C06_found_was_added (k : Nat) (hk : k < 32) (ops : List AddOp) (hb : ValidBlocks ops)
    (t : HashTable) (h : runAdds (2 ^ k) ops = .ok t) (x : List Byte) (l : U16) (i : Nat) (e : HashEntry)
    (hf : findFileHash t x l = .ok (some (i, e))) :
    t[i]? = some e ∧ ∃ op ∈ ops, e.blockIndex = op.block ∧ e.locale = op.locale ∧ hashPair op.name = hashPair x ∧
      Spec.acceptsLocale l.toNat op.locale.toNat = true := by
  obtain ⟨hinv, _⟩ := runAdds_inv rfl hk ops hb h
  rw [findFileHash_findO hinv.len] at hf
  have hf := (findO_eq_some hinv.len).1 (Except.ok.inj hf)
  obtain ⟨j, hj, hh, hr, _⟩ := hf
  have hpos := Nat.two_pow_pos k
  obtain ⟨hri, hre⟩ := Prod.mk.inj hr
  subst hri; subst hre
  refine ⟨HashTable.get_at (by rw [hinv.len]; exact probe_lt hpos), ?_⟩
  obtain ⟨op, hop, heq, _⟩ := hinv.origin _ (probe_lt hpos) (isHit_not_empty hh)
  rw [heq] at hh ⊢
  rw [entry_isHit (hb op hop)] at hh
  refine ⟨op, hop, rfl, rfl, AddOp.matches_pair hh, ?_⟩
  unfold AddOp.matches at hh
  simp only [Bool.and_eq_true] at hh
  unfold Spec.acceptsLocale
  rw [← beq_toNat_zero, ← beq_toNat_zero, ← beq_toNat op.locale l]; exact hh.2

/-- C06 without any assumption on hashes: an added name is always found again, under every spelling. -/
theorem C06_added_is_found (k : Nat) (hk : k < 32) (ops : List AddOp) (hb : ValidBlocks ops)
    (t : HashTable) (h : runAdds (2 ^ k) ops = .ok t) (x : List Byte) (l : U16) (op : AddOp) (hop : op ∈ ops)
    (hx : Spec.sameName (op.name.map BitVec.toNat) (x.map BitVec.toNat))
    (hl : Spec.acceptsLocale l.toNat op.locale.toNat = true) :
    ∃ r, findFileHash t x l = .ok (some r) := by
  obtain ⟨hinv, _⟩ := runAdds_inv rfl hk ops hb h
  have hnorm := normalise_of_sameName hx
  rw [findFileHash_findO hinv.len]
  cases hfo : findO t x l with
  | some r => exact ⟨r, rfl⟩
  | none =>
    exfalso
    rw [findO_eq_none hinv.len] at hfo
    obtain ⟨d, hd, heq, hall⟩ := hinv.stored op hop
    rw [startOf_normalise _ hnorm] at heq hall
    obtain ⟨j', hj', he⟩ := hfo d hd (by
      rw [heq, entry_isHit (hb op hop)]
      unfold AddOp.matches
      rw [hashPair_normalise hnorm]
      unfold Spec.acceptsLocale at hl
      rw [← beq_toNat_zero, ← beq_toNat_zero, ← beq_toNat op.locale l] at hl
      rw [hl]; simp)
    rw [hall j' hj'] at he; cases he

/-- C06 on any table at all (also one read from a foreign archive, with deleted markers): a lookup returns the first
slot, in probing order from the name's home slot, that carries the name's hash pair, an acceptable locale and a real
file number, provided no empty slot comes earlier; otherwise it returns nothing. In particular deleted entries are
passed over and never returned. -/
theorem C06_any_table (t : HashTable) (k : Nat) (hn : t.length = 2 ^ k) (x : List Byte) (l : U16) :
    let slot := fun j => ((hashString x 0).toNat + j) % 2 ^ k
    let good := fun j => ∃ e, t[slot j]? = some e ∧ (e.name1, e.name2) = (hashString x 1, hashString x 2) ∧
      Spec.acceptsLocale l.toNat e.locale.toNat = true ∧ e.blockIndex.toNat < 0xFFFFFFFE
    let free := fun j => ∃ e, t[slot j]? = some e ∧ e.blockIndex.toNat = 0xFFFFFFFF
    (∃ j e, j < 2 ^ k ∧ good j ∧ (∀ j' < j, ¬ good j' ∧ ¬ free j') ∧ t[slot j]? = some e ∧
      findFileHash t x l = .ok (some (slot j, e))) ∨
    ((∀ j < 2 ^ k, good j → ∃ j' < j, free j') ∧ findFileHash t x l = .ok none) := by
  intro slot good free
  have hpos := Nat.two_pow_pos k
  have hslot : ∀ j, slot j = probe (2 ^ k) (startOf (2 ^ k) x) j := by
    intro j
    show ((hashString x 0).toNat + j) % 2 ^ k = ((hashString x htTableOffset).toNat % 2 ^ k + j) % 2 ^ k
    rw [Nat.mod_add_mod]; rfl
  have hget : ∀ j, t[slot j]? = some (t.at (slot j)) := by
    intro j
    apply HashTable.get_at
    rw [hn, hslot]; exact probe_lt hpos
  have hgood : ∀ j, good j ↔ (t.at (slot j)).isHit (hashString x htNameA) (hashString x htNameB) l = true := by
    intro j
    show (∃ e, t[slot j]? = some e ∧ _) ↔ _
    rw [hget j]
    simp only [Option.some.injEq, exists_eq_left', Prod.mk.injEq, HashEntry.isHit, HashEntry.isValid,
      Bool.and_eq_true, beq_iff_eq, decide_eq_true_eq, Spec.acceptsLocale]
    rw [← beq_toNat_zero, ← beq_toNat_zero, ← beq_toNat]
    exact Iff.rfl
  have hfree : ∀ j, free j ↔ (t.at (slot j)).isEmpty = true := by
    intro j
    show (∃ e, t[slot j]? = some e ∧ _) ↔ _
    rw [hget j]
    simp only [Option.some.injEq, exists_eq_left', HashEntry.isEmpty, beq_iff_eq]
    constructor
    · intro h; exact BitVec.eq_of_toNat_eq h
    · intro h; rw [h]; rfl
  rw [findFileHash_findO hn]
  cases hf : findO t x l with
  | some r =>
    left
    obtain ⟨j, hj, hh, hr, hbef⟩ := (findO_eq_some hn).1 hf
    refine ⟨j, t.at (slot j), hj, ?_, ?_, hget j, ?_⟩
    · rw [hgood, hslot]; exact hh
    · intro j' hj'
      rw [hgood, hfree, hslot]
      have := hbef j' hj'
      simp [this]
    · rw [hr, hslot]
  | none =>
    right
    refine ⟨?_, rfl⟩
    intro j hj hg
    rw [hgood, hslot] at hg
    obtain ⟨j', hj', he⟩ := (findO_eq_none hn).1 hf j hj hg
    exact ⟨j', hj', by rw [hfree, hslot]; exact he⟩

/-! ## C07 -/

/-- C07: on any table of power-of-two size, with any contents (also contents no builder produces), a lookup
returns after examining each slot at most once: it neither loops for ever nor panics. -/
theorem C07_lookup_returns (t : HashTable) (k : Nat) (hn : t.length = 2 ^ k) (x : List Byte) (l : U16) :
    ∃ r, findFileHash t x l = .ok r :=
  ⟨_, findFileHash_findO hn x l⟩

/-- C07: an addition returns (success or the duplicate error) whenever a free slot remains. -/
theorem C07_add_returns (t : HashTable) (k : Nat) (hn : t.length = 2 ^ k) (name : List Byte) (block : U32)
    (locale : U16) (hfree : ∃ e ∈ t, e.isEmpty = true) :
    (∃ t', addToHashTable t name block locale = .ok t') ∨
    addToHashTable t name block locale = .error .invalidFormat := by
  have hlt : t.countP (fun e => !e.isEmpty) < t.length := by
    rcases Nat.lt_or_ge (t.countP (fun e => !e.isEmpty)) t.length with h | h
    · exact h
    · exfalso
      have := List.countP_le_length (p := fun e : HashEntry => !e.isEmpty) (l := t)
      have heq : t.countP (fun e => !e.isEmpty) = t.length := by omega
      rw [List.countP_eq_length] at heq
      obtain ⟨e, he, hee⟩ := hfree
      have := heq e he
      simp [hee] at this
  rcases add_outcome hn ⟨name, block, locale⟩ hlt with h | h
  · exact Or.inl h
  · exact Or.inr h.1

/-- C07, the other side: on a full table that does not contain the name in that locale the addition never
returns, however many iterations are allowed. -/
theorem C07_full_table_add_never_returns (t : HashTable) (k : Nat) (hn : t.length = 2 ^ k) (name : List Byte)
    (block : U32) (locale : U16) (hfull : ∀ e ∈ t, e.isEmpty = false)
    (hnew : ∀ e ∈ t, ¬ ((e.name1, e.name2) = hashPair name ∧ e.locale = locale)) (fuel : Nat) :
    addToHashTableFuel fuel t name block locale = .error .diverge := by
  have hpos : 0 < t.length := by rw [hn]; exact Nat.two_pow_pos k
  have hmem : ∀ j, t.at (probe t.length (startOf t.length name) j) ∈ t := by
    intro j
    have := HashTable.get_at (t := t) (probe_lt (s := startOf t.length name) (j := j) hpos)
    exact List.mem_of_getElem? this
  rw [addToHashTableFuel_eq _ t k hn]
  have : (List.range fuel).find? (fun j =>
          (t.at (probe t.length (startOf t.length name) j)).isEmpty ||
          ((t.at (probe t.length (startOf t.length name) j)).name1 == hashString name htNameA &&
           (t.at (probe t.length (startOf t.length name) j)).name2 == hashString name htNameB &&
            (t.at (probe t.length (startOf t.length name) j)).locale == locale)) = none := by
    rw [List.find?_eq_none]
    intro j _
    have h1 := hfull _ (hmem j)
    have h2 := hnew _ (hmem j)
    unfold hashPair at h2
    simp only [h1, Bool.false_or, Bool.and_eq_true, beq_iff_eq]
    intro h; exact h2 ⟨by rw [h.1.1, h.1.2], h.2⟩
  rw [this]

/-- C07: the table size the builder picks is a power of two that leaves at least as many free slots as files, for
every number of files whose doubled count fits 31 bits. -/
theorem C07_builder_size (pending : Nat) (hasListfile : Bool) (h : (pending + 1) * 2 ≤ 2 ^ 31) :
    ∃ k, k < 32 ∧ calculateHashTableSize pending hasListfile = .ok (2 ^ k) ∧
      2 * (pending + if hasListfile then 1 else 0) ≤ 2 ^ k ∧ 16 ≤ 2 ^ k := by
  unfold calculateHashTableSize
  simp only []
  generalize hc : pending + (if hasListfile then 1 else 0) = c
  have hc1 : c ≤ pending + 1 := by rw [← hc]; split <;> omega
  have hm : max (c * 2) 16 % 2 ^ 32 = max (c * 2) 16 := Nat.mod_eq_of_lt (by omega)
  rw [hm]
  generalize hx : max (c * 2) 16 = x
  have hx16 : 16 ≤ x := by omega
  have hx31 : x ≤ 2 ^ 31 := by omega
  have hlog : x - 1 < 2 ^ (Nat.log2 (x - 1) + 1) := Nat.lt_log2_self
  have hle : Nat.log2 (x - 1) < 31 := (Nat.log2_lt (by omega)).2 (by omega)
  refine ⟨Nat.log2 (x - 1) + 1, by omega, ?_, by omega, by omega⟩
  have hnp : (if x ≤ 1 then 1 else 2 ^ (Nat.log2 (x - 1) + 1)) = 2 ^ (Nat.log2 (x - 1) + 1) := by
    rw [if_neg (by omega)]
  unfold nextPowerOfTwo
  simp only [hnp]
  rw [if_pos]
  exact Nat.pow_lt_pow_right (by decide) (by omega)

theorem runAdds_returns {k : Nat} (hk : k < 32) (ops : List AddOp) (hb : ValidBlocks ops)
    (hlen : ops.length ≤ 2 ^ k) :
    (∃ t, runAdds (2 ^ k) ops = .ok t) ∨ runAdds (2 ^ k) ops = .error .invalidFormat := by
  generalize hr : ops.reverse = rev
  have hops : ops = rev.reverse := by rw [← hr, List.reverse_reverse]
  clear hr; subst hops
  induction rev with
  | nil =>
    left
    simp only [List.reverse_nil, runAdds, HashTable.new, List.foldlM_nil]
    rw [isPowerOfTwo_of_two_pow k hk]
    exact ⟨_, rfl⟩
  | cons op rev ih =>
    rw [List.reverse_cons] at hb hlen ⊢
    simp only [List.length_append, List.length_cons, List.length_nil] at hlen
    have hb' : ValidBlocks rev.reverse := fun o ho => hb o (List.mem_append.2 (Or.inl ho))
    have hsplit : runAdds (2 ^ k) (rev.reverse ++ [op]) =
        (runAdds (2 ^ k) rev.reverse).bind fun t => addToHashTable t op.name op.block op.locale := by
      unfold runAdds
      cases HashTable.new (2 ^ k) with
      | error e => rfl
      | ok t1 =>
        simp only [List.foldlM_append, List.foldlM_cons, List.foldlM_nil]
        cases (rev.reverse.foldlM (fun t op => addToHashTable t op.name op.block op.locale) t1 : Res HashTable) with
        | error e => rfl
        | ok t2 =>
          simp only [bind, Except.bind, pure, Except.pure]
          cases addToHashTable t2 op.name op.block op.locale <;> rfl
    rw [hsplit]
    rcases ih hb' (by omega) with ⟨t, ht⟩ | he
    · obtain ⟨hinv, _⟩ := runAdds_inv rfl hk _ hb' ht
      rw [ht]
      simp only [Except.bind]
      rcases add_outcome hinv.len op (by rw [hinv.count, hinv.len]; omega) with h | h
      · exact Or.inl h
      · exact Or.inr h.1
    · rw [he]; right; rfl

/-- C07: with the builder's own table size, adding all its files always comes to an end: it succeeds or reports a
duplicate. -/
theorem C07_builder_adds_return (pending : Nat) (hasListfile : Bool) (h : (pending + 1) * 2 ≤ 2 ^ 31) (n : Nat)
    (hn : calculateHashTableSize pending hasListfile = .ok n) (ops : List AddOp) (hb : ValidBlocks ops)
    (hlen : ops.length = pending) :
    (∃ t, runAdds n ops = .ok t) ∨ runAdds n ops = .error .invalidFormat := by
  obtain ⟨k, hk, hs, h2, _⟩ := C07_builder_size pending hasListfile h
  rw [hs] at hn
  cases hn
  refine runAdds_returns hk ops hb ?_
  have : pending ≤ pending + (if hasListfile then 1 else 0) := Nat.le_add_right _ _
  omega

/-! ## C08 -/

/-- C08: with a slot left, adding a name fails with the duplicate error exactly when the directory already has that
name (up to case and separator) in exactly that locale; otherwise it succeeds. -/
theorem C08_duplicates_rejected (k : Nat) (hk : k < 32) (ops : List AddOp) (hb : ValidBlocks ops)
    (t : HashTable) (h : runAdds (2 ^ k) ops = .ok t) (hroom : ops.length < 2 ^ k) (op : AddOp)
    (hc : NoCollision (op.name :: ops.map AddOp.name)) :
    if Spec.present (toLog ops) (op.name.map BitVec.toNat) op.locale.toNat then
      addToHashTable t op.name op.block op.locale = .error .invalidFormat
    else ∃ t', addToHashTable t op.name op.block op.locale = .ok t' := by
  obtain ⟨hinv, _⟩ := runAdds_inv rfl hk ops hb h
  have hpos := Nat.two_pow_pos k
  have hout := add_outcome hinv.len op (by rw [hinv.count, hinv.len]; exact hroom)
  rw [hinv.len] at hout
  split
  · rename_i hp
    rcases hout with ⟨t', ht'⟩ | h'
    · exfalso
      unfold Spec.present toLog at hp
      simp only [List.any_map, List.any_eq_true, Function.comp, Bool.and_eq_true, beq_iff_eq] at hp
      obtain ⟨o, ho, hn, hl⟩ := hp
      obtain ⟨d, hd, heq, hall⟩ := hinv.stored o ho
      have hst := startOf_normalise (2 ^ k) hn
      rw [hst] at heq hall
      unfold addToHashTable at ht'
      obtain ⟨j, hj, he, _, hbef⟩ := add_ok hinv.len ht'
      rw [hinv.len] at hj he hbef
      rcases Nat.lt_trichotomy d j with hlt | heq' | hgt
      · apply (hbef d hlt).2
        rw [heq]
        have := hashPair_normalise hn
        unfold hashPair at this
        have := Prod.mk.inj this
        exact ⟨this.1, this.2, BitVec.eq_of_toNat_eq hl⟩
      · subst heq'
        rw [heq, AddOp.entry_not_empty (hb o ho)] at he; cases he
      · rw [hall j hgt] at he; cases he
    · exact h'.1
  · rename_i hp
    rcases hout with h' | ⟨_, j, hj, hne, h1, h2, h3⟩
    · exact h'
    · exfalso
      apply hp
      obtain ⟨o, ho, heq, _⟩ := hinv.origin _ (probe_lt hpos) hne
      rw [heq] at h1 h2 h3
      unfold Spec.present toLog
      simp only [List.any_map, List.any_eq_true, Function.comp, Bool.and_eq_true, beq_iff_eq]
      refine ⟨o, ho, ?_, congrArg BitVec.toNat h3⟩
      apply hc o.name (by simp; right; exact ⟨o, ho, rfl⟩) op.name (by simp)
      unfold hashPair
      rw [show hashString o.name htNameA = hashString op.name htNameA from h1,
        show hashString o.name htNameB = hashString op.name htNameB from h2]

/-- C08: a successful addition leaves every other lookup as it was: what was found before is found again, with the
same file and locale. -/
theorem C08_add_preserves_others (k : Nat) (hk : k < 32) (ops : List AddOp) (op : AddOp)
    (hb : ValidBlocks (ops ++ [op])) (t t' : HashTable) (h : runAdds (2 ^ k) ops = .ok t)
    (h' : addToHashTable t op.name op.block op.locale = .ok t') (x : List Byte) (l : U16)
    (hc : NoCollision (x :: (ops ++ [op]).map AddOp.name)) (r : Nat × Nat)
    (hf : (findFileHash t x l).map (Option.map fun r => (r.2.blockIndex.toNat, r.2.locale.toNat)) = .ok (some r)) :
    (findFileHash t' x l).map (Option.map fun r => (r.2.blockIndex.toNat, r.2.locale.toNat)) = .ok (some r) := by
  have hb0 : ValidBlocks ops := fun o ho => hb o (List.mem_append.2 (Or.inl ho))
  have hc0 : NoCollision (x :: ops.map AddOp.name) := by
    intro a ha b hb'
    apply hc a _ b _
    · rw [List.map_append, ← List.cons_append]; exact List.mem_append.2 (Or.inl ha)
    · rw [List.map_append, ← List.cons_append]; exact List.mem_append.2 (Or.inl hb')
  rw [C06_lookup_is_directory_lookup k hk ops hb0 t h x l hc0] at hf
  rw [C06_lookup_is_directory_lookup k hk (ops ++ [op]) hb t' (runAdds_snoc.2 ⟨t, h, h'⟩) x l hc]
  have hlog : toLog (ops ++ [op]) = toLog ops ++ toLog [op] := by unfold toLog; rw [List.map_append]
  have hf' := Except.ok.inj hf
  unfold Spec.lookup at hf' ⊢
  rw [hlog, List.find?_append]
  cases hfd : (toLog ops).find? (fun a => Spec.normalise a.name == Spec.normalise (x.map BitVec.toNat) &&
      Spec.acceptsLocale l.toNat a.locale) with
  | none => rw [hfd] at hf'; cases hf'
  | some a => rw [hfd] at hf'; rw [Option.some_or]; exact congrArg Except.ok hf'

/-! ## C09 -/

/-- C09 is false of the code: for every name and every table size with two slots or more, an entry of the neutral
locale added first hides the entry of the requested locale. -/
theorem C09_requested_locale_is_shadowed (name : List Byte) (k : Nat) (hk : k < 32) (hk1 : 1 ≤ k) :
    ∃ t, runAdds (2 ^ k) [⟨name, 0, 0⟩, ⟨name, 1, 0x409⟩] = .ok t ∧
      (findFileHash t name 0x409).map (Option.map fun r => (r.2.blockIndex.toNat, r.2.locale.toNat))
        = .ok (some (0, 0)) := by
  have hb : ValidBlocks [⟨name, 0, 0⟩, ⟨name, 1, 0x409⟩] := by
    intro op hop; simp at hop; rcases hop with rfl | rfl <;> simp
  have h2 : 2 ≤ 2 ^ k := by
    have := Nat.pow_le_pow_right (n := 2) (by decide) hk1
    simpa using this
  have hnc : ∀ names : List (List Byte), (∀ a ∈ names, a = name) → NoCollision names := by
    intro names h a ha b hb _; rw [h a ha, h b hb]
  have hb1 : ValidBlocks [⟨name, 0, 0⟩] := fun o ho => hb o (by simp at ho ⊢; exact Or.inl ho)
  obtain ⟨t1, ht1⟩ : ∃ t, runAdds (2 ^ k) [⟨name, 0, 0⟩] = .ok t := by
    have h0 : runAdds (2 ^ k) [] = .ok (List.replicate (2 ^ k) HashEntry.empty) := by
      simp only [runAdds, HashTable.new, isPowerOfTwo_of_two_pow k hk, if_true, List.foldlM_nil]; rfl
    have := C08_duplicates_rejected k hk [] (by intro o ho; simp at ho) _ h0 (by simp; omega) ⟨name, 0, 0⟩
      (hnc _ (by simp))
    simp only [toLog, Spec.present, List.map_nil, List.any_nil, Bool.false_eq_true, if_false] at this
    obtain ⟨t, ht⟩ := this
    exact ⟨t, runAdds_snoc (ops := []).2 ⟨_, h0, ht⟩⟩
  obtain ⟨t2, ht2⟩ : ∃ t, runAdds (2 ^ k) [⟨name, 0, 0⟩, ⟨name, 1, 0x409⟩] = .ok t := by
    have := C08_duplicates_rejected k hk _ hb1 _ ht1 (by simp; omega) ⟨name, 1, 0x409⟩ (hnc _ (by simp))
    rw [if_neg] at this
    · obtain ⟨t, ht⟩ := this
      exact ⟨t, runAdds_snoc (ops := [⟨name, 0, 0⟩]).2 ⟨_, ht1, ht⟩⟩
    · simp [toLog, Spec.present]
  refine ⟨t2, ht2, ?_⟩
  rw [C06_lookup_is_directory_lookup k hk _ hb t2 ht2 name 0x409 (hnc _ (by simp))]
  simp [toLog, Spec.lookup, Spec.acceptsLocale]

/-- C09 (partial): the request is answered with exactly the requested locale when that locale was added for the
name and no neutral entry of the name was added before it. Missing from the full property: the case where a neutral
entry was added first, which is false of the code (`C09_requested_locale_is_shadowed`). -/
theorem C09_locale_honoured_partial (k : Nat) (hk : k < 32) (before after : List AddOp) (op : AddOp)
    (hb : ValidBlocks (before ++ op :: after)) (t : HashTable)
    (h : runAdds (2 ^ k) (before ++ op :: after) = .ok t) (x : List Byte) (l : U16)
    (hc : NoCollision (x :: (before ++ op :: after).map AddOp.name))
    (hx : Spec.normalise (op.name.map BitVec.toNat) = Spec.normalise (x.map BitVec.toNat)) (hl : op.locale = l)
    (hl0 : l ≠ 0)
    (hbefore : ∀ o ∈ before, Spec.normalise (o.name.map BitVec.toNat) = Spec.normalise (x.map BitVec.toNat) →
      o.locale ≠ 0 ∧ o.locale ≠ l) :
    (findFileHash t x l).map (Option.map fun r => (r.2.blockIndex.toNat, r.2.locale.toNat))
      = .ok (some (op.block.toNat, l.toNat)) := by
  rw [C06_lookup_is_directory_lookup k hk _ hb t h x l hc]
  have h0 : (l.toNat == 0) = false := by rw [← beq_toNat_zero]; simpa using hl0
  have hnone : (toLog before).find? (fun a => Spec.normalise a.name == Spec.normalise (x.map BitVec.toNat) &&
      Spec.acceptsLocale l.toNat a.locale) = none := by
    rw [List.find?_eq_none]
    intro a ha
    unfold toLog at ha
    rw [List.mem_map] at ha
    obtain ⟨o, ho, rfl⟩ := ha
    simp only [Bool.and_eq_true, beq_iff_eq, not_and, Spec.acceptsLocale, h0, Bool.false_or]
    intro hn
    obtain ⟨e1, e2⟩ := hbefore o ho hn
    rw [← beq_toNat_zero, ← beq_toNat o.locale l]
    simp only [Bool.or_eq_true, beq_iff_eq, not_or]
    exact ⟨e1, e2⟩
  have hlog : toLog (before ++ op :: after) = toLog before ++ toLog (op :: after) := by
    unfold toLog; rw [List.map_append]
  unfold Spec.lookup
  rw [hlog, List.find?_append, hnone, Option.none_or]
  unfold toLog
  simp only [List.map_cons, List.find?_cons, hx, hl, Spec.acceptsLocale, BEq.rfl, Bool.true_and, Bool.or_true]
  rfl

end Mopaq
