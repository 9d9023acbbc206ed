import Verif.Lemmas.HashTable
import Verif.Spec.Directory

/-! # The probe-chain invariant and the refinement to the directory log -/

namespace Mopaq

/-- One call of `add_to_hash_table`. -/
structure AddOp where
  name : List Byte
  block : U32
  locale : U16
  deriving DecidableEq

/-- The entry an addition stores. -/
def AddOp.entry (op : AddOp) : HashEntry :=
  ⟨hashString op.name htNameA, hashString op.name htNameB, op.locale, 0, op.block⟩

/-- The two name hashes that identify a file in the table. -/
def hashPair (name : List Byte) : U32 × U32 := (hashString name htNameA, hashString name htNameB)

/-- A fresh table of `n` slots after a sequence of additions (`HashTable::new`, then `add_to_hash_table` once per
element, stopping at the first error). -/
def runAdds (n : Nat) (ops : List AddOp) : Res HashTable :=
  match HashTable.new n with
  | .error e => .error e
  | .ok t => ops.foldlM (fun t op => addToHashTable t op.name op.block op.locale) t

/-- Invariant of a table built by additions. -/
structure TableInv (n : Nat) (ops : List AddOp) (t : HashTable) : Prop where
  len : t.length = n
  valid : ∀ op ∈ ops, op.block.toNat < 0xFFFFFFFE
  origin : ∀ i, i < n → (t.at i).isEmpty = false → ∃ op ∈ ops, t.at i = op.entry ∧
    ∃ d, d < n ∧ i = probe n (startOf n op.name) d ∧
      ∀ d', d' < d → (t.at (probe n (startOf n op.name) d')).isEmpty = false
  stored : ∀ op ∈ ops, ∃ d, d < n ∧ t.at (probe n (startOf n op.name) d) = op.entry ∧
      ∀ d', d' < d → (t.at (probe n (startOf n op.name) d')).isEmpty = false
  count : t.countP (fun e => !e.isEmpty) = ops.length

/-- The search result of `findFileHash` as an option. -/
def findO (t : HashTable) (name : List Byte) (l : U16) : Option (Nat × HashEntry) :=
  match (List.range t.length).find? (fun j =>
      (t.at (probe t.length (startOf t.length name) j)).isHit (hashString name htNameA) (hashString name htNameB) l
      || (t.at (probe t.length (startOf t.length name) j)).isEmpty) with
  | none => none
  | some j => if (t.at (probe t.length (startOf t.length name) j)).isHit (hashString name htNameA)
      (hashString name htNameB) l then
    some (probe t.length (startOf t.length name) j, t.at (probe t.length (startOf t.length name) j))
    else none

theorem isHit_not_empty {e : HashEntry} {a b : U32} {l : U16} (h : e.isHit a b l = true) : e.isEmpty = false := by
  unfold HashEntry.isHit at h
  simp only [Bool.and_eq_true] at h
  have hv := h.2.2
  unfold HashEntry.isValid at hv
  unfold HashEntry.isEmpty
  simp only [decide_eq_true_eq] at hv
  simp only [beq_eq_false_iff_ne, ne_eq]
  intro he; rw [he] at hv; revert hv; decide

theorem findO_eq_some {t : HashTable} {name : List Byte} {l : U16} {r : Nat × HashEntry} {n : Nat} (hl : t.length = n) :
    findO t name l = some r ↔ ∃ j, j < n ∧
      (t.at (probe n (startOf n name) j)).isHit (hashString name htNameA) (hashString name htNameB) l = true ∧
      r = (probe n (startOf n name) j, t.at (probe n (startOf n name) j)) ∧
      ∀ j', j' < j → (t.at (probe n (startOf n name) j')).isHit (hashString name htNameA) (hashString name htNameB) l = false
        ∧ (t.at (probe n (startOf n name) j')).isEmpty = false := by
  subst hl
  unfold findO
  constructor
  · intro h
    split at h
    · cases h
    · rename_i j hj
      rw [List.find?_range_eq_some] at hj
      split at h
      · rename_i hh
        refine ⟨j, by simpa using hj.2.1, hh, (Option.some.inj h).symm, ?_⟩
        intro j' hj'
        have := hj.2.2 j' hj'
        simpa using this
      · cases h
  · rintro ⟨j, hj, hh, hr, hb⟩
    have : (List.range t.length).find? (fun j =>
      (t.at (probe t.length (startOf t.length name) j)).isHit (hashString name htNameA) (hashString name htNameB) l
      || (t.at (probe t.length (startOf t.length name) j)).isEmpty) = some j := by
      rw [List.find?_range_eq_some]
      refine ⟨by simp [hh], by simpa using hj, ?_⟩
      intro j' hj'
      have := hb j' hj'
      simp [this.1, this.2]
    rw [this]
    simp only [hh, if_true, hr]

theorem findO_eq_none {t : HashTable} {name : List Byte} {l : U16} {n : Nat} (hl : t.length = n) :
    findO t name l = none ↔ ∀ j, j < n →
      (t.at (probe n (startOf n name) j)).isHit (hashString name htNameA) (hashString name htNameB) l = true →
      ∃ j', j' < j ∧ (t.at (probe n (startOf n name) j')).isEmpty = true := by
  constructor
  · intro h j
    induction j using Nat.strongRecOn with
    | ind j ih =>
      intro hj hh
      apply Classical.byContradiction
      intro hno
      have hsome : findO t name l = some (probe n (startOf n name) j, t.at (probe n (startOf n name) j)) := by
        rw [findO_eq_some hl]
        refine ⟨j, hj, hh, rfl, ?_⟩
        intro j' hj'
        have he : (t.at (probe n (startOf n name) j')).isEmpty = false := by
          apply Classical.byContradiction
          intro hne
          exact hno ⟨j', hj', by simpa using hne⟩
        refine ⟨?_, he⟩
        apply Classical.byContradiction
        intro hhit
        obtain ⟨j'', h1, h2⟩ := ih j' hj' (by omega) (by simpa using hhit)
        exact hno ⟨j'', by omega, h2⟩
      rw [h] at hsome; cases hsome
  · intro h
    cases hf : findO t name l with
    | none => rfl
    | some r =>
      exfalso
      rw [findO_eq_some hl] at hf
      obtain ⟨j, hj, hh, _, hb⟩ := hf
      obtain ⟨j', hj', he⟩ := h j hj hh
      have := (hb j' hj').2
      rw [he] at this; cases this

/-- What a successful addition did. -/
theorem add_ok {t t' : HashTable} {k : Nat} (hn : t.length = 2 ^ k) {op : AddOp} {fuel : Nat}
    (h : addToHashTableFuel fuel t op.name op.block op.locale = .ok t') :
    ∃ j, j < fuel ∧ (t.at (probe t.length (startOf t.length op.name) j)).isEmpty = true ∧
      t' = t.set (probe t.length (startOf t.length op.name) j) op.entry ∧
      ∀ j', j' < j → (t.at (probe t.length (startOf t.length op.name) j')).isEmpty = false ∧
        ¬ ((t.at (probe t.length (startOf t.length op.name) j')).name1 = hashString op.name htNameA ∧
           (t.at (probe t.length (startOf t.length op.name) j')).name2 = hashString op.name htNameB ∧
           (t.at (probe t.length (startOf t.length op.name) j')).locale = op.locale) := by
  rw [addToHashTableFuel_eq fuel t k hn] at h
  split at h
  · cases h
  · rename_i j hj
    rw [List.find?_range_eq_some] at hj
    split at h
    · rename_i he
      refine ⟨j, by simpa using hj.2.1, he, (Except.ok.inj h).symm, ?_⟩
      intro j' hj'
      have := hj.2.2 j' hj'
      simp only [Bool.not_eq_true', Bool.or_eq_false_iff] at this
      refine ⟨this.1, ?_⟩
      intro ⟨h1, h2, h3⟩
      have := this.2
      simp [h1, h2, h3] at this
    · cases h

theorem AddOp.entry_not_empty {op : AddOp} (h : op.block.toNat < 0xFFFFFFFE) : op.entry.isEmpty = false := by
  unfold HashEntry.isEmpty AddOp.entry
  simp only [beq_eq_false_iff_ne, ne_eq]
  intro he; rw [he] at h; revert h; decide

theorem new_at (n i : Nat) : HashTable.at (List.replicate n HashEntry.empty) i = HashEntry.empty := by
  unfold HashTable.at
  rw [List.getElem?_replicate]
  split <;> rfl

theorem inv_new (n : Nat) : TableInv n [] (List.replicate n HashEntry.empty) where
  len := List.length_replicate
  valid := by simp
  origin := by
    intro i hi he
    rw [new_at] at he; cases he
  stored := by simp
  count := by
    rw [List.countP_replicate]
    simp [HashEntry.isEmpty, HashEntry.empty]

theorem countP_set_empty (t : HashTable) (i : Nat) (e : HashEntry) (hi : i < t.length)
    (h0 : (t.at i).isEmpty = true) (h1 : e.isEmpty = false) :
    (t.set i e).countP (fun e => !e.isEmpty) = t.countP (fun e => !e.isEmpty) + 1 := by
  have hg : t[i] = t.at i := by
    have := HashTable.get_at hi
    rw [List.getElem?_eq_getElem hi] at this
    exact Option.some.inj this
  rw [List.countP_set hi, hg, h0, h1]
  simp

theorem inv_step {n : Nat} {ops : List AddOp} {t t' : HashTable} {k : Nat} (hk : n = 2 ^ k)
    (hinv : TableInv n ops t) {op : AddOp} (hb : op.block.toNat < 0xFFFFFFFE) {fuel : Nat} (hf : fuel ≤ n)
    (h : addToHashTableFuel fuel t op.name op.block op.locale = .ok t') :
    TableInv n (ops ++ [op]) t' := by
  have hlen := hinv.len
  have hpos : 0 < n := by rw [hk]; exact Nat.two_pow_pos k
  obtain ⟨j, hj, he, ht', hbef⟩ := add_ok (by rw [hlen]; exact hk) h
  rw [hlen] at he ht' hbef
  subst ht'
  have hp : probe n (startOf n op.name) j < t.length := by rw [hlen]; exact probe_lt hpos
  have hne := AddOp.entry_not_empty hb
  -- non-empty slots stay non-empty
  have keep : ∀ i, (t.at i).isEmpty = false →
      (HashTable.at (t.set (probe n (startOf n op.name) j) op.entry) i).isEmpty = false := by
    intro i hi
    rw [HashTable.at_set _ _ _ _ hp]
    split
    · exact hne
    · exact hi
  refine ⟨by simp [hlen], ?_, ?_, ?_, ?_⟩
  · intro op' hop'
    rw [List.mem_append, List.mem_singleton] at hop'
    rcases hop' with hop' | rfl
    · exact hinv.valid op' hop'
    · exact hb
  · intro i hi hi'
    rw [HashTable.at_set _ _ _ _ hp] at hi' ⊢
    split at hi'
    · rename_i hip
      subst hip
      refine ⟨op, by simp, by simp, j, by omega, rfl, ?_⟩
      intro d' hd'
      exact keep _ (hbef d' hd').1
    · rename_i hip
      rw [if_neg hip]
      obtain ⟨op', hop', heq, d, hd, hid, hall⟩ := hinv.origin i hi hi'
      exact ⟨op', by simp [hop'], heq, d, hd, hid, fun d' hd' => keep _ (hall d' hd')⟩
  · intro op' hop'
    rw [List.mem_append, List.mem_singleton] at hop'
    rcases hop' with hop' | rfl
    · obtain ⟨d, hd, heq, hall⟩ := hinv.stored op' hop'
      refine ⟨d, hd, ?_, fun d' hd' => keep _ (hall d' hd')⟩
      rw [HashTable.at_set _ _ _ _ hp, if_neg]
      · exact heq
      · intro hsame
        rw [hsame] at heq
        rw [heq, AddOp.entry_not_empty (hinv.valid op' hop')] at he
        cases he
    · refine ⟨j, by omega, ?_, fun d' hd' => keep _ (hbef d' hd').1⟩
      rw [HashTable.at_set _ _ _ _ hp, if_pos rfl]
  · rw [countP_set_empty _ _ _ hp he hne, hinv.count]; simp

/-- The directory test of one addition against a request. -/
def AddOp.matches (op : AddOp) (name : List Byte) (l : U16) : Bool :=
  (hashPair op.name == hashPair name) && (l == 0 || op.locale == 0 || op.locale == l)

theorem entry_isHit {op : AddOp} (hb : op.block.toNat < 0xFFFFFFFE) (name : List Byte) (l : U16) :
    op.entry.isHit (hashString name htNameA) (hashString name htNameB) l = op.matches name l := by
  unfold HashEntry.isHit AddOp.matches hashPair AddOp.entry HashEntry.isValid
  simp only [hb, decide_true, Bool.and_true]
  rfl

/-- Names that share the hash pair with `name` also share its start slot. True of equal names, and of all names
unless two different names collide on 64 bits of hash. -/
def SameStart (n : Nat) (ops : List AddOp) (name : List Byte) : Prop :=
  ∀ op ∈ ops, hashPair op.name = hashPair name → startOf n op.name = startOf n name

theorem AddOp.matches_pair {op : AddOp} {name : List Byte} {l : U16} (h : op.matches name l = true) :
    hashPair op.name = hashPair name := by
  unfold AddOp.matches at h
  simp only [Bool.and_eq_true, beq_iff_eq] at h
  exact h.1

/-- A hit anywhere in the table is reachable from the start slot of the name. -/
theorem hit_reachable {n : Nat} {ops : List AddOp} {t : HashTable} (hinv : TableInv n ops t) {name : List Byte}
    {l : U16} (hss : SameStart n ops name) (hpos : 0 < n) {j : Nat} (hj : j < n)
    (hh : (t.at (probe n (startOf n name) j)).isHit (hashString name htNameA) (hashString name htNameB) l = true) :
    ∀ j', j' < j → (t.at (probe n (startOf n name) j')).isEmpty = false := by
  obtain ⟨op, hop, heq, d, hd, hid, hall⟩ := hinv.origin _ (probe_lt hpos) (isHit_not_empty hh)
  rw [heq, entry_isHit (hinv.valid op hop)] at hh
  have hst := hss op hop (AddOp.matches_pair hh)
  rw [hst] at hid hall
  have : j = d := probe_inj hj hd hid
  subst this
  exact hall

/-- One addition refines one step of the log. -/
theorem findO_step {n : Nat} {ops : List AddOp} {t t' : HashTable} {k : Nat} (hk : n = 2 ^ k)
    (hinv : TableInv n ops t) {op : AddOp} (hb : op.block.toNat < 0xFFFFFFFE) {fuel : Nat} (hf : fuel ≤ n)
    (h : addToHashTableFuel fuel t op.name op.block op.locale = .ok t') {name : List Byte} {l : U16}
    (hss : SameStart n (ops ++ [op]) name)
    (ih : (findO t name l).map (·.2) = (ops.find? (·.matches name l)).map AddOp.entry) :
    (findO t' name l).map (·.2) = ((ops ++ [op]).find? (·.matches name l)).map AddOp.entry := by
  have hlen := hinv.len
  have hpos : 0 < n := by rw [hk]; exact Nat.two_pow_pos k
  have hinv' := inv_step hk hinv hb hf h
  obtain ⟨j0, hj0, he, ht', hbef⟩ := add_ok (by rw [hlen]; exact hk) h
  rw [hlen] at he ht' hbef
  have hp : probe n (startOf n op.name) j0 < t.length := by rw [hlen]; exact probe_lt hpos
  have hat : ∀ i, HashTable.at t' i = if i = probe n (startOf n op.name) j0 then op.entry else t.at i := by
    intro i; rw [ht', HashTable.at_set _ _ _ _ hp]
  rw [List.find?_append]
  cases hfo : findO t name l with
  | some r =>
    rw [hfo] at ih
    cases hfd : ops.find? (·.matches name l) with
    | none => rw [hfd] at ih; cases ih
    | some op1 =>
      rw [hfd] at ih
      simp only [Option.some_or]
      rw [← ih]
      have : findO t' name l = some r := by
        rw [findO_eq_some hlen] at hfo
        obtain ⟨j, hj, hh, hr, hall⟩ := hfo
        have hne : ∀ j', j' ≤ j → HashTable.at t' (probe n (startOf n name) j') = t.at (probe n (startOf n name) j') := by
          intro j' hj'
          rw [hat, if_neg]
          intro heq
          rw [← heq] at he
          rcases Nat.lt_or_ge j' j with hlt | hge
          · rw [(hall j' hlt).2] at he; cases he
          · have : j' = j := by omega
            subst this
            rw [isHit_not_empty hh] at he; cases he
        rw [findO_eq_some hinv'.len]
        refine ⟨j, hj, by rw [hne j (Nat.le_refl _)]; exact hh, by rw [hne j (Nat.le_refl _)]; exact hr, ?_⟩
        intro j' hj'
        rw [hne j' (by omega)]
        exact hall j' hj'
      rw [this]
  | none =>
    rw [hfo] at ih
    cases hfd : ops.find? (·.matches name l) with
    | some op1 => rw [hfd] at ih; cases ih
    | none =>
      simp only [Option.none_or]
      cases hm : op.matches name l with
      | false =>
        have hno : findO t' name l = none := by
          rw [findO_eq_none hinv'.len]
          intro j hj hh
          exfalso
          have hr := hit_reachable hinv' hss hpos hj hh
          by_cases hip : probe n (startOf n name) j = probe n (startOf n op.name) j0
          · rw [hat, if_pos hip, entry_isHit hb, hm] at hh; cases hh
          · rw [hat, if_neg hip] at hh
            have hss' : SameStart n ops name := fun o ho => hss o (by simp [ho])
            rw [findO_eq_none hlen] at hfo
            obtain ⟨j', hj', he'⟩ := hfo j hj hh
            rw [hit_reachable hinv hss' hpos hj hh j' hj'] at he'
            cases he'
        rw [hno]
        simp [hm]
      | true =>
        have hst := hss op (by simp) (AddOp.matches_pair hm)
        have hsome : findO t' name l = some (probe n (startOf n name) j0, op.entry) := by
          rw [findO_eq_some hinv'.len]
          have h0 : HashTable.at t' (probe n (startOf n name) j0) = op.entry := by
            rw [hat, if_pos (by rw [hst])]
          refine ⟨j0, by omega, by rw [h0, entry_isHit hb]; exact hm, by rw [h0], ?_⟩
          intro j' hj'
          have hne : HashTable.at t' (probe n (startOf n name) j') = t.at (probe n (startOf n name) j') := by
            rw [hat, if_neg]
            intro heq
            rw [hst] at heq
            have := probe_inj (by omega) (by omega) heq
            omega
          have hbe := hbef j' hj'
          rw [hst] at hbe
          rw [hne]
          refine ⟨?_, hbe.1⟩
          apply Classical.byContradiction
          intro hh
          rw [findO_eq_none hlen] at hfo
          obtain ⟨j'', hj'', he''⟩ := hfo j' (by omega) (by simpa using hh)
          have := (hbef j'' (by omega)).1
          rw [hst, he''] at this; cases this
        rw [hsome]
        simp [hm]

theorem runAdds_snoc {n : Nat} {ops : List AddOp} {op : AddOp} {t : HashTable} :
    runAdds n (ops ++ [op]) = .ok t ↔
      ∃ t0, runAdds n ops = .ok t0 ∧ addToHashTable t0 op.name op.block op.locale = .ok t := by
  unfold runAdds
  cases HashTable.new n with
  | error e => simp
  | ok t1 =>
    simp only [List.foldlM_append, List.foldlM_cons, List.foldlM_nil]
    cases hfold : (ops.foldlM (fun t op => addToHashTable t op.name op.block op.locale) t1 : Res HashTable) with
    | error e => simp [bind, Except.bind]
    | ok t2 =>
      simp only [bind, Except.bind, pure, Except.pure]
      cases hadd : addToHashTable t2 op.name op.block op.locale <;> simp [hadd]

theorem isPowerOfTwo_two_pow (n : Nat) (hn : n < 2 ^ 32) :
    isPowerOfTwo (BitVec.ofNat 32 n) = true → ∃ k, n = 2 ^ k := by
  intro h
  unfold isPowerOfTwo at h
  simp only [Bool.and_eq_true, bne_iff_ne, ne_eq, beq_iff_eq] at h
  obtain ⟨h0, h1⟩ := h
  have hn0 : n ≠ 0 := by
    intro h; subst h; exact h0 rfl
  have h2 := congrArg BitVec.toNat h1
  rw [BitVec.toNat_and] at h2
  have e1 : (BitVec.ofNat 32 n).toNat = n := by simp; omega
  have e2 : (BitVec.ofNat 32 n - 1).toNat = n - 1 := by
    rw [BitVec.toNat_sub, e1]; simp only [BitVec.reduceToNat]; omega
  rw [e1, e2] at h2
  exact ⟨_, (Nat.and_sub_one_eq_zero_iff_isPowerOfTwo hn0).1 h2 |>.choose_spec⟩

theorem isPowerOfTwo_of_two_pow (k : Nat) (hk : k < 32) : isPowerOfTwo (BitVec.ofNat 32 (2 ^ k)) = true := by
  have : ∀ k, k < 32 → isPowerOfTwo (BitVec.ofNat 32 (2 ^ k)) = true := by decide +kernel
  exact this k hk

/-- Everything known about a table built by additions. -/
theorem runAdds_inv {n k : Nat} (hk : n = 2 ^ k) (hk32 : k < 32) (ops : List AddOp)
    (hb : ∀ op ∈ ops, op.block.toNat < 0xFFFFFFFE) {t : HashTable} (h : runAdds n ops = .ok t) :
    TableInv n ops t ∧ ∀ name l, SameStart n ops name →
      (findO t name l).map (·.2) = (ops.find? (·.matches name l)).map AddOp.entry := by
  have hpos : 0 < n := by rw [hk]; exact Nat.two_pow_pos k
  generalize hr : ops.reverse = rev
  have hops : ops = rev.reverse := by rw [← hr, List.reverse_reverse]
  clear hr
  subst hops
  induction rev generalizing t with
  | nil =>
    simp only [List.reverse_nil, runAdds, HashTable.new, List.foldlM_nil] at h
    rw [hk, isPowerOfTwo_of_two_pow k hk32] at h
    simp only [if_true, pure, Except.pure, Except.ok.injEq] at h
    subst h
    rw [hk]
    refine ⟨inv_new _, ?_⟩
    intro name l _
    have : findO (List.replicate (2 ^ k) HashEntry.empty) name l = none := by
      rw [findO_eq_none List.length_replicate]
      intro j hj hh
      rw [new_at] at hh
      have := isHit_not_empty hh
      cases this
    rw [this]; rfl
  | cons op rev ih =>
    rw [List.reverse_cons] at h hb ⊢
    rw [runAdds_snoc] at h
    obtain ⟨t0, h0, hadd⟩ := h
    obtain ⟨hinv, hfind⟩ := ih (fun o ho => hb o (by simp [List.mem_append.2 (Or.inl ho)])) h0
    have hbo := hb op (by simp)
    have hf : t0.length ≤ n := Nat.le_of_eq hinv.len
    unfold addToHashTable at hadd
    refine ⟨inv_step hk hinv hbo hf hadd, ?_⟩
    intro name l hss
    exact findO_step hk hinv hbo hf hadd hss (hfind name l fun o ho => hss o (List.mem_append.2 (Or.inl ho)))

theorem findFileHash_findO {t : HashTable} {k : Nat} (hn : t.length = 2 ^ k) (name : List Byte) (l : U16) :
    findFileHash t name l = .ok (findO t name l) := findFileHash_eq t k hn name l

/-- A table with a free slot has a free slot on every probe path. -/
theorem exists_empty_probe {n : Nat} {t : HashTable} (hl : t.length = n)
    (h : t.countP (fun e => !e.isEmpty) < n) (s : Nat) (hs : s < n) :
    ∃ j, j < n ∧ (t.at (probe n s j)).isEmpty = true := by
  have : ∃ i, i < n ∧ (t.at i).isEmpty = true := by
    apply Classical.byContradiction
    intro hno
    have hall : t.countP (fun e => !e.isEmpty) = t.length := by
      rw [List.countP_eq_length]
      intro e he
      obtain ⟨i, hi, hie⟩ := List.getElem_of_mem he
      have hat := HashTable.get_at hi
      rw [List.getElem?_eq_getElem hi, hie] at hat
      have : e = t.at i := Option.some.inj hat
      rw [this]
      cases hem : (t.at i).isEmpty with
      | false => rfl
      | true => exact absurd ⟨i, by omega, hem⟩ hno
    omega
  obtain ⟨i, hi, he⟩ := this
  obtain ⟨j, hj, hji⟩ := probe_surj hs hi
  exact ⟨j, hj, by rw [hji]; exact he⟩

/-- The outcome of an addition when a slot is free. -/
theorem add_outcome {t : HashTable} {k : Nat} (hn : t.length = 2 ^ k) (op : AddOp)
    (hfree : t.countP (fun e => !e.isEmpty) < t.length) :
    (∃ t', addToHashTable t op.name op.block op.locale = .ok t') ∨
    (addToHashTable t op.name op.block op.locale = .error .invalidFormat ∧
      ∃ j, j < t.length ∧
        (t.at (probe t.length (startOf t.length op.name) j)).isEmpty = false ∧
        (t.at (probe t.length (startOf t.length op.name) j)).name1 = hashString op.name htNameA ∧
        (t.at (probe t.length (startOf t.length op.name) j)).name2 = hashString op.name htNameB ∧
        (t.at (probe t.length (startOf t.length op.name) j)).locale = op.locale) := by
  have hpos : 0 < t.length := by rw [hn]; exact Nat.two_pow_pos k
  obtain ⟨j, hj, he⟩ := exists_empty_probe rfl hfree (startOf t.length op.name) (Nat.mod_lt _ hpos)
  unfold addToHashTable
  rw [addToHashTableFuel_eq _ t k hn]
  split
  · rename_i hnone
    rw [List.find?_range_eq_none] at hnone
    have := hnone j hj
    simp [he] at this
  · rename_i j' hj'
    rw [List.find?_range_eq_some] at hj'
    split
    · left; exact ⟨_, rfl⟩
    · rename_i hne
      right
      refine ⟨rfl, j', by simpa using hj'.2.1, by simpa using hne, ?_⟩
      have := hj'.1
      simp only [hne, Bool.false_or, Bool.and_eq_true, beq_iff_eq] at this
      exact ⟨this.1.1, this.1.2, this.2⟩

end Mopaq
