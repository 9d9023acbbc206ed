import Verif.Lemmas.FfiClose

/-! # Lemmas on what the calls of the C API do to the open files and archives -/

namespace Mopaq

/-! ## The handles about to be stored -/

/-- The handle under which a stage is going to store something. -/
def Stage.storeIds : Stage → List Nat
  | .lock _ k => k.storeIds
  | .storeArchive _ id => [id]
  | .storeFile _ id => [id]
  | _ => []

theorem storeIds_ids : ∀ {g : Stage} {id : Nat}, id ∈ g.storeIds → id ∈ g.ids := by
  intro g
  induction g with
  | lock l k ih => intro id h; exact ih h
  | storeArchive a i => intro id h; exact h
  | storeFile f i => intro id h; exact h
  | _ => intro id h; cases h

theorem start_storeIds (c : Call) : c.start.storeIds = [] := by
  unfold Call.start
  split <;> first | rfl | (split <;> rfl)

/-- What a step does to the open files. -/
inductive FilesStep (s s' : Sys) (t : Nat) : Stage → List Stage → Prop where
  | same {top rest} : s'.files = s.files → FilesStep s s' t top rest
  | purge {rest} (h : Nat) : (s'.files = fun j => match s.files j with
      | some f => if f.archiveHandle = h then none else some f
      | none => none) → FilesStep s s' t (.purge h) rest
  | store {rest} (f : FileHandle) (id : Nat) : s'.files = insertKey s.files id f → FilesStep s s' t (.storeFile f id) rest
  | op {rest} (h : Nat) (op : FileOp) (f : FileHandle) (o : Outcome) (f' : Option FileHandle) : s.files h = some f →
      op.run f = .ok (o, f') → s'.files = setKey s.files h f' → s'.threads = s.threads.set t (.ret o :: rest) →
      FilesStep s s' t (.fileOp h op) rest

/-- What a step does to the open archives. -/
inductive ArchivesStep (s s' : Sys) : Stage → Prop where
  | same {top} : s'.archives = s.archives → ArchivesStep s s' top
  | store (a : ArchiveHandle) (id : Nat) : s'.archives = insertKey s.archives id a → ArchivesStep s s' (.storeArchive a id)
  | remove (h : Nat) : s'.archives = setKey s.archives h none → ArchivesStep s s' (.remove h)

/-- The handles about to be stored by the new stages of the thread are old ones or a fresh one. -/
def StackStep (s s' : Sys) (t : Nat) (top : Stage) (rest : List Stage) : Prop :=
  (s'.threads = s.threads ∧ s'.next = s.next) ∨
  ∃ new, s'.threads = s.threads.set t new ∧ s.next ≤ s'.next ∧ ∀ g ∈ new, ∀ id ∈ g.storeIds,
    (∃ g' ∈ rest, id ∈ g'.storeIds) ∨ (id ∈ top.storeIds ∧ s'.files = s.files ∧ s'.archives = s.archives) ∨
      (id = s.next ∧ s'.next = s.next + 1 ∧ s'.files = s.files ∧ s'.archives = s.archives)

theorem stepStage_effects {x : FfiEnv} {s s' : Sys} {t : Nat} {top : Stage} {rest : List Stage}
    (hs : s.stepStage x t rest top = some s') :
    FilesStep s s' t top rest ∧ ArchivesStep s s' top ∧ StackStep s s' t top rest := by
  have habort : FilesStep s s.abort t top rest ∧ ArchivesStep s s.abort top ∧ StackStep s s.abort t top rest :=
    ⟨.same rfl, .same rfl, .inl ⟨rfl, rfl⟩⟩
  -- one new stage that stores nothing, over the old ones
  have stack : ∀ (s1 : Sys) (g : Stage), s1.threads = s.threads → s1.next = s.next → g.storeIds = [] →
      StackStep s (s1.setStack t (g :: rest)) t top rest := by
    intro s1 g h1 h2 h3
    refine .inr ⟨g :: rest, by simp only [Sys.setStack, h1], by simp only [Sys.setStack, h2]; exact Nat.le_refl _, ?_⟩
    intro g' hg id hid
    rcases List.mem_cons.1 hg with h4 | h4
    · subst h4; rw [h3] at hid; cases hid
    · exact .inl ⟨g', h4, hid⟩
  have plain : ∀ (s1 : Sys) (g : Stage), s1.threads = s.threads → s1.next = s.next → s1.files = s.files →
      s1.archives = s.archives → g.storeIds = [] → FilesStep s (s1.setStack t (g :: rest)) t top rest ∧
        ArchivesStep s (s1.setStack t (g :: rest)) top ∧ StackStep s (s1.setStack t (g :: rest)) t top rest :=
    fun s1 g h1 h2 h3 h4 h5 => ⟨.same h3, .same h4, stack s1 g h1 h2 h5⟩
  -- two new stages that store nothing
  have plain2 : ∀ (g g2 : Stage), g.storeIds = [] → g2.storeIds = [] → FilesStep s (s.setStack t (g :: g2 :: rest)) t top rest ∧
        ArchivesStep s (s.setStack t (g :: g2 :: rest)) top ∧ StackStep s (s.setStack t (g :: g2 :: rest)) t top rest := by
    intro g g2 h1 h2
    refine ⟨.same rfl, .same rfl, .inr ⟨g :: g2 :: rest, rfl, Nat.le_refl _, ?_⟩⟩
    intro g' hg id hid
    rcases List.mem_cons.1 hg with h4 | h4
    · subst h4; rw [h1] at hid; cases hid
    · rcases List.mem_cons.1 h4 with h5 | h5
      · subst h5; rw [h2] at hid; cases hid
      · exact .inl ⟨g', h5, hid⟩
  cases top with
  | lock l k =>
    simp only [Sys.stepStage] at hs
    split at hs
    · cases hs
      refine ⟨.same rfl, .same rfl, .inr ⟨_, rfl, Nat.le_refl _, ?_⟩⟩
      intro g hg id hid
      rcases List.mem_cons.1 hg with h4 | h4
      · subst h4; exact .inr (.inl ⟨hid, rfl, rfl⟩)
      · exact .inl ⟨g, h4, hid⟩
    · cases hs
  | ret o =>
    cases hs
    refine ⟨.same rfl, .same rfl, .inr ⟨_, rfl, Nat.le_refl _, ?_⟩⟩
    intro g hg id hid
    unfold resume at hg
    split at hg
    · rcases List.mem_cons.1 hg with h4 | h4
      · subst h4; cases hid
      · exact .inl ⟨g, List.mem_cons_of_mem _ h4, hid⟩
    · exact .inl ⟨g, hg, hid⟩
  | crash => cases hs; exact habort
  | takeArchiveId a =>
    simp only [Sys.stepStage] at hs
    split at hs
    · cases hs
      refine ⟨.same rfl, .same rfl, .inr ⟨_, rfl, Nat.le_succ _, ?_⟩⟩
      intro g hg id hid
      rcases List.mem_cons.1 hg with h4 | h4
      · subst h4
        simp only [Stage.storeIds, List.mem_singleton] at hid
        exact .inr (.inr ⟨hid, rfl, rfl, rfl⟩)
      · exact .inl ⟨g, h4, hid⟩
    · cases hs; exact habort
  | storeArchive a id => cases hs; exact ⟨.same rfl, .store a id rfl, stack _ _ rfl rfl rfl⟩
  | purge h => cases hs; exact ⟨.purge h rfl, .same rfl, stack _ _ rfl rfl rfl⟩
  | remove h => cases hs; exact ⟨.same rfl, .remove h rfl, stack _ _ rfl rfl rfl⟩
  | lookup h name =>
    simp only [Sys.stepStage] at hs
    split at hs
    · cases hs; exact plain _ _ rfl rfl rfl rfl rfl
    · rcases orAbort_cases (Option.some.inj hs) with h1 | ⟨v, _, h1⟩
      · subst h1; exact habort
      · split at h1
        · subst h1; exact plain _ _ rfl rfl rfl rfl rfl
        · subst h1; exact plain _ _ rfl rfl rfl rfl rfl
        · rcases orAbort_cases h1.symm with h2 | ⟨v, _, h2⟩
          · subst h2; exact habort
          · split at h2
            · subst h2; exact plain _ _ rfl rfl rfl rfl rfl
            · subst h2; exact plain _ _ rfl rfl rfl rfl rfl
  | takeFileId f =>
    simp only [Sys.stepStage] at hs
    split at hs
    · cases hs
      refine ⟨.same rfl, .same rfl, .inr ⟨_, rfl, Nat.le_succ _, ?_⟩⟩
      intro g hg id hid
      rcases List.mem_cons.1 hg with h4 | h4
      · subst h4
        simp only [Stage.storeIds, List.mem_singleton] at hid
        exact .inr (.inr ⟨hid, rfl, rfl, rfl⟩)
      · exact .inl ⟨g, h4, hid⟩
    · cases hs; exact habort
  | storeFile f id => cases hs; exact ⟨.store f id rfl, .same rfl, stack _ _ rfl rfl rfl⟩
  | leaveOpen id => cases hs; exact plain _ _ rfl rfl rfl rfl rfl
  | fileOp h op =>
    simp only [Sys.stepStage] at hs
    split at hs
    · cases hs; exact plain _ _ rfl rfl rfl rfl rfl
    · rename_i f hf
      rcases orAbort_cases (Option.some.inj hs) with h1 | ⟨⟨o, f'⟩, hv, h1⟩
      · subst h1; exact habort
      · subst h1
        exact ⟨.op h op f o f' hf hv rfl rfl, .same rfl, stack _ _ rfl rfl rfl⟩
  | archOp h op =>
    simp only [Sys.stepStage] at hs
    split at hs
    · cases hs; exact plain _ _ rfl rfl rfl rfl rfl
    · rcases orAbort_cases (Option.some.inj hs) with h1 | ⟨o, hv, h1⟩
      · subst h1; exact habort
      · subst h1; exact plain _ _ rfl rfl rfl rfl rfl
  | fileInfo h c n =>
    simp only [Sys.stepStage] at hs
    split at hs
    · cases hs; exact plain _ _ rfl rfl rfl rfl rfl
    · cases hs; exact plain _ _ rfl rfl rfl rfl rfl
  | archInfo h c n =>
    simp only [Sys.stepStage] at hs
    split at hs
    · cases hs; exact plain _ _ rfl rfl rfl rfl rfl
    · rcases orAbort_cases (Option.some.inj hs) with h1 | ⟨o, hv, h1⟩
      · subst h1; exact habort
      · subst h1; exact plain _ _ rfl rfl rfl rfl rfl
  | enumList h mask calls goOn =>
    simp only [Sys.stepStage] at hs
    split at hs
    · cases hs; exact plain _ _ rfl rfl rfl rfl rfl
    · rcases orAbort_cases (Option.some.inj hs) with h1 | ⟨o, hv, h1⟩
      · subst h1; exact habort
      · subst h1; exact plain _ _ rfl rfl rfl rfl rfl
  | enumNext names calls goOn =>
    cases names with
    | nil => cases hs; exact plain _ _ rfl rfl rfl rfl rfl
    | cons name names => cases hs; exact plain _ _ rfl rfl rfl rfl rfl
  | enumCallback name pending names calls goOn =>
    cases pending with
    | nil =>
      simp only [Sys.stepStage] at hs
      split at hs
      · cases hs; exact plain _ _ rfl rfl rfl rfl rfl
      · cases hs; exact plain _ _ rfl rfl rfl rfl rfl
    | cons c pending => cases hs; exact plain2 _ _ (start_storeIds c) rfl
  | verifyList h flags =>
    simp only [Sys.stepStage] at hs
    split at hs
    · cases hs; exact plain _ _ rfl rfl rfl rfl rfl
    · rcases orAbort_cases (Option.some.inj hs) with h1 | ⟨v, hv, h1⟩
      · subst h1; exact habort
      · split at h1
        · subst h1; exact plain _ _ rfl rfl rfl rfl rfl
        · subst h1; exact plain _ _ rfl rfl rfl rfl rfl
  | verifyNext h files =>
    cases files with
    | nil => cases hs; exact plain _ _ rfl rfl rfl rfl rfl
    | cons file files => cases hs; exact plain2 _ _ (start_storeIds _) rfl
  | verifyResult h o files =>
    simp only [Sys.stepStage] at hs
    split at hs
    · cases hs; exact plain _ _ rfl rfl rfl rfl rfl
    · cases hs; exact plain _ _ rfl rfl rfl rfl rfl

/-! ## Handles are stored once -/

theorem nodup_flatMap_index {α β : Type} {F : α → List β} : ∀ {l : List α}, (l.flatMap F).Nodup → ∀ {i j : Nat} {a b : α} {v : β},
    l[i]? = some a → l[j]? = some b → v ∈ F a → v ∈ F b → i = j
  | [], _, i, j, a, b, v, hi, _, _, _ => by simp at hi
  | c :: l, hn, i, j, a, b, v, hi, hj, ha, hb => by
    rw [List.flatMap_cons, List.nodup_append] at hn
    cases i with
    | zero =>
      cases j with
      | zero => rfl
      | succ j =>
        simp only [List.getElem?_cons_zero, Option.some.injEq] at hi
        subst hi
        exact absurd rfl (hn.2.2 v ha v (List.mem_flatMap.2 ⟨b, List.mem_of_getElem? (by simpa using hj), hb⟩))
    | succ i =>
      cases j with
      | zero =>
        simp only [List.getElem?_cons_zero, Option.some.injEq] at hj
        subst hj
        exact absurd rfl (hn.2.2 v hb v (List.mem_flatMap.2 ⟨a, List.mem_of_getElem? (by simpa using hi), ha⟩))
      | succ j =>
        exact congrArg (· + 1) (nodup_flatMap_index hn.2.1 (by simpa using hi) (by simpa using hj) ha hb)

/-- A handle about to be returned by the innermost call of a thread belongs to no other call. -/
theorem top_id_unique {s : Sys} {t : Nat} {top : Stage} {rest : List Stage} {id : Nat} (hg : s.GoodIds)
    (ht : s.threads[t]? = some (top :: rest)) (htop : id ∈ top.ids) :
    (∀ g ∈ rest, id ∉ g.ids) ∧ ∀ u st, s.threads[u]? = some st → u ≠ t → ∀ g ∈ st, id ∉ g.ids := by
  have hn := (List.nodup_append.1 hg.1).2.1
  have hin : id ∈ (fun st : List Stage => st.flatMap Stage.ids) (top :: rest) :=
    List.mem_flatMap.2 ⟨top, List.mem_cons_self, htop⟩
  refine ⟨fun g hgr hid => ?_, fun u st hu hne g hgs hid => hne ?_⟩
  · have hone : ((top :: rest).flatMap Stage.ids).Nodup :=
      (List.pairwise_flatMap.1 hn).1 _ (List.mem_of_getElem? ht)
    obtain ⟨k, hk⟩ := List.mem_iff_getElem?.1 hgr
    have := nodup_flatMap_index hone (i := 0) (j := k + 1) rfl (by simpa using hk) htop hid
    omega
  · exact nodup_flatMap_index hn hu ht (List.mem_flatMap.2 ⟨g, hgs, hid⟩) hin

/-- What holds of the handles of open files and archives: they were given out, no handle is both, and a handle about to be
stored is not in use. -/
structure Sys.GoodMaps (s : Sys) : Prop where
  good : s.GoodIds
  file : ∀ id f, s.files id = some f → id < s.next
  archive : ∀ id a, s.archives id = some a → id < s.next
  kinds : ∀ id f a, s.files id = some f → s.archives id = some a → False
  fresh : s.AllStages fun g => ∀ id ∈ g.storeIds, s.files id = none ∧ s.archives id = none

theorem goodMaps_init (n : Nat) : (Sys.init n).GoodMaps :=
  ⟨goodIds_init n, fun _ _ h => (by cases h), fun _ _ h => (by cases h), fun _ _ _ h => (by cases h), allStages_init n⟩

theorem stepStage_goodIds {x : FfiEnv} {s s' : Sys} {t : Nat} {top : Stage} {rest : List Stage} (hg : s.GoodIds)
    (hr : s.aborted = false) (ht : s.threads[t]? = some (top :: rest)) (hs : s.stepStage x t rest top = some s') : s'.GoodIds := by
  refine goodIds_moves (x := x) (allowed := fun _ => True) (.step t (.refl _) ?_) hg
  unfold Sys.step
  rw [hr, ht]
  simpa using hs

/-- The stages after a step. -/
theorem mem_after {s s' : Sys} {t : Nat} {old new st : List Stage} (ht : s.threads[t]? = some old)
    (hth : s'.threads = s.threads.set t new) (hst : st ∈ s'.threads) :
    st = new ∨ ∃ u, u ≠ t ∧ s.threads[u]? = some st := by
  rw [hth] at hst
  obtain ⟨u, hu⟩ := List.mem_iff_getElem?.1 hst
  rw [List.getElem?_set] at hu
  split at hu
  · split at hu
    · cases hu; exact .inl rfl
    · cases hu
  · rename_i hne
    exact .inr ⟨u, fun e => hne e.symm, hu⟩

theorem stepStage_goodMaps {x : FfiEnv} {s s' : Sys} {t : Nat} {top : Stage} {rest : List Stage} (hg : s.GoodMaps)
    (hr : s.aborted = false) (ht : s.threads[t]? = some (top :: rest)) (hs : s.stepStage x t rest top = some s') :
    s'.GoodMaps := by
  have hgood := stepStage_goodIds hg.good hr ht hs
  obtain ⟨hf, ha, hst⟩ := stepStage_effects hs
  have hnext : s.next ≤ s'.next := by
    rcases hst with ⟨_, h⟩ | ⟨_, _, h, _⟩
    · omega
    · exact h
  obtain ⟨htopfresh, hrestfresh⟩ := allStages_rest hg.fresh ht
  -- where the files after the step come from
  have hfrom : ∀ id f, s'.files id = some f → (∃ f0, s.files id = some f0) ∨ ∃ f, top = .storeFile f id := by
    intro id f h
    cases hf with
    | same e => exact .inl ⟨f, by rw [← e]; exact h⟩
    | purge k e =>
      rw [e] at h
      cases hk : s.files id with
      | none => simp only [hk] at h; cases h
      | some g => exact .inl ⟨g, rfl⟩
    | store f0 k e =>
      rw [e] at h
      unfold insertKey at h
      split at h
      · rename_i hid; subst hid; exact .inr ⟨_, rfl⟩
      · exact .inl ⟨f, h⟩
    | op k op f0 o f' h0 h1 e _ =>
      rw [e] at h
      unfold setKey at h
      split at h
      · rename_i hid; subst hid; exact .inl ⟨f0, h0⟩
      · exact .inl ⟨f, h⟩
  have hfroma : ∀ id a, s'.archives id = some a → s.archives id = some a ∨ ∃ a, top = .storeArchive a id := by
    intro id a h
    cases ha with
    | same e => exact .inl (by rw [← e]; exact h)
    | store a0 k e =>
      rw [e] at h
      unfold insertKey at h
      split at h
      · rename_i hid; subst hid; exact .inr ⟨_, rfl⟩
      · exact .inl h
    | remove k e =>
      rw [e] at h
      unfold setKey at h
      split at h
      · cases h
      · exact .inl h
  have htopnext : ∀ id ∈ top.ids, id < s.next := fun id hid =>
    (hg.good.2.1 id (List.mem_append_right _ (List.mem_flatMap.2 ⟨_, List.mem_of_getElem? ht,
      List.mem_flatMap.2 ⟨top, List.mem_cons_self, hid⟩⟩))).2
  refine ⟨hgood, ?_, ?_, ?_, ?_⟩
  · intro id f h
    rcases hfrom id f h with ⟨f0, h0⟩ | ⟨f0, h0⟩
    · exact Nat.lt_of_lt_of_le (hg.file id f0 h0) hnext
    · subst h0; exact Nat.lt_of_lt_of_le (htopnext id (by simp [Stage.ids])) hnext
  · intro id a h
    rcases hfroma id a h with h0 | ⟨f0, h0⟩
    · exact Nat.lt_of_lt_of_le (hg.archive id a h0) hnext
    · subst h0; exact Nat.lt_of_lt_of_le (htopnext id (by simp [Stage.ids])) hnext
  · intro id f a h1 h2
    rcases hfrom id f h1 with ⟨f0, h0⟩ | ⟨f0, h0⟩
    · rcases hfroma id a h2 with h3 | ⟨a0, h3⟩
      · exact hg.kinds id f0 a h0 h3
      · subst h3
        have := (htopfresh id (by simp [Stage.storeIds])).1
        rw [h0] at this; cases this
    · rcases hfroma id a h2 with h3 | ⟨a0, h3⟩
      · subst h0
        have := (htopfresh id (by simp [Stage.storeIds])).2
        rw [h3] at this; cases this
      · rw [h0] at h3; cases h3
  · -- a handle about to be stored after the step
    have key : ∀ id, id < s.next → s.files id = none → s.archives id = none → id ∉ top.storeIds →
        s'.files id = none ∧ s'.archives id = none := by
      intro id _ h1 h2 h3
      refine ⟨?_, ?_⟩
      · cases hk : s'.files id with
        | none => rfl
        | some f =>
          rcases hfrom id f hk with ⟨f0, h0⟩ | ⟨f0, h0⟩
          · rw [h1] at h0; cases h0
          · subst h0; exact absurd (by simp [Stage.storeIds]) h3
      · cases hk : s'.archives id with
        | none => rfl
        | some a =>
          rcases hfroma id a hk with h0 | ⟨a0, h0⟩
          · rw [h2] at h0; cases h0
          · subst h0; exact absurd (by simp [Stage.storeIds]) h3
    have hlt : ∀ st ∈ s.threads, ∀ g ∈ st, ∀ id ∈ g.storeIds, id < s.next := fun st hst g hgm id hid =>
      (hg.good.2.1 id (List.mem_append_right _ (List.mem_flatMap.2 ⟨st, hst, List.mem_flatMap.2 ⟨g, hgm, storeIds_ids hid⟩⟩))).2
    rcases hst with ⟨hth, hn⟩ | ⟨new, hth, hn, hnew⟩
    · -- aborted, nothing changed
      intro st hst g hgm id hid
      rw [hth] at hst
      by_cases h3 : id ∈ top.storeIds
      · -- the only way to leave the stacks alone is to abort
        have hsame : s'.files = s.files ∧ s'.archives = s.archives := by
          have hne : top.storeIds ≠ [] := fun e => by rw [e] at h3; cases h3
          refine ⟨?_, ?_⟩
          · cases hf with
            | same e => exact e
            | purge k e => exact absurd rfl hne
            | store f0 k e =>
              cases hs
              have := congrArg (fun l => l[t]?) hth
              simp only [Sys.setStack, Sys.release] at this
              rw [List.getElem?_set_self (List.getElem?_eq_some_iff.1 ht).1, ht] at this
              cases this
            | op k op f0 o f' h0 h1 e _ => exact absurd rfl hne
          · cases ha with
            | same e => exact e
            | store a0 k e =>
              cases hs
              have := congrArg (fun l => l[t]?) hth
              simp only [Sys.setStack, Sys.release] at this
              rw [List.getElem?_set_self (List.getElem?_eq_some_iff.1 ht).1, ht] at this
              cases this
            | remove k e => exact absurd rfl hne
        rw [hsame.1, hsame.2]
        exact hg.fresh st hst g hgm id hid
      · obtain ⟨h1, h2⟩ := hg.fresh st hst g hgm id hid
        exact key id (hlt st hst g hgm id hid) h1 h2 h3
    · intro st hst g hgm id hid
      rcases mem_after ht hth hst with h1 | ⟨u, hu, h1⟩
      · subst h1
        rcases hnew g hgm id hid with ⟨g', hg', hid'⟩ | ⟨hid', e1, e2⟩ | ⟨hid', _, e1, e2⟩
        · obtain ⟨h1, h2⟩ := hrestfresh g' hg' id hid'
          refine key id (hlt _ (List.mem_of_getElem? ht) g' (List.mem_cons_of_mem _ hg') id hid') h1 h2 ?_
          intro h3
          exact (top_id_unique hg.good ht (storeIds_ids h3)).1 g' hg' (storeIds_ids hid')
        · rw [e1, e2]; exact htopfresh id hid'
        · rw [e1, e2]
          refine ⟨?_, ?_⟩
          · cases hk : s.files id with
            | none => rfl
            | some f => have := hg.file id f hk; omega
          · cases hk : s.archives id with
            | none => rfl
            | some f => have := hg.archive id f hk; omega
      · obtain ⟨h2, h3⟩ := hg.fresh st (List.mem_of_getElem? h1) g hgm id hid
        refine key id (hlt st (List.mem_of_getElem? h1) g hgm id hid) h2 h3 ?_
        intro h4
        exact (top_id_unique hg.good ht (storeIds_ids h4)).2 u st h1 hu g hgm (storeIds_ids hid)

theorem goodMaps_moves {x : FfiEnv} {allowed : Call → Prop} {s s' : Sys} (hm : Sys.Moves x allowed s s') (h : s.GoodMaps) :
    s'.GoodMaps := by
  refine hm.keeps h ?_ ?_
  · intro s s' t hg hs
    obtain ⟨hr, top, rest, ht, hs⟩ := step_some hs
    exact stepStage_goodMaps hg hr ht hs
  · intro s s' t c hg _ hb
    have hgood := goodIds_moves (x := x) (allowed := fun _ => True) (.begin t c (.refl _) trivial hb) hg.good
    obtain ⟨_, ht, rfl⟩ := begin_some hb
    exact ⟨hgood, hg.file, hg.archive, hg.kinds,
      allStages_set hg.fresh rfl (all_cons (by rw [start_storeIds]; simp) (by simp))⟩

/-! ## Calls that leave a file alone -/

/-- A call that is not on file `id` and does not close archive `h`, not even from a callback. -/
inductive Call.Spares (id h : Nat) : Call → Prop where
  | openArchive (path opened) : Spares id h (.openArchive path opened)
  | closeArchive (h') : h' ≠ h → Spares id h (.closeArchive h')
  | openFile (h' name) : Spares id h (.openFile h' name)
  | onFile (id' op) : id' ≠ id → Spares id h (.onFile id' op)
  | onArchive (h' op) : Spares id h (.onArchive h' op)
  | getInfo (h' cls n) : Spares id h (.getInfo h' cls n)
  | enumFiles (h' mask calls goOn) : (∀ name, ∀ c ∈ calls name, Spares id h c) → Spares id h (.enumFiles h' mask calls goOn)
  | verifyArchive (h' flags) : Spares id h (.verifyArchive h' flags)

/-- A stage of such a call. -/
def Stage.Spares (id h : Nat) : Stage → Prop
  | .lock _ k => k.Spares id h
  | .purge h' => h' ≠ h
  | .fileOp id' _ => id' ≠ id
  | .enumList _ _ calls _ => ∀ name, ∀ c ∈ calls name, c.Spares id h
  | .enumNext _ calls _ => ∀ name, ∀ c ∈ calls name, c.Spares id h
  | .enumCallback _ pending _ calls _ => (∀ c ∈ pending, c.Spares id h) ∧ ∀ name, ∀ c ∈ calls name, c.Spares id h
  | _ => True

theorem start_spares {id h : Nat} {c : Call} (hc : c.Spares id h) : c.start.Spares id h := by
  cases hc with
  | openArchive path opened =>
    unfold Call.start
    split <;> first | trivial | (split <;> trivial)
  | closeArchive h' hne =>
    simp only [Call.start]
    split
    · trivial
    · exact hne
  | onFile id' op hne =>
    simp only [Call.start]
    split
    · trivial
    · exact hne
  | enumFiles h' mask calls goOn hc =>
    simp only [Call.start]
    split
    · trivial
    · exact hc
  | _ => simp only [Call.start]; split <;> trivial

/-- The stack after a step of a call that spares the file, and the results. -/
theorem stepStage_spares {x : FfiEnv} {s s' : Sys} {t id h : Nat} {top : Stage} {rest : List Stage} (htop : top.Spares id h)
    (hrest : ∀ g ∈ rest, g.Spares id h) (hs : s.stepStage x t rest top = some s') :
    (s'.threads = s.threads ∨ ∃ new, s'.threads = s.threads.set t new ∧ ∀ g ∈ new, g.Spares id h) ∧
      (s'.results = s.results ∨ ∃ o, top = .ret o ∧ s'.results = (t, o) :: s.results) := by
  have habort : (s.abort.threads = s.threads ∨ ∃ new, s.abort.threads = s.threads.set t new ∧ ∀ g ∈ new, g.Spares id h) ∧
      (s.abort.results = s.results ∨ ∃ o, top = .ret o ∧ s.abort.results = (t, o) :: s.results) :=
    ⟨.inl rfl, .inl rfl⟩
  have same : ∀ (s1 : Sys) (new : List Stage), s1.threads = s.threads → s1.results = s.results → (∀ g ∈ new, g.Spares id h) →
      ((s1.setStack t new).threads = s.threads ∨ ∃ new', (s1.setStack t new).threads = s.threads.set t new' ∧
        ∀ g ∈ new', g.Spares id h) ∧
      ((s1.setStack t new).results = s.results ∨ ∃ o, top = .ret o ∧ (s1.setStack t new).results = (t, o) :: s.results) :=
    fun s1 new h1 h2 h3 => ⟨.inr ⟨new, by simp only [Sys.setStack, h1], h3⟩, .inl h2⟩
  cases top with
  | lock l k =>
    simp only [Sys.stepStage] at hs
    split at hs
    · cases hs; exact same _ _ rfl rfl (all_cons htop hrest)
    · cases hs
  | ret o =>
    cases hs
    exact ⟨.inr ⟨_, rfl, resume_all hrest (fun _ _ _ => trivial)⟩, .inr ⟨o, rfl, rfl⟩⟩
  | crash => cases hs; exact habort
  | takeArchiveId a =>
    simp only [Sys.stepStage] at hs
    split at hs
    · cases hs; exact same _ _ rfl rfl (all_cons trivial hrest)
    · cases hs; exact habort
  | storeArchive a i => cases hs; exact same _ _ rfl rfl (all_cons trivial hrest)
  | purge h' => cases hs; exact same _ _ rfl rfl (all_cons trivial hrest)
  | remove h' => cases hs; exact same _ _ rfl rfl (all_cons trivial hrest)
  | lookup h' name =>
    simp only [Sys.stepStage] at hs
    split at hs
    · cases hs; exact same _ _ rfl rfl (all_cons trivial hrest)
    · rcases orAbort_cases (Option.some.inj hs) with h1 | ⟨v, _, h1⟩
      · subst h1; exact habort
      · split at h1
        · subst h1; exact same _ _ rfl rfl (all_cons trivial hrest)
        · subst h1; exact same _ _ rfl rfl (all_cons trivial hrest)
        · rcases orAbort_cases h1.symm with h2 | ⟨v, _, h2⟩
          · subst h2; exact habort
          · split at h2
            · subst h2; exact same _ _ rfl rfl (all_cons trivial hrest)
            · subst h2; exact same _ _ rfl rfl (all_cons trivial hrest)
  | takeFileId f =>
    simp only [Sys.stepStage] at hs
    split at hs
    · cases hs; exact same _ _ rfl rfl (all_cons trivial hrest)
    · cases hs; exact habort
  | storeFile f i => cases hs; exact same _ _ rfl rfl (all_cons trivial hrest)
  | leaveOpen i => cases hs; exact same _ _ rfl rfl (all_cons trivial hrest)
  | fileOp h' op =>
    simp only [Sys.stepStage] at hs
    split at hs
    · cases hs; exact same _ _ rfl rfl (all_cons trivial hrest)
    · rcases orAbort_cases (Option.some.inj hs) with h1 | ⟨⟨o, f'⟩, hv, h1⟩
      · subst h1; exact habort
      · subst h1; exact same _ _ rfl rfl (all_cons trivial hrest)
  | archOp h' op =>
    simp only [Sys.stepStage] at hs
    split at hs
    · cases hs; exact same _ _ rfl rfl (all_cons trivial hrest)
    · rcases orAbort_cases (Option.some.inj hs) with h1 | ⟨o, hv, h1⟩
      · subst h1; exact habort
      · subst h1; exact same _ _ rfl rfl (all_cons trivial hrest)
  | fileInfo h' c n =>
    simp only [Sys.stepStage] at hs
    split at hs
    · cases hs; exact same _ _ rfl rfl (all_cons trivial hrest)
    · cases hs; exact same _ _ rfl rfl (all_cons trivial hrest)
  | archInfo h' c n =>
    simp only [Sys.stepStage] at hs
    split at hs
    · cases hs; exact same _ _ rfl rfl (all_cons trivial hrest)
    · rcases orAbort_cases (Option.some.inj hs) with h1 | ⟨o, hv, h1⟩
      · subst h1; exact habort
      · subst h1; exact same _ _ rfl rfl (all_cons trivial hrest)
  | enumList h' mask calls goOn =>
    simp only [Sys.stepStage] at hs
    split at hs
    · cases hs; exact same _ _ rfl rfl (all_cons trivial hrest)
    · rcases orAbort_cases (Option.some.inj hs) with h1 | ⟨o, hv, h1⟩
      · subst h1; exact habort
      · subst h1; exact same _ _ rfl rfl (all_cons htop hrest)
  | enumNext names calls goOn =>
    cases names with
    | nil => cases hs; exact same _ _ rfl rfl (all_cons trivial hrest)
    | cons name names => cases hs; exact same _ _ rfl rfl (all_cons ⟨htop name, htop⟩ hrest)
  | enumCallback name pending names calls goOn =>
    cases pending with
    | nil =>
      simp only [Sys.stepStage] at hs
      split at hs
      · cases hs; exact same _ _ rfl rfl (all_cons htop.2 hrest)
      · cases hs; exact same _ _ rfl rfl (all_cons trivial hrest)
    | cons c pending =>
      cases hs
      exact same _ _ rfl rfl (all_cons (start_spares (htop.1 c List.mem_cons_self))
        (all_cons ⟨fun c' hc' => htop.1 c' (List.mem_cons_of_mem _ hc'), htop.2⟩ hrest))
  | verifyList h' flags =>
    simp only [Sys.stepStage] at hs
    split at hs
    · cases hs; exact same _ _ rfl rfl (all_cons trivial hrest)
    · rcases orAbort_cases (Option.some.inj hs) with h1 | ⟨v, hv, h1⟩
      · subst h1; exact habort
      · split at h1
        · subst h1; exact same _ _ rfl rfl (all_cons trivial hrest)
        · subst h1; exact same _ _ rfl rfl (all_cons trivial hrest)
  | verifyNext h' files =>
    cases files with
    | nil => cases hs; exact same _ _ rfl rfl (all_cons trivial hrest)
    | cons file files =>
      cases hs
      exact same _ _ rfl rfl (all_cons (start_spares (.onArchive _ _)) (all_cons trivial hrest))
  | verifyResult h' o files =>
    simp only [Sys.stepStage] at hs
    split at hs
    · cases hs; exact same _ _ rfl rfl (all_cons trivial hrest)
    · cases hs; exact same _ _ rfl rfl (all_cons trivial hrest)

/-- Handle `id` was given out and nothing is going to be stored under it. -/
def Sys.Used (id : Nat) (s : Sys) : Prop := id < s.next ∧ s.AllStages fun g => id ∉ g.storeIds

theorem used_of_file {s : Sys} {id : Nat} {f : FileHandle} (hg : s.GoodMaps) (hf : s.files id = some f) : s.Used id :=
  ⟨hg.file id f hf, fun st hst g hgm hid => by
    have := (hg.fresh st hst g hgm id hid).1
    rw [hf] at this; cases this⟩

theorem stepStage_used {x : FfiEnv} {s s' : Sys} {t id : Nat} {top : Stage} {rest : List Stage} (hu : s.Used id)
    (ht : s.threads[t]? = some (top :: rest)) (hs : s.stepStage x t rest top = some s') : s'.Used id := by
  obtain ⟨_, _, hst⟩ := stepStage_effects hs
  obtain ⟨h1, h2⟩ := allStages_rest hu.2 ht
  rcases hst with ⟨hth, hn⟩ | ⟨new, hth, hn, hnew⟩
  · exact ⟨by rw [hn]; exact hu.1, fun st hst => by rw [hth] at hst; exact hu.2 st hst⟩
  · refine ⟨Nat.lt_of_lt_of_le hu.1 hn, fun st hst g hgm hid => ?_⟩
    rcases mem_after ht hth hst with h3 | ⟨u, _, h3⟩
    · subst h3
      rcases hnew g hgm id hid with ⟨g', hg', hid'⟩ | ⟨hid', _⟩ | ⟨hid', _⟩
      · exact h2 g' hg' hid'
      · exact h1 hid'
      · have := hu.1; omega
    · exact hu.2 st (List.mem_of_getElem? h3) g hgm hid

theorem used_begin {s : Sys} {t id : Nat} {c : Call} (hu : s.Used id) : (s.setStack t [c.start]).Used id :=
  ⟨hu.1, allStages_set hu.2 rfl (all_cons (by rw [start_storeIds]; simp) (by simp))⟩

theorem used_moves {x : FfiEnv} {allowed : Call → Prop} {s s' : Sys} {id : Nat} (hm : Sys.Moves x allowed s s')
    (h : s.Used id) : s'.Used id := by
  refine hm.keeps h ?_ ?_
  · intro s s' t hu hs
    obtain ⟨_, top, rest, ht, hs⟩ := step_some hs
    exact stepStage_used hu ht hs
  · intro s s' t c hu _ hb
    obtain ⟨_, _, rfl⟩ := begin_some hb
    exact used_begin hu

/-- A step of a call that spares file `id` of archive `h`. -/
theorem stepStage_file_kept {x : FfiEnv} {s s' : Sys} {t id h : Nat} {top : Stage} {rest : List Stage} (hu : s.Used id)
    (hh : ∀ f, s.files id = some f → f.archiveHandle = h) (ht : s.threads[t]? = some (top :: rest)) (htop : top.Spares id h)
    (hs : s.stepStage x t rest top = some s') : s'.files id = s.files id := by
  obtain ⟨hf, _, _⟩ := stepStage_effects hs
  cases hf with
  | same e => rw [e]
  | purge k e =>
    rw [e]
    cases hk : s.files id with
    | none => simp only [hk]
    | some f =>
      simp only [hk]
      rw [if_neg]
      rw [hh f hk]
      exact fun e => htop e.symm
  | store f k e =>
    rw [e, insertKey, if_neg]
    rintro rfl
    exact (allStages_rest hu.2 ht).1 (by simp [Stage.storeIds])
  | op k op f o f' h0 h1 e _ =>
    rw [e, setKey, if_neg]
    exact fun e => htop e.symm

end Mopaq
