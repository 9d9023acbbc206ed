import Verif.Lemmas.FfiIsolation
import Verif.Props.Ffi

/-! # The C API under any interleaving: open files do not influence each other (C52) -/

namespace Mopaq

/-- C41: in every state that any number of threads can reach, no handle stands for an open archive and an open file at
the same time. -/
theorem C41_kinds_apart (x : FfiEnv) (n : Nat) (s : Sys) (hm : Sys.Moves x anyCall (Sys.init n) s) (id : Nat) :
    s.files id = none ∨ s.archives id = none := by
  have hg := goodMaps_moves hm (goodMaps_init n)
  cases hf : s.files id with
  | none => exact .inl rfl
  | some f =>
    cases ha : s.archives id with
    | none => exact .inr rfl
    | some a => exact (hg.kinds id f a hf ha).elim

/-- No call under way is on file `id` or closes archive `h`. -/
def Sys.Sparing (id h : Nat) (s : Sys) : Prop := s.AllStages (Stage.Spares id h)

theorem sparing_step {x : FfiEnv} {s s' : Sys} {t id h : Nat} {top : Stage} {rest : List Stage} (hsp : s.Sparing id h)
    (ht : s.threads[t]? = some (top :: rest)) (hs : s.stepStage x t rest top = some s') : s'.Sparing id h := by
  obtain ⟨h1, h2⟩ := allStages_rest hsp ht
  rcases (stepStage_spares h1 h2 hs).1 with hth | ⟨new, hth, hnew⟩
  · intro st hst; rw [hth] at hst; exact hsp st hst
  · intro st hst
    rcases mem_after ht hth hst with h3 | ⟨u, _, h3⟩
    · subst h3; exact hnew
    · exact hsp st (List.mem_of_getElem? h3)

/-- The file (if any) under `id` stays as it is while all calls leave it alone. -/
theorem spared_moves {x : FfiEnv} {s s' : Sys} {id h : Nat} (hm : Sys.Moves x (Call.Spares id h) s s') (hu : s.Used id)
    (hsp : s.Sparing id h) (hh : ∀ f, s.files id = some f → f.archiveHandle = h) :
    s'.Used id ∧ s'.Sparing id h ∧ s'.files id = s.files id := by
  refine hm.keeps (P := fun s' => s'.Used id ∧ s'.Sparing id h ∧ s'.files id = s.files id) ⟨hu, hsp, rfl⟩ ?_ ?_
  · rintro s1 s2 t ⟨h1, h2, h3⟩ hs
    obtain ⟨_, top, rest, ht, hs⟩ := step_some hs
    refine ⟨stepStage_used h1 ht hs, sparing_step h2 ht hs, ?_⟩
    rw [stepStage_file_kept h1 (fun f hf => hh f (by rw [← h3]; exact hf)) ht (allStages_rest h2 ht).1 hs]
    exact h3
  · rintro s1 s2 t c ⟨h1, h2, h3⟩ hc hb
    obtain ⟨_, _, rfl⟩ := begin_some hb
    exact ⟨used_begin h1, allStages_set h2 rfl (all_cons (start_spares hc) (by simp)), h3⟩

/-- C52: an open file is touched by nothing but calls on its own handle and the closing of its archive. In any state that
can be reached in which no such call is under way, and whatever other calls any number of threads then make, in callbacks
too, and however they interleave: content, position, name and size of the file stay the same. -/
theorem C52_others_leave_file_alone (x : FfiEnv) (n : Nat) (s s' : Sys) (id : Nat) (f : FileHandle)
    (hreach : Sys.Moves x anyCall (Sys.init n) s) (hf : s.files id = some f) (hidle : s.Sparing id f.archiveHandle)
    (hm : Sys.Moves x (Call.Spares id f.archiveHandle) s s') : s'.files id = some f := by
  have hg := goodMaps_moves hreach (goodMaps_init n)
  have := (spared_moves hm (used_of_file hg hf) hidle (fun g hg => by rw [hf] at hg; cases hg; rfl)).2.2
  rw [this, hf]

/-- C52: a handle that was valid for a file and no longer is (the file or its archive was closed) never becomes valid again,
for any calls in any interleaving. -/
theorem C52_closed_stays_closed (x : FfiEnv) (n : Nat) (s s1 s2 : Sys) (id : Nat) (f : FileHandle)
    (hreach : Sys.Moves x anyCall (Sys.init n) s) (hf : s.files id = some f) (h1 : Sys.Moves x anyCall s s1)
    (hgone : s1.files id = none) (h2 : Sys.Moves x anyCall s1 s2) : s2.files id = none := by
  have hg := goodMaps_moves hreach (goodMaps_init n)
  have hu := used_moves h1 (used_of_file hg hf)
  refine (h2.keeps (P := fun s => s.Used id ∧ s.files id = none) ⟨hu, hgone⟩ ?_ ?_).2
  · rintro s s' t ⟨hu, hn⟩ hs
    obtain ⟨_, top, rest, ht, hs⟩ := step_some hs
    refine ⟨stepStage_used hu ht hs, ?_⟩
    obtain ⟨hf, _, _⟩ := stepStage_effects hs
    cases hf with
    | same e => rw [e, hn]
    | purge k e => simp only [e, hn]
    | store g k e =>
      rw [e, insertKey, if_neg]
      · exact hn
      · rintro rfl
        exact (allStages_rest hu.2 ht).1 (by simp [Stage.storeIds])
    | op k op g o f' h0 _ e _ =>
      rw [e, setKey, if_neg]
      · exact hn
      · rintro rfl; rw [hn] at h0; cases h0
  · rintro s s' t c ⟨hu, hn⟩ _ hb
    obtain ⟨_, _, rfl⟩ := begin_some hb
    exact ⟨used_begin hu, hn⟩

/-- All threads but `t` leave the file alone. -/
def Sys.SparingBut (t id h : Nat) (s : Sys) : Prop :=
  ∀ u st, s.threads[u]? = some st → u ≠ t → ∀ g ∈ st, g.Spares id h

/-- How far the call of thread `t` on file `id` has come. -/
inductive CallPhase (s0 : Sys) (t id : Nat) (op : FileOp) (f : FileHandle) (s : Sys) : Prop where
  | waiting (earlier : List (Nat × Outcome)) : (s.threads[t]? = some [.lock .files (.fileOp id op)] ∨
      s.threads[t]? = some [.fileOp id op]) → s.SparingBut t id f.archiveHandle → s.files id = some f →
      s.results = earlier ++ s0.results → (∀ r ∈ earlier, r.1 ≠ t) → CallPhase s0 t id op f s
  | done (earlier : List (Nat × Outcome)) (o : Outcome) (f' : Option FileHandle) : op.run f = .ok (o, f') →
      s.threads[t]? = some [.ret o] → s.SparingBut t id f.archiveHandle → s.files id = f' →
      s.results = earlier ++ s0.results → (∀ r ∈ earlier, r.1 ≠ t) → CallPhase s0 t id op f s
  | returned (later earlier : List (Nat × Outcome)) (o : Outcome) (f' : Option FileHandle) : op.run f = .ok (o, f') →
      s.Sparing id f.archiveHandle → s.files id = f' → s.results = later ++ (t, o) :: (earlier ++ s0.results) →
      (∀ r ∈ earlier, r.1 ≠ t) → CallPhase s0 t id op f s

/-- A step of another thread. -/
theorem other_step {x : FfiEnv} {s s' : Sys} {t u id h : Nat} {top : Stage} {rest : List Stage} (hsp : s.SparingBut t id h)
    (ht : s.threads[u]? = some (top :: rest)) (hut : u ≠ t) (hs : s.stepStage x u rest top = some s') :
    s'.SparingBut t id h ∧ s'.threads[t]? = s.threads[t]? ∧
      (s'.results = s.results ∨ ∃ o, s'.results = (u, o) :: s.results) := by
  have h0 := hsp u _ ht hut
  obtain ⟨hth, hres⟩ := stepStage_spares (h0 top List.mem_cons_self) (fun g hg => h0 g (List.mem_cons_of_mem _ hg)) hs
  have hres' : s'.results = s.results ∨ ∃ o, s'.results = (u, o) :: s.results := by
    rcases hres with h | ⟨o, _, h⟩
    · exact .inl h
    · exact .inr ⟨o, h⟩
  rcases hth with hth | ⟨new, hth, hnew⟩
  · exact ⟨fun v st hv => by rw [hth] at hv; exact hsp v st hv, by rw [hth], hres'⟩
  · refine ⟨fun v st hv hvt g hg => ?_, ?_, hres'⟩
    · rw [hth, List.getElem?_set] at hv
      split at hv
      · split at hv
        · cases hv; exact hnew g hg
        · cases hv
      · exact hsp v st hv hvt g hg
    · rw [hth, List.getElem?_set, if_neg hut]

theorem earlier_cons {t u : Nat} {r0 r r' : List (Nat × Outcome)} {earlier : List (Nat × Outcome)} (hut : u ≠ t)
    (hr : r = earlier ++ r0) (he : ∀ e ∈ earlier, e.1 ≠ t) (h : r' = r ∨ ∃ o, r' = (u, o) :: r) :
    ∃ earlier', r' = earlier' ++ r0 ∧ ∀ e ∈ earlier', e.1 ≠ t := by
  rcases h with h | ⟨o, h⟩
  · exact ⟨earlier, by rw [h, hr], he⟩
  · refine ⟨(u, o) :: earlier, by rw [h, hr]; rfl, ?_⟩
    intro e hm
    rcases List.mem_cons.1 hm with h1 | h1
    · subst h1; exact hut
    · exact he e h1

theorem callPhase_step {x : FfiEnv} {s0 s s' : Sys} {t u id : Nat} {op : FileOp} {f : FileHandle} (hu : s.Used id)
    (hp : CallPhase s0 t id op f s) (hs : s.step x u = some s') : CallPhase s0 t id op f s' := by
  obtain ⟨hrun, top, rest, ht, hs⟩ := step_some hs
  have hlt := (List.getElem?_eq_some_iff.1 ht).1
  cases hp with
  | waiting earlier hw hsp hf hr he =>
    by_cases hut : u = t
    · subst hut
      rcases hw with hw | hw
      · rw [ht] at hw; cases hw
        simp only [Sys.stepStage] at hs
        split at hs
        · cases hs
          refine .waiting earlier (.inr ?_) ?_ hf hr he
          · exact List.getElem?_set_self hlt
          · intro v st hv hvt
            simp only [Sys.setStack, Sys.acquire] at hv
            rw [List.getElem?_set, if_neg (fun e => hvt e.symm)] at hv
            exact hsp v st hv hvt
        · cases hs
      · rw [ht] at hw; cases hw
        simp only [Sys.stepStage, hf] at hs
        rcases orAbort_cases (Option.some.inj hs) with h1 | ⟨⟨o, f'⟩, hv, h1⟩
        · subst h1; exact .waiting earlier (.inr ht) hsp hf hr he
        · subst h1
          refine .done earlier o f' hv (List.getElem?_set_self hlt) ?_ ?_ hr he
          · intro v st hv hvt
            simp only [Sys.setStack, Sys.release] at hv
            rw [List.getElem?_set, if_neg (fun e => hvt e.symm)] at hv
            exact hsp v st hv hvt
          · simp [Sys.setStack, Sys.release, setKey]
    · obtain ⟨h1, h2, h3⟩ := other_step hsp ht hut hs
      obtain ⟨earlier', hr', he'⟩ := earlier_cons hut hr he h3
      refine .waiting earlier' (by rw [h2]; exact hw) h1 ?_ hr' he'
      rw [stepStage_file_kept hu (fun g hg => by rw [hf] at hg; cases hg; rfl) ht (hsp u _ ht hut top List.mem_cons_self) hs]
      exact hf
  | done earlier o f' hv hw hsp hf hr he =>
    have harch : ∀ g, s.files id = some g → g.archiveHandle = f.archiveHandle := by
      intro g hg
      rw [hf] at hg
      subst hg
      exact (fileOp_keeps_archive hv).1
    by_cases hut : u = t
    · subst hut
      rw [ht] at hw; cases hw
      cases hs
      refine .returned [] earlier o f' hv ?_ hf (by simp [Sys.setStack, hr]) he
      intro st hst g hg
      rcases mem_after (s' := ({ s with results := (u, o) :: s.results } : Sys).setStack u (resume o [])) ht rfl hst with
        h1 | ⟨v, hvu, h1⟩
      · subst h1; cases hg
      · exact hsp v st h1 hvu g hg
    · obtain ⟨h1, h2, h3⟩ := other_step hsp ht hut hs
      obtain ⟨earlier', hr', he'⟩ := earlier_cons hut hr he h3
      refine .done earlier' o f' hv (by rw [h2]; exact hw) h1 ?_ hr' he'
      rw [stepStage_file_kept hu harch ht (hsp u _ ht hut top List.mem_cons_self) hs]
      exact hf
  | returned later earlier o f' hv hsp hf hr he =>
    have harch : ∀ g, s.files id = some g → g.archiveHandle = f.archiveHandle := by
      intro g hg
      rw [hf] at hg
      subst hg
      exact (fileOp_keeps_archive hv).1
    obtain ⟨h1, h2⟩ := allStages_rest hsp ht
    have hf' : s'.files id = f' := by rw [stepStage_file_kept hu harch ht h1 hs]; exact hf
    rcases (stepStage_spares h1 h2 hs).2 with h3 | ⟨o', _, h3⟩
    · exact .returned later earlier o f' hv (sparing_step hsp ht hs) hf' (by rw [h3, hr]) he
    · exact .returned ((u, o') :: later) earlier o f' hv (sparing_step hsp ht hs) hf' (by rw [h3, hr]; rfl) he

theorem callPhase_begin {s0 s s' : Sys} {t u id : Nat} {op : FileOp} {f : FileHandle} {c : Call}
    (hp : CallPhase s0 t id op f s) (hc : c.Spares id f.archiveHandle) (hb : s.begin u c = some s') :
    CallPhase s0 t id op f s' := by
  obtain ⟨hrun, ht, rfl⟩ := begin_some hb
  have other : ∀ stack, s.threads[t]? = some (stack) → stack ≠ [] → s.SparingBut t id f.archiveHandle →
      (s.setStack u [c.start]).threads[t]? = some stack ∧ (s.setStack u [c.start]).SparingBut t id f.archiveHandle := by
    intro stack h1 h2 h3
    have hut : u ≠ t := by
      rintro rfl
      rw [ht] at h1
      exact h2 (Option.some.inj h1).symm
    refine ⟨by simp only [Sys.setStack]; rw [List.getElem?_set, if_neg hut]; exact h1, ?_⟩
    intro v st hv hvt g hg
    simp only [Sys.setStack] at hv
    rw [List.getElem?_set] at hv
    split at hv
    · split at hv
      · cases hv
        rcases List.mem_cons.1 hg with h4 | h4
        · subst h4; exact start_spares hc
        · cases h4
      · cases hv
    · exact h3 v st hv hvt g hg
  cases hp with
  | waiting earlier hw hsp hf hr he =>
    rcases hw with hw | hw
    · obtain ⟨h1, h2⟩ := other _ hw (by simp) hsp
      exact .waiting earlier (.inl h1) h2 hf hr he
    · obtain ⟨h1, h2⟩ := other _ hw (by simp) hsp
      exact .waiting earlier (.inr h1) h2 hf hr he
  | done earlier o f' hv hw hsp hf hr he =>
    obtain ⟨h1, h2⟩ := other _ hw (by simp) hsp
    exact .done earlier o f' hv h1 h2 hf hr he
  | returned later earlier o f' hv hsp hf hr he =>
    exact .returned later earlier o f' hv (allStages_set hsp rfl (all_cons (start_spares hc) (by simp))) hf hr he

/-- C52: a call on an open file has the effect and the result it would have if nothing else went on. Thread `t` reads,
seeks, asks for size or name, or closes the file, while any number of other threads make any calls that are not on this file
and do not close its archive, in any interleaving. Once thread `t` is back from the call, its result and the file
afterwards are those of the operation on the file as it was before, and the situation is the one before, so the same
holds for the next call. -/
theorem C52_call_isolated (x : FfiEnv) (n : Nat) (s s1 s' : Sys) (t id : Nat) (op : FileOp) (f : FileHandle)
    (hreach : Sys.Moves x anyCall (Sys.init n) s) (hf : s.files id = some f) (hidle : s.Sparing id f.archiveHandle)
    (hb : s.begin t (.onFile id op) = some s1) (hm : Sys.Moves x (Call.Spares id f.archiveHandle) s1 s')
    (hback : s'.threads[t]? = some []) :
    ∃ o f' later earlier, op.run f = .ok (o, f') ∧ s'.files id = f' ∧
      s'.results = later ++ (t, o) :: (earlier ++ s.results) ∧ (∀ r ∈ earlier, r.1 ≠ t) ∧
      s'.Sparing id f.archiveHandle := by
  have hg := goodMaps_moves hreach (goodMaps_init n)
  have hu := used_of_file hg hf
  have hid : id ≠ 0 := by
    -- the null handle is never given out
    have h0 : ∀ {s : Sys}, Sys.Moves x anyCall (Sys.init n) s → s.files 0 = none := by
      intro s hm
      refine (hm.keeps (P := fun s => s.GoodIds ∧ s.files 0 = none) ⟨goodIds_init n, rfl⟩ ?_ ?_).2
      · rintro s s' t ⟨hg, hn⟩ hs
        obtain ⟨hr, top, rest, ht, hs⟩ := step_some hs
        refine ⟨stepStage_goodIds hg hr ht hs, ?_⟩
        obtain ⟨hf, _, _⟩ := stepStage_effects hs
        cases hf with
        | same e => rw [e, hn]
        | purge k e => simp only [e, hn]
        | store g k e =>
          rw [e, insertKey, if_neg]
          · exact hn
          · rintro rfl
            have := (hg.2.1 0 (List.mem_append_right _ (List.mem_flatMap.2 ⟨_, List.mem_of_getElem? ht,
              List.mem_flatMap.2 ⟨_, List.mem_cons_self, by simp [Stage.ids]⟩⟩))).1
            omega
        | op k op g o f' h0 _ e _ =>
          rw [e, setKey, if_neg]
          · exact hn
          · rintro rfl; rw [hn] at h0; cases h0
      · rintro s s' t c ⟨hg, hn⟩ _ hb
        refine ⟨goodIds_moves (x := x) (allowed := fun _ => True) (.begin t c (.refl _) trivial hb) hg, ?_⟩
        obtain ⟨_, _, rfl⟩ := begin_some hb
        exact hn
    rintro rfl
    rw [h0 hreach] at hf; cases hf
  have hphase : CallPhase s t id op f s1 := by
    obtain ⟨_, ht, rfl⟩ := begin_some hb
    refine .waiting [] (.inl ?_) ?_ hf rfl (by simp)
    · simp only [Sys.setStack]
      rw [List.getElem?_set_self (List.getElem?_eq_some_iff.1 ht).1]
      simp only [Call.start, if_neg hid]
    · intro v st hv hvt g hg
      simp only [Sys.setStack] at hv
      rw [List.getElem?_set, if_neg (fun e => hvt e.symm)] at hv
      exact hidle st (List.mem_of_getElem? hv) g hg
  have hu1 : s1.Used id := by
    obtain ⟨_, _, rfl⟩ := begin_some hb
    exact used_begin hu
  have hend := (hm.keeps (P := fun s' => s'.Used id ∧ CallPhase s t id op f s') ⟨hu1, hphase⟩ (by
    rintro s1 s2 u ⟨h1, h2⟩ hs
    refine ⟨?_, callPhase_step h1 h2 hs⟩
    obtain ⟨_, top, rest, ht, hs⟩ := step_some hs
    exact stepStage_used h1 ht hs) (by
    rintro s1 s2 u c ⟨h1, h2⟩ hc hb
    refine ⟨?_, callPhase_begin h2 hc hb⟩
    obtain ⟨_, _, rfl⟩ := begin_some hb
    exact used_begin h1)).2
  cases hend with
  | waiting earlier hw _ _ _ _ => rw [hback] at hw; rcases hw with hw | hw <;> cases hw
  | done earlier o f' _ hw _ _ _ _ => rw [hback] at hw; cases hw
  | returned later earlier o f' hv hsp hf hr he => exact ⟨o, f', later, earlier, hv, hf, hr, he, hsp⟩

/-! ## A state with an open file -/

/-- Thread 0 opens an archive and a file of it: handles 1 and 2. -/
theorem opened_file (x : FfiEnv) (a : Archive) (name data : List Byte) (info : FileInfo)
    (hf : a.findFile name = .ok (some info)) (hr : a.readFile x.env name = .ok data) :
    Sys.Moves x anyCall (Sys.init 2) (twoThreads 3 (insertKey (fun _ => none) 1 ⟨a, []⟩)
      (insertKey (fun _ => none) 2 ⟨1, name, data, 0, info.fileSize⟩) none none none [] []
      [(0, .ok (.handle 2)), (0, .ok (.handle 1))]) := by
  let sA := ((Sys.init 2).play x (raceOpening a name)).getD (Sys.init 0)
  have hA : (Sys.init 2).play x (raceOpening a name) = some sA := rfl
  have hB := lookup_step (x := x) (s := sA) (t := 0) (h := 1) (name := name) (data := data) (rest := []) (a := ⟨a, []⟩)
    (info := info) rfl rfl rfl hf hr
  have hB' : sA.setStack 0 [.lock .next (.takeFileId ⟨1, name, data, 0, info.fileSize⟩)] =
      twoThreads 2 (insertKey (fun _ => none) 1 ⟨a, []⟩) (fun _ => none) none (some 0) none
        [.lock .next (.takeFileId ⟨1, name, data, 0, info.fileSize⟩)] [] [(0, .ok (.handle 1))] :=
    twoThreads_eq rfl rfl rfl rfl rfl rfl rfl rfl rfl
  rw [hB'] at hB
  have hm := Sys.Moves.step 0 (play_moves (allowed := anyCall) _ (fun _ _ _ => trivial) hA) hB
  generalize (⟨1, name, data, 0, info.fileSize⟩ : FileHandle) = f at *
  generalize (insertKey (fun _ => none) 1 ⟨a, []⟩ : Nat → Option ArchiveHandle) = ar at *
  generalize hfs : (fun _ => none : Nat → Option FileHandle) = fs at *
  generalize [((0 : Nat), (.ok (.handle 1) : Outcome))] = results at *
  have e3 : (twoThreads 2 ar fs none (some 0) none [.lock .next (.takeFileId f)] [] results).step x 0 =
      some (twoThreads 2 ar fs (some 0) (some 0) none [.takeFileId f] [] results) :=
    two_step rfl rfl rfl rfl rfl rfl rfl rfl rfl rfl rfl rfl
  have e4 : (twoThreads 2 ar fs (some 0) (some 0) none [.takeFileId f] [] results).step x 0 =
      some (twoThreads 3 ar fs none (some 0) none [.lock .files (.storeFile f 2)] [] results) :=
    two_step rfl rfl rfl rfl rfl rfl rfl rfl rfl rfl rfl rfl
  have e5 : (twoThreads 3 ar fs none (some 0) none [.lock .files (.storeFile f 2)] [] results).step x 0 =
      some (twoThreads 3 ar fs none (some 0) (some 0) [.storeFile f 2] [] results) :=
    two_step rfl rfl rfl rfl rfl rfl rfl rfl rfl rfl rfl rfl
  have e6 : (twoThreads 3 ar fs none (some 0) (some 0) [.storeFile f 2] [] results).step x 0 =
      some (twoThreads 3 ar (insertKey fs 2 f) none (some 0) none [.leaveOpen 2] [] results) :=
    two_step rfl rfl rfl rfl rfl rfl rfl rfl rfl rfl rfl rfl
  have e7 : (twoThreads 3 ar (insertKey fs 2 f) none (some 0) none [.leaveOpen 2] [] results).step x 0 =
      some (twoThreads 3 ar (insertKey fs 2 f) none none none [.ret (.ok (.handle 2))] [] results) :=
    two_step rfl rfl rfl rfl rfl rfl rfl rfl rfl rfl rfl rfl
  have e8 : (twoThreads 3 ar (insertKey fs 2 f) none none none [.ret (.ok (.handle 2))] [] results).step x 0 =
      some (twoThreads 3 ar (insertKey fs 2 f) none none none [] [] ((0, .ok (.handle 2)) :: results)) :=
    two_step rfl rfl rfl rfl rfl rfl rfl rfl rfl rfl rfl rfl
  exact .step 0 (.step 0 (.step 0 (.step 0 (.step 0 (.step 0 hm e3) e4) e5) e6) e7) e8

/-- With a file open (any archive, any file in it), thread 1 reads 7 bytes while thread 0 is in a call on the archive. -/
example (x : FfiEnv) (a : Archive) (name data : List Byte) (info : FileInfo)
    (hf : a.findFile name = .ok (some info)) (hr : a.readFile x.env name = .ok data) :
    ∃ s s1 s' f, Sys.Moves x anyCall (Sys.init 2) s ∧ s.files 2 = some f ∧ f.data = data ∧ s.Sparing 2 f.archiveHandle ∧
      s.begin 1 (.onFile 2 (.read 7#32)) = some s1 ∧ Sys.Moves x (Call.Spares 2 f.archiveHandle) s1 s' ∧
      s'.threads[1]? = some [] ∧ s'.threads[0]? ≠ some [] := by
  have hm := opened_file x a name data info hf hr
  generalize hfd : (⟨1, name, data, 0, info.fileSize⟩ : FileHandle) = f at *
  generalize (insertKey (fun _ => none) 1 ⟨a, []⟩ : Nat → Option ArchiveHandle) = ar at *
  generalize [((0 : Nat), (.ok (.handle 2) : Outcome)), (0, .ok (.handle 1))] = results at *
  have hfs : (insertKey (fun _ => none) 2 f : Nat → Option FileHandle) 2 = some f := rfl
  generalize (insertKey (fun _ => none) 2 f : Nat → Option FileHandle) = fs at *
  have hread : FileOp.run (.read 7#32) f = .ok (.ok (.bytes (data.take 7)),
      some ⟨1, name, data, min 7 data.length, info.fileSize⟩) := by
    rw [← hfd, FileOp.run, C42_read_piece _ _ (Nat.zero_le _)]
    simp only [bind, Except.bind, List.drop_zero, Nat.zero_add]
    rfl
  generalize (⟨1, name, data, min 7 data.length, info.fileSize⟩ : FileHandle) = f2 at *
  generalize (.ok (.bytes (data.take 7)) : Outcome) = o at *
  have b0 : (twoThreads 3 ar fs none none none [] [] results).begin 1 (.onFile 2 (.read 7#32)) =
      some (twoThreads 3 ar fs none none none [] [.lock .files (.fileOp 2 (.read 7#32))] results) := rfl
  have b1 : (twoThreads 3 ar fs none none none [] [.lock .files (.fileOp 2 (.read 7#32))] results).begin 0
      (.onArchive 1 (.hasFile [])) = some (twoThreads 3 ar fs none none none [.lock .archives (.archOp 1 (.hasFile []))]
        [.lock .files (.fileOp 2 (.read 7#32))] results) := rfl
  have e1 : (twoThreads 3 ar fs none none none [.lock .archives (.archOp 1 (.hasFile []))]
      [.lock .files (.fileOp 2 (.read 7#32))] results).step x 1 = some (twoThreads 3 ar fs none none (some 1)
        [.lock .archives (.archOp 1 (.hasFile []))] [.fileOp 2 (.read 7#32)] results) :=
    two_step rfl rfl rfl rfl rfl rfl rfl rfl rfl rfl rfl rfl
  have e2 : (twoThreads 3 ar fs none none (some 1) [.lock .archives (.archOp 1 (.hasFile []))]
      [.fileOp 2 (.read 7#32)] results).step x 1 = some (twoThreads 3 ar (setKey fs 2 (some f2)) none none none
        [.lock .archives (.archOp 1 (.hasFile []))] [.ret o] results) := by
    rw [fileOp_step (rest := []) rfl rfl hfs hread]
    exact congrArg some (twoThreads_eq rfl rfl rfl rfl rfl rfl rfl rfl rfl)
  have e3 : (twoThreads 3 ar (setKey fs 2 (some f2)) none none none
        [.lock .archives (.archOp 1 (.hasFile []))] [.ret o] results).step x 1 = some (twoThreads 3 ar (setKey fs 2 (some f2))
        none none none [.lock .archives (.archOp 1 (.hasFile []))] [] ((1, o) :: results)) :=
    two_step rfl rfl rfl rfl rfl rfl rfl rfl rfl rfl rfl rfl
  refine ⟨_, _, _, f, hm, hfs, by rw [← hfd], ?_, b0, .step 1 (.step 1 (.step 1 (.begin 0 _ (.refl _) (.onArchive _ _) b1) e1) e2) e3,
    rfl, by simp [twoThreads]⟩
  intro st hst g hg
  have : st = [] := by
    simp only [twoThreads, List.mem_cons, List.not_mem_nil, or_false, or_self] at hst
    exact hst
  rw [this] at hg
  cases hg

end Mopaq
