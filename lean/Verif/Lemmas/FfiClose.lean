import Verif.Lemmas.Ffi

/-! # Lemmas on closing archives through the C API -/

namespace Mopaq

/-- Every stage of every call under way. -/
def Sys.AllStages (P : Stage → Prop) (s : Sys) : Prop := ∀ st ∈ s.threads, ∀ g ∈ st, P g

theorem allStages_set {P : Stage → Prop} {s s1 : Sys} {t : Nat} {new : List Stage} (h : s.AllStages P)
    (h1 : s1.threads = s.threads) (hn : ∀ g ∈ new, P g) : (s1.setStack t new).AllStages P := by
  intro st hst g hg
  simp only [Sys.setStack, h1] at hst
  rcases List.mem_or_eq_of_mem_set hst with h2 | h2
  · exact h st h2 g hg
  · subst h2; exact hn g hg

theorem allStages_rest {P : Stage → Prop} {s : Sys} {t : Nat} {top : Stage} {rest : List Stage} (h : s.AllStages P)
    (ht : s.threads[t]? = some (top :: rest)) : P top ∧ ∀ g ∈ rest, P g := by
  have hm := List.mem_of_getElem? ht
  exact ⟨h _ hm top List.mem_cons_self, fun g hg => h _ hm g (List.mem_cons_of_mem _ hg)⟩

theorem allStages_init {P : Stage → Prop} (n : Nat) : (Sys.init n).AllStages P := by
  intro st hst g hg
  simp only [Sys.init] at hst
  rw [List.eq_of_mem_replicate hst] at hg
  cases hg

theorem fileOp_keeps_archive {op : FileOp} {f f' : FileHandle} {o : Outcome} (h : op.run f = .ok (o, some f')) :
    f'.archiveHandle = f.archiveHandle ∧ f'.data = f.data := by
  cases op with
  | read n =>
    rw [FileOp.run] at h
    obtain ⟨⟨d, g⟩, hr, h⟩ := bind_eq_ok.1 h
    cases h
    unfold FileHandle.read at hr
    simp only [] at hr
    split at hr
    · cases hr; exact ⟨rfl, rfl⟩
    · split at hr
      · cases hr; exact ⟨rfl, rfl⟩
      · cases hr
  | size => cases h; exact ⟨rfl, rfl⟩
  | seek low high method =>
    rw [FileOp.run] at h
    obtain ⟨r, hr, h⟩ := bind_eq_ok.1 h
    cases r with
    | error c => cases h; exact ⟨rfl, rfl⟩
    | ok g =>
      cases h
      unfold FileHandle.seek at hr
      obtain ⟨target, _, hr⟩ := bind_eq_ok.1 hr
      cases target with
      | none => cases Except.ok.inj hr
      | some pos =>
        have := Except.ok.inj (Except.ok.inj hr)
        subst this
        exact ⟨rfl, rfl⟩
  | name => cases h; exact ⟨rfl, rfl⟩
  | close => cases h

/-- No file of archive `h` is open. -/
def Sys.NoFiles (h : Nat) (s : Sys) : Prop := ∀ id f, s.files id = some f → f.archiveHandle ≠ h

theorem noFiles_insert {h id : Nat} {m : Nat → Option FileHandle} {f : FileHandle}
    (hm : ∀ id f, m id = some f → f.archiveHandle ≠ h) (hf : f.archiveHandle ≠ h) (j : Nat) (g : FileHandle)
    (hj : insertKey m id f j = some g) : g.archiveHandle ≠ h := by
  unfold insertKey at hj
  split at hj
  · cases hj; exact hf
  · exact hm j g hj

theorem noFiles_set {h id : Nat} {m : Nat → Option FileHandle} {f' : Option FileHandle}
    (hm : ∀ id f, m id = some f → f.archiveHandle ≠ h) (hf : ∀ g, f' = some g → g.archiveHandle ≠ h) (j : Nat) (g : FileHandle)
    (hj : setKey m id f' j = some g) : g.archiveHandle ≠ h := by
  unfold setKey at hj
  split at hj
  · exact hf g hj
  · exact hm j g hj

/-- A stage that is not about to store archive `h` or a file of it. -/
def Stage.NoStore (h : Nat) : Stage → Prop
  | .lock _ k => k.NoStore h
  | .takeFileId f => f.archiveHandle ≠ h
  | .storeFile f _ => f.archiveHandle ≠ h
  | .storeArchive _ id => id ≠ h
  | _ => True

theorem start_noStore (h : Nat) (c : Call) : c.start.NoStore h := by
  unfold Call.start
  split <;> first | trivial | (split <;> trivial)

theorem resume_all {P : Stage → Prop} {o : Outcome} {rest : List Stage} (h : ∀ g ∈ rest, P g)
    (hv : ∀ h files, P (.verifyNext h files) → P (.verifyResult h o files)) : ∀ g ∈ resume o rest, P g := by
  unfold resume
  split
  · intro g hg
    rcases List.mem_cons.1 hg with h1 | h1
    · subst h1; exact hv _ _ (h _ List.mem_cons_self)
    · exact h g (List.mem_cons_of_mem _ h1)
  · exact h

/-- Archive `h` is closed, no file of it is open and none is being opened. -/
structure Sys.Closed (h : Nat) (s : Sys) : Prop where
  old : h < s.next
  archive : s.archives h = none
  files : s.NoFiles h
  stages : s.AllStages (Stage.NoStore h)

theorem all_cons {P : Stage → Prop} {g : Stage} {rest : List Stage} (h1 : P g) (h2 : ∀ g ∈ rest, P g) :
    ∀ g' ∈ g :: rest, P g' := by
  intro g' hg
  rcases List.mem_cons.1 hg with h | h
  · subst h; exact h1
  · exact h2 _ h

theorem stepStage_closed {x : FfiEnv} {s s' : Sys} {t h : Nat} {top : Stage} {rest : List Stage} (hc : s.Closed h)
    (ht : s.threads[t]? = some (top :: rest)) (hs : s.stepStage x t rest top = some s') : s'.Closed h := by
  obtain ⟨htop, hrest⟩ := allStages_rest hc.stages ht
  have habort : s.abort.Closed h := ⟨hc.old, hc.archive, hc.files, hc.stages⟩
  have same : ∀ (s1 : Sys) (new : List Stage), s1.next = s.next → s1.archives = s.archives → s1.files = s.files →
      s1.threads = s.threads → (∀ g ∈ new, g.NoStore h) → (s1.setStack t new).Closed h := by
    intro s1 new h1 h2 h3 h4 h5
    refine ⟨by simp only [Sys.setStack, h1]; exact hc.old, by simp only [Sys.setStack, h2]; exact hc.archive, ?_,
      allStages_set hc.stages h4 h5⟩
    intro id f hf
    simp only [Sys.setStack, h3] at hf
    exact hc.files id f hf
  cases top with
  | lock l k =>
    simp only [Sys.stepStage] at hs
    split at hs
    · cases hs; exact same _ _ rfl rfl rfl rfl (all_cons htop hrest)
    · cases hs
  | ret o =>
    cases hs
    exact same _ _ rfl rfl rfl rfl (resume_all hrest (fun _ _ _ => trivial))
  | crash => cases hs; exact habort
  | takeArchiveId a =>
    simp only [Sys.stepStage] at hs
    split at hs
    · cases hs
      refine ⟨?_, hc.archive, hc.files, allStages_set hc.stages rfl (all_cons ?_ hrest)⟩
      · have := hc.old
        simp only [Sys.setStack, Sys.release]; omega
      · have := hc.old
        show s.next ≠ h
        omega
    · cases hs; exact habort
  | storeArchive a id =>
    cases hs
    refine ⟨hc.old, ?_, hc.files, allStages_set hc.stages rfl (all_cons trivial hrest)⟩
    have : h ≠ id := fun e => htop e.symm
    simp only [Sys.setStack, Sys.release, insertKey, if_neg this]
    exact hc.archive
  | purge h' =>
    cases hs
    refine ⟨hc.old, hc.archive, ?_, allStages_set hc.stages rfl (all_cons trivial hrest)⟩
    intro id f hf
    simp only [Sys.setStack, Sys.release] at hf
    cases hk : s.files id with
    | none => rw [hk] at hf; cases hf
    | some g =>
      rw [hk] at hf
      simp only [] at hf
      split at hf
      · cases hf
      · cases hf; exact hc.files id f hk
  | remove h' =>
    cases hs
    refine ⟨hc.old, ?_, hc.files, allStages_set hc.stages rfl (all_cons trivial hrest)⟩
    simp only [Sys.setStack, Sys.release, setKey]
    split
    · rfl
    · exact hc.archive
  | lookup h' name =>
    simp only [Sys.stepStage] at hs
    split at hs
    · cases hs
      exact same _ _ rfl rfl rfl rfl (all_cons trivial hrest)
    · rename_i a ha
      have hne : h' ≠ h := fun e => by rw [e, hc.archive] at ha; cases ha
      rcases orAbort_cases (Option.some.inj hs) with h1 | ⟨v, _, h1⟩
      · subst h1; exact habort
      · split at h1
        · subst h1; exact same _ _ rfl rfl rfl rfl (all_cons trivial hrest)
        · subst h1; exact same _ _ rfl rfl rfl rfl (all_cons trivial hrest)
        · rcases orAbort_cases h1.symm with h2 | ⟨v, _, h2⟩
          · subst h2; exact habort
          · split at h2
            · subst h2; exact same _ _ rfl rfl rfl rfl (all_cons trivial hrest)
            · subst h2; exact same _ _ rfl rfl rfl rfl (all_cons hne hrest)
  | takeFileId f =>
    simp only [Sys.stepStage] at hs
    split at hs
    · cases hs
      refine ⟨?_, hc.archive, hc.files, allStages_set hc.stages rfl (all_cons htop hrest)⟩
      have := hc.old
      simp only [Sys.setStack, Sys.release]; omega
    · cases hs; exact habort
  | storeFile f id =>
    cases hs
    exact ⟨hc.old, hc.archive, noFiles_insert hc.files htop, allStages_set hc.stages rfl (all_cons trivial hrest)⟩
  | leaveOpen id => cases hs; exact same _ _ rfl rfl rfl rfl (all_cons trivial hrest)
  | fileOp h' op =>
    simp only [Sys.stepStage] at hs
    split at hs
    · cases hs; exact same _ _ rfl rfl rfl rfl (all_cons trivial hrest)
    · rename_i f hf
      rcases orAbort_cases (Option.some.inj hs) with h1 | ⟨⟨o, f'⟩, hv, h1⟩
      · subst h1; exact habort
      · subst h1
        refine ⟨hc.old, hc.archive, noFiles_set hc.files ?_, allStages_set hc.stages rfl (all_cons trivial hrest)⟩
        intro g hg
        subst hg
        rw [(fileOp_keeps_archive hv).1]
        exact hc.files h' f hf
  | archOp h' op =>
    simp only [Sys.stepStage] at hs
    split at hs
    · cases hs; exact same _ _ rfl rfl rfl rfl (all_cons trivial hrest)
    · rcases orAbort_cases (Option.some.inj hs) with h1 | ⟨o, hv, h1⟩
      · subst h1; exact habort
      · subst h1; exact same _ _ rfl rfl rfl rfl (all_cons trivial hrest)
  | fileInfo h' c n =>
    simp only [Sys.stepStage] at hs
    split at hs
    · cases hs; exact same _ _ rfl rfl rfl rfl (all_cons trivial hrest)
    · cases hs; exact same _ _ rfl rfl rfl rfl (all_cons trivial hrest)
  | archInfo h' c n =>
    simp only [Sys.stepStage] at hs
    split at hs
    · cases hs; exact same _ _ rfl rfl rfl rfl (all_cons trivial hrest)
    · rcases orAbort_cases (Option.some.inj hs) with h1 | ⟨o, hv, h1⟩
      · subst h1; exact habort
      · subst h1; exact same _ _ rfl rfl rfl rfl (all_cons trivial hrest)
  | enumList h' mask calls goOn =>
    simp only [Sys.stepStage] at hs
    split at hs
    · cases hs; exact same _ _ rfl rfl rfl rfl (all_cons trivial hrest)
    · rcases orAbort_cases (Option.some.inj hs) with h1 | ⟨o, hv, h1⟩
      · subst h1; exact habort
      · subst h1; exact same _ _ rfl rfl rfl rfl (all_cons trivial hrest)
  | enumNext names calls goOn =>
    cases names with
    | nil => cases hs; exact same _ _ rfl rfl rfl rfl (all_cons trivial hrest)
    | cons name names => cases hs; exact same _ _ rfl rfl rfl rfl (all_cons trivial hrest)
  | enumCallback name pending names calls goOn =>
    cases pending with
    | nil =>
      simp only [Sys.stepStage] at hs
      split at hs
      · cases hs; exact same _ _ rfl rfl rfl rfl (all_cons trivial hrest)
      · cases hs; exact same _ _ rfl rfl rfl rfl (all_cons trivial hrest)
    | cons c pending =>
      cases hs
      exact same _ _ rfl rfl rfl rfl (all_cons (start_noStore h c) (all_cons trivial hrest))
  | verifyList h' flags =>
    simp only [Sys.stepStage] at hs
    split at hs
    · cases hs; exact same _ _ rfl rfl rfl rfl (all_cons trivial hrest)
    · rcases orAbort_cases (Option.some.inj hs) with h1 | ⟨v, hv, h1⟩
      · subst h1; exact habort
      · split at h1
        · subst h1; exact same _ _ rfl rfl rfl rfl (all_cons trivial hrest)
        · subst h1; exact same _ _ rfl rfl rfl rfl (all_cons trivial hrest)
  | verifyNext h' files =>
    cases files with
    | nil => cases hs; exact same _ _ rfl rfl rfl rfl (all_cons trivial hrest)
    | cons file files =>
      cases hs
      exact same _ _ rfl rfl rfl rfl (all_cons (start_noStore h _) (all_cons trivial hrest))
  | verifyResult h' o files =>
    simp only [Sys.stepStage] at hs
    split at hs
    · cases hs; exact same _ _ rfl rfl rfl rfl (all_cons trivial hrest)
    · cases hs; exact same _ _ rfl rfl rfl rfl (all_cons trivial hrest)

theorem closed_moves {x : FfiEnv} {allowed : Call → Prop} {s s' : Sys} {h : Nat} (hm : Sys.Moves x allowed s s')
    (hc : s.Closed h) : s'.Closed h := by
  refine hm.keeps hc ?_ ?_
  · intro s s' t hc hs
    obtain ⟨_, top, rest, ht, hs⟩ := step_some hs
    exact stepStage_closed hc ht hs
  · intro s s' t c hc _ hs
    obtain ⟨_, ht, rfl⟩ := begin_some hs
    exact ⟨hc.old, hc.archive, hc.files, allStages_set hc.stages rfl (all_cons (start_noStore h c) (by simp))⟩

/-! ## While the archive is being closed -/

/-- A call that does not open a file of archive `h`, not even from a callback. -/
inductive Call.NoOpen (h : Nat) : Call → Prop where
  | openArchive (path opened) : NoOpen h (.openArchive path opened)
  | closeArchive (h') : NoOpen h (.closeArchive h')
  | openFile (h' name) : h' ≠ h → NoOpen h (.openFile h' name)
  | onFile (h' op) : NoOpen h (.onFile h' op)
  | onArchive (h' op) : NoOpen h (.onArchive h' op)
  | getInfo (h' cls n) : NoOpen h (.getInfo h' cls n)
  | enumFiles (h' mask calls goOn) : (∀ name, ∀ c ∈ calls name, NoOpen h c) → NoOpen h (.enumFiles h' mask calls goOn)
  | verifyArchive (h' flags) : NoOpen h (.verifyArchive h' flags)

/-- A stage of such a call. -/
def Stage.NoOpen (h : Nat) : Stage → Prop
  | .lock _ k => k.NoOpen h
  | .lookup h' _ => h' ≠ h
  | .takeFileId f => f.archiveHandle ≠ h
  | .storeFile f _ => f.archiveHandle ≠ h
  | .enumList _ _ calls _ => ∀ name, ∀ c ∈ calls name, c.NoOpen h
  | .enumNext _ calls _ => ∀ name, ∀ c ∈ calls name, c.NoOpen h
  | .enumCallback _ pending _ calls _ => (∀ c ∈ pending, c.NoOpen h) ∧ ∀ name, ∀ c ∈ calls name, c.NoOpen h
  | _ => True

theorem start_noOpen {h : Nat} {c : Call} (hc : c.NoOpen h) : c.start.NoOpen h := by
  cases hc with
  | openArchive path opened =>
    unfold Call.start
    split <;> first | trivial | (split <;> trivial)
  | openFile h' name hne =>
    simp only [Call.start]
    split
    · trivial
    · exact hne
  | enumFiles h' mask calls goOn hc =>
    simp only [Call.start]
    split
    · trivial
    · exact hc
  | _ => simp only [Call.start]; split <;> trivial

/-- `storeArchive` for another handle only. -/
def Stage.OtherArchive (h : Nat) : Stage → Prop
  | .lock _ k => k.OtherArchive h
  | .storeArchive _ id => id ≠ h
  | _ => True

theorem start_otherArchive (h : Nat) (c : Call) : c.start.OtherArchive h := by
  unfold Call.start
  split <;> first | trivial | (split <;> trivial)

/-- Both. -/
def Stage.Quiet (h : Nat) (g : Stage) : Prop := g.NoOpen h ∧ g.OtherArchive h

theorem quiet_noStore {h : Nat} : ∀ {g : Stage}, g.Quiet h → g.NoStore h
  | .lock _ k, hq => quiet_noStore (g := k) hq
  | .ret _, _ => trivial
  | .crash, _ => trivial
  | .takeArchiveId _, _ => trivial
  | .storeArchive _ _, hq => hq.2
  | .purge _, _ => trivial
  | .remove _, _ => trivial
  | .lookup _ _, _ => trivial
  | .takeFileId _, hq => hq.1
  | .storeFile _ _, hq => hq.1
  | .leaveOpen _, _ => trivial
  | .fileOp _ _, _ => trivial
  | .archOp _ _, _ => trivial
  | .fileInfo _ _ _, _ => trivial
  | .archInfo _ _ _, _ => trivial
  | .enumList _ _ _ _, _ => trivial
  | .enumNext _ _ _, _ => trivial
  | .enumCallback _ _ _ _ _, _ => trivial
  | .verifyList _ _, _ => trivial
  | .verifyNext _ _, _ => trivial
  | .verifyResult _ _ _, _ => trivial

/-- Nobody opens files of archive `h`, and `h` was given out before. -/
structure Sys.Quiet (h : Nat) (s : Sys) : Prop where
  old : h < s.next
  stages : s.AllStages (Stage.Quiet h)

/-- What a quiet step does: it stays quiet, files of `h` stay away and so does the archive, and the stacks of the other
threads stay. -/
structure QuietStep (h t : Nat) (s s' : Sys) : Prop where
  quiet : s'.Quiet h
  files : s.NoFiles h → s'.NoFiles h
  archive : s.archives h = none → s'.archives h = none
  others : ∀ u, u ≠ t → s'.threads[u]? = s.threads[u]?

theorem stepStage_quiet {x : FfiEnv} {s s' : Sys} {t h : Nat} {top : Stage} {rest : List Stage} (hc : s.Quiet h)
    (ht : s.threads[t]? = some (top :: rest)) (hs : s.stepStage x t rest top = some s') : QuietStep h t s s' := by
  obtain ⟨htop, hrest⟩ := allStages_rest hc.stages ht
  have habort : QuietStep h t s s.abort := ⟨⟨hc.old, hc.stages⟩, id, id, fun _ _ => rfl⟩
  have triv : ∀ {g : Stage}, Stage.NoOpen h g → Stage.OtherArchive h g → ∀ g' ∈ g :: rest, g'.Quiet h :=
    fun h1 h2 => all_cons ⟨h1, h2⟩ hrest
  have gen : ∀ (s1 : Sys) (new : List Stage), s.next ≤ s1.next → s1.threads = s.threads →
      (s.NoFiles h → s1.NoFiles h) → (s.archives h = none → s1.archives h = none) →
      (∀ g ∈ new, g.Quiet h) → QuietStep h t s (s1.setStack t new) := by
    intro s1 new h1 h4 h2 h3 h5
    refine ⟨⟨Nat.lt_of_lt_of_le hc.old h1, allStages_set hc.stages h4 h5⟩, h2, h3, ?_⟩
    intro u hu
    simp only [Sys.setStack, h4]
    exact List.getElem?_set_ne (Ne.symm hu)
  cases top with
  | lock l k =>
    simp only [Sys.stepStage] at hs
    split at hs
    · cases hs; exact gen _ _ (Nat.le_refl _) rfl id id (all_cons htop hrest)
    · cases hs
  | ret o =>
    cases hs
    exact gen _ _ (Nat.le_refl _) rfl id id (resume_all hrest (fun _ _ _ => ⟨trivial, trivial⟩))
  | crash => cases hs; exact habort
  | takeArchiveId a =>
    simp only [Sys.stepStage] at hs
    split at hs
    · cases hs
      refine gen _ _ (by simp only [Sys.release]; omega) rfl id id (triv trivial ?_)
      have := hc.old
      show s.next ≠ h
      omega
    · cases hs; exact habort
  | storeArchive a id' =>
    cases hs
    refine gen _ _ (Nat.le_refl _) rfl id ?_ (triv trivial trivial)
    have : h ≠ id' := fun e => htop.2 e.symm
    simp only [Sys.release, insertKey, if_neg this]
    exact fun h => h
  | purge h' =>
    cases hs
    refine gen _ _ (Nat.le_refl _) rfl ?_ id (triv trivial trivial)
    intro hf id f hf'
    simp only [Sys.release] at hf'
    cases hk : s.files id with
    | none => rw [hk] at hf'; cases hf'
    | some g =>
      rw [hk] at hf'
      simp only [] at hf'
      split at hf'
      · cases hf'
      · cases hf'; exact hf id f hk
  | remove h' =>
    cases hs
    refine gen _ _ (Nat.le_refl _) rfl id ?_ (triv trivial trivial)
    intro hn
    simp only [Sys.release, setKey]
    split
    · rfl
    · exact hn
  | lookup h' name =>
    simp only [Sys.stepStage] at hs
    split at hs
    · cases hs; exact gen _ _ (Nat.le_refl _) rfl id id (triv trivial trivial)
    · rcases orAbort_cases (Option.some.inj hs) with h1 | ⟨v, _, h1⟩
      · subst h1; exact habort
      · split at h1
        · subst h1; exact gen _ _ (Nat.le_refl _) rfl id id (triv trivial trivial)
        · subst h1; exact gen _ _ (Nat.le_refl _) rfl id id (triv trivial trivial)
        · rcases orAbort_cases h1.symm with h2 | ⟨v, _, h2⟩
          · subst h2; exact habort
          · split at h2
            · subst h2; exact gen _ _ (Nat.le_refl _) rfl id id (triv trivial trivial)
            · subst h2; exact gen _ _ (Nat.le_refl _) rfl id id (triv htop.1 trivial)
  | takeFileId f =>
    simp only [Sys.stepStage] at hs
    split at hs
    · cases hs
      exact gen _ _ (by simp only [Sys.release]; omega) rfl id id (triv htop.1 trivial)
    · cases hs; exact habort
  | storeFile f id' =>
    cases hs
    exact gen _ _ (Nat.le_refl _) rfl (fun hf => noFiles_insert hf htop.1) id (triv trivial trivial)
  | leaveOpen id' => cases hs; exact gen _ _ (Nat.le_refl _) rfl id id (triv trivial trivial)
  | fileOp h' op =>
    simp only [Sys.stepStage] at hs
    split at hs
    · cases hs; exact gen _ _ (Nat.le_refl _) rfl id id (triv trivial trivial)
    · rename_i f hf
      rcases orAbort_cases (Option.some.inj hs) with h1 | ⟨⟨o, f'⟩, hv, h1⟩
      · subst h1; exact habort
      · subst h1
        refine gen _ _ (Nat.le_refl _) rfl (fun hn => noFiles_set hn ?_) id (triv trivial trivial)
        intro g hg
        subst hg
        rw [(fileOp_keeps_archive hv).1]
        exact hn h' f hf
  | archOp h' op =>
    simp only [Sys.stepStage] at hs
    split at hs
    · cases hs; exact gen _ _ (Nat.le_refl _) rfl id id (triv trivial trivial)
    · rcases orAbort_cases (Option.some.inj hs) with h1 | ⟨o, hv, h1⟩
      · subst h1; exact habort
      · subst h1; exact gen _ _ (Nat.le_refl _) rfl id id (triv trivial trivial)
  | fileInfo h' c n =>
    simp only [Sys.stepStage] at hs
    split at hs
    · cases hs; exact gen _ _ (Nat.le_refl _) rfl id id (triv trivial trivial)
    · cases hs; exact gen _ _ (Nat.le_refl _) rfl id id (triv trivial trivial)
  | archInfo h' c n =>
    simp only [Sys.stepStage] at hs
    split at hs
    · cases hs; exact gen _ _ (Nat.le_refl _) rfl id id (triv trivial trivial)
    · rcases orAbort_cases (Option.some.inj hs) with h1 | ⟨o, hv, h1⟩
      · subst h1; exact habort
      · subst h1; exact gen _ _ (Nat.le_refl _) rfl id id (triv trivial trivial)
  | enumList h' mask calls goOn =>
    simp only [Sys.stepStage] at hs
    split at hs
    · cases hs; exact gen _ _ (Nat.le_refl _) rfl id id (triv trivial trivial)
    · rcases orAbort_cases (Option.some.inj hs) with h1 | ⟨o, hv, h1⟩
      · subst h1; exact habort
      · subst h1; exact gen _ _ (Nat.le_refl _) rfl id id (triv htop.1 trivial)
  | enumNext names calls goOn =>
    cases names with
    | nil => cases hs; exact gen _ _ (Nat.le_refl _) rfl id id (triv trivial trivial)
    | cons name names =>
      cases hs
      exact gen _ _ (Nat.le_refl _) rfl id id (triv (g := .enumCallback _ _ _ _ _) ⟨htop.1 name, htop.1⟩ trivial)
  | enumCallback name pending names calls goOn =>
    cases pending with
    | nil =>
      simp only [Sys.stepStage] at hs
      split at hs
      · cases hs; exact gen _ _ (Nat.le_refl _) rfl id id (triv htop.1.2 trivial)
      · cases hs; exact gen _ _ (Nat.le_refl _) rfl id id (triv trivial trivial)
    | cons c pending =>
      cases hs
      refine gen _ _ (Nat.le_refl _) rfl id id
        (all_cons ⟨start_noOpen (htop.1.1 c List.mem_cons_self), start_otherArchive h c⟩
          (triv (g := .enumCallback _ _ _ _ _) ⟨fun c hc => htop.1.1 c (List.mem_cons_of_mem _ hc), htop.1.2⟩ trivial))
  | verifyList h' flags =>
    simp only [Sys.stepStage] at hs
    split at hs
    · cases hs; exact gen _ _ (Nat.le_refl _) rfl id id (triv trivial trivial)
    · rcases orAbort_cases (Option.some.inj hs) with h1 | ⟨v, hv, h1⟩
      · subst h1; exact habort
      · split at h1
        · subst h1; exact gen _ _ (Nat.le_refl _) rfl id id (triv trivial trivial)
        · subst h1; exact gen _ _ (Nat.le_refl _) rfl id id (triv trivial trivial)
  | verifyNext h' files =>
    cases files with
    | nil => cases hs; exact gen _ _ (Nat.le_refl _) rfl id id (triv trivial trivial)
    | cons file files =>
      cases hs
      exact gen _ _ (Nat.le_refl _) rfl id id
        (all_cons ⟨start_noOpen (.onArchive _ _), start_otherArchive h _⟩ (triv trivial trivial))
  | verifyResult h' o files =>
    simp only [Sys.stepStage] at hs
    split at hs
    · cases hs; exact gen _ _ (Nat.le_refl _) rfl id id (triv trivial trivial)
    · cases hs; exact gen _ _ (Nat.le_refl _) rfl id id (triv trivial trivial)

/-- How far thread `t` is with closing archive `h`. -/
def Sys.Closing (t h : Nat) (s : Sys) : Prop :=
  s.threads[t]? = some [.lock .files (.purge h)] ∨ s.threads[t]? = some [.purge h] ∨
  (s.NoFiles h ∧ (s.threads[t]? = some [.lock .archives (.remove h)] ∨ s.threads[t]? = some [.remove h])) ∨
  (s.NoFiles h ∧ s.archives h = none)

theorem closing_step {x : FfiEnv} {s s' : Sys} {t u h : Nat} (hq : s.Quiet h) (hc : s.Closing t h)
    (hs : s.step x u = some s') : s'.Quiet h ∧ s'.Closing t h := by
  obtain ⟨_, top, rest, hu, hs⟩ := step_some hs
  have q := stepStage_quiet hq hu hs
  refine ⟨q.quiet, ?_⟩
  rcases hc with hc | hc | ⟨hf, hc⟩ | ⟨hf, hc⟩
  · by_cases htu : t = u
    · subst htu
      rw [hc] at hu
      cases hu
      simp only [Sys.stepStage] at hs
      split at hs
      · cases hs
        refine .inr (.inl ?_)
        simp only [Sys.setStack, Sys.acquire]
        rw [List.getElem?_set_self (List.getElem?_eq_some_iff.1 hc).1]
      · cases hs
    · exact .inl ((q.others t htu).trans hc)
  · by_cases htu : t = u
    · subst htu
      rw [hc] at hu
      cases hu
      cases hs
      refine .inr (.inr (.inl ⟨?_, .inl ?_⟩))
      · intro id f hf
        simp only [Sys.setStack, Sys.release] at hf
        cases hk : s.files id with
        | none => rw [hk] at hf; cases hf
        | some g =>
          rw [hk] at hf
          simp only [] at hf
          split at hf
          · cases hf
          · rename_i hne; cases hf; exact hne
      · simp only [Sys.setStack, Sys.release]
        rw [List.getElem?_set_self (List.getElem?_eq_some_iff.1 hc).1]
    · exact .inr (.inl ((q.others t htu).trans hc))
  · by_cases htu : t = u
    · subst htu
      rcases hc with hc | hc
      · rw [hc] at hu
        cases hu
        simp only [Sys.stepStage] at hs
        split at hs
        · cases hs
          refine .inr (.inr (.inl ⟨hf, .inr ?_⟩))
          simp only [Sys.setStack, Sys.acquire]
          rw [List.getElem?_set_self (List.getElem?_eq_some_iff.1 hc).1]
        · cases hs
      · rw [hc] at hu
        cases hu
        cases hs
        refine .inr (.inr (.inr ⟨hf, ?_⟩))
        simp only [Sys.setStack, Sys.release, setKey, if_true]
    · refine .inr (.inr (.inl ⟨q.files hf, ?_⟩))
      rw [q.others t htu]
      exact hc
  · exact .inr (.inr (.inr ⟨q.files hf, q.archive hc⟩))

theorem closing_moves {x : FfiEnv} {s s' : Sys} {t h : Nat} (hm : Sys.Moves x (Call.NoOpen h) s s') (hq : s.Quiet h)
    (hc : s.Closing t h) : s'.Quiet h ∧ s'.Closing t h := by
  refine hm.keeps (P := fun s => s.Quiet h ∧ s.Closing t h) ⟨hq, hc⟩ ?_ ?_
  · intro s s' u hP hs
    exact closing_step hP.1 hP.2 hs
  · intro s s' u c hP ha hs
    obtain ⟨_, hu, rfl⟩ := begin_some hs
    refine ⟨⟨hP.1.old, allStages_set hP.1.stages rfl (all_cons ⟨start_noOpen ha, start_otherArchive h c⟩ (by simp))⟩, ?_⟩
    by_cases htu : t = u
    · subst htu
      rcases hP.2 with hc | hc | ⟨_, hc | hc⟩ | hc
      · rw [hc] at hu; cases hu
      · rw [hc] at hu; cases hu
      · rw [hc] at hu; cases hu
      · rw [hc] at hu; cases hu
      · exact .inr (.inr (.inr hc))
    · have : (s.setStack u [c.start]).threads[t]? = s.threads[t]? := List.getElem?_set_ne (Ne.symm htu)
      unfold Sys.Closing
      rw [this]
      exact hP.2

theorem closing_done {s : Sys} {t h : Nat} (hq : s.Quiet h) (hc : s.Closing t h) (ht : s.threads[t]? = some []) :
    s.Closed h := by
  rcases hc with hc | hc | ⟨_, hc | hc⟩ | hc
  · rw [hc] at ht; cases ht
  · rw [hc] at ht; cases ht
  · rw [hc] at ht; cases ht
  · rw [hc] at ht; cases ht
  · exact ⟨hq.old, hc.2, hc.1, fun st hst g hg => quiet_noStore (hq.stages st hst g hg)⟩

end Mopaq
