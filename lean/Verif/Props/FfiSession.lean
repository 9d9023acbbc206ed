import Verif.Spec.FfiSession
import Verif.Props.FfiFile
import Verif.Props.Ffi
import Verif.Props.Builder
import Verif.Lemmas.Errors

/-! # C71: a program that uses the C API one call at a time -/

namespace Mopaq

/-- What is open in the process. -/
def Sys.session (s : Sys) : Spec.Session := { next := s.next, archives := s.archives, files := s.files }

/-- Only thread `t` makes steps. -/
inductive Sys.Runs (x : FfiEnv) (t : Nat) : Sys → Sys → Prop where
  | refl (s : Sys) : Runs x t s s
  | step {s s1 s' : Sys} : s.step x t = some s1 → Runs x t s1 s' → Runs x t s s'

/-- Thread `t` makes a call and runs alone until it returns. -/
def Sys.CallsAlone (x : FfiEnv) (s : Sys) (t : Nat) (c : Call) (o : Outcome) (s' : Sys) : Prop :=
  ∃ s1, s.begin t c = some s1 ∧ Sys.Runs x t s1 s' ∧ s'.threads[t]? = some [] ∧ s'.results = (t, o) :: s.results

/-- No lock is held and nothing was aborted; what is open makes sense: handles are new numbers, files belong to open archives,
positions are within the files. -/
structure Sys.Calm (s : Sys) : Prop where
  running : s.aborted = false
  free : ∀ l, s.holder l = none
  positive : 0 < s.next
  archive_new : ∀ h, (h = 0 ∨ s.next ≤ h) → s.archives h = none
  file_new : ∀ h, (h = 0 ∨ s.next ≤ h) → s.files h = none
  apart : ∀ h, s.files h = none ∨ s.archives h = none
  owned : ∀ h f, s.files h = some f → s.archives f.archiveHandle ≠ none
  within : ∀ h f, s.files h = some f → f.position ≤ f.data.length

/-- The state after a call. -/
def Sys.after (s : Sys) (σ : Spec.Session) (t : Nat) (o : Outcome) : Sys :=
  { s with next := σ.next, archives := σ.archives, files := σ.files, results := (t, o) :: s.results }

/-- Thread `t`, alone, at stage `k` of a call, with the locks `ls`. -/
def Sys.busy (s : Sys) (t : Nat) (k : Stage) (ls : List Lock) : Sys :=
  { s with holder := fun l => if l ∈ ls then some t else none, threads := s.threads.set t [k] }

theorem busy_step {x : FfiEnv} {s s2 s' : Sys} {t : Nat} {k k' : Stage} {ls ls' : List Lock} (hrun : s.aborted = false)
    (ht : t < s.threads.length) (h : (s.busy t k ls).stepStage x t [] k = some s2) (he : s2 = s'.busy t k' ls') :
    (s.busy t k ls).step x t = some (s'.busy t k' ls') := by
  rw [← he]
  exact step_of_stage (rest := []) (List.getElem?_set_self ht) hrun h

theorem sys_ext {s s' : Sys} (h1 : s.next = s'.next) (h2 : s.archives = s'.archives) (h3 : s.files = s'.files)
    (h4 : ∀ l, s.holder l = s'.holder l) (h5 : s.threads = s'.threads) (h6 : s.results = s'.results)
    (h7 : s.aborted = s'.aborted) : s = s' := by
  obtain ⟨n, ar, fs, h, th, rs, ab⟩ := s
  obtain ⟨n', ar', fs', h', th', rs', ab'⟩ := s'
  simp only at h1 h2 h3 h4 h5 h6 h7
  subst h1 h2 h3 h5 h6 h7
  congr 1
  exact funext h4

theorem runs_trans {x : FfiEnv} {t : Nat} {s s' s'' : Sys} (h1 : Sys.Runs x t s s') (h2 : Sys.Runs x t s' s'') :
    Sys.Runs x t s s'' := by
  induction h1 with
  | refl => exact h2
  | step h _ ih => exact .step h (ih h2)

/-- A lock that is free is taken. -/
theorem busy_lock {x : FfiEnv} {s : Sys} {t : Nat} {l : Lock} {k : Stage} {ls : List Lock} (hrun : s.aborted = false)
    (ht : t < s.threads.length) (hl : l ∉ ls) : (s.busy t (.lock l k) ls).step x t = some (s.busy t k (l :: ls)) := by
  refine busy_step (s' := s) hrun ht (s2 := ((s.busy t (.lock l k) ls).acquire t l).setStack t [k]) ?_ ?_
  · have : (s.busy t (.lock l k) ls).holder l = none := if_neg hl
    simp only [Sys.stepStage, this, if_true]
  · refine sys_ext rfl rfl rfl ?_ (by simp [Sys.setStack, Sys.acquire, Sys.busy]) rfl rfl
    intro m
    show (if m = l then some t else if m ∈ ls then some t else none) = if m ∈ l :: ls then some t else none
    by_cases h : m = l <;> simp [h]

/-- The last step: the call returns. -/
theorem busy_ret {x : FfiEnv} {s : Sys} {t : Nat} {o : Outcome} (hrun : s.aborted = false) (hfree : ∀ l, s.holder l = none)
    (hidle : s.threads[t]? = some []) : (s.busy t (.ret o) []).step x t = some (s.after s.session t o) := by
  have ht := (List.getElem?_eq_some_iff.1 hidle).1
  have e : { s.busy t (.ret o) [] with results := (t, o) :: s.results }.setStack t [] = s.after s.session t o := by
    refine sys_ext rfl rfl rfl (fun l => ?_) ?_ rfl rfl
    · show (if l ∈ [] then some t else none) = s.holder l
      simp [hfree l]
    · show (s.threads.set t [.ret o]).set t [] = s.threads
      rw [List.set_set]
      refine List.ext_getElem? fun i => ?_
      by_cases hi : t = i
      · subst hi; rw [List.getElem?_set_self ht, hidle]
      · rw [List.getElem?_set_ne hi]
  rw [← e]
  exact step_of_stage (rest := []) (List.getElem?_set_self ht) hrun rfl

theorem busy_begin {s : Sys} {t : Nat} {c : Call} (hrun : s.aborted = false) (hfree : ∀ l, s.holder l = none)
    (hidle : s.threads[t]? = some []) : s.begin t c = some (s.busy t c.start []) := by
  unfold Sys.begin
  rw [hrun, hidle]
  simp only [Bool.false_eq_true, if_false]
  congr 1
  refine sys_ext rfl rfl rfl (fun l => ?_) rfl rfl rfl
  show s.holder l = if l ∈ [] then some t else none
  simp [hfree l]

/-- From a stage on to the end of the call: `ls` are released with the last change. -/
theorem alone_of {x : FfiEnv} {s s1 : Sys} {t : Nat} {c : Call} {o : Outcome} {σ : Spec.Session} (hq : s.Calm)
    (hidle : s.threads[t]? = some [])
    (hruns : Sys.Runs x t (s.busy t c.start []) (s1.busy t (.ret o) []))
    (h1 : s1.next = σ.next) (h2 : s1.archives = σ.archives) (h3 : s1.files = σ.files) (h4 : s1.holder = s.holder)
    (h5 : s1.threads = s.threads) (h6 : s1.results = s.results) (h7 : s1.aborted = s.aborted) :
    Sys.CallsAlone x s t c o (s.after σ t o) := by
  have e : s1.after s1.session t o = s.after σ t o :=
    sys_ext h1 h2 h3 (fun l => by rw [show (s1.after s1.session t o).holder = s1.holder from rfl, h4]; rfl) h5
      (by show _ :: s1.results = _; rw [h6]; rfl) h7
  refine ⟨_, busy_begin hq.running hq.free hidle, ?_, hidle, rfl⟩
  refine runs_trans hruns ?_
  rw [← e]
  exact .step (busy_ret (by rw [h7, hq.running]) (by rw [h4]; exact hq.free) (by rw [h5]; exact hidle)) (.refl _)

theorem release_busy {s : Sys} {t : Nat} {k k' : Stage} {l : Lock} {ls : List Lock} (hl : l ∉ ls) :
    ((s.busy t k (l :: ls)).release l).setStack t [k'] = s.busy t k' ls := by
  refine sys_ext rfl rfl rfl (fun m => ?_) (by simp [Sys.setStack, Sys.release, Sys.busy]) rfl rfl
  show (if m = l then none else if m ∈ l :: ls then some t else none) = if m ∈ ls then some t else none
  by_cases h : m = l
  · subst h; simp [hl]
  · simp [h]

theorem setStack_busy {s : Sys} {t : Nat} {k k' : Stage} {ls : List Lock} :
    (s.busy t k ls).setStack t [k'] = s.busy t k' ls :=
  sys_ext rfl rfl rfl (fun _ => rfl) (by simp [Sys.setStack, Sys.busy]) rfl rfl

/-- A call that is answered at once. -/
theorem alone_at_once {x : FfiEnv} {s : Sys} {t : Nat} {c : Call} {o : Outcome} (hq : s.Calm)
    (hidle : s.threads[t]? = some []) (hc : c.start = .ret o) : Sys.CallsAlone x s t c o (s.after s.session t o) := by
  refine alone_of (s1 := s) hq hidle ?_ rfl rfl rfl rfl rfl rfl rfl
  rw [hc]
  exact .refl _

/-- A call that takes one lock, changes what is open and returns. -/
theorem alone_one_lock {x : FfiEnv} {s : Sys} {t : Nat} {c : Call} {o : Outcome} {l : Lock} {k : Stage} (hq : s.Calm)
    (hidle : s.threads[t]? = some []) (hc : c.start = .lock l k) (σ : Spec.Session)
    (hk : (s.busy t k [l]).stepStage x t [] k = some
      ((({ s with next := σ.next, archives := σ.archives, files := σ.files } : Sys).busy t k [l]).release l |>.setStack t [.ret o])) :
    Sys.CallsAlone x s t c o (s.after σ t o) := by
  have ht := (List.getElem?_eq_some_iff.1 hidle).1
  refine alone_of (s1 := { s with next := σ.next, archives := σ.archives, files := σ.files }) hq hidle ?_ rfl rfl rfl rfl rfl rfl rfl
  rw [hc]
  refine .step (busy_lock hq.running ht (by simp)) (.step (busy_step hq.running ht hk ?_) (.refl _))
  exact release_busy (by simp)

theorem put_insert {α : Type} (m : Nat → Option α) (k : Nat) (v : α) : insertKey m k v = Spec.put m k (some v) := rfl

theorem put_set {α : Type} (m : Nat → Option α) (k : Nat) (v : Option α) : setKey m k v = Spec.put m k v := rfl

theorem put_same {α : Type} {m : Nat → Option α} {k : Nat} {v : Option α} (h : m k = v) : Spec.put m k v = m := by
  funext j
  unfold Spec.put
  split
  · rename_i hj; rw [hj, h]
  · rfl

/-- A call on an open file. -/
theorem alone_file {x : FfiEnv} {s : Sys} {t h : Nat} {op : FileOp} {f : FileHandle} {o : Outcome} {f' : Option FileHandle}
    (hq : s.Calm) (hidle : s.threads[t]? = some []) (hf : s.files h = some f) (ho : op.run f = .ok (o, f')) :
    Sys.CallsAlone x s t (.onFile h op) o (s.after { s.session with files := Spec.put s.files h f' } t o) := by
  have h0 : h ≠ 0 := fun h0 => by rw [hq.file_new h (.inl h0)] at hf; cases hf
  refine alone_one_lock (l := .files) (k := .fileOp h op) hq hidle (by simp [Call.start, h0]) _ ?_
  have hf' : (s.busy t (.fileOp h op) [.files]).files h = some f := hf
  simp only [Sys.stepStage, hf', ho, orAbort]
  rfl

/-- A call on a handle that is not that of an open file. -/
theorem alone_no_file {x : FfiEnv} {s : Sys} {t h : Nat} {op : FileOp} (hq : s.Calm) (hidle : s.threads[t]? = some [])
    (hf : s.files h = none) : Sys.CallsAlone x s t (.onFile h op) (.error 6#32) (s.after s.session t (.error 6#32)) := by
  by_cases h0 : h = 0
  · exact alone_at_once hq hidle (by simp [Call.start, h0, errorInvalidHandle])
  · refine alone_one_lock (l := .files) (k := .fileOp h op) hq hidle (by simp [Call.start, h0]) _ ?_
    have hf' : (s.busy t (.fileOp h op) [.files]).files h = none := hf
    simp only [Sys.stepStage, hf']
    rfl

/-- A call on an open archive. -/
theorem alone_archive {x : FfiEnv} {s : Sys} {t h : Nat} {op : ArchOp} {a : ArchiveHandle} {o : Outcome} (hq : s.Calm)
    (hidle : s.threads[t]? = some []) (ha : s.archives h = some a) (hop : op ≠ .archiveName 0#32) (ho : op.run x a = .ok o) :
    Sys.CallsAlone x s t (.onArchive h op) o (s.after s.session t o) := by
  have h0 : h ≠ 0 := fun h0 => by rw [hq.archive_new h (.inl h0)] at ha; cases ha
  refine alone_one_lock (l := .archives) (k := .archOp h op) hq hidle (by simp [Call.start, h0, hop]) _ ?_
  have ha' : (s.busy t (.archOp h op) [.archives]).archives h = some a := ha
  simp only [Sys.stepStage, ha', ho, orAbort]
  rfl

theorem alone_no_archive {x : FfiEnv} {s : Sys} {t h : Nat} {op : ArchOp} (hq : s.Calm) (hidle : s.threads[t]? = some [])
    (ha : s.archives h = none) : Sys.CallsAlone x s t (.onArchive h op) op.invalid (s.after s.session t op.invalid) := by
  by_cases h0 : h = 0 ∨ op = .archiveName 0#32
  · exact alone_at_once hq hidle (by simp only [Call.start, if_pos h0])
  · refine alone_one_lock (l := .archives) (k := .archOp h op) hq hidle (by simp only [Call.start, if_neg h0]) _ ?_
    have ha' : (s.busy t (.archOp h op) [.archives]).archives h = none := ha
    simp only [Sys.stepStage, ha']
    rfl

/-- Opening an archive. -/
theorem alone_open_archive {x : FfiEnv} {s : Sys} {t : Nat} {path : List Byte} {a : Archive} (hq : s.Calm)
    (hidle : s.threads[t]? = some []) (hn : s.next + 1 < 2 ^ 64) :
    Sys.CallsAlone x s t (.openArchive path (.ok a)) (.ok (.handle s.next)) (s.after
      { s.session with next := s.next + 1, archives := Spec.put s.archives s.next (some ⟨a, path⟩) } t (.ok (.handle s.next))) := by
  have ht := (List.getElem?_eq_some_iff.1 hidle).1
  refine alone_of (s1 := { s with next := s.next + 1, archives := Spec.put s.archives s.next (some ⟨a, path⟩) }) hq hidle ?_
    rfl rfl rfl rfl rfl rfl rfl
  refine .step (busy_lock (l := .next) (k := .takeArchiveId ⟨a, path⟩) hq.running ht (by simp)) ?_
  refine .step (busy_step (s' := { s with next := s.next + 1 }) (k' := .lock .archives (.storeArchive ⟨a, path⟩ s.next))
    (ls' := []) hq.running ht (s2 := ((({ s with next := s.next + 1 } : Sys).busy t (.takeArchiveId ⟨a, path⟩) [.next]).release
      .next).setStack t [.lock .archives (.storeArchive ⟨a, path⟩ s.next)]) ?_ (release_busy (by simp))) ?_
  · have hn' : (s.busy t (.takeArchiveId ⟨a, path⟩) [.next]).next + 1 < 2 ^ 64 := hn
    simp only [Sys.stepStage, if_pos hn']
    rfl
  refine .step (busy_lock (s := { s with next := s.next + 1 }) hq.running ht (by simp)) ?_
  exact .step (busy_step (s := { s with next := s.next + 1 }) hq.running ht rfl (release_busy (s := { s with next := s.next + 1, archives := Spec.put s.archives s.next (some ⟨a, path⟩) })
    (k := .storeArchive ⟨a, path⟩ s.next) (l := .archives) (ls := []) (by simp))) (.refl _)

/-- Closing one. -/
theorem alone_close_archive {x : FfiEnv} {s : Sys} {t h : Nat} (hq : s.Calm) (hidle : s.threads[t]? = some []) (h0 : h ≠ 0) :
    Sys.CallsAlone x s t (.closeArchive h) (if (s.archives h).isSome then .ok .done else .error errorInvalidHandle) (s.after
      { s.session with archives := Spec.put s.archives h none, files := Spec.without s.files h } t
        (if (s.archives h).isSome then .ok .done else .error errorInvalidHandle)) := by
  have ht := (List.getElem?_eq_some_iff.1 hidle).1
  have hw : purged h s.files = Spec.without s.files h := by
    funext j
    unfold purged Spec.without
    cases s.files j with
    | none => rfl
    | some f =>
      by_cases hh : f.archiveHandle = h <;> simp [hh, Option.filter]
  refine alone_of (s1 := { s with archives := Spec.put s.archives h none, files := Spec.without s.files h }) hq hidle ?_
    rfl rfl rfl rfl rfl rfl rfl
  rw [show (Call.closeArchive h).start = .lock .files (.purge h) by simp [Call.start, h0]]
  refine .step (busy_lock hq.running ht (by simp)) ?_
  refine .step (busy_step (s' := { s with files := Spec.without s.files h }) (k' := .lock .archives (.remove h))
    (ls' := []) hq.running ht (s2 := ((({ s with files := Spec.without s.files h } : Sys).busy t (.purge h) [.files]).release
      .files).setStack t [.lock .archives (.remove h)]) ?_ (release_busy (by simp))) ?_
  · rw [← hw]; rfl
  refine .step (busy_lock (s := { s with files := Spec.without s.files h }) hq.running ht (by simp)) ?_
  exact .step (busy_step (s := { s with files := Spec.without s.files h }) hq.running ht rfl (release_busy (s := { s with archives := Spec.put s.archives h none, files := Spec.without s.files h })
    (k := .remove h) (l := .archives) (ls := []) (by simp))) (.refl _)

/-- Opening a file. -/
theorem alone_open_file {x : FfiEnv} {s : Sys} {t h : Nat} {name data : List Byte} {a : ArchiveHandle} {info : FileInfo}
    (hq : s.Calm) (hidle : s.threads[t]? = some []) (ha : s.archives h = some a)
    (hf : a.archive.findFile name = .ok (some info)) (hr : a.archive.readFile x.env name = .ok data)
    (hn : s.next + 1 < 2 ^ 64) :
    Sys.CallsAlone x s t (.openFile h name) (.ok (.handle s.next)) (s.after
      { s.session with next := s.next + 1, files := Spec.put s.files s.next (some ⟨h, name, data, 0, info.fileSize⟩) } t
        (.ok (.handle s.next))) := by
  have ht := (List.getElem?_eq_some_iff.1 hidle).1
  have h0 : h ≠ 0 := fun h0 => by rw [hq.archive_new h (.inl h0)] at ha; cases ha
  generalize hf' : (⟨h, name, data, 0, info.fileSize⟩ : FileHandle) = f
  refine alone_of (s1 := { s with next := s.next + 1, files := Spec.put s.files s.next (some f) }) hq hidle ?_
    rfl rfl rfl rfl rfl rfl rfl
  rw [show (Call.openFile h name).start = .lock .archives (.lookup h name) by simp [Call.start, h0]]
  refine .step (busy_lock hq.running ht (by simp)) ?_
  refine .step (busy_step (s' := s) (k' := .lock .next (.takeFileId f)) (ls' := [.archives]) hq.running ht
    (s2 := (s.busy t (.lookup h name) [.archives]).setStack t [.lock .next (.takeFileId f)]) ?_ setStack_busy) ?_
  · have ha' : (s.busy t (.lookup h name) [.archives]).archives h = some a := ha
    simp only [Sys.stepStage, ha', hf, hr, caught, orAbort, hf']
  refine .step (busy_lock hq.running ht (by simp)) ?_
  refine .step (busy_step (s' := { s with next := s.next + 1 }) (k' := .lock .files (.storeFile f s.next))
    (ls' := [.archives]) hq.running ht (s2 := ((({ s with next := s.next + 1 } : Sys).busy t (.takeFileId f) [.next, .archives]).release
      .next).setStack t [.lock .files (.storeFile f s.next)]) ?_ (release_busy (by simp))) ?_
  · have hn' : (s.busy t (.takeFileId f) [.next, .archives]).next + 1 < 2 ^ 64 := hn
    simp only [Sys.stepStage, if_pos hn']
    rfl
  refine .step (busy_lock (s := { s with next := s.next + 1 }) hq.running ht (by simp)) ?_
  refine .step (busy_step (s := { s with next := s.next + 1 })
    (s' := { s with next := s.next + 1, files := Spec.put s.files s.next (some f) })
    hq.running ht rfl (release_busy (s := { s with next := s.next + 1, files := Spec.put s.files s.next (some f) })
      (k := .storeFile f s.next) (l := .files) (ls := [.archives]) (by simp))) ?_
  exact .step (busy_step (s := { s with next := s.next + 1, files := Spec.put s.files s.next (some f) }) hq.running ht rfl
    (release_busy (ls := []) (by simp))) (.refl _)

/-- Opening a file fails. -/
theorem alone_open_file_fails {x : FfiEnv} {s : Sys} {t h : Nat} {name : List Byte} {code : U32}
    (hq : s.Calm) (hidle : s.threads[t]? = some [])
    (hc : s.archives h = none ∧ code = 6#32 ∨ ∃ a, s.archives h = some a ∧
      (a.archive.findFile name = .ok none ∧ code = 2#32 ∨
       a.archive.findFile name ≠ .ok none ∧ (∃ err, a.archive.readFile x.env name = .error err ∧ Spec.Reported err) ∧
        code = 1392#32)) :
    Sys.CallsAlone x s t (.openFile h name) (.error code) (s.after s.session t (.error code)) := by
  by_cases h0 : h = 0
  · rcases hc with ⟨_, hc⟩ | ⟨a, ha, _⟩
    · exact alone_at_once hq hidle (by simp [Call.start, h0, errorInvalidHandle, hc])
    · rw [hq.archive_new h (.inl h0)] at ha; cases ha
  refine alone_one_lock (l := .archives) (k := .lookup h name) hq hidle (by simp [Call.start, h0]) s.session ?_
  rcases hc with ⟨ha, rfl⟩ | ⟨a, ha, hc⟩
  · have ha' : (s.busy t (.lookup h name) [.archives]).archives h = none := ha
    simp only [Sys.stepStage, ha']
    rfl
  · have ha' : (s.busy t (.lookup h name) [.archives]).archives h = some a := ha
    rcases hc with ⟨hf, rfl⟩ | ⟨hf, ⟨err, hr, he⟩, rfl⟩
    · simp only [Sys.stepStage, ha', hf, caught, orAbort]
      rfl
    · have hcaught : ∀ α, caught (.error err : Res α) = .ok (.error err) := by
        intro α
        unfold caught
        cases err <;> first | rfl | exact absurd rfl he.1 | exact absurd rfl he.2
      cases hfi : a.archive.findFile name with
      | error e =>
        have hre : a.archive.readFile x.env name = .error e := by rw [Archive.readFile, hfi]; rfl
        have : e = err := Except.error.inj (hre.symm.trans hr)
        subst this
        simp only [Sys.stepStage, ha', hfi, hcaught, orAbort]
        rfl
      | ok r =>
        cases r with
        | none => exact absurd hfi hf
        | some info =>
          simp only [Sys.stepStage, ha', hfi, hr, hcaught, orAbort]
          rfl

/-- Information about a file or an archive. -/
theorem alone_info {x : FfiEnv} {s : Sys} {t h : Nat} {cls size : U32} {o : Outcome} (hq : s.Calm)
    (hidle : s.threads[t]? = some [])
    (hc : (∃ f, s.files h = some f ∧ o = fileInfoOf f cls size) ∨
      s.files h = none ∧ ((∃ a, s.archives h = some a ∧ archiveInfoOf a cls size = .ok o) ∨
        s.archives h = none ∧ o = .error 6#32)) :
    Sys.CallsAlone x s t (.getInfo h cls size) o (s.after s.session t o) := by
  have ht := (List.getElem?_eq_some_iff.1 hidle).1
  by_cases h0 : h = 0
  · rcases hc with ⟨f, hf, _⟩ | ⟨_, ⟨a, ha, _⟩ | ⟨_, rfl⟩⟩
    · rw [hq.file_new h (.inl h0)] at hf; cases hf
    · rw [hq.archive_new h (.inl h0)] at ha; cases ha
    · exact alone_at_once hq hidle (by simp [Call.start, h0, errorInvalidHandle])
  have hst : (Call.getInfo h cls size).start = .lock .files (.fileInfo h cls size) := by simp [Call.start, h0]
  rcases hc with ⟨f, hf, rfl⟩ | ⟨hf, hc⟩
  · refine alone_one_lock (l := .files) hq hidle hst s.session ?_
    have hf' : (s.busy t (.fileInfo h cls size) [.files]).files h = some f := hf
    simp only [Sys.stepStage, hf']
    rfl
  · refine alone_of (s1 := s) hq hidle ?_ rfl rfl rfl rfl rfl rfl rfl
    rw [hst]
    refine .step (busy_lock hq.running ht (by simp)) ?_
    refine .step (busy_step (s' := s) (k' := .lock .archives (.archInfo h cls size)) (ls' := []) hq.running ht
      (s2 := ((s.busy t (.fileInfo h cls size) [.files]).release .files).setStack t [.lock .archives (.archInfo h cls size)])
      ?_ (release_busy (by simp))) ?_
    · have hf' : (s.busy t (.fileInfo h cls size) [.files]).files h = none := hf
      simp only [Sys.stepStage, hf']
    refine .step (busy_lock hq.running ht (by simp)) ?_
    refine .step (busy_step (s' := s) (k' := .ret o) (ls' := []) hq.running ht
      (s2 := ((s.busy t (.archInfo h cls size) [.archives]).release .archives).setStack t [.ret o])
      ?_ (release_busy (by simp))) (.refl _)
    rcases hc with ⟨a, ha, ho⟩ | ⟨ha, rfl⟩
    · have ha' : (s.busy t (.archInfo h cls size) [.archives]).archives h = some a := ha
      simp only [Sys.stepStage, ha', ho, orAbort]
    · have ha' : (s.busy t (.archInfo h cls size) [.archives]).archives h = none := ha
      simp only [Sys.stepStage, ha']
      rfl

theorem caught_reported {α : Type} {err : Err} (he : Spec.Reported err) : caught (.error err : Res α) = .ok (.error err) := by
  unfold caught
  cases err <;> first | rfl | exact absurd rfl he.1 | exact absurd rfl he.2

/-- C71: a call made when no other is under way answers what the specification of a session says, and leaves open what it
says. Every call of every session, of any length, in any thread. -/
theorem C71_call {x : FfiEnv} {s : Sys} {t : Nat} {c : Call} {o : Outcome} {σ : Spec.Session} (hq : s.Calm)
    (hidle : s.threads[t]? = some []) (hs : Spec.Says x s.session c o σ) :
    Sys.CallsAlone x s t c o (s.after σ t o) := by
  cases hs with
  | openArchive path a hn => exact alone_open_archive hq hidle hn
  | openArchiveMissing path => exact alone_at_once hq hidle rfl
  | openArchiveDenied path => exact alone_at_once hq hidle rfl
  | openArchiveCorrupt path err he hio hnf =>
    refine alone_at_once hq hidle ?_
    cases err <;> first | rfl | exact absurd rfl he.1 | exact absurd rfl he.2 | exact absurd rfl hio | exact absurd rfl hnf
  | closeArchive h ho =>
    have h0 : h ≠ 0 := fun h0 => ho (hq.archive_new h (.inl h0))
    have := alone_close_archive (x := x) hq hidle h0
    have hs : (s.archives h).isSome = true := Option.isSome_iff_ne_none.2 ho
    rw [if_pos hs] at this
    exact this
  | closeArchiveInvalid h ho =>
    by_cases h0 : h = 0
    · exact alone_at_once hq hidle (by simp [Call.start, h0, errorInvalidHandle])
    · have := alone_close_archive (x := x) hq hidle h0
      have ho' : s.archives h = none := ho
      have e1 : Spec.put s.archives h none = s.archives := put_same ho'
      have e2 : Spec.without s.files h = s.files := by
        funext j
        unfold Spec.without
        cases hf : s.files j with
        | none => rfl
        | some f =>
          have : f.archiveHandle ≠ h := fun hh => hq.owned j f hf (hh ▸ ho')
          simp [this, Option.filter]
      rw [ho', e1, e2] at this
      exact this
  | openFile h name a info data ho hf hr hn => exact alone_open_file hq hidle ho hf hr hn
  | openFileInvalid h name ho => exact alone_open_file_fails hq hidle (.inl ⟨ho, rfl⟩)
  | openFileMissing h name a ho hf => exact alone_open_file_fails hq hidle (.inr ⟨a, ho, .inl ⟨hf, rfl⟩⟩)
  | openFileCorrupt h name a err ho hf hr he =>
    exact alone_open_file_fails hq hidle (.inr ⟨a, ho, .inr ⟨hf, ⟨err, hr, he⟩, rfl⟩⟩)
  | read h f n ho =>
    refine alone_file (f := f) (f' := some { f with position := min (f.position + n.toNat) f.data.length }) hq hidle ho ?_
    rw [FileOp.run, C42_read_piece f n (hq.within h f ho)]
    rfl
  | seek h f low high method o ho hlen hm hhigh hstart hend =>
    refine alone_file (f := f) (f' := some { f with position := Spec.clamp (o + Spec.distance low high) f.data.length })
      hq hidle ho ?_
    rw [FileOp.run, C43_seek_partial f low high method o hlen (hq.within h f ho) hm hhigh hstart hend]
    rfl
  | seekUnknown h f low high method ho hm =>
    have := alone_file (x := x) (f := f) (f' := some f) (o := .error 87#32) (op := .seek low high method) hq hidle ho
      (by rw [FileOp.run, C43_unknown_origin f low high method hm]; rfl)
    rw [put_same (m := s.files) ho] at this
    exact this
  | size h f ho =>
    have := alone_file (x := x) (f := f) (f' := some f) (o := .ok (.value f.size)) (op := .size) hq hidle ho rfl
    rw [put_same (m := s.files) ho] at this
    exact this
  | fileName h f ho =>
    have := alone_file (x := x) (f := f) (f' := some f) (o := .ok (.bytes f.filename)) (op := .name) hq hidle ho rfl
    rw [put_same (m := s.files) ho] at this
    exact this
  | closeFile h ho =>
    cases hf : s.files h with
    | none => exact absurd hf ho
    | some f => exact alone_file (f := f) (f' := none) hq hidle hf rfl
  | fileInvalid h op ho => exact alone_no_file hq hidle ho
  | hasFile h name b hb hp =>
    cases ha : s.archives h with
    | none =>
      have : b = false := by
        cases b with
        | false => rfl
        | true => obtain ⟨a, _, h1, _⟩ := hb.1 rfl; rw [show s.session.archives h = s.archives h from rfl, ha] at h1; cases h1
      subst this
      exact alone_no_archive (op := .hasFile name) hq hidle ha
    | some a =>
      refine alone_archive hq hidle ha nofun ?_
      rw [ArchOp.run]
      cases hf : a.archive.findFile name with
      | error err =>
        have : b = false := by
          cases b with
          | false => rfl
          | true =>
            obtain ⟨a', info, h1, h2⟩ := hb.1 rfl
            cases (ha.symm.trans h1)
            rw [hf] at h2; cases h2
        subst this
        rw [caught_reported (hp a err ha hf)]
        rfl
      | ok r =>
        cases r with
        | none =>
          have : b = false := by
            cases b with
            | false => rfl
            | true =>
              obtain ⟨a', info, h1, h2⟩ := hb.1 rfl
              cases (ha.symm.trans h1)
              rw [hf] at h2; cases h2
          subst this
          rfl
        | some info =>
          have : b = true := hb.2 ⟨a, info, ha, hf⟩
          subst this
          rfl
  | archiveName h a size ho hs =>
    refine alone_archive hq hidle ho (fun h0 => ?_) ?_
    · have := ArchOp.archiveName.inj h0
      subst this
      exact Nat.not_lt_zero _ hs
    · rw [ArchOp.run, if_neg (by omega)]
  | archiveNameShort h a size ho hs h0 =>
    refine alone_archive hq hidle ho (fun h1 => h0 (ArchOp.archiveName.inj h1)) ?_
    rw [ArchOp.run, if_pos (by omega)]
    rfl
  | archiveNameEmpty h =>
    refine alone_at_once hq hidle ?_
    simp [Call.start, ArchOp.invalid, errorInvalidParameter]
  | archiveNameInvalid h size ho h0 =>
    have := alone_no_archive (x := x) (op := .archiveName size) hq hidle ho
    rw [show (ArchOp.archiveName size).invalid = .error 6#32 by simp [ArchOp.invalid, h0, errorInvalidHandle]] at this
    exact this
  | extract h name a data ho hr =>
    refine alone_archive hq hidle ho nofun ?_
    rw [ArchOp.run, hr]
    rfl
  | extractDenied h name a data ho hr =>
    refine alone_archive hq hidle ho nofun ?_
    rw [ArchOp.run, hr]
    rfl
  | extractMissing h name w a ho hr =>
    refine alone_archive hq hidle ho nofun ?_
    rw [ArchOp.run, hr]
    rfl
  | extractUnreadable h name w a ho hr =>
    refine alone_archive hq hidle ho nofun ?_
    rw [ArchOp.run, hr]
    rfl
  | extractCorrupt h name w a err ho hr he hio hnf =>
    refine alone_archive hq hidle ho nofun ?_
    rw [ArchOp.run, hr, caught_reported he]
    have : errorCode err = 1392#32 := by
      cases err <;> first | rfl | exact absurd rfl hio | exact absurd rfl hnf
    simp only [bind, Except.bind, this]
    rfl
  | extractInvalid h name w ho => exact alone_no_archive (op := .extractFile name w) hq hidle ho
  | fileInfo h f cls size v ho hv hs =>
    refine alone_info hq hidle (.inl ⟨f, ho, ?_⟩)
    rcases hv with ⟨rfl, rfl⟩ | ⟨rfl, rfl⟩ <;> simp [fileInfoOf, infoValue, hs]
  | archiveInfo h a cls size v ho hv =>
    have hf : s.files h = none := by
      rcases hq.apart h with h1 | h1
      · exact h1
      · rw [show s.session.archives h = s.archives h from rfl, h1] at ho; cases ho
    refine alone_info hq hidle (.inr ⟨hf, .inl ⟨a, ho, ?_⟩⟩)
    rcases hv with ⟨rfl, rfl, hs⟩ | ⟨rfl, rfl, hs⟩ | ⟨rfl, rfl, hs⟩ | ⟨rfl, hb, rfl, hs⟩
    · simp [archiveInfoOf, infoValue, hs]
    · simp [archiveInfoOf, infoValue, hs]
    · simp [archiveInfoOf, infoValue, hs]
    · have hpow : 2 ^ a.archive.header.blockSize.toNat ≤ 2 ^ 22 := Nat.pow_le_pow_right (by omega) (by omega)
      have hss : sectorSizeOf a.archive.header.blockSize = .ok (512 * 2 ^ a.archive.header.blockSize.toNat) := by
        unfold sectorSizeOf
        rw [if_pos (by omega), Nat.mod_eq_of_lt (by omega)]
      simp only [archiveInfoOf, hss, if_pos hs]
      simp only [bind, Except.bind, BitVec.toNat_ofNat]
      rw [Nat.mod_eq_of_lt (by omega)]
      rfl
  | infoShort h cls size ho =>
    rcases ho with ⟨ho, hc, hs⟩ | ⟨ho, hc⟩
    · cases hf : s.files h with
      | none => exact absurd hf ho
      | some f =>
        refine alone_info hq hidle (.inl ⟨f, hf, ?_⟩)
        rcases hc with rfl | rfl <;> simp [fileInfoOf, infoValue, show ¬ 8 ≤ size.toNat by omega, errorInsufficientBuffer]
    · have hf : s.files h = none := (hq.apart h).resolve_right ho
      cases ha : s.archives h with
      | none => exact absurd ha ho
      | some a =>
        refine alone_info hq hidle (.inr ⟨hf, .inl ⟨a, ha, ?_⟩⟩)
        rcases hc with ⟨rfl, hs⟩ | ⟨rfl | rfl | rfl, hs⟩
        · simp [archiveInfoOf, infoValue, show ¬ 8 ≤ size.toNat by omega, errorInsufficientBuffer]
        · simp [archiveInfoOf, infoValue, show ¬ 4 ≤ size.toNat by omega, errorInsufficientBuffer]
        · simp [archiveInfoOf, infoValue, show ¬ 4 ≤ size.toNat by omega, errorInsufficientBuffer]
        · simp [archiveInfoOf, show ¬ 4 ≤ size.toNat by omega, errorInsufficientBuffer]
  | infoUnknown h cls size ho =>
    rcases ho with ⟨ho, h7, h10⟩ | ⟨ho, h1, h2, h3, h4⟩
    · cases hf : s.files h with
      | none => exact absurd hf ho
      | some f =>
        refine alone_info hq hidle (.inl ⟨f, hf, ?_⟩)
        simp [fileInfoOf, h7, h10, errorNotSupported]
    · have hf : s.files h = none := (hq.apart h).resolve_right ho
      cases ha : s.archives h with
      | none => exact absurd ha ho
      | some a =>
        refine alone_info hq hidle (.inr ⟨hf, .inl ⟨a, ha, ?_⟩⟩)
        simp [archiveInfoOf, h1, h2, h3, h4, errorNotSupported]
  | infoInvalid h cls size hf ha => exact alone_info hq hidle (.inr ⟨hf, .inr ⟨ha, rfl⟩⟩)

/-- The call leaves the process as calm as it was. -/
theorem calm_after {x : FfiEnv} {s : Sys} {t : Nat} {c : Call} {o : Outcome} {σ : Spec.Session} (hq : s.Calm)
    (hs : Spec.Says x s.session c o σ) : (s.after σ t o).Calm := by
  have same : (s.after s.session t o).Calm :=
    ⟨hq.running, hq.free, hq.positive, hq.archive_new, hq.file_new, hq.apart, hq.owned, hq.within⟩
  have move : ∀ h f pos, s.files h = some f → pos ≤ f.data.length →
      (s.after { s.session with files := Spec.put s.files h (some { f with position := pos }) } t o).Calm := by
    intro h f pos hf hpos
    refine ⟨hq.running, hq.free, hq.positive, hq.archive_new, ?_, ?_, ?_, ?_⟩
    · intro j hj
      show Spec.put s.files h _ j = none
      unfold Spec.put
      split
      · rename_i he; subst he; rw [hq.file_new j hj] at hf; cases hf
      · exact hq.file_new j hj
    · intro j
      show Spec.put s.files h _ j = none ∨ s.archives j = none
      unfold Spec.put
      split
      · rename_i he; subst he
        exact .inr ((hq.apart j).resolve_left (by rw [hf]; nofun))
      · exact hq.apart j
    · intro j g hg
      have hg' : Spec.put s.files h (some { f with position := pos }) j = some g := hg
      unfold Spec.put at hg'
      split at hg'
      · cases hg'; exact hq.owned h f hf
      · exact hq.owned j g hg'
    · intro j g hg
      have hg' : Spec.put s.files h (some { f with position := pos }) j = some g := hg
      unfold Spec.put at hg'
      split at hg'
      · cases hg'; exact hpos
      · exact hq.within j g hg'
  cases hs with
  | openArchive path a hn =>
    refine ⟨hq.running, hq.free, Nat.succ_pos _, ?_, ?_, ?_, ?_, hq.within⟩
    · intro h hh
      have hpos := hq.positive
      have hh' : h = 0 ∨ s.next + 1 ≤ h := hh
      show Spec.put s.archives s.next _ h = none
      unfold Spec.put
      rw [if_neg (by omega)]
      exact hq.archive_new h (by omega)
    · intro h hh
      have hh' : h = 0 ∨ s.next + 1 ≤ h := hh
      exact hq.file_new h (by omega)
    · intro h
      show s.files h = none ∨ Spec.put s.archives s.next _ h = none
      unfold Spec.put
      split
      · rename_i he; exact .inl (hq.file_new h (.inr (by omega)))
      · exact hq.apart h
    · intro h f hf
      show Spec.put s.archives s.next _ f.archiveHandle ≠ none
      unfold Spec.put
      split
      · nofun
      · exact hq.owned h f hf
  | closeArchive h ho =>
    have hw : ∀ j g, Spec.without s.files h j = some g → s.files j = some g ∧ g.archiveHandle ≠ h := by
      intro j g hg
      have hg' : (s.files j).filter (fun f => f.archiveHandle != h) = some g := hg
      obtain ⟨h1, h2⟩ := Option.filter_eq_some_iff.1 hg'
      exact ⟨h1, by simpa using h2⟩
    have hn : ∀ j, s.files j = none → Spec.without s.files h j = none := by
      intro j hj
      show (s.files j).filter _ = none
      rw [hj]; rfl
    refine ⟨hq.running, hq.free, hq.positive, ?_, fun j hj => hn j (hq.file_new j hj), ?_, ?_, ?_⟩
    · intro j hj
      show Spec.put s.archives h none j = none
      unfold Spec.put
      split
      · rfl
      · exact hq.archive_new j hj
    · intro j
      rcases hq.apart j with h1 | h1
      · exact .inl (hn j h1)
      · right
        show Spec.put s.archives h none j = none
        unfold Spec.put
        split
        · rfl
        · exact h1
    · intro j g hg
      obtain ⟨h1, h2⟩ := hw j g hg
      show Spec.put s.archives h none g.archiveHandle ≠ none
      unfold Spec.put
      rw [if_neg h2]
      exact hq.owned j g h1
    · intro j g hg
      exact hq.within j g (hw j g hg).1
  | openFile h name a info data ho hf hr hn =>
    refine ⟨hq.running, hq.free, Nat.succ_pos _, ?_, ?_, ?_, ?_, ?_⟩
    · intro j hj
      have hj' : j = 0 ∨ s.next + 1 ≤ j := hj
      exact hq.archive_new j (by omega)
    · intro j hj
      have hpos := hq.positive
      have hj' : j = 0 ∨ s.next + 1 ≤ j := hj
      show Spec.put s.files s.next _ j = none
      unfold Spec.put
      rw [if_neg (by omega)]
      exact hq.file_new j (by omega)
    · intro j
      show Spec.put s.files s.next _ j = none ∨ s.archives j = none
      unfold Spec.put
      split
      · rename_i he; exact .inr (hq.archive_new j (.inr (by omega)))
      · exact hq.apart j
    · intro j g hg
      have hg' : Spec.put s.files s.next (some ⟨h, name, data, 0, info.fileSize⟩) j = some g := hg
      unfold Spec.put at hg'
      split at hg'
      · cases hg'
        show s.archives h ≠ none
        rw [show s.archives h = some a from ho]; nofun
      · exact hq.owned j g hg'
    · intro j g hg
      have hg' : Spec.put s.files s.next (some ⟨h, name, data, 0, info.fileSize⟩) j = some g := hg
      unfold Spec.put at hg'
      split at hg'
      · cases hg'; exact Nat.zero_le _
      · exact hq.within j g hg'
  | read h f n ho => exact move h f _ ho (Nat.min_le_right ..)
  | seek h f low high method o ho hlen hm hhigh hstart hend => exact move h f _ ho (by unfold Spec.clamp; omega)
  | closeFile h ho =>
    have hput : ∀ j g, Spec.put s.files h none j = some g → s.files j = some g := by
      intro j g hg
      unfold Spec.put at hg
      split at hg
      · cases hg
      · exact hg
    have hn : ∀ j, s.files j = none → Spec.put s.files h none j = none := by
      intro j hj
      unfold Spec.put
      split
      · rfl
      · exact hj
    exact ⟨hq.running, hq.free, hq.positive, hq.archive_new, fun j hj => hn j (hq.file_new j hj),
      fun j => (hq.apart j).imp_left (hn j), fun j g hg => hq.owned j g (hput j g hg),
      fun j g hg => hq.within j g (hput j g hg)⟩
  | _ => exact same

/-- Several calls, each made and run to its end by one thread. -/
inductive Sys.Session (x : FfiEnv) : Sys → List (Nat × Call × Outcome) → Sys → Prop where
  | nil (s : Sys) : Session x s [] s
  | cons {s s' s'' : Sys} {t : Nat} {c : Call} {o : Outcome} {more : List (Nat × Call × Outcome)} :
      s.CallsAlone x t c o s' → Session x s' more s'' → Session x s ((t, c, o) :: more) s''

/-- C71: a session as the specification describes it, with any number of calls made by idle threads one after the other, is
how the process runs, answers and open handles included. -/
theorem C71_session {x : FfiEnv} {calls : List (Nat × Call × Outcome)} : ∀ {s : Sys} {σ σ' : Spec.Session},
    s.Calm → s.session = σ → (∀ t c o, (t, c, o) ∈ calls → s.threads[t]? = some []) → Spec.SaysAll x σ calls σ' →
    ∃ s', Sys.Session x s calls s' ∧ s'.session = σ' ∧ s'.Calm := by
  induction calls with
  | nil =>
    intro s σ σ' hq hσ _ hall
    cases hall
    exact ⟨s, .nil s, hσ, hq⟩
  | cons first more ih =>
    intro s σ σ' hq hσ hidle hall
    obtain ⟨t, c, o⟩ := first
    cases hall with
    | cons hs hmore =>
      subst hσ
      have h1 := C71_call hq (hidle t c o List.mem_cons_self) hs
      obtain ⟨s', h2, h3, h4⟩ := ih (s := s.after _ t o) (calm_after hq hs) rfl
        (fun u d p hm => hidle u d p (List.mem_cons_of_mem _ hm)) hmore
      exact ⟨s', .cons h1 h2, h3, h4⟩

theorem init_calm (n : Nat) : (Sys.init n).Calm where
  running := rfl
  free := fun _ => rfl
  positive := Nat.one_pos
  archive_new := fun _ _ => rfl
  file_new := fun _ _ => rfl
  apart := fun _ => .inl rfl
  owned := fun _ _ h => by cases h
  within := fun _ _ h => by cases h

theorem runs_unique {x : FfiEnv} {t : Nat} {s s1 s2 : Sys} (h1 : Sys.Runs x t s s1) (h2 : Sys.Runs x t s s2)
    (e1 : s1.threads[t]? = some []) (e2 : s2.threads[t]? = some []) : s1 = s2 := by
  have stop : ∀ {s' s'' : Sys}, s'.threads[t]? = some [] → s'.step x t ≠ some s'' := by
    intro s' s'' h hs
    unfold Sys.step at hs
    rw [h] at hs
    split at hs <;> cases hs
  induction h1 with
  | refl =>
    cases h2 with
    | refl => rfl
    | step h _ => exact absurd h (stop e1)
  | step h _ ih =>
    cases h2 with
    | refl => exact absurd h (stop e2)
    | step h' h2 =>
      cases (h.symm.trans h')
      exact ih h2 e1

/-- C71: there is no other way for the call to end: the answer is the only one. -/
theorem C71_answer_unique {x : FfiEnv} {s s1 s2 : Sys} {t : Nat} {c : Call} {o1 o2 : Outcome}
    (h1 : s.CallsAlone x t c o1 s1) (h2 : s.CallsAlone x t c o2 s2) : o1 = o2 ∧ s1 = s2 := by
  obtain ⟨a1, b1, r1, e1, q1⟩ := h1
  obtain ⟨a2, b2, r2, e2, q2⟩ := h2
  cases (b1.symm.trans b2)
  have := runs_unique r1 r2 e1 e2
  subst this
  rw [q1] at q2
  exact ⟨(Prod.mk.inj (List.cons.inj q2).1).2, rfl⟩

namespace Spec

/-- What a call needs for the session to go on: the library reports errors and does not panic or loop, handles are left, and
seeks have no high half beside a negative low half, and stay between the start of the file and 2^63. Callbacks and verification are not part of a session. -/
def Plain (x : FfiEnv) (σ : Session) : Call → Prop
  | .openArchive _ (.ok _) => σ.next + 1 < 2 ^ 64
  | .openArchive _ (.error err) => Reported err
  | .closeArchive _ => True
  | .openFile h name => σ.next + 1 < 2 ^ 64 ∧
      ∀ a err, σ.archives h = some a → a.archive.readFile x.env name = .error err → Reported err
  | .onFile h (.seek low high method) => ∀ f, σ.files h = some f → 2 < method.toNat ∨
      (high = none ∨ 0 ≤ low.toInt) ∧ f.data.length < 2 ^ 63 ∧
      ∀ o, _root_.Spec.origin method.toNat f.position f.data.length = some o →
        0 ≤ (o : Int) + _root_.Spec.distance low high ∧ (o : Int) + _root_.Spec.distance low high < 2 ^ 63
  | .onFile _ _ => True
  | .onArchive h (.hasFile name) => ∀ a err, σ.archives h = some a → a.archive.findFile name = .error err → Reported err
  | .onArchive h (.extractFile name _) =>
      ∀ a err, σ.archives h = some a → a.archive.readFile x.env name = .error err → Reported err
  | .onArchive _ (.archiveName _) => True
  | .onArchive _ (.verifyFile ..) => False
  | .getInfo h cls _ => ∀ a, σ.archives h = some a → cls = 4#32 → a.archive.header.blockSize.toNat < 23
  | .enumFiles .. => False
  | .verifyArchive .. => False

end Spec

/-- C71: the specification leaves no such call out: there is an answer for every one of them, whatever the handle and the
name. -/
theorem C71_answered {x : FfiEnv} {s : Sys} {t : Nat} {c : Call} (hq : s.Calm) (hidle : s.threads[t]? = some [])
    (hp : Spec.Plain x s.session c) : ∃ o σ, Spec.Says x s.session c o σ ∧ s.CallsAlone x t c o (s.after σ t o) := by
  suffices h : ∃ o σ, Spec.Says x s.session c o σ by
    obtain ⟨o, σ, h⟩ := h
    exact ⟨o, σ, h, C71_call hq hidle h⟩
  cases c with
  | openArchive path r =>
    cases r with
    | ok a => exact ⟨_, _, .openArchive path a hp⟩
    | error err =>
      by_cases hio : err = .io
      · subst hio; exact ⟨_, _, .openArchiveDenied path⟩
      by_cases hnf : err = .fileNotFound
      · subst hnf; exact ⟨_, _, .openArchiveMissing path⟩
      exact ⟨_, _, .openArchiveCorrupt path err hp hio hnf⟩
  | closeArchive h =>
    by_cases ho : s.session.archives h = none
    · exact ⟨_, _, .closeArchiveInvalid h ho⟩
    · exact ⟨_, _, .closeArchive h ho⟩
  | openFile h name =>
    cases ho : s.session.archives h with
    | none => exact ⟨_, _, .openFileInvalid h name ho⟩
    | some a =>
      by_cases hf : a.archive.findFile name = .ok none
      · exact ⟨_, _, .openFileMissing h name a ho hf⟩
      cases hr : a.archive.readFile x.env name with
      | error err => exact ⟨_, _, .openFileCorrupt h name a err ho hf hr (hp.2 a err ho hr)⟩
      | ok data =>
        cases hf' : a.archive.findFile name with
        | error err => rw [Archive.readFile, hf'] at hr; cases hr
        | ok r =>
          cases r with
          | none => exact absurd hf' hf
          | some info => exact ⟨_, _, .openFile h name a info data ho hf' hr hp.1⟩
  | onFile h op =>
    cases ho : s.session.files h with
    | none => exact ⟨_, _, .fileInvalid h op ho⟩
    | some f =>
      cases op with
      | read n => exact ⟨_, _, .read h f n ho⟩
      | size => exact ⟨_, _, .size h f ho⟩
      | name => exact ⟨_, _, .fileName h f ho⟩
      | close => exact ⟨_, _, .closeFile h (by rw [ho]; nofun)⟩
      | seek low high method =>
        cases hm : Spec.origin method.toNat f.position f.data.length with
        | none => exact ⟨_, _, .seekUnknown h f low high method ho hm⟩
        | some o =>
          rcases hp f ho with h2 | ⟨hhigh, hlen, h2⟩
          · unfold Spec.origin at hm
            split at hm <;> first | omega | cases hm
          · exact ⟨_, _, .seek h f low high method o ho hlen hm hhigh (h2 o hm).1 (h2 o hm).2⟩
  | onArchive h op =>
    cases op with
    | hasFile name =>
      by_cases hb : ∃ a info, s.session.archives h = some a ∧ a.archive.findFile name = .ok (some info)
      · exact ⟨_, _, .hasFile h name true ⟨fun _ => hb, fun _ => rfl⟩ hp⟩
      · exact ⟨_, _, .hasFile h name false ⟨nofun, fun h => absurd h hb⟩ hp⟩
    | archiveName size =>
      by_cases h0 : size = 0#32
      · subst h0; exact ⟨_, _, .archiveNameEmpty h⟩
      cases ho : s.session.archives h with
      | none => exact ⟨_, _, .archiveNameInvalid h size ho h0⟩
      | some a =>
        by_cases hs : a.path.length < size.toNat
        · exact ⟨_, _, .archiveName h a size ho hs⟩
        · exact ⟨_, _, .archiveNameShort h a size ho (by omega) h0⟩
    | extractFile name w =>
      cases ho : s.session.archives h with
      | none => exact ⟨_, _, .extractInvalid h name w ho⟩
      | some a =>
        cases hr : a.archive.readFile x.env name with
        | ok data =>
          cases w with
          | true => exact ⟨_, _, .extract h name a data ho hr⟩
          | false => exact ⟨_, _, .extractDenied h name a data ho hr⟩
        | error err =>
          by_cases hio : err = .io
          · subst hio; exact ⟨_, _, .extractUnreadable h name w a ho hr⟩
          by_cases hnf : err = .fileNotFound
          · subst hnf; exact ⟨_, _, .extractMissing h name w a ho hr⟩
          exact ⟨_, _, .extractCorrupt h name w a err ho hr (hp a err ho hr) hio hnf⟩
    | verifyFile => exact absurd hp id
  | getInfo h cls size =>
    by_cases hf : s.session.files h = none
    · cases ha : s.session.archives h with
      | none => exact ⟨_, _, .infoInvalid h cls size hf ha⟩
      | some a =>
        have hne : s.session.archives h ≠ none := by rw [ha]; nofun
        by_cases h1 : cls = 1#32
        · by_cases hs : 8 ≤ size.toNat
          · exact ⟨_, _, .archiveInfo h a cls size _ ha (.inl ⟨h1, rfl, hs⟩)⟩
          · exact ⟨_, _, .infoShort h cls size (.inr ⟨hne, .inl ⟨h1, by omega⟩⟩)⟩
        by_cases h2 : cls = 2#32
        · by_cases hs : 4 ≤ size.toNat
          · exact ⟨_, _, .archiveInfo h a cls size _ ha (.inr (.inl ⟨h2, rfl, hs⟩))⟩
          · exact ⟨_, _, .infoShort h cls size (.inr ⟨hne, .inr ⟨.inl h2, by omega⟩⟩)⟩
        by_cases h3 : cls = 3#32
        · by_cases hs : 4 ≤ size.toNat
          · exact ⟨_, _, .archiveInfo h a cls size _ ha (.inr (.inr (.inl ⟨h3, rfl, hs⟩)))⟩
          · exact ⟨_, _, .infoShort h cls size (.inr ⟨hne, .inr ⟨.inr (.inl h3), by omega⟩⟩)⟩
        by_cases h4 : cls = 4#32
        · by_cases hs : 4 ≤ size.toNat
          · exact ⟨_, _, .archiveInfo h a cls size _ ha (.inr (.inr (.inr ⟨h4, hp a ha h4, rfl, hs⟩)))⟩
          · exact ⟨_, _, .infoShort h cls size (.inr ⟨hne, .inr ⟨.inr (.inr h4), by omega⟩⟩)⟩
        exact ⟨_, _, .infoUnknown h cls size (.inr ⟨hne, h1, h2, h3, h4⟩)⟩
    · cases hf' : s.session.files h with
      | none => exact absurd hf' hf
      | some f =>
        by_cases h7 : cls = 7#32
        · by_cases hs : 8 ≤ size.toNat
          · exact ⟨_, _, .fileInfo h f cls size _ hf' (.inl ⟨h7, rfl⟩) hs⟩
          · exact ⟨_, _, .infoShort h cls size (.inl ⟨hf, .inl h7, by omega⟩)⟩
        by_cases h10 : cls = 10#32
        · by_cases hs : 8 ≤ size.toNat
          · exact ⟨_, _, .fileInfo h f cls size _ hf' (.inr ⟨h10, rfl⟩) hs⟩
          · exact ⟨_, _, .infoShort h cls size (.inl ⟨hf, .inr h10, by omega⟩)⟩
        exact ⟨_, _, .infoUnknown h cls size (.inl ⟨hf, h7, h10⟩)⟩
  | enumFiles => exact absurd hp id
  | verifyArchive => exact absurd hp id

/-- C71, end to end: a program opens an archive, asks for a file, opens it, reads it whole and closes both. It gets the content
that the library reads, and every handle works until it is closed and not afterwards. Whatever else is open. -/
theorem C71_reads_like_library (x : FfiEnv) (s : Sys) (t : Nat) (hq : s.Calm) (hidle : s.threads[t]? = some [])
    (hnext : s.next + 2 < 2 ^ 64) (path name data : List Byte) (a : Archive) (hr : a.readFile x.env name = .ok data)
    (n : U32) (hn : data.length ≤ n.toNat) :
    ∃ s', Sys.Session x s
      [(t, .openArchive path (.ok a), .ok (.handle s.next)),
       (t, .onArchive s.next (.hasFile name), .ok (.flag true)),
       (t, .openFile s.next name, .ok (.handle (s.next + 1))),
       (t, .onFile (s.next + 1) (.read n), .ok (.bytes data)),
       (t, .onFile (s.next + 1) (.read n), .ok (.bytes [])),
       (t, .onFile (s.next + 1) .close, .ok .done),
       (t, .onFile (s.next + 1) (.read n), .error 6#32),
       (t, .closeArchive s.next, .ok .done),
       (t, .openFile s.next name, .error 6#32)] s' ∧ s'.Calm ∧ s'.archives = s.archives ∧ s'.files = s.files := by
  cases hf : a.findFile name with
  | error err => rw [Archive.readFile, hf] at hr; cases hr
  | ok r =>
    cases r with
    | none => rw [Archive.readFile, hf] at hr; cases hr
    | some info =>
      have hfree : s.files s.next = none := hq.file_new _ (.inr (Nat.le_refl _))
      have hfree1 : s.files (s.next + 1) = none := hq.file_new _ (.inr (by omega))
      have har : s.archives s.next = none := hq.archive_new _ (.inr (Nat.le_refl _))
      have hwo : Spec.without s.files s.next = s.files := by
        funext j
        unfold Spec.without
        cases hj : s.files j with
        | none => rfl
        | some f =>
          have : f.archiveHandle ≠ s.next := fun hh => hq.owned j f hj (by rw [hh]; exact har)
          simp [this, Option.filter]
      let σ1 : Spec.Session := { next := s.next + 1, archives := Spec.put s.archives s.next (some ⟨a, path⟩), files := s.files }
      let f0 : FileHandle := ⟨s.next, name, data, 0, info.fileSize⟩
      let σ2 : Spec.Session := { next := s.next + 2, archives := σ1.archives, files := Spec.put s.files (s.next + 1) (some f0) }
      let f1 : FileHandle := { f0 with position := data.length }
      let σ3 : Spec.Session := { σ2 with files := Spec.put s.files (s.next + 1) (some f1) }
      have ha1 : σ1.archives s.next = some ⟨a, path⟩ := if_pos rfl
      have putput : ∀ v w : Option FileHandle, Spec.put (Spec.put s.files (s.next + 1) v) (s.next + 1) w =
          Spec.put s.files (s.next + 1) w := by
        intro v w
        funext j
        unfold Spec.put
        split <;> rfl
      have hs1 : Spec.Says x s.session (.openArchive path (.ok a)) (.ok (.handle s.next)) σ1 :=
        .openArchive path a (by show s.next + 1 < _; omega)
      have hs2 : Spec.Says x σ1 (.onArchive s.next (.hasFile name)) (.ok (.flag true)) σ1 :=
        .hasFile s.next name true ⟨fun _ => ⟨⟨a, path⟩, info, ha1, hf⟩, fun _ => rfl⟩ (by
          intro a' err h1 h2
          cases (ha1.symm.trans h1)
          rw [hf] at h2; cases h2)
      have hs3 : Spec.Says x σ1 (.openFile s.next name) (.ok (.handle (s.next + 1))) σ2 :=
        .openFile s.next name ⟨a, path⟩ info data ha1 hf hr (by show s.next + 1 + 1 < _; omega)
      have hs4 : Spec.Says x σ2 (.onFile (s.next + 1) (.read n)) (.ok (.bytes data)) σ3 := by
        have h := Spec.Says.read (x := x) (σ := σ2) (s.next + 1) f0 n (if_pos rfl)
        have e1 : (f0.data.drop f0.position).take n.toNat = data := by
          show (data.drop 0).take n.toNat = data
          rw [List.drop_zero, List.take_of_length_le hn]
        have e2 : min (f0.position + n.toNat) f0.data.length = data.length := by
          show min (0 + n.toNat) data.length = data.length
          omega
        rw [e1, e2, show σ2.files = Spec.put s.files (s.next + 1) (some f0) from rfl, putput] at h
        exact h
      have hs5 : Spec.Says x σ3 (.onFile (s.next + 1) (.read n)) (.ok (.bytes [])) σ3 := by
        have h := Spec.Says.read (x := x) (σ := σ3) (s.next + 1) f1 n (if_pos rfl)
        have e1 : (f1.data.drop f1.position).take n.toNat = [] := by
          show (data.drop data.length).take n.toNat = []
          simp
        have e2 : min (f1.position + n.toNat) f1.data.length = data.length := by
          show min (data.length + n.toNat) data.length = data.length
          omega
        rw [e1, e2, show σ3.files = Spec.put s.files (s.next + 1) (some f1) from rfl, putput] at h
        exact h
      let σ4 : Spec.Session := { σ3 with files := s.files }
      have hs6 : Spec.Says x σ3 (.onFile (s.next + 1) .close) (.ok .done) σ4 := by
        have h := Spec.Says.closeFile (x := x) (σ := σ3) (s.next + 1)
          (by rw [show σ3.files (s.next + 1) = some f1 from if_pos rfl]; nofun)
        rw [show σ3.files = Spec.put s.files (s.next + 1) (some f1) from rfl, putput, put_same hfree1] at h
        exact h
      have hs7 : Spec.Says x σ4 (.onFile (s.next + 1) (.read n)) (.error 6#32) σ4 := .fileInvalid _ _ hfree1
      let σ5 : Spec.Session := { σ4 with archives := s.archives }
      have hs8 : Spec.Says x σ4 (.closeArchive s.next) (.ok .done) σ5 := by
        have h := Spec.Says.closeArchive (x := x) (σ := σ4) s.next
          (by rw [show σ4.archives s.next = _ from ha1]; nofun)
        have e1 : Spec.put σ4.archives s.next none = s.archives := by
          funext j
          show Spec.put (Spec.put s.archives s.next _) s.next none j = _
          unfold Spec.put
          split
          · rename_i hj; rw [hj, har]
          · rfl
        rw [e1, show σ4.files = s.files from rfl, hwo] at h
        exact h
      have hs9 : Spec.Says x σ5 (.openFile s.next name) (.error 6#32) σ5 := .openFileInvalid _ _ har
      obtain ⟨s', h1, h2, h3⟩ := C71_session (x := x) hq rfl (by
        intro u c o hm
        have : u = t := by
          simp only [List.mem_cons, Prod.mk.injEq, List.not_mem_nil, or_false] at hm
          rcases hm with h | h | h | h | h | h | h | h | h <;> exact h.1
        rw [this]; exact hidle)
        (.cons (t := t) hs1 (.cons (t := t) hs2 (.cons (t := t) hs3 (.cons (t := t) hs4 (.cons (t := t) hs5 (.cons (t := t) hs6
          (.cons (t := t) hs7 (.cons (t := t) hs8 (.cons (t := t) hs9 (.nil _))))))))))
      exact ⟨s', h1, h3, congrArg Spec.Session.archives h2, congrArg Spec.Session.files h2⟩

/-- The sample archive of version 2, from the state at the start, whatever the checksums and signatures. -/
example (x : FfiEnv) (hx : x.env = toyEnv) : ∃ (f : List Byte) (a : Archive) (s' : Sys), openPath toyEnv (some f) = .ok a ∧
    Sys.Session x (Sys.init 1)
      [(0, .openArchive (ascii "x.mpq") (.ok a), .ok (.handle 1)),
       (0, .onArchive 1 (.hasFile (ascii "dir/A.TXT")), .ok (.flag true)),
       (0, .openFile 1 (ascii "dir/A.TXT"), .ok (.handle 2)),
       (0, .onFile 2 (.read 100#32), .ok (.bytes (List.replicate 40 0x41#8))),
       (0, .onFile 2 (.read 100#32), .ok (.bytes [])),
       (0, .onFile 2 .close, .ok .done),
       (0, .onFile 2 (.read 100#32), .error 6#32),
       (0, .closeArchive 1, .ok .done),
       (0, .openFile 1 (ascii "dir/A.TXT"), .error 6#32)] s' := by
  obtain ⟨f, a, _, _, ho, hr, _⟩ := sample_reads .v2 (by decide)
  obtain ⟨s', h, _⟩ := C71_reads_like_library x (Sys.init 1) 0 (init_calm 1) rfl (by decide) (ascii "x.mpq") (ascii "dir/A.TXT")
    (List.replicate 40 0x41#8) a (by rw [hx]; exact hr) 100#32 (by decide)
  exact ⟨f, a, s', ho, h⟩

/-! ## What does not hold -/

/-- C71 fails: a missing archive is reported as access denied (5), not as missing (2), although that code exists and is
used for missing files. -/
theorem C71_missing_archive_denied (x : FfiEnv) (s : Sys) (t : Nat) (hq : s.Calm) (hidle : s.threads[t]? = some [])
    (path : List Byte) :
    s.CallsAlone x t (.openArchive path (openPath x.env none)) (.error 5#32) (s.after s.session t (.error 5#32)) :=
  C71_call hq hidle (.openArchiveDenied path)

/-- C71 fails: the same damage gets two codes. If the archive on disk has been cut off before the data of a file, opening that
file reports a corrupt file (1392), but extracting it reports that access was denied (5), for every file with content in
every archive. -/
theorem C71_truncated_codes_differ (x : FfiEnv) (s : Sys) (t h : Nat) (hq : s.Calm) (hidle : s.threads[t]? = some [])
    (a : Archive) (path name data : List Byte) (info : FileInfo) (w : Bool)
    (hf : a.findFile name = .ok (some info)) (hr : a.readFile x.env name = .ok data) (hne : data ≠ [])
    (ho : s.archives h = some ⟨{ a with file := a.file.take info.filePos }, path⟩) :
    s.CallsAlone x t (.openFile h name) (.error 1392#32) (s.after s.session t (.error 1392#32)) ∧
    s.CallsAlone x t (.onArchive h (.extractFile name w)) (.error 5#32) (s.after s.session t (.error 5#32)) := by
  have hio := truncated_io x.env a name data info hf hr hne
  exact ⟨C71_call hq hidle (.openFileCorrupt h name _ .io ho (fun h0 => by
      cases hf.symm.trans (show a.findFile name = _ from h0)) hio (by simp [Spec.Reported])),
    C71_call hq hidle (.extractUnreadable h name w _ ho hio)⟩

/-- The sample archive, cut off before its first file. -/
example (x : FfiEnv) (hx : x.env = toyEnv) : ∃ (a : Archive) (s : Sys), s.Calm ∧ s.archives 1 = some ⟨a, ascii "x.mpq"⟩ ∧
    (∃ s', s.CallsAlone x 0 (.openFile 1 (ascii "dir/A.TXT")) (.error 1392#32) s') ∧
    ∃ s', s.CallsAlone x 0 (.onArchive 1 (.extractFile (ascii "dir/A.TXT") true)) (.error 5#32) s' := by
  obtain ⟨f, a, _, _, ho, hr, _⟩ := sample_reads .v2 (by decide)
  rw [← hx] at hr
  cases hf : a.findFile (ascii "dir/A.TXT") with
  | error err => rw [Archive.readFile, hf] at hr; cases hr
  | ok r =>
    cases r with
    | none => rw [Archive.readFile, hf] at hr; cases hr
    | some info =>
      let cut : Archive := { a with file := a.file.take info.filePos }
      have hs : Spec.Says x (Sys.init 1).session (.openArchive (ascii "x.mpq") (.ok cut)) (.ok (.handle 1)) _ :=
        .openArchive _ cut (by decide)
      have hq := calm_after (t := 0) (init_calm 1) hs
      obtain ⟨h1, h2⟩ := C71_truncated_codes_differ x _ 0 1 hq rfl a (ascii "x.mpq") (ascii "dir/A.TXT")
        (List.replicate 40 0x41#8) info true hf hr (by decide) rfl
      exact ⟨cut, _, hq, rfl, ⟨_, h1⟩, ⟨_, h2⟩⟩

end Mopaq
