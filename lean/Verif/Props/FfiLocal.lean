import Verif.Model.FfiLocal
import Verif.Props.Ffi

/-! # C69: the last error and the locale of a thread -/

namespace Mopaq

namespace Spec

/-- The code that the events of a thread (newest first) leave as its last error: that of the newest call that reports one,
or the code set by hand; 0 at the start. -/
def lastError : List Event → U32
  | [] => 0
  | .returned (.error code) :: _ => code
  | .returned (.ok (.flag _)) :: before => lastError before
  | .returned (.ok _) :: _ => 0
  | .setLastError code :: _ => code
  | .gotLastError _ :: before | .setLocale .. :: before | .gotLocale _ :: before => lastError before

/-- The locale that the events of a thread leave: the one set last, neutral at the start. -/
def locale : List Event → U32
  | [] => 0
  | .setLocale new _ :: _ => new
  | _ :: before => locale before

end Spec

/-- The events of thread `t`. -/
def ownEvents (t : Nat) (events : List (Nat × Event)) : List Event := (events.filter fun e => e.1 == t).map (·.2)

/-- The variables are those that the events of the thread leave. -/
def Proc.Consistent (p : Proc) : Prop :=
  ∀ t, (p.vars t).lastError = Spec.lastError (ownEvents t p.events) ∧ (p.vars t).locale = Spec.locale (ownEvents t p.events)

/-- What an event says of the variables is right. -/
def EventRight (t : Nat) (before : List Event) : Event → Prop
  | .gotLastError code => code = Spec.lastError before
  | .setLocale _ old => old = Spec.locale before
  | .gotLocale locale => locale = Spec.locale before
  | _ => True

theorem ownEvents_same (t : Nat) (ev : Event) (events : List (Nat × Event)) :
    ownEvents t ((t, ev) :: events) = ev :: ownEvents t events := by simp [ownEvents]

theorem ownEvents_other {t u : Nat} (h : t ≠ u) (ev : Event) (events : List (Nat × Event)) :
    ownEvents u ((t, ev) :: events) = ownEvents u events := by simp [ownEvents, h]

theorem leaveError_spec (o : Outcome) (v : ThreadVars) (before : List Event)
    (h : v.lastError = Spec.lastError before ∧ v.locale = Spec.locale before) :
    (leaveError o v).lastError = Spec.lastError (.returned o :: before) ∧
      (leaveError o v).locale = Spec.locale (.returned o :: before) := by
  match o with
  | .error c => exact ⟨rfl, h.2⟩
  | .ok (.flag _) => exact ⟨h.1, h.2⟩
  | .ok .done => exact ⟨rfl, h.2⟩
  | .ok (.handle _) => exact ⟨rfl, h.2⟩
  | .ok (.bytes _) => exact ⟨rfl, h.2⟩
  | .ok (.value _) => exact ⟨rfl, h.2⟩

/-- What one move does: an event of one thread, whose variables follow it, or none. -/
inductive Proc.Change (p : Proc) : Proc → Prop where
  | silent (s : Sys) : Change p { p with sys := s }
  | event (s : Sys) (t : Nat) (v : ThreadVars) (ev : Event)
      (hr : ∀ before, (p.vars t).lastError = Spec.lastError before ∧ (p.vars t).locale = Spec.locale before →
        (v.lastError = Spec.lastError (ev :: before) ∧ v.locale = Spec.locale (ev :: before)) ∧ EventRight t before ev) :
      Change p { sys := s, vars := fun u => if u = t then v else p.vars u, events := (t, ev) :: p.events }

theorem step_change {x : FfiEnv} {p p' : Proc} {t : Nat} (h : p.step x t = some p') : p.Change p' := by
  unfold Proc.step at h
  split at h
  · cases h
  · rename_i s hs
    simp only [] at h
    split at h
    · rename_i o _ _
      cases h
      exact .event s t _ (.returned o) fun before hb => ⟨leaveError_spec o _ before hb, trivial⟩
    · cases h; exact .silent s

theorem begin_change {p p' : Proc} {t : Nat} {c : Call} (h : p.begin t c = some p') : p.Change p' := by
  unfold Proc.begin at h
  obtain ⟨s, _, h⟩ := Option.map_eq_some_iff.1 h
  cases h
  exact .silent s

theorem access_change {p p' : Proc} {t : Nat} {a : Access} (h : p.access t a = some p') : p.Change p' := by
  unfold Proc.access at h
  split at h
  · cases h
    cases a with
    | getLastError =>
      have := Proc.Change.event (p := p) p.sys t (p.vars t) (.gotLastError (p.vars t).lastError)
        fun before hb => ⟨hb, hb.1⟩
      have hv : (fun u => if u = t then p.vars t else p.vars u) = p.vars := by
        funext u; split
        · rename_i h; rw [h]
        · rfl
      rw [hv] at this
      exact this
    | setLastError code => exact .event p.sys t _ (.setLastError code) fun before hb => ⟨⟨rfl, hb.2⟩, trivial⟩
    | getLocale =>
      have := Proc.Change.event (p := p) p.sys t (p.vars t) (.gotLocale (p.vars t).locale)
        fun before hb => ⟨hb, hb.2⟩
      have hv : (fun u => if u = t then p.vars t else p.vars u) = p.vars := by
        funext u; split
        · rename_i h; rw [h]
        · rfl
      rw [hv] at this
      exact this
    | setLocale l => exact .event p.sys t _ (.setLocale l (p.vars t).locale) fun before hb => ⟨⟨hb.1, rfl⟩, hb.2⟩
  · cases h

/-- Everything read so far was right, and what would be read next is. -/
structure Proc.Good (p : Proc) : Prop where
  consistent : p.Consistent
  right : ∀ later t ev earlier, p.events = later ++ (t, ev) :: earlier → EventRight t (ownEvents t earlier) ev

theorem change_good {p p' : Proc} (hg : p.Good) (hc : p.Change p') : p'.Good := by
  cases hc with
  | silent s => exact ⟨hg.consistent, hg.right⟩
  | event s t v ev hr =>
    obtain ⟨h1, h2⟩ := hr _ (hg.consistent t)
    constructor
    · intro u
      by_cases hu : t = u
      · subst hu
        rw [ownEvents_same]
        simpa using h1
      · have hu' : ¬ u = t := fun h => hu h.symm
        simp only [ownEvents_other hu, hu', if_false]
        exact hg.consistent u
    · intro later u ev' earlier he
      cases later with
      | nil => cases he; exact h2
      | cons e later =>
        obtain ⟨_, he⟩ := List.cons.inj he
        exact hg.right later u ev' earlier he

theorem init_good (n : Nat) : (Proc.init n).Good :=
  ⟨fun _ => ⟨rfl, rfl⟩, fun later t ev earlier h => by cases later <;> cases h⟩

theorem moves_good {x : FfiEnv} {allowed : Access → Prop} {p p' : Proc} (h : Proc.Moves x allowed p p') (hg : p.Good) :
    p'.Good := by
  induction h with
  | refl => exact hg
  | step t _ hs ih => exact change_good ih (step_change hs)
  | begin t c _ hs ih => exact change_good ih (begin_change hs)
  | access t a _ _ hs ih => exact change_good ih (access_change hs)

/-! ## Failures have a code -/

/-- An outcome that is a success or has an error code. -/
def CodedOutcome : Outcome → Prop
  | .ok _ => True
  | .error code => code ≠ 0#32

/-- A stage that returns only such outcomes. -/
def Stage.Coded : Stage → Prop
  | .lock _ k => k.Coded
  | .ret o => CodedOutcome o
  | _ => True

theorem errorCode_coded (e : Err) : errorCode e ≠ 0#32 := by cases e <;> decide

theorem archInvalid_coded (op : ArchOp) : CodedOutcome op.invalid := by
  cases op with
  | archiveName n =>
    simp only [ArchOp.invalid]
    split
    · show errorInvalidParameter ≠ 0#32; decide
    · show errorInvalidHandle ≠ 0#32; decide
  | hasFile => trivial
  | _ => show errorInvalidHandle ≠ 0#32; decide

theorem start_coded (c : Call) : c.start.Coded := by
  cases c with
  | openArchive path opened =>
    cases opened with
    | ok a => trivial
    | error e => cases e <;> first | trivial | exact errorCode_coded _
  | onArchive h op =>
    simp only [Call.start]
    split
    · exact archInvalid_coded op
    · trivial
  | closeArchive h => simp only [Call.start]; split <;> first | trivial | (show errorInvalidHandle ≠ 0#32; decide)
  | openFile h name => simp only [Call.start]; split <;> first | trivial | (show errorInvalidHandle ≠ 0#32; decide)
  | onFile h op => simp only [Call.start]; split <;> first | trivial | (show errorInvalidHandle ≠ 0#32; decide)
  | getInfo h c n => simp only [Call.start]; split <;> first | trivial | (show errorInvalidHandle ≠ 0#32; decide)
  | enumFiles h m c g => simp only [Call.start]; split <;> first | trivial | (show errorInvalidHandle ≠ 0#32; decide)
  | verifyArchive h f => simp only [Call.start]; split <;> first | trivial | (show errorInvalidHandle ≠ 0#32; decide)

theorem fileOp_coded {op : FileOp} {f : FileHandle} {o : Outcome} {f' : Option FileHandle} (h : op.run f = .ok (o, f')) :
    CodedOutcome o := by
  cases op with
  | read n =>
    rw [FileOp.run] at h
    obtain ⟨⟨d, g⟩, _, h⟩ := bind_eq_ok.1 h
    cases h; trivial
  | size => cases h; trivial
  | seek low high method =>
    rw [FileOp.run] at h
    obtain ⟨r, hr, h⟩ := bind_eq_ok.1 h
    cases r with
    | ok g => cases h; trivial
    | error c =>
      cases h
      unfold FileHandle.seek at hr
      obtain ⟨target, _, hr⟩ := bind_eq_ok.1 hr
      cases target with
      | none =>
        have := Except.error.inj (Except.ok.inj hr)
        subst this
        show errorInvalidParameter ≠ 0#32
        decide
      | some pos => cases Except.ok.inj hr
  | name => cases h; trivial
  | close => cases h; trivial

theorem verifyFileIn_coded {x : FfiEnv} {a : Archive} {name : List Byte} {flags : U32} {o : Outcome}
    (h : verifyFileIn x a name flags = .ok o) : CodedOutcome o := by
  have hc : errorFileCorrupt ≠ 0#32 := by decide
  unfold verifyFileIn at h
  obtain ⟨r, _, h⟩ := bind_eq_ok.1 h
  match r with
  | .error _ => cases h; exact hc
  | .ok none => cases h; show errorFileNotFound ≠ 0#32; decide
  | .ok (some info) =>
    simp only [] at h
    obtain ⟨b1, _, h⟩ := bind_eq_ok.1 h
    cases b1 with
    | false => cases h; exact hc
    | true =>
      obtain ⟨b2, _, h⟩ := bind_eq_ok.1 h
      cases b2 with
      | false => cases h; exact hc
      | true =>
        obtain ⟨b3, _, h⟩ := bind_eq_ok.1 h
        cases b3 with
        | false => cases h; exact hc
        | true => cases h; trivial

theorem archOp_coded {x : FfiEnv} {a : ArchiveHandle} {op : ArchOp} {o : Outcome} (h : op.run x a = .ok o) :
    CodedOutcome o := by
  cases op with
  | hasFile name =>
    rw [ArchOp.run] at h
    obtain ⟨r, _, h⟩ := bind_eq_ok.1 h
    match r with
    | .error _ => cases h; trivial
    | .ok none => cases h; trivial
    | .ok (some _) => cases h; trivial
  | archiveName n =>
    rw [ArchOp.run] at h
    split at h
    · cases h; show errorInsufficientBuffer ≠ 0#32; decide
    · cases h; trivial
  | extractFile name w =>
    rw [ArchOp.run] at h
    obtain ⟨r, _, h⟩ := bind_eq_ok.1 h
    match r with
    | .error e => cases h; exact errorCode_coded e
    | .ok data =>
      simp only [] at h
      split at h
      · cases h; trivial
      · cases h; show errorAccessDenied ≠ 0#32; decide
  | verifyFile name flags => exact verifyFileIn_coded h

theorem infoValue_coded (n : Nat) (b : U32) (v : Nat) : CodedOutcome (infoValue n b v) := by
  unfold infoValue
  split
  · trivial
  · show errorInsufficientBuffer ≠ 0#32; decide

theorem fileInfoOf_coded (f : FileHandle) (c b : U32) : CodedOutcome (fileInfoOf f c b) := by
  unfold fileInfoOf
  split
  · exact infoValue_coded ..
  · split
    · exact infoValue_coded ..
    · show errorNotSupported ≠ 0#32; decide

theorem archiveInfoOf_coded {h : ArchiveHandle} {c b : U32} {o : Outcome} (ho : archiveInfoOf h c b = .ok o) :
    CodedOutcome o := by
  unfold archiveInfoOf at ho
  simp only [] at ho
  split at ho
  · cases ho; exact infoValue_coded ..
  split at ho
  · cases ho; exact infoValue_coded ..
  split at ho
  · cases ho; exact infoValue_coded ..
  split at ho
  · split at ho
    · obtain ⟨_, _, ho⟩ := bind_eq_ok.1 ho
      cases ho; trivial
    · cases ho; show errorInsufficientBuffer ≠ 0#32; decide
  · cases ho; show errorNotSupported ≠ 0#32; decide

theorem verifyArchiveList_coded {x : FfiEnv} {a : Archive} {flags : U32} {o : Outcome}
    (h : verifyArchiveList x a flags = .ok (.error o)) : CodedOutcome o := by
  unfold verifyArchiveList at h
  simp only [] at h
  generalize (if flags = 0#32 then 0x10#32 else flags) = fl at h
  obtain ⟨b1, _, h⟩ := bind_eq_ok.1 h
  cases b1 with
  | false => cases h; show errorFileCorrupt ≠ 0#32; decide
  | true =>
    simp only [Bool.not_true, Bool.false_eq_true, if_false] at h
    split at h
    · cases h; trivial
    · obtain ⟨r, _, h⟩ := bind_eq_ok.1 h
      cases r with
      | ok entries => cases h
      | error _ =>
        obtain ⟨r, _, h⟩ := bind_eq_ok.1 h
        cases r with
        | ok entries => cases h
        | error _ => cases h; show errorFileCorrupt ≠ 0#32; decide

theorem orAbort_ind {α : Type} (s : Sys) (r : Res α) (k : α → Sys) (P : Sys → Prop) (h1 : P s.abort)
    (h2 : ∀ v, r = .ok v → P (k v)) : P (orAbort s r k) := by
  unfold orAbort
  cases r with
  | ok v => exact h2 v rfl
  | error _ => exact h1

theorem step_coded {x : FfiEnv} {s s' : Sys} {t : Nat} (h : s.step x t = some s') (hs : s.AllStages Stage.Coded) :
    s'.AllStages Stage.Coded := by
  unfold Sys.step at h
  split at h
  · cases h
  split at h
  case _ top rest ht =>
    obtain ⟨htop, hrest⟩ := allStages_rest hs ht
    have put : ∀ (s1 : Sys) (g : Stage), s1.threads = s.threads → g.Coded → (s1.setStack t (g :: rest)).AllStages Stage.Coded :=
      fun s1 g h1 hg => allStages_set hs h1 (all_cons hg hrest)
    have habort : s.abort.AllStages Stage.Coded := hs
    have c6 : CodedOutcome (.error errorInvalidHandle) := by show errorInvalidHandle ≠ 0#32; decide
    have cc : CodedOutcome (.error errorFileCorrupt) := by show errorFileCorrupt ≠ 0#32; decide
    have cn : CodedOutcome (.error errorFileNotFound) := by show errorFileNotFound ≠ 0#32; decide
    cases top with
    | lock l k =>
      simp only [Sys.stepStage] at h
      split at h
      · cases h; exact put _ _ rfl htop
      · cases h
    | ret o =>
      cases h
      exact allStages_set hs rfl (resume_all hrest fun _ _ _ => trivial)
    | crash => cases h; exact habort
    | takeArchiveId a =>
      simp only [Sys.stepStage] at h
      split at h
      · cases h; exact put _ _ rfl trivial
      · cases h; exact habort
    | storeArchive a id => cases h; exact put _ _ rfl trivial
    | purge hd => cases h; exact put _ _ rfl trivial
    | remove hd =>
      cases h
      refine put _ _ rfl ?_
      show CodedOutcome _
      split
      · trivial
      · exact c6
    | lookup hd name =>
      simp only [Sys.stepStage] at h
      split at h
      · cases h; exact put _ _ rfl c6
      · cases h
        refine orAbort_ind _ _ _ _ habort ?_
        intro v _
        match v with
        | .error _ => exact put _ _ rfl cc
        | .ok none => exact put _ _ rfl cn
        | .ok (some info) =>
          refine orAbort_ind _ _ _ _ habort ?_
          intro w _
          match w with
          | .error _ => exact put _ _ rfl cc
          | .ok data => exact put _ _ rfl trivial
    | takeFileId f =>
      simp only [Sys.stepStage] at h
      split at h
      · cases h; exact put _ _ rfl trivial
      · cases h; exact habort
    | storeFile f id => cases h; exact put _ _ rfl trivial
    | leaveOpen id => cases h; exact put _ _ rfl trivial
    | fileOp hd op =>
      simp only [Sys.stepStage] at h
      split at h
      · cases h; exact put _ _ rfl c6
      · cases h
        refine orAbort_ind _ _ _ _ habort ?_
        intro v hv
        exact put _ _ rfl (fileOp_coded hv)
    | archOp hd op =>
      simp only [Sys.stepStage] at h
      split at h
      · cases h; exact put _ _ rfl (archInvalid_coded op)
      · cases h
        refine orAbort_ind _ _ _ _ habort ?_
        intro v hv
        exact put _ _ rfl (archOp_coded hv)
    | fileInfo hd c n =>
      simp only [Sys.stepStage] at h
      split at h
      · cases h; exact put _ _ rfl trivial
      · cases h; exact put _ _ rfl (fileInfoOf_coded ..)
    | archInfo hd c n =>
      simp only [Sys.stepStage] at h
      split at h
      · cases h; exact put _ _ rfl c6
      · cases h
        refine orAbort_ind _ _ _ _ habort ?_
        intro v hv
        exact put _ _ rfl (archiveInfoOf_coded hv)
    | enumList hd m c g =>
      simp only [Sys.stepStage] at h
      split at h
      · cases h; exact put _ _ rfl c6
      · cases h
        refine orAbort_ind _ _ _ _ habort ?_
        intro v hv
        exact put _ _ rfl trivial
    | enumNext names c g =>
      cases names with
      | nil => cases h; exact put _ _ rfl trivial
      | cons n names => cases h; exact put _ _ rfl trivial
    | enumCallback name pending names calls goOn =>
      cases pending with
      | nil =>
        simp only [Sys.stepStage] at h
        split at h
        · cases h; exact put _ _ rfl trivial
        · cases h; exact put _ _ rfl trivial
      | cons c pending =>
        cases h
        exact allStages_set hs rfl (all_cons (start_coded c) (all_cons trivial hrest))
    | verifyList hd flags =>
      simp only [Sys.stepStage] at h
      split at h
      · cases h; exact put _ _ rfl c6
      · cases h
        refine orAbort_ind _ _ _ _ habort ?_
        intro v hv
        match v, hv with
        | .error o, hv => exact put _ _ rfl (verifyArchiveList_coded hv)
        | .ok files, _ => exact put _ _ rfl trivial
    | verifyNext hd files =>
      cases files with
      | nil => cases h; exact put _ _ rfl trivial
      | cons f files =>
        cases h
        exact allStages_set hs rfl (all_cons (start_coded _) (all_cons trivial hrest))
    | verifyResult hd o files =>
      simp only [Sys.stepStage] at h
      split at h
      · cases h; exact put _ _ rfl cc
      · cases h; exact put _ _ rfl trivial
  · cases h

/-- All calls under way and all that returned have codes. -/
def Proc.AllCoded (p : Proc) : Prop :=
  p.sys.AllStages Stage.Coded ∧ ∀ t o, (t, Event.returned o) ∈ p.events → CodedOutcome o

theorem moves_coded {x : FfiEnv} {allowed : Access → Prop} {p p' : Proc} (h : Proc.Moves x allowed p p')
    (hp : p.AllCoded) : p'.AllCoded := by
  induction h with
  | refl => exact hp
  | @step p1 p2 t _ hs ih =>
    unfold Proc.step at hs
    split at hs
    · cases hs
    · rename_i s h1
      simp only [] at hs
      split at hs
      · rename_i o rest h2
        cases hs
        refine ⟨step_coded h1 ih.1, ?_⟩
        intro u o' hm
        rcases List.mem_cons.1 hm with h3 | h3
        · cases h3
          exact (allStages_rest ih.1 h2).1
        · exact ih.2 u o' h3
      · cases hs
        exact ⟨step_coded h1 ih.1, ih.2⟩
  | begin t c _ hs ih =>
    unfold Proc.begin at hs
    obtain ⟨s, h1, hs⟩ := Option.map_eq_some_iff.1 hs
    cases hs
    refine ⟨?_, ih.2⟩
    unfold Sys.begin at h1
    split at h1
    · cases h1
    split at h1
    · cases h1
      exact allStages_set ih.1 rfl (all_cons (start_coded c) (by simp))
    · cases h1
  | access t a _ _ hs ih =>
    unfold Proc.access at hs
    split at hs
    · cases hs
      cases a <;> refine ⟨ih.1, ?_⟩ <;> intro u o hm <;> rcases List.mem_cons.1 hm with h3 | h3 <;>
        first | cases h3 | exact ih.2 u o h3
    · cases hs

theorem init_coded (n : Nat) : (Proc.init n).AllCoded := ⟨allStages_init n, fun t o h => by cases h⟩

/-- Any call on the variables may be made. -/
def anyAccess : Access → Prop := fun _ => True

/-- C69: whatever the threads of a process call and in whatever order they get to run, a thread that asks for the last error
is told the code that its own calls left: the code of its newest call that failed, 0 if that call succeeded, or the code it
set itself. Nothing other threads do changes the answer. -/
theorem C69_last_error {x : FfiEnv} {n : Nat} {p : Proc} (h : Proc.Moves x anyAccess (Proc.init n) p) {t : Nat} {code : U32}
    {later earlier : List (Nat × Event)} (he : p.events = later ++ (t, .gotLastError code) :: earlier) :
    code = Spec.lastError (ownEvents t earlier) :=
  (moves_good h (init_good n)).right later t _ earlier he

/-- C69: after any call but `SFileHasFile` the last error is 0 exactly if the call succeeded. So a size or position that
happens to be 0xFFFFFFFF is told from a failure. -/
theorem C69_success_told {x : FfiEnv} {n : Nat} {p : Proc} (h : Proc.Moves x anyAccess (Proc.init n) p) {t : Nat} {code : U32}
    {o : Outcome} {later earlier : List (Nat × Event)} {before : List Event}
    (he : p.events = later ++ (t, .gotLastError code) :: earlier) (ho : ownEvents t earlier = .returned o :: before)
    (hf : ∀ b, o ≠ .ok (.flag b)) : code = 0#32 ↔ ∃ out, o = .ok out := by
  have h1 := C69_last_error h he
  rw [ho] at h1
  have hmem : (t, Event.returned o) ∈ p.events := by
    have h2 : Event.returned o ∈ ownEvents t earlier := by rw [ho]; exact List.mem_cons_self
    unfold ownEvents at h2
    obtain ⟨⟨u, ev⟩, h3, h4⟩ := List.mem_map.1 h2
    obtain ⟨h5, h6⟩ := List.mem_filter.1 h3
    have h6' : u = t := by simpa using h6
    have h4' : ev = Event.returned o := h4
    subst h6' h4'
    rw [he]
    exact List.mem_append_right _ (List.mem_cons_of_mem _ h5)
  have hc := (moves_coded h (init_coded n)).2 t o hmem
  match o, hf, hc, h1 with
  | .error c, _, hc, h1 =>
    constructor
    · intro h0; rw [h1] at h0; exact absurd h0 hc
    · rintro ⟨_, h2⟩; cases h2
  | .ok (.flag b), hf, _, _ => exact absurd rfl (hf b)
  | .ok .done, _, _, h1 => exact ⟨fun _ => ⟨_, rfl⟩, fun _ => h1⟩
  | .ok (.handle _), _, _, h1 => exact ⟨fun _ => ⟨_, rfl⟩, fun _ => h1⟩
  | .ok (.bytes _), _, _, h1 => exact ⟨fun _ => ⟨_, rfl⟩, fun _ => h1⟩
  | .ok (.value _), _, _, h1 => exact ⟨fun _ => ⟨_, rfl⟩, fun _ => h1⟩

/-- C69: the two halves together are the number, if it has at most 64 bits; without a place for the high half, numbers that
differ by a multiple of 2^32 look the same. -/
theorem C69_halves (v : Nat) (hv : v < 2 ^ 64) : ∃ low high, Outcome.halves (.ok (.value v)) = (low, some high) ∧
    low.toNat + 2 ^ 32 * high.toNat = v := by
  refine ⟨_, _, rfl, ?_⟩
  simp only [BitVec.toNat_ofNat]
  omega

/-- C69: a file of 0xFFFFFFFF bytes and a failure give the same return value: only the last error tells them apart. -/
theorem C69_return_value_ambiguous (code : U32) :
    (Outcome.halves (.ok (.value 0xFFFFFFFF))).1 = (Outcome.halves (.error code)).1 := by
  show BitVec.ofNat 32 0xFFFFFFFF = 0xFFFFFFFF#32
  decide

/-- C69: `SFileSetLocale` returns, and `SFileGetLocale` tells, the locale that this thread set last. -/
theorem C69_locale {x : FfiEnv} {n : Nat} {p : Proc} (h : Proc.Moves x anyAccess (Proc.init n) p) {t : Nat}
    {later earlier : List (Nat × Event)} :
    (∀ l, p.events = later ++ (t, .gotLocale l) :: earlier → l = Spec.locale (ownEvents t earlier)) ∧
    (∀ new old, p.events = later ++ (t, .setLocale new old) :: earlier → old = Spec.locale (ownEvents t earlier)) :=
  ⟨fun _ he => (moves_good h (init_good n)).right later t _ earlier he,
   fun _ _ he => (moves_good h (init_good n)).right later t _ earlier he⟩

/-- A thread in no call. -/
def Sys.Idle (s : Sys) (t : Nat) : Prop := s.aborted = false ∧ s.threads[t]? = some []

/-- A thread in the callback of `SFileEnumFiles`, whatever it was called from. -/
def Sys.InCallback (s : Sys) (t : Nat) : Prop :=
  s.aborted = false ∧ ∃ name pending names calls goOn rest,
    s.threads[t]? = some (.enumCallback name pending names calls goOn :: rest)

/-- C69: a thread can ask at once, in whatever state the others are, in callbacks too; nothing else happens meanwhile. -/
theorem C69_asked_at_once {x : FfiEnv} {n : Nat} {p : Proc} (h : Proc.Moves x anyAccess (Proc.init n) p) {t : Nat}
    (hi : p.sys.Idle t ∨ p.sys.InCallback t) :
    (∃ p', Proc.Moves x anyAccess p p' ∧ p'.sys = p.sys ∧
      p'.events = (t, .gotLastError (Spec.lastError (ownEvents t p.events))) :: p.events) ∧
    (∃ p', Proc.Moves x anyAccess p p' ∧ p'.sys = p.sys ∧
      p'.events = (t, .gotLocale (Spec.locale (ownEvents t p.events))) :: p.events) := by
  have hp : p.sys.inProgram t = true := by
    rcases hi with ⟨h1, h2⟩ | ⟨h1, name, pending, names, calls, goOn, rest, h2⟩ <;> simp [Sys.inProgram, h1, h2]
  obtain ⟨h1, h2⟩ := (moves_good h (init_good n)).consistent t
  constructor
  · refine ⟨Access.run p t .getLastError, .access t .getLastError (.refl p) trivial (by rw [Proc.access, if_pos hp]), rfl, ?_⟩
    rw [← h1]
    rfl
  · refine ⟨Access.run p t .getLocale, .access t .getLocale (.refl p) trivial (by rw [Proc.access, if_pos hp]), rfl, ?_⟩
    rw [← h2]
    rfl

/-! ## What does not hold -/

/-- C69: `SFileHasFile` answers `false` and leaves whatever code was there before, 0 for instance. Here for the null handle:
in any state the call returns `false`, and asking for the error then tells the old code. -/
theorem C69_has_file_leaves_error (x : FfiEnv) (p : Proc) (t : Nat) (hi : p.sys.Idle t) (name : List Byte) :
    ∃ p', Proc.Moves x anyAccess p p' ∧
      p'.events = (t, .gotLastError (p.vars t).lastError) :: (t, .returned (.ok (.flag false))) :: p.events := by
  have hlen : t < p.sys.threads.length := (List.getElem?_eq_some_iff.1 hi.2).1
  have h1 : p.begin t (.onArchive 0 (.hasFile name)) =
      some { p with sys := p.sys.setStack t [.ret (.ok (.flag false))] } := by
    simp [Proc.begin, Sys.begin, hi.1, hi.2, Call.start, ArchOp.invalid]
  let p1 : Proc := { p with sys := p.sys.setStack t [.ret (.ok (.flag false))] }
  have ht1 : p1.sys.threads[t]? = some [.ret (.ok (.flag false))] := by
    simp [p1, Sys.setStack, hlen]
  have ha1 : p1.sys.aborted = false := hi.1
  let s2 : Sys := { p1.sys with results := (t, .ok (.flag false)) :: p1.sys.results }.setStack t []
  have h2 : p1.sys.step x t = some s2 := by
    unfold Sys.step
    rw [if_neg (by rw [ha1]; simp), ht1]
    rfl
  let p2 : Proc := (({ p1 with sys := s2 } : Proc).setVars t (p1.vars t)).record t (.returned (.ok (.flag false)))
  have h3 : p1.step x t = some p2 := by
    simp only [Proc.step, h2, ht1, leaveError]
    rfl
  have hp : p2.sys.inProgram t = true := by
    have ht2 : p2.sys.threads[t]? = some [] := by
      show (p1.sys.threads.set t [])[t]? = some []
      have : t < p1.sys.threads.length := (List.getElem?_eq_some_iff.1 ht1).1
      simp [this]
    have ha2 : p2.sys.aborted = false := hi.1
    simp [Sys.inProgram, ht2, ha2]
  have h4 : p2.access t .getLastError = some (p2.record t (.gotLastError (p2.vars t).lastError)) := by
    simp [Proc.access, hp, Access.run]
  refine ⟨_, .access t _ (.step t (.begin t _ (.refl p) h1) h3) trivial h4, ?_⟩
  have hv : (p2.vars t).lastError = (p.vars t).lastError := by
    show (if t = t then p1.vars t else _).lastError = _
    simp [p1]
  rw [hv]
  rfl

/-- All calls on the variables except those that set the locale. -/
def noLocale : Access → Prop
  | .setLocale _ => False
  | _ => True

/-- Two processes that differ in locales only. -/
structure SameButLocale (p q : Proc) : Prop where
  sys : q.sys = p.sys
  lastError : ∀ t, (q.vars t).lastError = (p.vars t).lastError
  events : ∀ t, (ownEvents t q.events).filter (fun | .setLocale .. | .gotLocale _ => false | _ => true) =
    (ownEvents t p.events).filter (fun | .setLocale .. | .gotLocale _ => false | _ => true)

theorem leaveError_last {v w : ThreadVars} (h : v.lastError = w.lastError) (o : Outcome) :
    (leaveError o v).lastError = (leaveError o w).lastError := by
  unfold leaveError
  split
  · exact h
  · rfl
  · rfl

/-- C69: the locale set has no effect. For every run of a process there is one in which no thread ever sets a locale, with
the same shared state (the same files are opened), the same results and the same error codes. -/
theorem C69_locale_ignored {x : FfiEnv} {p p' : Proc} (h : Proc.Moves x anyAccess p p') :
    ∃ q', Proc.Moves x noLocale p q' ∧ SameButLocale p' q' := by
  induction h with
  | refl => exact ⟨_, .refl _, rfl, fun _ => rfl, fun _ => rfl⟩
  | @step p1 p2 t _ hs ih =>
    obtain ⟨q, hq, hsame⟩ := ih
    unfold Proc.step at hs
    split at hs
    · cases hs
    · rename_i s h1
      simp only [] at hs
      split at hs
      · rename_i o rest h2
        cases hs
        have hs' : q.step x t = some ((({ q with sys := s } : Proc).setVars t (leaveError o (q.vars t))).record t
            (.returned o)) := by
          simp only [Proc.step, hsame.sys, h1, h2]
        refine ⟨_, .step t hq hs', rfl, ?_, ?_⟩
        · intro u
          show (if u = t then _ else _ : ThreadVars).lastError = (if u = t then _ else _ : ThreadVars).lastError
          split
          · exact leaveError_last (hsame.lastError t) o
          · exact hsame.lastError u
        · intro u
          by_cases hu : t = u
          · subst hu
            simp only [Proc.record, Proc.setVars, ownEvents_same, List.filter_cons, hsame.events]
          · simp only [Proc.record, Proc.setVars, ownEvents_other hu]
            exact hsame.events u
      · rename_i h2
        cases hs
        have hs' : q.step x t = some { q with sys := s } := by
          simp only [Proc.step, hsame.sys, h1]
        exact ⟨_, .step t hq hs', rfl, hsame.lastError, hsame.events⟩
  | begin t c _ hs ih =>
    obtain ⟨q, hq, hsame⟩ := ih
    unfold Proc.begin at hs
    obtain ⟨s, h1, hs⟩ := Option.map_eq_some_iff.1 hs
    cases hs
    have hs' : q.begin t c = some { q with sys := s } := by simp only [Proc.begin, hsame.sys, h1, Option.map_some]
    exact ⟨_, .begin t c hq hs', rfl, hsame.lastError, hsame.events⟩
  | @access p1 p2 t a _ _ hs ih =>
    obtain ⟨q, hq, hsame⟩ := ih
    unfold Proc.access at hs
    split at hs
    case isFalse => cases hs
    rename_i hin
    cases hs
    have hin' : q.sys.inProgram t = true := by rw [hsame.sys]; exact hin
    cases a with
    | setLocale l =>
      refine ⟨q, hq, hsame.sys, ?_, ?_⟩
      · intro u
        show _ = (if u = t then _ else _ : ThreadVars).lastError
        split
        · rename_i hu; subst hu; exact hsame.lastError u
        · exact hsame.lastError u
      · intro u
        by_cases hu : t = u
        · subst hu
          simp only [Access.run, Proc.record, Proc.setVars, ownEvents_same, List.filter_cons, hsame.events]
          rfl
        · simp only [Access.run, Proc.record, Proc.setVars, ownEvents_other hu]
          exact hsame.events u
    | getLocale =>
      refine ⟨q, hq, hsame.sys, hsame.lastError, ?_⟩
      intro u
      by_cases hu : t = u
      · subst hu
        simp only [Access.run, Proc.record, ownEvents_same, List.filter_cons, hsame.events]
        rfl
      · simp only [Access.run, Proc.record, ownEvents_other hu]
        exact hsame.events u
    | getLastError =>
      have h4 : q.access t .getLastError = some (q.record t (.gotLastError (p1.vars t).lastError)) := by
        simp [Proc.access, hin', Access.run, hsame.lastError]
      refine ⟨_, .access t .getLastError hq (show noLocale .getLastError from trivial) h4, hsame.sys, hsame.lastError, ?_⟩
      intro u
      by_cases hu : t = u
      · subst hu
        simp only [Access.run, Proc.record, ownEvents_same, List.filter_cons, hsame.events]
      · simp only [Access.run, Proc.record, ownEvents_other hu]
        exact hsame.events u
    | setLastError code =>
      have h4 : q.access t (.setLastError code) =
          some ((q.setVars t { q.vars t with lastError := code }).record t (.setLastError code)) := by
        simp [Proc.access, hin', Access.run]
      refine ⟨_, .access t (.setLastError code) hq (show noLocale (.setLastError code) from trivial) h4, hsame.sys, ?_, ?_⟩
      · intro u
        show (if u = t then _ else _ : ThreadVars).lastError = (if u = t then _ else _ : ThreadVars).lastError
        split
        · rfl
        · exact hsame.lastError u
      · intro u
        by_cases hu : t = u
        · subst hu
          simp only [Access.run, Proc.record, Proc.setVars, ownEvents_same, List.filter_cons, hsame.events]
        · simp only [Access.run, Proc.record, Proc.setVars, ownEvents_other hu]
          exact hsame.events u

/-! ## A run -/

/-- Moves one after the other. -/
inductive ProcTurn where
  | step (t : Nat)
  | call (t : Nat) (c : Call)
  | access (t : Nat) (a : Access)

def Proc.play (x : FfiEnv) (p : Proc) : List ProcTurn → Option Proc
  | [] => some p
  | .step t :: turns => (p.step x t).bind fun p' => p'.play x turns
  | .call t c :: turns => (p.begin t c).bind fun p' => p'.play x turns
  | .access t a :: turns => (p.access t a).bind fun p' => p'.play x turns

theorem procPlay_moves {x : FfiEnv} : ∀ (turns : List ProcTurn) {p p' p'' : Proc}, Proc.Moves x anyAccess p p' →
    p'.play x turns = some p'' → Proc.Moves x anyAccess p p''
  | [], p, p', p'', h, hp => by cases hp; exact h
  | .step t :: turns, p, p', p'', h, hp => by
    obtain ⟨q, h1, h2⟩ := Option.bind_eq_some_iff.1 hp
    exact procPlay_moves turns (.step t h h1) h2
  | .call t c :: turns, p, p', p'', h, hp => by
    obtain ⟨q, h1, h2⟩ := Option.bind_eq_some_iff.1 hp
    exact procPlay_moves turns (.begin t c h h1) h2
  | .access t a :: turns, p, p', p'', h, hp => by
    obtain ⟨q, h1, h2⟩ := Option.bind_eq_some_iff.1 hp
    exact procPlay_moves turns (.access t a h trivial h1) h2

/-- Two threads: the first fails to open an archive that cannot be read, and sets a locale; the second closes an unknown
handle meanwhile. Then the first asks for its last error, and for its locale; the second too. -/
def errorTurns : List ProcTurn :=
  [.call 0 (.openArchive [] (.error .io)), .access 1 (.setLocale 0x409), .call 1 (.closeArchive 7), .step 0, .step 1, .step 1,
    .access 0 (.setLocale 0x407), .step 1, .step 1, .step 1, .access 0 .getLastError, .access 1 .getLastError,
    .access 0 .getLocale, .access 1 .getLocale]

example (x : FfiEnv) : ∃ p, Proc.Moves x anyAccess (Proc.init 2) p ∧ ∃ earlier,
    p.events = [(1, .gotLocale 0x409), (0, .gotLocale 0x407), (1, .gotLastError 6)] ++ (0, .gotLastError 5) :: earlier ∧
    ownEvents 0 earlier = [.setLocale 0x407 0, .returned (.error 5)] ∧
    ownEvents 1 earlier = [.returned (.error 6), .setLocale 0x409 0] :=
  ⟨_, procPlay_moves errorTurns (.refl _) rfl, _, rfl, rfl, rfl⟩

/-- A thread opens an archive, lists it and is in the callback for its one name. -/
example (x : FfiEnv) (a : Archive) (name : List Byte) (hn : enumNames x a [0x2A#8] = .ok [name]) :
    ∃ p, Proc.Moves x anyAccess (Proc.init 1) p ∧ p.sys.InCallback 0 := by
  have h1 : ∃ p, Proc.Moves x anyAccess (Proc.init 1) p ∧ p.sys.aborted = false ∧
      p.sys.threads = [[.enumList 1 [0x2A#8] (fun _ => []) (fun _ => true)]] ∧
      ∃ ah, p.sys.archives 1 = some ah ∧ ah.archive = a :=
    ⟨_, procPlay_moves [.call 0 (.openArchive [] (.ok a)), .step 0, .step 0, .step 0, .step 0, .step 0,
      .call 0 (.enumFiles 1 [0x2A#8] (fun _ => []) (fun _ => true)), .step 0] (.refl _) rfl, rfl, rfl, _, rfl, rfl⟩
  obtain ⟨p, h1, h2, h3, ah, h4, h5⟩ := h1
  subst h5
  let s1 := p.sys.setStack 0 [.enumNext [name] (fun _ => []) (fun _ => true)]
  have k1 : p.step x 0 = some { p with sys := s1 } := by
    have : p.sys.step x 0 = some s1 := by
      unfold Sys.step
      rw [if_neg (by rw [h2]; simp), h3]
      simp only [List.getElem?_cons_zero, Sys.stepStage, h4, hn]
      rfl
    unfold Proc.step
    rw [this, h3]
    rfl
  let s2 := s1.setStack 0 [.enumCallback name [] [] (fun _ => []) (fun _ => true)]
  have hs1 : s1.threads = [[.enumNext [name] (fun _ => []) (fun _ => true)]] := by
    show p.sys.threads.set 0 _ = _
    rw [h3]; rfl
  have k2 : Proc.step x { p with sys := s1 } 0 = some { p with sys := s2 } := by
    have : s1.step x 0 = some s2 := by
      unfold Sys.step
      rw [if_neg (by rw [show s1.aborted = p.sys.aborted from rfl, h2]; simp), hs1]
      rfl
    unfold Proc.step
    rw [show ({ p with sys := s1 } : Proc).sys = s1 from rfl, this, hs1]
    rfl
  refine ⟨{ p with sys := s2 }, .step 0 (.step 0 h1 k1) k2, h2, name, [], [], fun _ => [], fun _ => true, [], ?_⟩
  show (s1.threads.set 0 _)[0]? = _
  rw [hs1]
  rfl

end Mopaq
