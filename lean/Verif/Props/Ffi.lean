import Verif.Lemmas.FfiLocks
import Verif.Props.FfiFile
import Verif.Props.Listing

/-! # The C API under any interleaving: handles (C41), closing (C44) and locks (C45) -/

namespace Mopaq

/-- The handles returned so far, newest first. -/
def Sys.returned (s : Sys) : List Nat := s.results.flatMap fun r => outIds r.2

/-- Any call may be made. -/
def anyCall : Call → Prop := fun _ => True

/-- What a thread does next: a step of the call it is in, or a new call. -/
inductive Turn where
  | step (t : Nat)
  | call (t : Nat) (c : Call)

/-- A schedule. -/
def Sys.play (x : FfiEnv) (s : Sys) : List Turn → Option Sys
  | [] => some s
  | .step t :: turns => (s.step x t).bind fun s' => s'.play x turns
  | .call t c :: turns => (s.begin t c).bind fun s' => s'.play x turns

theorem moves_trans {x : FfiEnv} {allowed : Call → Prop} {s s' s'' : Sys} (h1 : Sys.Moves x allowed s s')
    (h2 : Sys.Moves x allowed s' s'') : Sys.Moves x allowed s s'' := by
  induction h2 with
  | refl => exact h1
  | step t _ hs ih => exact .step t ih hs
  | begin t c _ ha hs ih => exact .begin t c ih ha hs

theorem play_moves {x : FfiEnv} {allowed : Call → Prop} : ∀ (turns : List Turn) {s s' : Sys},
    (∀ t c, Turn.call t c ∈ turns → allowed c) → s.play x turns = some s' → Sys.Moves x allowed s s'
  | [], s, s', _, h => by cases h; exact .refl _
  | .step t :: turns, s, s', ha, h => by
    rw [Sys.play] at h
    obtain ⟨s1, h1, h2⟩ := Option.bind_eq_some_iff.1 h
    exact moves_trans (.step t (.refl _) h1)
      (play_moves turns (fun t c hc => ha t c (List.mem_cons_of_mem _ hc)) h2)
  | .call t c :: turns, s, s', ha, h => by
    rw [Sys.play] at h
    obtain ⟨s1, h1, h2⟩ := Option.bind_eq_some_iff.1 h
    exact moves_trans (.begin t c (.refl _) (ha t c List.mem_cons_self) h1)
      (play_moves turns (fun t c hc => ha t c (List.mem_cons_of_mem _ hc)) h2)

/-! ## C41 -/

/-- C41: whatever calls any number of threads make and however they interleave, no two calls ever return the same handle,
be it for an archive or for a file, and none returns the null handle. -/
theorem C41_handles_unique (x : FfiEnv) (n : Nat) (s : Sys) (h : Sys.Moves x anyCall (Sys.init n) s) :
    s.returned.Nodup ∧ 0 ∉ s.returned := by
  have hg := goodIds_moves h (goodIds_init n)
  refine ⟨(List.nodup_append.1 hg.1).1, fun h0 => ?_⟩
  have := (hg.2.1 0 (List.mem_append_left _ h0)).1
  omega

/-- Two threads open an archive each at the same time: handles 1 and 2. -/
example (x : FfiEnv) (a b : Archive) : ∃ s, Sys.Moves x anyCall (Sys.init 2) s ∧ s.returned = [1, 2] := by
  refine ⟨_, play_moves [.call 0 (.openArchive [] (.ok a)), .call 1 (.openArchive [] (.ok b)), .step 0, .step 0, .step 1,
    .step 1, .step 1, .step 1, .step 1, .step 0, .step 0, .step 0] (fun _ _ _ => trivial) rfl, rfl⟩

/-! ## C44 -/

/-- The lock is free and thread `t` idle: after two turns it is at the stage behind the lock. -/
theorem lock_start {x : FfiEnv} {s : Sys} {t : Nat} {c : Call} {l : Lock} {k : Stage} (hidle : s.threads[t]? = some [])
    (hrun : s.aborted = false) (hfree : s.holder l = none) (hc : c.start = .lock l k) :
    ∃ s1 s2, s.begin t c = some s1 ∧ s1.step x t = some s2 ∧ s2.threads[t]? = some [k] ∧ s2.aborted = false ∧
      s2.archives = s.archives ∧ s2.files = s.files ∧ s2.results = s.results := by
  have hlt := (List.getElem?_eq_some_iff.1 hidle).1
  refine ⟨s.setStack t [c.start], ((s.setStack t [c.start]).acquire t l).setStack t [k], ?_, ?_, ?_, hrun, rfl, rfl, rfl⟩
  · unfold Sys.begin
    rw [hrun, hidle]
    simp
  · unfold Sys.step
    have h1 : (s.setStack t [c.start]).threads[t]? = some [c.start] := List.getElem?_set_self hlt
    rw [h1, hc]
    simp [Sys.stepStage, Sys.setStack, hrun, hfree]
  · have h1 : t < (s.threads.set t [c.start]).length := by rw [List.length_set]; exact hlt
    exact List.getElem?_set_self h1

theorem step_of_stage {x : FfiEnv} {s s' : Sys} {t : Nat} {top : Stage} {rest : List Stage}
    (ht : s.threads[t]? = some (top :: rest)) (hrun : s.aborted = false) (h : s.stepStage x t rest top = some s') :
    s.step x t = some s' := by
  unfold Sys.step
  rw [hrun, ht]
  simpa using h

theorem setStack_top {s : Sys} {t : Nat} {old new : List Stage} (ht : s.threads[t]? = some old) :
    (s.setStack t new).threads[t]? = some new := List.getElem?_set_self (List.getElem?_eq_some_iff.1 ht).1

theorem lookup_step {x : FfiEnv} {s : Sys} {t h : Nat} {name data : List Byte} {rest : List Stage} {a : ArchiveHandle}
    {info : FileInfo} (ht : s.threads[t]? = some (.lookup h name :: rest)) (hrun : s.aborted = false)
    (ha : s.archives h = some a) (hf : a.archive.findFile name = .ok (some info))
    (hr : a.archive.readFile x.env name = .ok data) :
    s.step x t = some (s.setStack t (.lock .next (.takeFileId ⟨h, name, data, 0, info.fileSize⟩) :: rest)) := by
  unfold Sys.step
  rw [hrun, ht]
  simp only [Bool.false_eq_true, if_false, Sys.stepStage, ha, hf, hr, caught, orAbort]

theorem fileOp_step {x : FfiEnv} {s : Sys} {t h : Nat} {op : FileOp} {rest : List Stage} {f : FileHandle} {o : Outcome}
    {f' : Option FileHandle} (ht : s.threads[t]? = some (.fileOp h op :: rest)) (hrun : s.aborted = false)
    (hf : s.files h = some f) (ho : op.run f = .ok (o, f')) :
    s.step x t = some (({ s with files := setKey s.files h f' }.release .files).setStack t (.ret o :: rest)) := by
  unfold Sys.step
  rw [hrun, ht]
  simp only [Bool.false_eq_true, if_false, Sys.stepStage, hf, ho, orAbort, hrun]

/-- A state with two threads. -/
def twoThreads (next : Nat) (ar : Nat → Option ArchiveHandle) (fs : Nat → Option FileHandle) (hn ha hf : Option Nat)
    (st0 st1 : List Stage) (results : List (Nat × Outcome)) : Sys where
  next := next
  archives := ar
  files := fs
  holder := fun l => match l with
    | .next => hn
    | .archives => ha
    | .files => hf
  threads := [st0, st1]
  results := results
  aborted := false

theorem twoThreads_eq {s : Sys} {next : Nat} {ar : Nat → Option ArchiveHandle} {fs : Nat → Option FileHandle}
    {hn ha hf : Option Nat} {st0 st1 : List Stage} {results : List (Nat × Outcome)} (h1 : s.next = next)
    (h2 : s.archives = ar) (h3 : s.files = fs) (h4 : s.holder .next = hn) (h5 : s.holder .archives = ha)
    (h6 : s.holder .files = hf) (h7 : s.threads = [st0, st1]) (h8 : s.results = results) (h9 : s.aborted = false) :
    s = twoThreads next ar fs hn ha hf st0 st1 results := by
  obtain ⟨n, ar', fs', h, th, rs, ab⟩ := s
  simp only at h1 h2 h3 h4 h5 h6 h7 h8 h9
  subst h1 h2 h3 h4 h5 h6 h7 h8 h9
  unfold twoThreads
  congr 1
  funext l
  cases l <;> rfl

theorem two_step {x : FfiEnv} {s s' : Sys} {t : Nat} {top : Stage} {rest : List Stage} {next : Nat}
    {ar : Nat → Option ArchiveHandle} {fs : Nat → Option FileHandle}
    {hn ha hf : Option Nat} {st0 st1 : List Stage} {results : List (Nat × Outcome)}
    (ht : s.threads[t]? = some (top :: rest)) (hrun : s.aborted = false) (hs : s.stepStage x t rest top = some s')
    (h1 : s'.next = next)
    (h2 : s'.archives = ar) (h3 : s'.files = fs) (h4 : s'.holder .next = hn) (h5 : s'.holder .archives = ha)
    (h6 : s'.holder .files = hf) (h7 : s'.threads = [st0, st1]) (h8 : s'.results = results) (h9 : s'.aborted = false) :
    s.step x t = some (twoThreads next ar fs hn ha hf st0 st1 results) := by
  rw [← twoThreads_eq h1 h2 h3 h4 h5 h6 h7 h8 h9]
  exact step_of_stage ht hrun hs

/-- Forgetting the files of archive `h`. -/
def purged (h : Nat) (fs : Nat → Option FileHandle) : Nat → Option FileHandle := fun j => match fs j with
  | some f => if f.archiveHandle = h then none else some f
  | none => none

/-- The schedule: thread 0 has looked up the file and waits for a handle number; thread 1 closes the archive. -/
theorem race_closing {x : FfiEnv} (ar : Nat → Option ArchiveHandle) (a : ArchiveHandle) (har : ar 1 = some a)
    (fs : Nat → Option FileHandle) (f : FileHandle) (results : List (Nat × Outcome)) :
    Sys.Moves x anyCall (twoThreads 2 ar fs none (some 0) none [.lock .next (.takeFileId f)] [] results)
      (twoThreads 3 (setKey ar 1 none) (insertKey (purged 1 fs) 2 f) none none none [] []
        ((0, .ok (.handle 2)) :: (1, .ok .done) :: results)) := by
  have e0 : (twoThreads 2 ar fs none (some 0) none [.lock .next (.takeFileId f)] [] results).begin 1 (.closeArchive 1) =
      some (twoThreads 2 ar fs none (some 0) none [.lock .next (.takeFileId f)] [.lock .files (.purge 1)] results) := rfl
  have e1 : (twoThreads 2 ar fs none (some 0) none [.lock .next (.takeFileId f)] [.lock .files (.purge 1)] results).step x 1 =
      some (twoThreads 2 ar fs none (some 0) (some 1) [.lock .next (.takeFileId f)] [.purge 1] results) :=
    two_step rfl rfl rfl rfl rfl rfl rfl rfl rfl rfl rfl rfl
  have e2 : (twoThreads 2 ar fs none (some 0) (some 1) [.lock .next (.takeFileId f)] [.purge 1] results).step x 1 =
      some (twoThreads 2 ar (purged 1 fs) none (some 0) none [.lock .next (.takeFileId f)] [.lock .archives (.remove 1)] results) :=
    two_step rfl rfl rfl rfl rfl rfl rfl rfl rfl rfl rfl rfl
  generalize purged 1 fs = fs' at *
  have e3 : (twoThreads 2 ar fs' none (some 0) none [.lock .next (.takeFileId f)] [.lock .archives (.remove 1)] results).step x 0 =
      some (twoThreads 2 ar fs' (some 0) (some 0) none [.takeFileId f] [.lock .archives (.remove 1)] results) :=
    two_step rfl rfl rfl rfl rfl rfl rfl rfl rfl rfl rfl rfl
  have e4 : (twoThreads 2 ar fs' (some 0) (some 0) none [.takeFileId f] [.lock .archives (.remove 1)] results).step x 0 =
      some (twoThreads 3 ar fs' none (some 0) none [.lock .files (.storeFile f 2)] [.lock .archives (.remove 1)] results) :=
    two_step rfl rfl rfl rfl rfl rfl rfl rfl rfl rfl rfl rfl
  have e5 : (twoThreads 3 ar fs' none (some 0) none [.lock .files (.storeFile f 2)] [.lock .archives (.remove 1)] results).step x 0 =
      some (twoThreads 3 ar fs' none (some 0) (some 0) [.storeFile f 2] [.lock .archives (.remove 1)] results) :=
    two_step rfl rfl rfl rfl rfl rfl rfl rfl rfl rfl rfl rfl
  have e6 : (twoThreads 3 ar fs' none (some 0) (some 0) [.storeFile f 2] [.lock .archives (.remove 1)] results).step x 0 =
      some (twoThreads 3 ar (insertKey fs' 2 f) none (some 0) none [.leaveOpen 2] [.lock .archives (.remove 1)] results) :=
    two_step rfl rfl rfl rfl rfl rfl rfl rfl rfl rfl rfl rfl
  generalize insertKey fs' 2 f = fs'' at *
  have e7 : (twoThreads 3 ar fs'' none (some 0) none [.leaveOpen 2] [.lock .archives (.remove 1)] results).step x 0 =
      some (twoThreads 3 ar fs'' none none none [.ret (.ok (.handle 2))] [.lock .archives (.remove 1)] results) :=
    two_step rfl rfl rfl rfl rfl rfl rfl rfl rfl rfl rfl rfl
  have e8 : (twoThreads 3 ar fs'' none none none [.ret (.ok (.handle 2))] [.lock .archives (.remove 1)] results).step x 1 =
      some (twoThreads 3 ar fs'' none (some 1) none [.ret (.ok (.handle 2))] [.remove 1] results) :=
    two_step rfl rfl rfl rfl rfl rfl rfl rfl rfl rfl rfl rfl
  have e9 : (twoThreads 3 ar fs'' none (some 1) none [.ret (.ok (.handle 2))] [.remove 1] results).step x 1 =
      some (twoThreads 3 (setKey ar 1 none) fs'' none none none [.ret (.ok (.handle 2))] [.ret (.ok .done)] results) := by
    refine two_step rfl rfl rfl rfl rfl rfl rfl rfl rfl ?_ rfl rfl
    show [[Stage.ret (.ok (.handle 2))], [.ret (if (ar 1).isSome then .ok .done else .error errorInvalidHandle)]] = _
    rw [har]; rfl
  have e10 : (twoThreads 3 (setKey ar 1 none) fs'' none none none [.ret (.ok (.handle 2))] [.ret (.ok .done)] results).step x 1 =
      some (twoThreads 3 (setKey ar 1 none) fs'' none none none [.ret (.ok (.handle 2))] [] ((1, .ok .done) :: results)) :=
    two_step rfl rfl rfl rfl rfl rfl rfl rfl rfl rfl rfl rfl
  have e11 : (twoThreads 3 (setKey ar 1 none) fs'' none none none [.ret (.ok (.handle 2))] [] ((1, .ok .done) :: results)).step x 0 =
      some (twoThreads 3 (setKey ar 1 none) fs'' none none none [] [] ((0, .ok (.handle 2)) :: (1, .ok .done) :: results)) :=
    two_step rfl rfl rfl rfl rfl rfl rfl rfl rfl rfl rfl rfl
  exact .step 0 (.step 1 (.step 1 (.step 1 (.step 0 (.step 0 (.step 0 (.step 0 (.step 0 (.step 1 (.step 1
    (.begin 1 _ (.refl _) (show anyCall _ from trivial) e0) e1) e2) e3) e4) e5) e6) e7) e8) e9) e10) e11

/-- Opening the archive and starting to open the file. -/
def raceOpening (a : Archive) (name : List Byte) : List Turn :=
  [.call 0 (.openArchive [] (.ok a)), .step 0, .step 0, .step 0, .step 0, .step 0, .call 0 (.openFile 1 name), .step 0]

/-- C44 fails: while one thread opens a file of an archive, another closes the archive; afterwards the closing call has
reported success, and the archive is closed, but the file is open and reading from it delivers the content. Any archive,
any file in it. -/
theorem C44_open_file_survives_close (x : FfiEnv) (a : Archive) (name data : List Byte) (info : FileInfo)
    (hf : a.findFile name = .ok (some info)) (hr : a.readFile x.env name = .ok data) (n : U32) :
    ∃ s s', Sys.Moves x anyCall (Sys.init 2) s ∧ s.threads = [[], []] ∧ s.archives 1 = none ∧
      s.results = [(0, .ok (.handle 2)), (1, .ok .done), (0, .ok (.handle 1))] ∧
      (s.files 2).map (·.archiveHandle) = some 1 ∧
      Sys.Moves x anyCall s s' ∧ s'.results = (0, .ok (.bytes (data.take n.toNat))) :: s.results := by
  let sA := ((Sys.init 2).play x (raceOpening a name)).getD (Sys.init 0)
  have hA : (Sys.init 2).play x (raceOpening a name) = some sA := rfl
  have hB := lookup_step (x := x) (s := sA) (t := 0) (h := 1) (name := name) (data := data) (rest := []) (a := ⟨a, []⟩)
    (info := info) rfl rfl rfl hf hr
  have hB' : sA.setStack 0 [.lock .next (.takeFileId ⟨1, name, data, 0, info.fileSize⟩)] =
      twoThreads 2 (insertKey (fun _ => none) 1 ⟨a, []⟩) (fun _ => none) none (some 0) none
        [.lock .next (.takeFileId ⟨1, name, data, 0, info.fileSize⟩)] [] [(0, .ok (.handle 1))] :=
    twoThreads_eq rfl rfl rfl rfl rfl rfl rfl rfl rfl
  rw [hB'] at hB
  have hC := race_closing (x := x) (insertKey (fun _ => none) 1 ⟨a, []⟩) ⟨a, []⟩ rfl (fun _ => none)
    ⟨1, name, data, 0, info.fileSize⟩ [(0, .ok (.handle 1))]
  have hm := moves_trans (.step 0 (play_moves (allowed := anyCall) _ (fun _ _ _ => trivial) hA) hB) hC
  generalize hsC : twoThreads 3 (setKey (insertKey (fun _ => none) 1 ⟨a, []⟩) 1 none)
    (insertKey (purged 1 fun _ => none) 2 ⟨1, name, data, 0, info.fileSize⟩) none none none [] []
    [(0, .ok (.handle 2)), (1, .ok .done), (0, .ok (.handle 1))] = sC at hm
  have c1 : sC.threads = [[], []] := by subst hsC; rfl
  have c2 : sC.archives 1 = none := by subst hsC; rfl
  have c3 : sC.results = [(0, .ok (.handle 2)), (1, .ok .done), (0, .ok (.handle 1))] := by subst hsC; rfl
  have c4 : sC.files 2 = some ⟨1, name, data, 0, info.fileSize⟩ := by subst hsC; rfl
  have c5 : sC.aborted = false := by subst hsC; rfl
  have c6 : sC.holder .files = none := by subst hsC; rfl
  obtain ⟨s1, s2, b1, b2, b3, b4, _, b5, b6⟩ := lock_start (x := x) (s := sC) (t := 0) (c := .onFile 2 (.read n))
    (l := .files) (k := .fileOp 2 (.read n)) (by rw [c1]; rfl) c5 c6 rfl
  have hread : FileOp.run (.read n) ⟨1, name, data, 0, info.fileSize⟩ = .ok (.ok (.bytes (data.take n.toNat)),
      some ⟨1, name, data, min n.toNat data.length, info.fileSize⟩) := by
    rw [FileOp.run, C42_read_piece _ n (Nat.zero_le _)]
    simp only [bind, Except.bind, List.drop_zero, Nat.zero_add]
    rfl
  have hE := fileOp_step (x := x) b3 b4 (by rw [b5, c4]) hread
  have ht3 := setStack_top (s := { s2 with files := setKey s2.files 2 (some ⟨1, name, data, min n.toNat data.length, info.fileSize⟩) }.release .files)
    (new := [.ret (.ok (.bytes (data.take n.toNat)))]) b3
  have hF := step_of_stage (x := x) (s' := _) ht3 b4 rfl
  refine ⟨sC, _, hm, c1, c2, c3, by rw [c4]; rfl,
    .step 0 (.step 0 (.step 0 (.begin 0 _ (.refl _) (show anyCall _ from trivial) b1) b2) hE) hF, ?_⟩
  show (_, _) :: s2.results = _
  rw [b6]

/-- The sample archive and its file. -/
example : ∃ (f : List Byte) (a : Archive) (info : FileInfo), openArchive toyEnv f = .ok a ∧
    a.findFile (ascii "dir/A.TXT") = .ok (some info) ∧
    a.readFile toyEnv (ascii "dir/A.TXT") = .ok (List.replicate 40 0x41#8) := by
  obtain ⟨f, a, _, _, ho, hr, _⟩ := sample_reads .v2 (by decide)
  cases hfi : a.findFile (ascii "dir/A.TXT") with
  | error e => rw [Archive.readFile, hfi] at hr; cases hr
  | ok r =>
    cases r with
    | none => rw [Archive.readFile, hfi] at hr; cases hr
    | some info => exact ⟨f, a, info, ho, hfi, hr⟩

/-- C44 (what holds): if no file of the archive is being opened while it is closed, then once the closing call has returned
the archive and every file of it are closed, and stay closed whatever calls follow. -/
theorem C44_closed_partial (x : FfiEnv) (n : Nat) (s0 s1 s2 s3 : Sys) (t h : Nat)
    (h0 : Sys.Moves x anyCall (Sys.init n) s0) (hh : h ∈ s0.returned)
    (hquiet : s0.AllStages (Stage.NoOpen h))
    (hbegin : s0.begin t (.closeArchive h) = some s1) (hduring : Sys.Moves x (Call.NoOpen h) s1 s2)
    (hreturned : s2.threads[t]? = some []) (hafter : Sys.Moves x anyCall s2 s3) :
    s3.archives h = none ∧ ∀ id f, s3.files id = some f → f.archiveHandle ≠ h := by
  have hg := goodIds_moves h0 (goodIds_init n)
  have hlt := hg.2.1 h (List.mem_append_left _ hh)
  have hother : s0.AllStages (Stage.OtherArchive h) := by
    intro st hst g hgm
    have hnot : h ∉ s0.threads.flatMap (·.flatMap Stage.ids) := fun hm => (List.nodup_append.1 hg.1).2.2 h hh h hm rfl
    have hnot : h ∉ g.ids := fun hm => hnot (List.mem_flatMap.2 ⟨st, hst, List.mem_flatMap.2 ⟨g, hgm, hm⟩⟩)
    clear hgm
    induction g with
    | lock l k ih => exact ih hnot
    | storeArchive a id =>
      intro e
      exact hnot (by simp [Stage.ids, e])
    | _ => trivial
  obtain ⟨_, ht, rfl⟩ := begin_some hbegin
  have hne : h ≠ 0 := by omega
  have hstart : (Call.closeArchive h).start = .lock .files (.purge h) := by simp only [Call.start, if_neg hne]
  have hq : (s0.setStack t [(Call.closeArchive h).start]).Quiet h := by
    refine ⟨hlt.2, allStages_set (fun st hst g hgm => ⟨hquiet st hst g hgm, hother st hst g hgm⟩) rfl (all_cons ?_ (by simp))⟩
    exact ⟨start_noOpen (.closeArchive h), start_otherArchive h _⟩
  have hc : (s0.setStack t [(Call.closeArchive h).start]).Closing t h := by
    left
    simp only [Sys.setStack]
    rw [List.getElem?_set_self (List.getElem?_eq_some_iff.1 ht).1, hstart]
  obtain ⟨q2, c2⟩ := closing_moves hduring hq hc
  have := closed_moves hafter (closing_done q2 c2 hreturned)
  exact ⟨this.archive, this.files⟩

/-- Opening any archive and closing it again, with nothing else going on. -/
example (x : FfiEnv) (a : Archive) : ∃ s0 s1 s2, Sys.Moves x anyCall (Sys.init 1) s0 ∧ 1 ∈ s0.returned ∧
    s0.AllStages (Stage.NoOpen 1) ∧ s0.begin 0 (.closeArchive 1) = some s1 ∧ Sys.Moves x (Call.NoOpen 1) s1 s2 ∧
    s2.threads[0]? = some [] := by
  refine ⟨_, _, _, play_moves [.call 0 (.openArchive [] (.ok a)), .step 0, .step 0, .step 0, .step 0, .step 0]
    (fun _ _ _ => trivial) rfl, List.mem_singleton.2 rfl, ?_, rfl,
    play_moves [.step 0, .step 0, .step 0, .step 0, .step 0] (fun t c hc => by simp at hc) rfl, rfl⟩
  intro st hst
  have : st = [] := List.mem_singleton.1 hst
  rw [this]
  intro g hg
  cases hg

/-! ## C45 -/

/-- C45 (what holds): as long as nobody asks to verify all files of an archive and callbacks only read, seek, ask and close
open files, there is no deadlock: whenever a call is under way, some thread can go on. -/
theorem C45_no_deadlock_partial (x : FfiEnv) (n : Nat) (s : Sys) (h : Sys.Moves x Call.Safe (Sys.init n) s)
    (ha : s.aborted = false) (hbusy : ∃ st ∈ s.threads, st ≠ []) : ∃ t s', s.step x t = some s' := by
  obtain ⟨st, hst, hne⟩ := hbusy
  obtain ⟨t, ht⟩ := List.getElem?_of_mem hst
  cases st with
  | nil => exact absurd rfl hne
  | cons top rest => exact locks_progress (locks_moves h (locks_init n)) ha ht

/-- C45 (what holds): and the calls come to an end: without new calls the threads cannot go on for ever, whatever the
schedule. -/
theorem C45_calls_end_partial (x : FfiEnv) (n : Nat) (s : Sys) (h : Sys.Moves x Call.Safe (Sys.init n) s)
    (f : Nat → Sys) (h0 : f 0 = s) : ¬ ∀ i, ∃ t, (f i).step x t = some (f (i + 1)) :=
  locks_terminate _ _ f (by rw [h0]; exact locks_moves h (locks_init n)) rfl rfl

/-- Two threads, one listing an archive with a callback that reads from a file, one opening a file. -/
example (x : FfiEnv) (a : Archive) : ∃ s, Sys.Moves x Call.Safe (Sys.init 2) s ∧ s.aborted = false ∧
    ∃ st ∈ s.threads, st ≠ [] := by
  refine ⟨_, play_moves [.call 0 (.openArchive [] (.ok a)), .step 0, .step 0, .step 0, .step 0, .step 0,
    .call 0 (.enumFiles 1 [0x2A#8] (fun _ => [.onFile 2 (.read 10#32)]) (fun _ => true)), .step 0,
    .call 1 (.openFile 1 [0x61#8])] ?_ rfl, rfl, _, List.mem_cons_self, by decide⟩
  intro t c hc
  simp at hc
  rcases hc with ⟨_, rfl⟩ | ⟨_, rfl⟩ | ⟨_, rfl⟩
  · trivial
  · intro name c hc
    exact ⟨_, _, List.mem_singleton.1 hc⟩
  · trivial

/-- Thread `t` is stuck for ever: whatever happens, it never makes another step, and the lock on the archives stays with
it. -/
def Sys.Stuck (x : FfiEnv) (s : Sys) (t : Nat) : Prop :=
  ∀ s', Sys.Moves x anyCall s s' → s'.threads[t]? = s.threads[t]? ∧ s'.step x t = none ∧ s'.holder .archives = some t

/-- C45 fails: verifying all files of an archive (flag 0x20, here without the signature) never returns, if a file is listed
whose name is not in parentheses, does not end like a directory and has no zero byte: the call checks each file while
holding the lock that the check takes. -/
theorem C45_verify_all_files_hangs (x : FfiEnv) (n : Nat) (s : Sys) (h0 : Sys.Moves x anyCall (Sys.init n) s) (t h : Nat)
    (a : ArchiveHandle) (ha : s.archives h = some a) (h1 : h ≠ 0) (hidle : s.threads[t]? = some [])
    (hrun : s.aborted = false) (hfree : s.holder .archives = none)
    (entries : List FileEntry) (hlist : a.archive.list x.env = .ok entries)
    (hsome : ∃ entry ∈ entries, entry.name.head? ≠ some 0x28#8 ∧ entry.name.getLast? ≠ some 0x2F#8 ∧
      entry.name.getLast? ≠ some 0x5C#8 ∧ 0#8 ∉ entry.name) (flags : U32)
    (h20 : hasBits flags 0x20#32 = true) (h10 : hasBits flags 0x10#32 = false) :
    ∃ s1 s2, s.begin t (.verifyArchive h flags) = some s1 ∧ Sys.Moves x anyCall s1 s2 ∧ s2.Stuck x t := by
  obtain ⟨s1, s2, hb, hs, ht2, hrun2, har2, _, _⟩ := lock_start (x := x) (c := .verifyArchive h flags) (l := .archives)
    (k := .verifyList h flags) hidle hrun hfree (by simp only [Call.start, if_neg h1])
  have hne : flags ≠ 0#32 := by rintro rfl; exact absurd h20 (by decide)
  obtain ⟨name, fl, files, hfiles⟩ : ∃ name fl files, verifyArchiveList x a.archive flags = .ok (.ok ((name, fl) :: files)) := by
    unfold verifyArchiveList signatureAcceptable
    simp only [if_neg hne, h10, h20, hlist, caught, bind, Except.bind, Bool.false_eq_true, if_false, Bool.not_true, pure,
      Except.pure]
    obtain ⟨entry, hm, e1, e2, e3, e4⟩ := hsome
    have hv : verifiable entry.name = true := by
      unfold verifiable
      have c : entry.name.contains 0#8 = false := by
        cases hc : entry.name.contains 0#8 with
        | false => rfl
        | true => exact absurd (List.contains_iff_mem.1 hc) e4
      simp [e1, e2, e3, e4]
    generalize hl : List.map (fun entry => (entry.name,
      (if hasBits entry.flags flagSectorCrc = true then 1#32 else 0#32) ||| 2#32 ||| 4#32))
      (List.filter (fun entry => verifiable entry.name) entries) = l
    cases l with
    | nil =>
      rw [List.map_eq_nil_iff, List.filter_eq_nil_iff] at hl
      exact absurd hv (hl entry hm)
    | cons p ps => exact ⟨p.1, p.2, ps, rfl⟩
  have hs3 : s2.step x t = some (s2.setStack t [.verifyNext h ((name, fl) :: files)]) := by
    refine step_of_stage ht2 hrun2 ?_
    simp only [Sys.stepStage, har2, ha, hfiles, orAbort]
  have ht3 := setStack_top (new := [.verifyNext h ((name, fl) :: files)]) ht2
  have hs4 : (s2.setStack t [.verifyNext h ((name, fl) :: files)]).step x t =
      some ((s2.setStack t [.verifyNext h ((name, fl) :: files)]).setStack t
        [.lock .archives (.archOp h (.verifyFile name fl)), .verifyNext h files]) := by
    refine step_of_stage ht3 hrun2 ?_
    simp [Sys.stepStage, Call.start, h1]
  refine ⟨s1, _, hb, .step t (.step t (.step t (.refl _) hs) hs3) hs4, ?_⟩
  have hmoves := Sys.Moves.step t (.step t (.step t (.begin t _ h0 (show anyCall (.verifyArchive h flags) from trivial) hb) hs) hs3) hs4
  have hh := holders_moves hmoves (holders_init n)
  intro s' hm
  have ht4 := setStack_top (new := [.lock .archives (.archOp h (.verifyFile name fl)), .verifyNext h files]) ht3
  obtain ⟨r1, r2, r3⟩ := blocked_forever hm hh ht4 (by simp [heldBy, Stage.holds])
  exact ⟨r1.trans ht4.symm, r3, r2⟩

/-- C45 fails: enumerating the files of an archive never returns, if the callback opens a file of it. -/
theorem C45_callback_opening_file_hangs (x : FfiEnv) (n : Nat) (s : Sys) (h0 : Sys.Moves x anyCall (Sys.init n) s) (t h : Nat)
    (a : ArchiveHandle) (ha : s.archives h = some a) (h1 : h ≠ 0) (hidle : s.threads[t]? = some [])
    (hrun : s.aborted = false) (hfree : s.holder .archives = none)
    (entries : List FileEntry) (hlist : a.archive.list x.env = .ok entries)
    (hsome : ∃ entry ∈ entries, 0#8 ∉ entry.name) (goOn : List Byte → Bool) :
    ∃ s1 s2, s.begin t (.enumFiles h (ascii "*") (fun name => [.openFile h name]) goOn) = some s1 ∧
      Sys.Moves x anyCall s1 s2 ∧ s2.Stuck x t := by
  obtain ⟨s1, s2, hb, hs, ht2, hrun2, har2, _, _⟩ := lock_start (x := x)
    (c := .enumFiles h (ascii "*") (fun name => [.openFile h name]) goOn) (l := .archives)
    (k := .enumList h (ascii "*") (fun name => [.openFile h name]) goOn) hidle hrun hfree
    (by simp only [Call.start, if_neg h1])
  obtain ⟨name, names, hnames⟩ : ∃ name names, enumNames x a.archive (ascii "*") = .ok (name :: names) := by
    unfold enumNames
    simp only [hlist, caught, bind, Except.bind, pure, Except.pure]
    obtain ⟨entry, hm, e4⟩ := hsome
    generalize hl : List.filter (fun name => maskMatches (ascii "*") name && !name.contains 0#8)
      (List.map (fun x => x.name) entries) = l
    cases l with
    | nil =>
      rw [List.filter_eq_nil_iff] at hl
      have := hl entry.name (List.mem_map.2 ⟨entry, hm, rfl⟩)
      have hmm : maskMatches (ascii "*") entry.name = true := by
        unfold maskMatches
        rw [show (ascii "*" == [0x2A#8]) = true by decide]
        rfl
      simp [hmm, e4] at this
    | cons p ps => exact ⟨p, ps, rfl⟩
  generalize hcalls : (fun name => [Call.openFile h name]) = calls at *
  have hs3 : s2.step x t = some (s2.setStack t [.enumNext (name :: names) calls goOn]) := by
    refine step_of_stage ht2 hrun2 ?_
    simp only [Sys.stepStage, har2, ha, hnames, orAbort]
  have ht3 := setStack_top (new := [.enumNext (name :: names) calls goOn]) ht2
  have hs4 : (s2.setStack t [.enumNext (name :: names) calls goOn]).step x t =
      some ((s2.setStack t [.enumNext (name :: names) calls goOn]).setStack t
        [.enumCallback name [.openFile h name] names calls goOn]) := by
    refine step_of_stage ht3 hrun2 ?_
    subst hcalls
    rfl
  have ht4 := setStack_top (new := [.enumCallback name [.openFile h name] names calls goOn]) ht3
  have hs5 : ((s2.setStack t [.enumNext (name :: names) calls goOn]).setStack t
        [.enumCallback name [.openFile h name] names calls goOn]).step x t =
      some (((s2.setStack t [.enumNext (name :: names) calls goOn]).setStack t
        [.enumCallback name [.openFile h name] names calls goOn]).setStack t
        [.lock .archives (.lookup h name), .enumCallback name [] names calls goOn]) := by
    refine step_of_stage ht4 hrun2 ?_
    simp only [Sys.stepStage, Call.start, if_neg h1]
  refine ⟨s1, _, hb, .step t (.step t (.step t (.step t (.refl _) hs) hs3) hs4) hs5, ?_⟩
  have hmoves := Sys.Moves.step t (.step t (.step t (.step t (.begin t _ h0 (show anyCall _ from trivial) hb) hs) hs3) hs4) hs5
  have hh := holders_moves hmoves (holders_init n)
  intro s' hm
  have ht5 := setStack_top (new := [.lock .archives (.lookup h name), .enumCallback name [] names calls goOn]) ht4
  obtain ⟨r1, r2, r3⟩ := blocked_forever hm hh ht5 (by simp [heldBy, Stage.holds])
  exact ⟨r1.trans ht5.symm, r3, r2⟩

/-- Both apply to the sample archive once it is open. -/
example : ∃ (x : FfiEnv) (s : Sys) (a : ArchiveHandle) (entries : List FileEntry),
    Sys.Moves x anyCall (Sys.init 1) s ∧ s.archives 1 = some a ∧ s.threads[0]? = some [] ∧ s.aborted = false ∧
    s.holder .archives = none ∧ a.archive.list x.env = .ok entries ∧
    (∃ entry ∈ entries, entry.name.head? ≠ some 0x28#8 ∧ entry.name.getLast? ≠ some 0x2F#8 ∧
      entry.name.getLast? ≠ some 0x5C#8 ∧ 0#8 ∉ entry.name) ∧
    hasBits 0x20#32 0x20#32 = true ∧ hasBits 0x20#32 0x10#32 = false := by
  obtain ⟨f, a, entries, _, _, hl, hn⟩ := sample_lists .v2 (by decide)
  let x : FfiEnv := ⟨toyEnv, ⟨fun _ => [], fun _ => [], ⟨3, 3⟩, ⟨3, 3⟩, fun _ => none⟩, fun _ => 0⟩
  have hm : Sys.Moves x anyCall (Sys.init 1) _ := play_moves [.call 0 (.openArchive [] (.ok a)), .step 0, .step 0, .step 0,
    .step 0, .step 0] (fun _ _ _ => trivial) rfl
  refine ⟨x, _, ⟨a, []⟩, entries, hm, rfl, rfl, rfl, rfl, hl, ?_, by decide, by decide⟩
  cases entries with
  | nil => cases hn
  | cons entry rest =>
    rw [List.map_cons] at hn
    have : entry.name = ascii "Dir\\a.txt" := congrArg Prod.fst (List.cons.inj hn).1
    refine ⟨entry, List.mem_cons_self, ?_⟩
    rw [this]
    decide +kernel

end Mopaq
