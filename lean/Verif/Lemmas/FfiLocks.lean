import Verif.Lemmas.FfiClose

/-! # Lemmas on the locks of the C API -/

namespace Mopaq

/-- A callback that only reads, seeks, asks and closes open files. -/
def FileCalls (cs : List Call) : Prop := ∀ c ∈ cs, ∃ h op, c = .onFile h op

/-- A call whose callback, if any, only makes calls on open files, and which does not ask to verify all files of an
archive. -/
def Call.Safe : Call → Prop
  | .enumFiles _ _ calls _ => ∀ name, FileCalls (calls name)
  | .verifyArchive _ flags => hasBits flags 0x20#32 = false
  | _ => True

/-- The lock taken just before a stage. -/
def Stage.final : Stage → Option Lock
  | .takeArchiveId _ | .takeFileId _ => some .next
  | .purge _ | .storeFile .. | .fileOp .. | .fileInfo .. => some .files
  | .storeArchive .. | .remove _ | .lookup .. | .archOp .. | .archInfo .. | .enumList .. | .verifyList .. => some .archives
  | _ => none

/-- A stage of a safe call. -/
def Stage.Safe : Stage → Prop
  | .lock l k => k.final = some l ∧ k.Safe
  | .enumList _ _ calls _ => ∀ name, FileCalls (calls name)
  | .enumNext _ calls _ => ∀ name, FileCalls (calls name)
  | .enumCallback _ pending _ calls _ => FileCalls pending ∧ ∀ name, FileCalls (calls name)
  | .verifyList _ flags => hasBits flags 0x20#32 = false
  | .verifyNext .. | .verifyResult .. => False
  | _ => True

/-- A stage of a call made by a callback. -/
def Stage.Inner : Stage → Prop
  | .lock .files (.fileOp _ _) => True
  | .fileOp _ _ => True
  | .ret _ => True
  | _ => False

/-- The calls of a thread. -/
def SafeStack : List Stage → Prop
  | [] => True
  | [g] => g.Safe
  | [g, .enumCallback name pending names calls goOn] => g.Inner ∧ (Stage.enumCallback name pending names calls goOn).Safe
  | _ => False

/-- The locks a thread holds. -/
def heldBy (st : List Stage) : List Lock := st.flatMap Stage.holds

structure Sys.LocksOk (s : Sys) : Prop where
  stacks : ∀ st ∈ s.threads, SafeStack st
  holders : ∀ l t, s.holder l = some t ↔ ∃ st, s.threads[t]? = some st ∧ l ∈ heldBy st

/-- Listings still to be made. -/
def Stage.listings : Stage → Nat
  | .lock _ k => k.listings
  | .enumList .. => 1
  | _ => 0

def enumSteps (calls : List Byte → List Call) : List (List Byte) → Nat
  | [] => 2
  | name :: names => 2 + 5 * (calls name).length + enumSteps calls names

/-- Steps still to be made, besides those that follow a listing. -/
def Stage.steps : Stage → Nat
  | .lock _ k => 1 + k.steps
  | .ret _ => 1
  | .takeArchiveId _ => 4
  | .purge _ => 4
  | .lookup .. => 7
  | .takeFileId _ => 5
  | .storeFile .. => 3
  | .fileInfo .. => 4
  | .enumNext names calls _ => enumSteps calls names
  | .enumCallback _ pending names calls _ => 1 + 5 * pending.length + enumSteps calls names
  | _ => 2

def stackListings (st : List Stage) : Nat := (st.map Stage.listings).sum
def stackSteps (st : List Stage) : Nat := (st.map Stage.steps).sum
def Sys.listings (s : Sys) : Nat := (s.threads.map stackListings).sum
def Sys.steps (s : Sys) : Nat := (s.threads.map stackSteps).sum

/-- Less to do. -/
def Sys.Less (s' s : Sys) : Prop := s'.listings < s.listings ∨ s'.listings = s.listings ∧ s'.steps < s.steps

theorem sum_set {α : Type} (F : α → Nat) : ∀ (l : List α) (t : Nat) (old : α), l[t]? = some old →
    ∃ X, (l.map F).sum = F old + X ∧ ∀ new, ((l.set t new).map F).sum = F new + X
  | [], t, old, h => by simp at h
  | a :: l, 0, old, h => by
    simp only [List.getElem?_cons_zero, Option.some.injEq] at h
    subst h
    exact ⟨(l.map F).sum, by simp, fun new => by simp⟩
  | a :: l, t + 1, old, h => by
    obtain ⟨X, h1, h2⟩ := sum_set F l t old (by simpa using h)
    refine ⟨F a + X, ?_, fun new => ?_⟩
    · rw [List.map_cons, List.sum_cons, h1]; omega
    · rw [List.set_cons_succ, List.map_cons, List.sum_cons, h2]; omega

theorem less_set {s s1 : Sys} {t : Nat} {old new : List Stage} (ht : s.threads[t]? = some old)
    (h1 : s1.threads = s.threads)
    (h : stackListings new < stackListings old ∨
      stackListings new = stackListings old ∧ stackSteps new < stackSteps old) : (s1.setStack t new).Less s := by
  obtain ⟨X, hX, hX'⟩ := sum_set stackListings s.threads t old ht
  obtain ⟨Y, hY, hY'⟩ := sum_set stackSteps s.threads t old ht
  unfold Sys.Less Sys.listings Sys.steps Sys.setStack
  simp only [h1, hX, hX', hY, hY']
  omega

theorem locks_set {s s1 : Sys} {t : Nat} {old new : List Stage} (hc : s.LocksOk) (ht : s.threads[t]? = some old)
    (h1 : s1.threads = s.threads) (h2 : SafeStack new)
    (h3 : ∀ l u, u ≠ t → (s1.holder l = some u ↔ s.holder l = some u))
    (h4 : ∀ l, s1.holder l = some t ↔ l ∈ heldBy new) : (s1.setStack t new).LocksOk := by
  constructor
  · intro st hst
    simp only [Sys.setStack, h1] at hst
    rcases List.mem_or_eq_of_mem_set hst with h | h
    · exact hc.stacks st h
    · subst h; exact h2
  · intro l u
    have hlt := (List.getElem?_eq_some_iff.1 ht).1
    simp only [Sys.setStack, h1]
    by_cases hu : u = t
    · subst hu
      rw [h4, List.getElem?_set_self hlt]
      constructor
      · exact fun h => ⟨new, rfl, h⟩
      · rintro ⟨st, hst, h⟩; cases hst; exact h
    · rw [h3 l u hu, hc.holders, List.getElem?_set_ne (Ne.symm hu)]

theorem holds_iff {s : Sys} {t : Nat} {old : List Stage} (hc : s.LocksOk) (ht : s.threads[t]? = some old) (l : Lock) :
    s.holder l = some t ↔ l ∈ heldBy old := by
  rw [hc.holders]
  constructor
  · rintro ⟨st, hst, h⟩; rw [ht] at hst; cases hst; exact h
  · exact fun h => ⟨old, ht, h⟩

theorem locks_same {s s1 : Sys} {t : Nat} {old new : List Stage} (hc : s.LocksOk) (ht : s.threads[t]? = some old)
    (h1 : s1.threads = s.threads) (hh : s1.holder = s.holder) (h2 : SafeStack new)
    (h4 : ∀ l, l ∈ heldBy new ↔ l ∈ heldBy old) : (s1.setStack t new).LocksOk :=
  locks_set hc ht h1 h2 (fun l u _ => by rw [hh]) (fun l => by rw [hh, holds_iff hc ht, h4])

theorem locks_release {s s1 : Sys} {t : Nat} {old new : List Stage} (L : Lock) (hc : s.LocksOk)
    (ht : s.threads[t]? = some old) (h1 : s1.threads = s.threads) (hh : s1.holder = (s.release L).holder)
    (h2 : SafeStack new) (hL : L ∈ heldBy old) (h4 : ∀ l, l ∈ heldBy new ↔ l ∈ heldBy old ∧ l ≠ L) :
    (s1.setStack t new).LocksOk := by
  have hLt := (holds_iff hc ht L).2 hL
  refine locks_set hc ht h1 h2 (fun l u hu => ?_) (fun l => ?_)
  · rw [hh]
    simp only [Sys.release]
    split
    · rename_i e
      subst e
      rw [hLt]
      constructor
      · intro h; cases h
      · intro h; cases h; exact absurd rfl hu
    · exact Iff.rfl
  · rw [hh, h4, ← holds_iff hc ht]
    simp only [Sys.release]
    split
    · rename_i e; subst e; simp
    · rename_i e; simp [e]

theorem locks_acquire {s s1 : Sys} {t : Nat} {old new : List Stage} (L : Lock) (hc : s.LocksOk)
    (ht : s.threads[t]? = some old) (h1 : s1.threads = s.threads) (hh : s1.holder = (s.acquire t L).holder)
    (h2 : SafeStack new) (hL : s.holder L = none) (h4 : ∀ l, l ∈ heldBy new ↔ l ∈ heldBy old ∨ l = L) :
    (s1.setStack t new).LocksOk := by
  refine locks_set hc ht h1 h2 (fun l u hu => ?_) (fun l => ?_)
  · rw [hh]
    simp only [Sys.acquire]
    split
    · rename_i e
      subst e
      rw [hL]
      constructor
      · intro h; cases h; exact absurd rfl hu
      · intro h; cases h
    · exact Iff.rfl
  · rw [hh, h4, ← holds_iff hc ht]
    simp only [Sys.acquire]
    split
    · rename_i e; simp [e]
    · rename_i e; simp [e]

theorem start_safe {c : Call} (hc : c.Safe) : c.start.Safe := by
  cases c with
  | openArchive path opened =>
    unfold Call.start
    split <;> first | trivial | exact ⟨rfl, trivial⟩ | (split <;> first | trivial | exact ⟨rfl, trivial⟩)
  | enumFiles h mask calls goOn =>
    simp only [Call.start]
    split
    · trivial
    · exact ⟨rfl, hc⟩
  | verifyArchive h flags =>
    simp only [Call.start]
    split
    · trivial
    · exact ⟨rfl, hc⟩
  | _ => simp only [Call.start]; split <;> first | trivial | exact ⟨rfl, trivial⟩

theorem start_free {c : Call} : heldBy [c.start] = [] := by
  cases c with
  | openArchive path opened =>
    unfold Call.start
    split <;> first | rfl | (split <;> rfl)
  | _ => simp only [Call.start]; split <;> rfl

theorem start_inner {h : Nat} {op : FileOp} : (Call.onFile h op).start.Inner ∧ (Call.onFile h op).start.steps ≤ 3 ∧
    (Call.onFile h op).start.listings = 0 ∧ (Call.onFile h op).start.holds = [] := by
  simp only [Call.start]
  split
  · exact ⟨trivial, by decide, rfl, rfl⟩
  · exact ⟨trivial, by simp [Stage.steps], rfl, rfl⟩

theorem verifyList_answers {x : FfiEnv} {a : Archive} {flags : U32} (hf : hasBits flags 0x20#32 = false)
    {v : Except Outcome (List (List Byte × U32))} (h : verifyArchiveList x a flags = .ok v) : ∃ o, v = .error o := by
  unfold verifyArchiveList at h
  simp only [] at h
  have hf' : hasBits (if flags = 0#32 then 0x10#32 else flags) 0x20#32 = false := by
    split
    · decide
    · exact hf
  generalize (if flags = 0#32 then 0x10#32 else flags) = flags at h hf'
  obtain ⟨sg, _, h⟩ := bind_eq_ok.1 h
  split at h
  · cases h; exact ⟨_, rfl⟩
  · rw [hf'] at h
    cases h; exact ⟨_, rfl⟩

/-- A step of a safe system. -/
structure GoodStep (s s' : Sys) : Prop where
  locks : s'.LocksOk
  less : s'.aborted = false → s'.Less s

theorem stepStage_good {x : FfiEnv} {s s' : Sys} {t : Nat} {top : Stage} {rest : List Stage} (hc : s.LocksOk)
    (ht : s.threads[t]? = some (top :: rest)) (hs : s.stepStage x t rest top = some s') : GoodStep s s' := by
  have habort : GoodStep s s.abort := ⟨⟨hc.stacks, hc.holders⟩, fun h => by cases h⟩
  have hsafe := hc.stacks _ (List.mem_of_getElem? ht)
  have same : ∀ (s1 : Sys) (new : List Stage), s1.threads = s.threads → s1.holder = s.holder → SafeStack new →
      (∀ l, l ∈ heldBy new ↔ l ∈ heldBy (top :: rest)) →
      (stackListings new < stackListings (top :: rest) ∨
        stackListings new = stackListings (top :: rest) ∧ stackSteps new < stackSteps (top :: rest)) →
      GoodStep s (s1.setStack t new) :=
    fun s1 new h1 h2 h3 h4 h5 => ⟨locks_same hc ht h1 h2 h3 h4, fun _ => less_set ht h1 h5⟩
  have rel : ∀ (L : Lock) (s1 : Sys) (new : List Stage), s1.threads = s.threads → s1.holder = (s.release L).holder →
      SafeStack new → L ∈ heldBy (top :: rest) → (∀ l, l ∈ heldBy new ↔ l ∈ heldBy (top :: rest) ∧ l ≠ L) →
      (stackListings new < stackListings (top :: rest) ∨
        stackListings new = stackListings (top :: rest) ∧ stackSteps new < stackSteps (top :: rest)) →
      GoodStep s (s1.setStack t new) :=
    fun L s1 new h1 h2 h3 h4 h5 h6 => ⟨locks_release L hc ht h1 h2 h3 h4 h5, fun _ => less_set ht h1 h6⟩
  cases rest with
  | cons g2 rest =>
    cases g2 with
    | enumCallback name pending names calls goOn =>
      cases rest with
      | cons g3 rest => exact hsafe.elim
      | nil =>
        obtain ⟨hin, hcb⟩ := hsafe
        cases top with
        | ret o =>
          cases hs
          refine same _ _ rfl rfl hcb ?_ (.inr ⟨?_, ?_⟩)
          · intro l; simp [resume, heldBy, Stage.holds]
          · simp [resume, stackListings, Stage.listings]
          · simp [resume, stackSteps, Stage.steps]
        | fileOp h op =>
          have hh : ∀ o, ∀ l : Lock, l ∈ heldBy [.ret o, .enumCallback name pending names calls goOn] ↔
              l ∈ heldBy [.fileOp h op, .enumCallback name pending names calls goOn] ∧ l ≠ .files := by
            intro o l; cases l <;> simp [heldBy, Stage.holds]
          simp only [Sys.stepStage] at hs
          split at hs
          · cases hs
            exact rel .files _ _ rfl rfl ⟨trivial, hcb⟩ (by simp [heldBy, Stage.holds]) (hh _)
              (.inr ⟨rfl, by simp [stackSteps, Stage.steps]⟩)
          · rcases orAbort_cases (Option.some.inj hs) with h1 | ⟨⟨o, f'⟩, hv, h1⟩
            · subst h1; exact habort
            · subst h1
              exact rel .files _ _ rfl rfl ⟨trivial, hcb⟩ (by simp [heldBy, Stage.holds]) (hh _)
                (.inr ⟨rfl, by simp [stackSteps, Stage.steps]⟩)
        | lock l k =>
          cases l with
          | files =>
            cases k with
            | fileOp h op =>
              simp only [Sys.stepStage] at hs
              split at hs
              · rename_i hfree
                cases hs
                refine ⟨locks_acquire .files hc ht rfl rfl ⟨trivial, hcb⟩ hfree ?_, fun _ => less_set ht rfl (.inr ⟨rfl, ?_⟩)⟩
                · intro l; cases l <;> simp [heldBy, Stage.holds]
                · simp [stackSteps, Stage.steps]
              · cases hs
            | _ => exact hin.elim
          | _ => exact hin.elim
        | _ => exact hin.elim
    | _ => exact hsafe.elim
  | nil =>
    have retA : ∀ (o : Outcome) (s1 : Sys), s1.threads = s.threads → s1.holder = (s.release .archives).holder →
        heldBy [top] = [.archives] → 1 < top.steps → GoodStep s (s1.setStack t [.ret o]) := by
      intro o s1 h1 h2 h3 h4
      refine rel .archives s1 _ h1 h2 trivial (by rw [h3]; simp) (by rw [h3]; intro l; simp [heldBy, Stage.holds]) ?_
      simp only [stackListings, stackSteps, List.map_cons, List.map_nil, List.sum_cons, List.sum_nil, Stage.listings,
        Stage.steps]
      omega
    cases top with
    | lock l k =>
      obtain ⟨hf, hk⟩ := hsafe
      simp only [Sys.stepStage] at hs
      split at hs
      · rename_i hfree
        cases hs
        refine ⟨locks_acquire l hc ht rfl rfl hk hfree ?_, fun _ => less_set ht rfl (.inr ⟨?_, ?_⟩)⟩
        · intro l'
          cases k <;> simp [Stage.final] at hf <;> subst hf <;> cases l' <;> simp [heldBy, Stage.holds]
        · simp [stackListings, Stage.listings]
        · simp [stackSteps, Stage.steps]
      · cases hs
    | ret o =>
      cases hs
      exact same _ _ rfl rfl trivial (by intro l; simp [resume, heldBy, Stage.holds])
        (.inr ⟨rfl, Nat.one_pos⟩)
    | crash => cases hs; exact habort
    | takeArchiveId a =>
      simp only [Sys.stepStage] at hs
      split at hs
      · cases hs
        exact rel .next _ _ rfl rfl ⟨rfl, trivial⟩ (by simp [heldBy, Stage.holds])
          (by intro l; cases l <;> simp [heldBy, Stage.holds]) (.inr ⟨rfl, by simp [stackSteps, Stage.steps]⟩)
      · cases hs; exact habort
    | storeArchive a id => cases hs; exact retA _ _ rfl rfl rfl (by simp [Stage.steps])
    | purge h =>
      cases hs
      exact rel .files _ _ rfl rfl ⟨rfl, trivial⟩ (by simp [heldBy, Stage.holds])
        (by intro l; cases l <;> simp [heldBy, Stage.holds]) (.inr ⟨rfl, by simp [stackSteps, Stage.steps]⟩)
    | remove h => cases hs; exact retA _ _ rfl rfl rfl (by simp [Stage.steps])
    | lookup h name =>
      simp only [Sys.stepStage] at hs
      split at hs
      · cases hs; exact retA _ _ rfl rfl rfl (by simp [Stage.steps])
      · rcases orAbort_cases (Option.some.inj hs) with h1 | ⟨v, _, h1⟩
        · subst h1; exact habort
        · split at h1
          · subst h1; exact retA _ _ rfl rfl rfl (by simp [Stage.steps])
          · subst h1; exact retA _ _ rfl rfl rfl (by simp [Stage.steps])
          · rcases orAbort_cases h1.symm with h2 | ⟨v, _, h2⟩
            · subst h2; exact habort
            · split at h2
              · subst h2; exact retA _ _ rfl rfl rfl (by simp [Stage.steps])
              · subst h2
                exact same _ _ rfl rfl ⟨rfl, trivial⟩ (by intro l; cases l <;> simp [heldBy, Stage.holds])
                  (.inr ⟨rfl, by simp [stackSteps, Stage.steps]⟩)
    | takeFileId f =>
      simp only [Sys.stepStage] at hs
      split at hs
      · cases hs
        exact rel .next _ _ rfl rfl ⟨rfl, trivial⟩ (by simp [heldBy, Stage.holds])
          (by intro l; cases l <;> simp [heldBy, Stage.holds]) (.inr ⟨rfl, by simp [stackSteps, Stage.steps]⟩)
      · cases hs; exact habort
    | storeFile f id =>
      cases hs
      exact rel .files _ _ rfl rfl trivial (by simp [heldBy, Stage.holds])
        (by intro l; cases l <;> simp [heldBy, Stage.holds]) (.inr ⟨rfl, by simp [stackSteps, Stage.steps]⟩)
    | leaveOpen id => cases hs; exact retA _ _ rfl rfl rfl (by simp [Stage.steps])
    | fileOp h op =>
      simp only [Sys.stepStage] at hs
      split at hs
      · cases hs
        exact rel .files _ _ rfl rfl trivial (by simp [heldBy, Stage.holds])
          (by intro l; cases l <;> simp [heldBy, Stage.holds]) (.inr ⟨rfl, by simp [stackSteps, Stage.steps]⟩)
      · rcases orAbort_cases (Option.some.inj hs) with h1 | ⟨⟨o, f'⟩, hv, h1⟩
        · subst h1; exact habort
        · subst h1
          exact rel .files _ _ rfl rfl trivial (by simp [heldBy, Stage.holds])
            (by intro l; cases l <;> simp [heldBy, Stage.holds]) (.inr ⟨rfl, by simp [stackSteps, Stage.steps]⟩)
    | archOp h op =>
      simp only [Sys.stepStage] at hs
      split at hs
      · cases hs; exact retA _ _ rfl rfl rfl (by simp [Stage.steps])
      · rcases orAbort_cases (Option.some.inj hs) with h1 | ⟨o, hv, h1⟩
        · subst h1; exact habort
        · subst h1; exact retA _ _ rfl rfl rfl (by simp [Stage.steps])
    | fileInfo h c n =>
      simp only [Sys.stepStage] at hs
      split at hs
      · cases hs
        exact rel .files _ _ rfl rfl ⟨rfl, trivial⟩ (by simp [heldBy, Stage.holds])
          (by intro l; cases l <;> simp [heldBy, Stage.holds]) (.inr ⟨rfl, by simp [stackSteps, Stage.steps]⟩)
      · cases hs
        exact rel .files _ _ rfl rfl trivial (by simp [heldBy, Stage.holds])
          (by intro l; cases l <;> simp [heldBy, Stage.holds]) (.inr ⟨rfl, by simp [stackSteps, Stage.steps]⟩)
    | archInfo h c n =>
      simp only [Sys.stepStage] at hs
      split at hs
      · cases hs; exact retA _ _ rfl rfl rfl (by simp [Stage.steps])
      · rcases orAbort_cases (Option.some.inj hs) with h1 | ⟨o, hv, h1⟩
        · subst h1; exact habort
        · subst h1; exact retA _ _ rfl rfl rfl (by simp [Stage.steps])
    | enumList h mask calls goOn =>
      simp only [Sys.stepStage] at hs
      split at hs
      · cases hs; exact retA _ _ rfl rfl rfl (by simp [Stage.steps])
      · rcases orAbort_cases (Option.some.inj hs) with h1 | ⟨o, hv, h1⟩
        · subst h1; exact habort
        · subst h1
          exact same _ _ rfl rfl hsafe (by intro l; simp [heldBy, Stage.holds]) (.inl (Nat.one_pos))
    | enumNext names calls goOn =>
      cases names with
      | nil => cases hs; exact retA _ _ rfl rfl rfl (by simp [Stage.steps, enumSteps])
      | cons name names =>
        cases hs
        refine same _ _ rfl rfl (show Stage.Safe _ from ⟨hsafe name, hsafe⟩) (by intro l; simp [heldBy, Stage.holds])
          (.inr ⟨rfl, ?_⟩)
        simp only [stackSteps, Stage.steps, enumSteps, List.map_cons, List.map_nil, List.sum_cons, List.sum_nil]
        omega
    | enumCallback name pending names calls goOn =>
      cases pending with
      | nil =>
        simp only [Sys.stepStage] at hs
        split at hs
        · cases hs
          refine same _ _ rfl rfl (show Stage.Safe _ from hsafe.2) (by intro l; simp [heldBy, Stage.holds]) (.inr ⟨rfl, ?_⟩)
          simp [stackSteps, Stage.steps]
        · cases hs
          refine retA _ _ rfl rfl rfl ?_
          have : 2 ≤ enumSteps calls names := by cases names <;> simp [enumSteps] <;> omega
          simp only [Stage.steps]; omega
      | cons c pending =>
        cases hs
        obtain ⟨h, op, rfl⟩ := hsafe.1 c List.mem_cons_self
        obtain ⟨h1, h2, h3, h4⟩ := start_inner (h := h) (op := op)
        refine same _ _ rfl rfl (show SafeStack _ from ⟨h1, fun c hc => hsafe.1 c (List.mem_cons_of_mem _ hc), hsafe.2⟩) ?_
          (.inr ⟨?_, ?_⟩)
        · intro l; simp [heldBy, Stage.holds, h4]
        · simp [stackListings, Stage.listings, h3]
        · simp only [stackSteps, Stage.steps, List.map_cons, List.map_nil, List.sum_cons, List.sum_nil, List.length_cons]
          omega
    | verifyList h flags =>
      simp only [Sys.stepStage] at hs
      split at hs
      · cases hs; exact retA _ _ rfl rfl rfl (by simp [Stage.steps])
      · rcases orAbort_cases (Option.some.inj hs) with h1 | ⟨v, hv, h1⟩
        · subst h1; exact habort
        · obtain ⟨o, rfl⟩ := verifyList_answers hsafe hv
          subst h1
          exact retA _ _ rfl rfl rfl (by simp [Stage.steps])
    | verifyNext h files => exact hsafe.elim
    | verifyResult h o files => exact hsafe.elim

theorem locks_init (n : Nat) : (Sys.init n).LocksOk := by
  constructor
  · intro st hst
    simp only [Sys.init] at hst
    rw [List.eq_of_mem_replicate hst]; trivial
  · intro l t
    constructor
    · intro h; cases h
    · rintro ⟨st, hst, h⟩
      have := List.mem_of_getElem? hst
      simp only [Sys.init] at this
      rw [List.eq_of_mem_replicate this] at h
      cases h

theorem locks_moves {x : FfiEnv} {s s' : Sys} (hm : Sys.Moves x Call.Safe s s') (hc : s.LocksOk) : s'.LocksOk := by
  refine hm.keeps hc ?_ ?_
  · intro s s' t hc hs
    obtain ⟨_, top, rest, ht, hs⟩ := step_some hs
    exact (stepStage_good hc ht hs).locks
  · intro s s' t c hc ha hs
    obtain ⟨_, ht, rfl⟩ := begin_some hs
    exact locks_same hc ht rfl rfl (start_safe ha) (by intro l; rw [start_free]; rfl)

/-- Only waiting for a lock stops a thread. -/
theorem stepStage_some {x : FfiEnv} {s : Sys} {t : Nat} {top : Stage} {rest : List Stage}
    (h : ∀ l k, top ≠ .lock l k) : ∃ s', s.stepStage x t rest top = some s' := by
  cases top with
  | lock l k => exact absurd rfl (h l k)
  | takeArchiveId a => simp only [Sys.stepStage]; split <;> exact ⟨_, rfl⟩
  | takeFileId a => simp only [Sys.stepStage]; split <;> exact ⟨_, rfl⟩
  | lookup h name => simp only [Sys.stepStage]; split <;> exact ⟨_, rfl⟩
  | fileOp h op => simp only [Sys.stepStage]; split <;> exact ⟨_, rfl⟩
  | archOp h op => simp only [Sys.stepStage]; split <;> exact ⟨_, rfl⟩
  | fileInfo h c n => simp only [Sys.stepStage]; split <;> exact ⟨_, rfl⟩
  | archInfo h c n => simp only [Sys.stepStage]; split <;> exact ⟨_, rfl⟩
  | enumList h m c g => simp only [Sys.stepStage]; split <;> exact ⟨_, rfl⟩
  | enumNext names c g => cases names <;> exact ⟨_, rfl⟩
  | enumCallback name pending names c g =>
    cases pending with
    | nil => simp only [Sys.stepStage]; split <;> exact ⟨_, rfl⟩
    | cons c p => exact ⟨_, rfl⟩
  | verifyList h flags => simp only [Sys.stepStage]; split <;> exact ⟨_, rfl⟩
  | verifyNext h files => cases files <;> exact ⟨_, rfl⟩
  | verifyResult h o files => simp only [Sys.stepStage]; split <;> exact ⟨_, rfl⟩
  | ret o => exact ⟨_, rfl⟩
  | crash => exact ⟨_, rfl⟩
  | storeArchive a id => exact ⟨_, rfl⟩
  | purge h => exact ⟨_, rfl⟩
  | remove h => exact ⟨_, rfl⟩
  | storeFile f id => exact ⟨_, rfl⟩
  | leaveOpen id => exact ⟨_, rfl⟩

/-- A waiting thread holds at most the lock on the archives, and then waits for another. -/
theorem waiting_holds {l : Lock} {k : Stage} {rest : List Stage} (h : SafeStack (.lock l k :: rest)) :
    ∀ m ∈ heldBy (.lock l k :: rest), m = .archives ∧ l ≠ .archives := by
  intro m hm
  cases rest with
  | nil =>
    obtain ⟨hf, _⟩ := h
    cases k <;> simp [Stage.final] at hf <;> subst hf <;> cases m <;> simp [heldBy, Stage.holds] at hm ⊢
  | cons g2 rest =>
    cases g2 with
    | enumCallback name pending names calls goOn =>
      cases rest with
      | cons g3 rest => exact h.elim
      | nil =>
        have hin := h.1
        cases l with
        | files =>
          cases k with
          | fileOp h op => cases m <;> simp [heldBy, Stage.holds] at hm ⊢
          | _ => exact hin.elim
        | _ => exact hin.elim
    | _ => exact h.elim

theorem locks_progress {x : FfiEnv} {s : Sys} (hc : s.LocksOk) (ha : s.aborted = false) {t : Nat} {top : Stage}
    {rest : List Stage} (ht : s.threads[t]? = some (top :: rest)) : ∃ u s', s.step x u = some s' := by
  have step_of : ∀ u top rest s', s.threads[u]? = some (top :: rest) → s.stepStage x u rest top = some s' →
      s.step x u = some s' := by
    intro u top rest s' hu hs
    unfold Sys.step
    rw [ha, hu]
    simpa using hs
  have go : ∀ (u : Nat) (top : Stage) (rest : List Stage), s.threads[u]? = some (top :: rest) → (∀ k, top ≠ .lock .archives k) →
      ∃ u s', s.step x u = some s' := by
    intro u top rest hu hl
    by_cases hlock : ∃ l k, top = .lock l k
    · obtain ⟨l, k, rfl⟩ := hlock
      cases hh : s.holder l with
      | none => exact ⟨u, _, step_of u _ _ _ hu (by simp only [Sys.stepStage, hh, if_true]; rfl)⟩
      | some v =>
        obtain ⟨st, hst, hm⟩ := (hc.holders l v).1 hh
        have hne : l ≠ .archives := fun e => by subst e; exact hl k rfl
        cases st with
        | nil => cases hm
        | cons vtop vrest =>
          by_cases hv : ∃ l k, vtop = .lock l k
          · obtain ⟨l2, k2, rfl⟩ := hv
            exact absurd (waiting_holds (hc.stacks _ (List.mem_of_getElem? hst)) l hm).1 hne
          · obtain ⟨s', hs'⟩ := stepStage_some (x := x) (s := s) (t := v) (rest := vrest) (top := vtop)
              (fun l k e => hv ⟨l, k, e⟩)
            exact ⟨v, s', step_of v _ _ _ hst hs'⟩
    · obtain ⟨s', hs'⟩ := stepStage_some (x := x) (s := s) (t := u) (rest := rest) (top := top)
        (fun l k e => hlock ⟨l, k, e⟩)
      exact ⟨u, s', step_of u _ _ _ hu hs'⟩
  by_cases hl : ∃ k, top = .lock .archives k
  · obtain ⟨k, rfl⟩ := hl
    cases hh : s.holder .archives with
    | none => exact ⟨t, _, step_of t _ _ _ ht (by simp only [Sys.stepStage, hh, if_true]; rfl)⟩
    | some v =>
      obtain ⟨st, hst, hm⟩ := (hc.holders .archives v).1 hh
      cases st with
      | nil => cases hm
      | cons vtop vrest =>
        refine go v vtop vrest hst ?_
        rintro k2 rfl
        exact (waiting_holds (hc.stacks _ (List.mem_of_getElem? hst)) .archives hm).2 rfl
  · exact go t top rest ht (fun k e => hl ⟨k, e⟩)

/-- A run of steps without new calls ends. -/
theorem locks_terminate {x : FfiEnv} (a : Nat) : ∀ (b : Nat) (f : Nat → Sys), (f 0).LocksOk → (f 0).listings = a →
    (f 0).steps = b → ¬ ∀ i, ∃ t, (f i).step x t = some (f (i + 1)) := by
  induction a using Nat.strongRecOn with
  | ind a iha =>
    intro b
    induction b using Nat.strongRecOn with
    | ind b ihb =>
      intro f hc hla hsb hrun
      obtain ⟨t0, h0⟩ := hrun 0
      obtain ⟨t1, h1⟩ := hrun 1
      obtain ⟨_, top, rest, ht, hs⟩ := step_some h0
      have good := stepStage_good hc ht hs
      have hna := (step_some h1).1
      have hrun' : ∀ i, ∃ t, (f (i + 1)).step x t = some (f (i + 1 + 1)) := fun i => hrun (i + 1)
      rcases good.less hna with hlt | ⟨heq, hlt⟩
      · exact iha (f 1).listings (by rw [← hla]; exact hlt) (f 1).steps (fun i => f (i + 1)) good.locks rfl rfl hrun'
      · exact ihb (f 1).steps (by rw [← hsb]; exact hlt) (fun i => f (i + 1)) good.locks (heq.trans hla) rfl hrun'

/-! ## The holders of the locks, for all calls -/

/-- A stage behind a lock is one that follows the lock. -/
def Stage.WellLocked : Stage → Prop
  | .lock l k => k.final = some l
  | _ => True

/-- The locks are held by the threads whose calls are at a stage that holds them. -/
structure Sys.Holders (s : Sys) : Prop where
  stages : s.AllStages Stage.WellLocked
  once : ∀ st ∈ s.threads, (heldBy st).Nodup
  holders : ∀ l t, s.holder l = some t ↔ ∃ st, s.threads[t]? = some st ∧ l ∈ heldBy st

theorem final_holds {k : Stage} {l : Lock} (h : k.final = some l) :
    l ∈ k.holds ∧ k.holds.Nodup ∧ ∀ l' k', k ≠ .lock l' k' := by
  cases k <;> simp [Stage.final] at h <;> subst h <;> simp [Stage.holds]

theorem holder_iff {s : Sys} {t : Nat} {old : List Stage} (hc : s.Holders) (ht : s.threads[t]? = some old) (l : Lock) :
    s.holder l = some t ↔ l ∈ heldBy old := by
  rw [hc.holders]
  constructor
  · rintro ⟨st, hst, h⟩; rw [ht] at hst; cases hst; exact h
  · exact fun h => ⟨old, ht, h⟩

theorem holders_set {s s1 : Sys} {t : Nat} {old new : List Stage} (hc : s.Holders) (ht : s.threads[t]? = some old)
    (h1 : s1.threads = s.threads) (h2 : ∀ g ∈ new, g.WellLocked) (hn : (heldBy new).Nodup)
    (h3 : ∀ l u, u ≠ t → (s1.holder l = some u ↔ s.holder l = some u))
    (h4 : ∀ l, s1.holder l = some t ↔ l ∈ heldBy new) : (s1.setStack t new).Holders := by
  refine ⟨allStages_set hc.stages h1 h2, ?_, ?_⟩
  · intro st hst
    simp only [Sys.setStack, h1] at hst
    rcases List.mem_or_eq_of_mem_set hst with h | h
    · exact hc.once st h
    · subst h; exact hn
  · intro l u
    have hlt := (List.getElem?_eq_some_iff.1 ht).1
    simp only [Sys.setStack, h1]
    by_cases hu : u = t
    · subst hu
      rw [h4, List.getElem?_set_self hlt]
      constructor
      · exact fun h => ⟨new, rfl, h⟩
      · rintro ⟨st, hst, h⟩; cases hst; exact h
    · rw [h3 l u hu, hc.holders, List.getElem?_set_ne (Ne.symm hu)]

theorem start_wellLocked (c : Call) : c.start.WellLocked ∧ c.start.holds = [] := by
  cases c with
  | openArchive path opened =>
    unfold Call.start
    split <;> first | exact ⟨trivial, rfl⟩ | exact ⟨rfl, rfl⟩ | (split <;> first | exact ⟨trivial, rfl⟩ | exact ⟨rfl, rfl⟩)
  | _ => simp only [Call.start]; split <;> first | exact ⟨trivial, rfl⟩ | exact ⟨rfl, rfl⟩

/-- What a step does to the locks: thread `t` may release one it holds or take a free one. -/
theorem stepStage_holders {x : FfiEnv} {s s' : Sys} {t : Nat} {top : Stage} {rest : List Stage} (hc : s.Holders)
    (ht : s.threads[t]? = some (top :: rest)) (hs : s.stepStage x t rest top = some s') :
    s'.Holders ∧ ∀ u, u ≠ t → s'.threads[u]? = s.threads[u]? := by
  obtain ⟨htop, hrest⟩ := allStages_rest hc.stages ht
  have honce := hc.once _ (List.mem_of_getElem? ht)
  have habort : s.abort.Holders ∧ ∀ u, u ≠ t → s.abort.threads[u]? = s.threads[u]? :=
    ⟨⟨hc.stages, hc.once, hc.holders⟩, fun _ _ => rfl⟩
  have oth : ∀ (s1 : Sys) (new : List Stage), s1.threads = s.threads →
      ∀ u, u ≠ t → (s1.setStack t new).threads[u]? = s.threads[u]? := by
    intro s1 new h1 u hu
    simp only [Sys.setStack, h1]
    exact List.getElem?_set_ne (Ne.symm hu)
  have same : ∀ (s1 : Sys) (new : List Stage), s1.threads = s.threads → s1.holder = s.holder →
      (∀ g ∈ new, g.WellLocked) → heldBy new = heldBy (top :: rest) →
      (s1.setStack t new).Holders ∧ ∀ u, u ≠ t → (s1.setStack t new).threads[u]? = s.threads[u]? := by
    intro s1 new h1 h2 h3 h4
    refine ⟨holders_set hc ht h1 h3 (by rw [h4]; exact honce) (fun l u _ => by rw [h2]) (fun l => ?_), oth s1 new h1⟩
    rw [h2, h4, holder_iff hc ht]
  have rel : ∀ (L : Lock) (s1 : Sys) (g : Stage), s1.threads = s.threads → s1.holder = (s.release L).holder →
      g.WellLocked → L ∈ top.holds → g.holds = top.holds.erase L →
      (s1.setStack t (g :: rest)).Holders ∧
        ∀ u, u ≠ t → (s1.setStack t (g :: rest)).threads[u]? = s.threads[u]? := by
    intro L s1 g h1 h2 h3 h4 h5
    have hold : heldBy (top :: rest) = top.holds ++ heldBy rest := by simp [heldBy]
    have hnew : heldBy (g :: rest) = (heldBy (top :: rest)).erase L := by
      rw [hold, List.erase_append_left _ h4, ← h5]; simp [heldBy]
    have hLt := (holder_iff hc ht L).2 (by rw [hold]; exact List.mem_append_left _ h4)
    refine ⟨holders_set hc ht h1 (all_cons h3 hrest) (by rw [hnew]; exact honce.erase L) (fun l u hu => ?_)
      (fun l => ?_), oth s1 _ h1⟩
    · rw [h2]
      simp only [Sys.release]
      split
      · rename_i e
        subst e
        rw [hLt]
        constructor
        · intro h; cases h
        · intro h; cases h; exact absurd rfl hu
      · exact Iff.rfl
    · rw [h2, hnew, honce.mem_erase_iff, ← holder_iff hc ht]
      simp only [Sys.release]
      split
      · rename_i e; subst e; simp
      · rename_i e; simp [e]
  cases top with
  | lock l k =>
    simp only [Sys.stepStage] at hs
    split at hs
    · rename_i hfree
      cases hs
      obtain ⟨h1, h2, h3⟩ := final_holds htop
      have hperm : (heldBy (k :: rest)).Perm (l :: heldBy (.lock l k :: rest)) := by
        have : heldBy (k :: rest) = k.holds ++ heldBy rest := by simp [heldBy]
        rw [this]
        have h4 : heldBy (.lock l k :: rest) = k.holds.erase l ++ heldBy rest := by simp [heldBy, Stage.holds]
        rw [h4, ← List.cons_append]
        exact (List.perm_cons_erase h1).append_right _
      have hnot : l ∉ heldBy (.lock l k :: rest) := by
        rw [← holder_iff hc ht, hfree]; intro h; cases h
      refine ⟨holders_set hc ht rfl (all_cons ?_ hrest) (hperm.nodup_iff.2 (List.nodup_cons.2 ⟨hnot, honce⟩)) ?_ ?_, oth _ _ rfl⟩
      · cases k <;> first | trivial | exact absurd rfl (h3 _ _)
      · intro m u hu
        simp only [Sys.acquire]
        split
        · rename_i e
          subst e
          rw [hfree]
          constructor
          · intro h; cases h; exact absurd rfl hu
          · intro h; cases h
        · exact Iff.rfl
      · intro m
        rw [hperm.mem_iff, List.mem_cons, ← holder_iff hc ht]
        simp only [Sys.acquire]
        split
        · rename_i e; simp [e]
        · rename_i e; simp [e]
    · cases hs
  | ret o =>
    cases hs
    refine same _ _ rfl rfl (resume_all hrest (fun _ _ _ => trivial)) ?_
    unfold resume
    split <;> simp [heldBy, Stage.holds]
  | crash => cases hs; exact habort
  | takeArchiveId a =>
    simp only [Sys.stepStage] at hs
    split at hs
    · cases hs; exact rel .next _ _ rfl rfl rfl (by simp [Stage.holds]) rfl
    · cases hs; exact habort
  | storeArchive a id => cases hs; exact rel .archives _ _ rfl rfl trivial (by simp [Stage.holds]) rfl
  | purge h => cases hs; exact rel .files _ _ rfl rfl rfl (by simp [Stage.holds]) rfl
  | remove h => cases hs; exact rel .archives _ _ rfl rfl trivial (by simp [Stage.holds]) rfl
  | lookup h name =>
    simp only [Sys.stepStage] at hs
    split at hs
    · cases hs; exact rel .archives _ _ rfl rfl trivial (by simp [Stage.holds]) rfl
    · rcases orAbort_cases (Option.some.inj hs) with h1 | ⟨v, _, h1⟩
      · subst h1; exact habort
      · split at h1
        · subst h1; exact rel .archives _ _ rfl rfl trivial (by simp [Stage.holds]) rfl
        · subst h1; exact rel .archives _ _ rfl rfl trivial (by simp [Stage.holds]) rfl
        · rcases orAbort_cases h1.symm with h2 | ⟨v, _, h2⟩
          · subst h2; exact habort
          · split at h2
            · subst h2; exact rel .archives _ _ rfl rfl trivial (by simp [Stage.holds]) rfl
            · subst h2; exact same _ _ rfl rfl (all_cons rfl hrest) rfl
  | takeFileId f =>
    simp only [Sys.stepStage] at hs
    split at hs
    · cases hs; exact rel .next _ _ rfl rfl rfl (by simp [Stage.holds]) rfl
    · cases hs; exact habort
  | storeFile f id => cases hs; exact rel .files _ _ rfl rfl trivial (by simp [Stage.holds]) rfl
  | leaveOpen id => cases hs; exact rel .archives _ _ rfl rfl trivial (by simp [Stage.holds]) rfl
  | fileOp h op =>
    simp only [Sys.stepStage] at hs
    split at hs
    · cases hs; exact rel .files _ _ rfl rfl trivial (by simp [Stage.holds]) rfl
    · rcases orAbort_cases (Option.some.inj hs) with h1 | ⟨⟨o, f'⟩, hv, h1⟩
      · subst h1; exact habort
      · subst h1; exact rel .files _ _ rfl rfl trivial (by simp [Stage.holds]) rfl
  | archOp h op =>
    simp only [Sys.stepStage] at hs
    split at hs
    · cases hs; exact rel .archives _ _ rfl rfl trivial (by simp [Stage.holds]) rfl
    · rcases orAbort_cases (Option.some.inj hs) with h1 | ⟨o, hv, h1⟩
      · subst h1; exact habort
      · subst h1; exact rel .archives _ _ rfl rfl trivial (by simp [Stage.holds]) rfl
  | fileInfo h c n =>
    simp only [Sys.stepStage] at hs
    split at hs
    · cases hs; exact rel .files _ _ rfl rfl rfl (by simp [Stage.holds]) rfl
    · cases hs; exact rel .files _ _ rfl rfl trivial (by simp [Stage.holds]) rfl
  | archInfo h c n =>
    simp only [Sys.stepStage] at hs
    split at hs
    · cases hs; exact rel .archives _ _ rfl rfl trivial (by simp [Stage.holds]) rfl
    · rcases orAbort_cases (Option.some.inj hs) with h1 | ⟨o, hv, h1⟩
      · subst h1; exact habort
      · subst h1; exact rel .archives _ _ rfl rfl trivial (by simp [Stage.holds]) rfl
  | enumList h mask calls goOn =>
    simp only [Sys.stepStage] at hs
    split at hs
    · cases hs; exact rel .archives _ _ rfl rfl trivial (by simp [Stage.holds]) rfl
    · rcases orAbort_cases (Option.some.inj hs) with h1 | ⟨o, hv, h1⟩
      · subst h1; exact habort
      · subst h1; exact same _ _ rfl rfl (all_cons trivial hrest) rfl
  | enumNext names calls goOn =>
    cases names with
    | nil => cases hs; exact rel .archives _ _ rfl rfl trivial (by simp [Stage.holds]) rfl
    | cons name names => cases hs; exact same _ _ rfl rfl (all_cons trivial hrest) rfl
  | enumCallback name pending names calls goOn =>
    cases pending with
    | nil =>
      simp only [Sys.stepStage] at hs
      split at hs
      · cases hs; exact same _ _ rfl rfl (all_cons trivial hrest) rfl
      · cases hs; exact rel .archives _ _ rfl rfl trivial (by simp [Stage.holds]) rfl
    | cons c pending =>
      cases hs
      refine same _ _ rfl rfl (all_cons (start_wellLocked c).1 (all_cons trivial hrest)) ?_
      simp [heldBy, (start_wellLocked c).2, Stage.holds]
  | verifyList h flags =>
    simp only [Sys.stepStage] at hs
    split at hs
    · cases hs; exact rel .archives _ _ rfl rfl trivial (by simp [Stage.holds]) rfl
    · rcases orAbort_cases (Option.some.inj hs) with h1 | ⟨v, hv, h1⟩
      · subst h1; exact habort
      · split at h1
        · subst h1; exact rel .archives _ _ rfl rfl trivial (by simp [Stage.holds]) rfl
        · subst h1; exact same _ _ rfl rfl (all_cons trivial hrest) rfl
  | verifyNext h files =>
    cases files with
    | nil => cases hs; exact rel .archives _ _ rfl rfl trivial (by simp [Stage.holds]) rfl
    | cons file files =>
      cases hs
      refine same _ _ rfl rfl (all_cons (start_wellLocked _).1 (all_cons trivial hrest)) ?_
      simp only [heldBy, List.flatMap_cons, (start_wellLocked _).2]
      simp [Stage.holds]
  | verifyResult h o files =>
    simp only [Sys.stepStage] at hs
    split at hs
    · cases hs; exact rel .archives _ _ rfl rfl trivial (by simp [Stage.holds]) rfl
    · cases hs; exact same _ _ rfl rfl (all_cons trivial hrest) rfl

theorem holders_init (n : Nat) : (Sys.init n).Holders :=
  ⟨allStages_init n, fun st hst => by
      simp only [Sys.init] at hst
      rw [List.eq_of_mem_replicate hst]; exact List.nodup_nil,
    (locks_init n).holders⟩

theorem begin_holders {s s' : Sys} {t : Nat} {c : Call} (hc : s.Holders) (hs : s.begin t c = some s') :
    s'.Holders ∧ ∀ u, u ≠ t → s'.threads[u]? = s.threads[u]? := by
  obtain ⟨_, ht, rfl⟩ := begin_some hs
  have h0 : heldBy [c.start] = [] := start_free
  refine ⟨holders_set hc ht rfl (all_cons (start_wellLocked c).1 (by simp)) (by rw [h0]; exact List.nodup_nil)
    (fun _ _ _ => Iff.rfl) (fun l => ?_), fun u hu => List.getElem?_set_ne (Ne.symm hu)⟩
  rw [holder_iff hc ht, h0]; rfl

theorem holders_moves {x : FfiEnv} {allowed : Call → Prop} {s s' : Sys} (hm : Sys.Moves x allowed s s') (hc : s.Holders) :
    s'.Holders := by
  refine hm.keeps hc ?_ ?_
  · intro s s' t hc hs
    obtain ⟨_, top, rest, ht, hs⟩ := step_some hs
    exact (stepStage_holders hc ht hs).1
  · intro s s' t c hc _ hs
    exact (begin_holders hc hs).1

/-! ## Waiting for a lock one holds oneself -/

/-- A thread that waits for a lock it holds waits for ever. -/
theorem blocked_forever {x : FfiEnv} {allowed : Call → Prop} {s s' : Sys} {t : Nat} {l : Lock} {k : Stage}
    {rest : List Stage} (hm : Sys.Moves x allowed s s') (hc : s.Holders) (ht : s.threads[t]? = some (.lock l k :: rest))
    (hl : l ∈ heldBy rest) :
    s'.threads[t]? = some (.lock l k :: rest) ∧ s'.holder l = some t ∧ s'.step x t = none := by
  have key : ∀ s : Sys, s.Holders → s.threads[t]? = some (.lock l k :: rest) →
      s.holder l = some t ∧ s.step x t = none := by
    intro s hc ht
    have h1 : s.holder l = some t := by
      rw [holder_iff hc ht]
      simp only [heldBy, List.flatMap_cons]
      exact List.mem_append_right _ hl
    refine ⟨h1, ?_⟩
    unfold Sys.step
    rw [ht]
    simp [Sys.stepStage, h1]
  have inv : s'.Holders ∧ s'.threads[t]? = some (.lock l k :: rest) := by
    refine hm.keeps (P := fun s => s.Holders ∧ s.threads[t]? = some (.lock l k :: rest)) ⟨hc, ht⟩ ?_ ?_
    · intro s s' u hP hs
      by_cases hu : t = u
      · subst hu
        rw [(key s hP.1 hP.2).2] at hs; cases hs
      · obtain ⟨_, top, rest', hu', hs⟩ := step_some hs
        have := stepStage_holders hP.1 hu' hs
        exact ⟨this.1, (this.2 t hu).trans hP.2⟩
    · intro s s' u c hP _ hs
      by_cases hu : t = u
      · subst hu
        have := (begin_some hs).2.1
        rw [hP.2] at this; cases this
      · have := begin_holders hP.1 hs
        exact ⟨this.1, (this.2 t hu).trans hP.2⟩
  exact ⟨inv.2, key s' inv.1 inv.2⟩

end Mopaq
