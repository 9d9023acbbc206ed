import Verif.Model.Ffi
import Verif.Lemmas.HeaderAccept

/-! # Lemmas on the C API -/

namespace Mopaq

/-! ## Results that carry a handle -/

/-- The handle in a result. -/
def outIds : Outcome → List Nat
  | .ok (.handle id) => [id]
  | _ => []

theorem outIds_error (c : U32) : outIds (.error c) = [] := rfl

theorem caught_ok {α : Type} {r : Res α} {v : α} (h : caught r = .ok (.ok v)) : r = .ok v := by
  unfold caught at h
  split at h
  · cases h; rfl
  · cases h
  · cases h
  · cases h

theorem orAbort_cases {α : Type} {s s' : Sys} {r : Res α} {k : α → Sys} (h : orAbort s r k = s') :
    s' = s.abort ∨ ∃ v, r = .ok v ∧ s' = k v := by
  unfold orAbort at h
  split at h
  · exact .inr ⟨_, rfl, h.symm⟩
  · exact .inl h.symm

theorem fileOp_no_handle {op : FileOp} {f : FileHandle} {o : Outcome} {f' : Option FileHandle}
    (h : op.run f = .ok (o, f')) : outIds o = [] := by
  cases op with
  | read n =>
    rw [FileOp.run] at h
    obtain ⟨⟨d, g⟩, _, h⟩ := bind_eq_ok.1 h
    cases h; rfl
  | size => cases h; rfl
  | seek low high method =>
    rw [FileOp.run] at h
    obtain ⟨r, _, h⟩ := bind_eq_ok.1 h
    cases r <;> (cases h; rfl)
  | name => cases h; rfl
  | close => cases h; rfl

theorem verifyFile_no_handle {x : FfiEnv} {a : Archive} {name : List Byte} {flags : U32} {o : Outcome}
    (h : verifyFileIn x a name flags = .ok o) : outIds o = [] := by
  unfold verifyFileIn at h
  obtain ⟨r, _, h⟩ := bind_eq_ok.1 h
  split at h
  · cases h; rfl
  · cases h; rfl
  · obtain ⟨b1, _, h⟩ := bind_eq_ok.1 h
    split at h
    · cases h; rfl
    · obtain ⟨b2, _, h⟩ := bind_eq_ok.1 h
      split at h
      · cases h; rfl
      · obtain ⟨b3, _, h⟩ := bind_eq_ok.1 h
        split at h <;> (cases h; rfl)

theorem archOp_no_handle {x : FfiEnv} {a : ArchiveHandle} {op : ArchOp} {o : Outcome} (h : op.run x a = .ok o) :
    outIds o = [] := by
  cases op with
  | hasFile name =>
    rw [ArchOp.run] at h
    obtain ⟨r, _, h⟩ := bind_eq_ok.1 h
    split at h <;> (cases h; rfl)
  | archiveName n =>
    rw [ArchOp.run] at h
    split at h <;> (cases h; rfl)
  | extractFile name w =>
    rw [ArchOp.run] at h
    obtain ⟨r, _, h⟩ := bind_eq_ok.1 h
    split at h
    · split at h <;> (cases h; rfl)
    · cases h; rfl
  | verifyFile name flags => exact verifyFile_no_handle h

theorem invalid_no_handle (op : ArchOp) : outIds op.invalid = [] := by
  cases op with
  | archiveName n => simp only [ArchOp.invalid]; split <;> rfl
  | _ => rfl

theorem fileInfo_no_handle (f : FileHandle) (c n : U32) : outIds (fileInfoOf f c n) = [] := by
  unfold fileInfoOf infoValue
  repeat' split
  all_goals rfl

theorem archiveInfo_no_handle {a : ArchiveHandle} {c n : U32} {o : Outcome} (h : archiveInfoOf a c n = .ok o) :
    outIds o = [] := by
  unfold archiveInfoOf infoValue at h
  simp only [] at h
  repeat' split at h
  all_goals first
    | (cases h; rfl)
    | skip
  obtain ⟨r, _, h⟩ := bind_eq_ok.1 h
  cases h; rfl

theorem verifyList_no_handle {x : FfiEnv} {a : Archive} {flags : U32} {o : Outcome}
    (h : verifyArchiveList x a flags = .ok (.error o)) : outIds o = [] := by
  unfold verifyArchiveList at h
  simp only [] at h
  generalize (if flags = 0#32 then 0x10#32 else flags) = flags at h
  obtain ⟨sg, _, h⟩ := bind_eq_ok.1 h
  split at h
  · cases h; rfl
  · split at h
    · cases h; rfl
    · obtain ⟨r, _, h⟩ := bind_eq_ok.1 h
      split at h
      · cases h
      · obtain ⟨r, _, h⟩ := bind_eq_ok.1 h
        split at h
        · cases h
        · cases h; rfl

/-! ## Handles given out so far -/

/-- The handle a stage is going to return. -/
def Stage.ids : Stage → List Nat
  | .lock _ k => k.ids
  | .storeArchive _ id => [id]
  | .storeFile _ id => [id]
  | .leaveOpen id => [id]
  | .ret o => outIds o
  | _ => []

theorem start_ids (c : Call) : c.start.ids = [] := by
  unfold Call.start
  split
  case h_2 => rfl
  case h_3 => rfl
  case h_8 => split <;> first | rfl | exact invalid_no_handle _
  all_goals first
    | rfl
    | (split <;> rfl)

/-- The handles returned so far and those about to be. -/
def Sys.ids (s : Sys) : List Nat := s.results.flatMap (fun r => outIds r.2) ++ s.threads.flatMap (·.flatMap Stage.ids)

theorem flatMap_set {α β : Type} (F : α → List β) : ∀ (l : List α) (t : Nat) (old : α), l[t]? = some old →
    ∃ X, (l.flatMap F).Perm (F old ++ X) ∧ ∀ new, ((l.set t new).flatMap F).Perm (F new ++ X)
  | [], t, old, h => by simp at h
  | a :: l, 0, old, h => by
    simp only [List.getElem?_cons_zero, Option.some.injEq] at h
    subst h
    exact ⟨l.flatMap F, by simp, fun new => by simp⟩
  | a :: l, t + 1, old, h => by
    obtain ⟨X, h1, h2⟩ := flatMap_set F l t old (by simpa using h)
    refine ⟨F a ++ X, ?_, fun new => ?_⟩
    · rw [List.flatMap_cons]
      exact (List.Perm.append_left _ h1).trans (by
        rw [← List.append_assoc, ← List.append_assoc]
        exact List.Perm.append_right _ List.perm_append_comm)
    · rw [List.set_cons_succ, List.flatMap_cons]
      exact (List.Perm.append_left _ (h2 new)).trans (by
        rw [← List.append_assoc, ← List.append_assoc]
        exact List.Perm.append_right _ List.perm_append_comm)

theorem ids_set {s s1 : Sys} {t : Nat} {old new : List Stage} (ht : s.threads[t]? = some old) (h1 : s1.threads = s.threads)
    (h2 : s1.results = s.results) (hids : new.flatMap Stage.ids = old.flatMap Stage.ids) :
    (s1.setStack t new).ids.Perm s.ids := by
  obtain ⟨X, hX, hset⟩ := flatMap_set (fun st : List Stage => st.flatMap Stage.ids) s.threads t old ht
  unfold Sys.ids Sys.setStack
  simp only [h1, h2]
  apply List.Perm.append_left
  exact (hset new).trans (by rw [hids]; exact hX.symm)

theorem ids_set_new {s s1 : Sys} {t : Nat} {old new : List Stage} {id : Nat} (ht : s.threads[t]? = some old)
    (h1 : s1.threads = s.threads) (h2 : s1.results = s.results)
    (hids : new.flatMap Stage.ids = id :: old.flatMap Stage.ids) :
    (s1.setStack t new).ids.Perm (id :: s.ids) := by
  obtain ⟨X, hX, hset⟩ := flatMap_set (fun st : List Stage => st.flatMap Stage.ids) s.threads t old ht
  unfold Sys.ids Sys.setStack
  simp only [h1, h2]
  refine (List.Perm.append_left _ ((hset new).trans ?_)).trans (List.perm_middle (a := id))
  simp only [hids, List.cons_append]
  exact List.Perm.cons _ hX.symm

theorem ids_set_ret {s : Sys} {t : Nat} {o : Outcome} {rest : List Stage} (ht : s.threads[t]? = some (.ret o :: rest)) :
    (({ s with results := (t, o) :: s.results } : Sys).setStack t (resume o rest)).ids.Perm s.ids := by
  obtain ⟨X, hX, hset⟩ := flatMap_set (fun st : List Stage => st.flatMap Stage.ids) s.threads t _ ht
  have hr : (resume o rest).flatMap Stage.ids = rest.flatMap Stage.ids := by
    unfold resume
    split
    · rfl
    · rfl
  unfold Sys.ids Sys.setStack
  simp only [List.flatMap_cons]
  refine (List.Perm.append_left _ (hset _)).trans ?_
  refine List.Perm.trans ?_ (List.Perm.append_left _ hX.symm)
  simp only [hr, List.flatMap_cons, Stage.ids, List.append_assoc]
  exact List.perm_append_comm_assoc _ _ _

theorem stepStage_ids {x : FfiEnv} {s s' : Sys} {t : Nat} {top : Stage} {rest : List Stage}
    (ht : s.threads[t]? = some (top :: rest)) (hs : s.stepStage x t rest top = some s') :
    (s'.next = s.next ∧ s'.ids.Perm s.ids) ∨
      (s'.next = s.next + 1 ∧ s'.ids.Perm (s.next :: s.ids)) := by
  have habort : s.abort.next = s.next ∧ s.abort.ids.Perm s.ids := ⟨rfl, List.Perm.refl _⟩
  cases top with
  | lock l k =>
    simp only [Sys.stepStage] at hs
    split at hs
    · cases hs
      exact .inl ⟨rfl, ids_set ht rfl rfl (by simp [Stage.ids])⟩
    · cases hs
  | ret o =>
    simp only [Sys.stepStage] at hs
    cases hs
    exact .inl ⟨rfl, ids_set_ret ht⟩
  | crash => cases hs; exact .inl habort
  | takeArchiveId a =>
    simp only [Sys.stepStage] at hs
    split at hs
    · cases hs
      exact .inr ⟨rfl, ids_set_new ht rfl rfl (by simp [Stage.ids])⟩
    · cases hs; exact .inl habort
  | storeArchive a id =>
    cases hs
    exact .inl ⟨rfl, ids_set ht rfl rfl (by simp [Stage.ids, outIds])⟩
  | purge h =>
    cases hs
    exact .inl ⟨rfl, ids_set ht rfl rfl (by simp [Stage.ids])⟩
  | remove h =>
    cases hs
    refine .inl ⟨rfl, ids_set ht rfl rfl ?_⟩
    simp only [List.flatMap_cons, Stage.ids]
    split <;> simp [outIds]
  | lookup h name =>
    simp only [Sys.stepStage] at hs
    split at hs
    · cases hs
      exact .inl ⟨rfl, ids_set ht rfl rfl (by simp [Stage.ids, outIds])⟩
    · rcases orAbort_cases (Option.some.inj hs) with h1 | ⟨v, _, h1⟩
      · subst h1; exact .inl habort
      · split at h1
        · subst h1
          exact .inl ⟨rfl, ids_set ht rfl rfl (by simp [Stage.ids, outIds])⟩
        · subst h1
          exact .inl ⟨rfl, ids_set ht rfl rfl (by simp [Stage.ids, outIds])⟩
        · rcases orAbort_cases h1.symm with h2 | ⟨v, _, h2⟩
          · subst h2; exact .inl habort
          · split at h2
            · subst h2
              exact .inl ⟨rfl, ids_set ht rfl rfl (by simp [Stage.ids, outIds])⟩
            · subst h2
              exact .inl ⟨rfl, ids_set ht rfl rfl (by simp [Stage.ids])⟩
  | takeFileId f =>
    simp only [Sys.stepStage] at hs
    split at hs
    · cases hs
      exact .inr ⟨rfl, ids_set_new ht rfl rfl (by simp [Stage.ids])⟩
    · cases hs; exact .inl habort
  | storeFile f id =>
    cases hs
    exact .inl ⟨rfl, ids_set ht rfl rfl (by simp [Stage.ids])⟩
  | leaveOpen id =>
    cases hs
    exact .inl ⟨rfl, ids_set ht rfl rfl (by simp [Stage.ids, outIds])⟩
  | fileOp h op =>
    simp only [Sys.stepStage] at hs
    split at hs
    · cases hs
      exact .inl ⟨rfl, ids_set ht rfl rfl (by simp [Stage.ids, outIds])⟩
    · rcases orAbort_cases (Option.some.inj hs) with h1 | ⟨⟨o, f'⟩, hv, h1⟩
      · subst h1; exact .inl habort
      · subst h1
        exact .inl ⟨rfl, ids_set ht rfl rfl (by simp [Stage.ids, fileOp_no_handle hv])⟩
  | archOp h op =>
    simp only [Sys.stepStage] at hs
    split at hs
    · cases hs
      exact .inl ⟨rfl, ids_set ht rfl rfl (by simp [Stage.ids, invalid_no_handle])⟩
    · rcases orAbort_cases (Option.some.inj hs) with h1 | ⟨o, hv, h1⟩
      · subst h1; exact .inl habort
      · subst h1
        exact .inl ⟨rfl, ids_set ht rfl rfl (by simp [Stage.ids, archOp_no_handle hv])⟩
  | fileInfo h c n =>
    simp only [Sys.stepStage] at hs
    split at hs
    · cases hs
      exact .inl ⟨rfl, ids_set ht rfl rfl (by simp [Stage.ids])⟩
    · cases hs
      exact .inl ⟨rfl, ids_set ht rfl rfl (by simp [Stage.ids, fileInfo_no_handle])⟩
  | archInfo h c n =>
    simp only [Sys.stepStage] at hs
    split at hs
    · cases hs
      exact .inl ⟨rfl, ids_set ht rfl rfl (by simp [Stage.ids, outIds])⟩
    · rcases orAbort_cases (Option.some.inj hs) with h1 | ⟨o, hv, h1⟩
      · subst h1; exact .inl habort
      · subst h1
        exact .inl ⟨rfl, ids_set ht rfl rfl (by simp [Stage.ids, archiveInfo_no_handle hv])⟩
  | enumList h mask calls goOn =>
    simp only [Sys.stepStage] at hs
    split at hs
    · cases hs
      exact .inl ⟨rfl, ids_set ht rfl rfl (by simp [Stage.ids, outIds])⟩
    · rcases orAbort_cases (Option.some.inj hs) with h1 | ⟨o, hv, h1⟩
      · subst h1; exact .inl habort
      · subst h1
        exact .inl ⟨rfl, ids_set ht rfl rfl (by simp [Stage.ids])⟩
  | enumNext names calls goOn =>
    cases names with
    | nil =>
      cases hs
      exact .inl ⟨rfl, ids_set ht rfl rfl (by simp [Stage.ids, outIds])⟩
    | cons name names =>
      cases hs
      exact .inl ⟨rfl, ids_set ht rfl rfl (by simp [Stage.ids])⟩
  | enumCallback name pending names calls goOn =>
    cases pending with
    | nil =>
      simp only [Sys.stepStage] at hs
      split at hs
      · cases hs
        exact .inl ⟨rfl, ids_set ht rfl rfl (by simp [Stage.ids])⟩
      · cases hs
        exact .inl ⟨rfl, ids_set ht rfl rfl (by simp [Stage.ids, outIds])⟩
    | cons c pending =>
      cases hs
      exact .inl ⟨rfl, ids_set ht rfl rfl (by simp [Stage.ids, start_ids])⟩
  | verifyList h flags =>
    simp only [Sys.stepStage] at hs
    split at hs
    · cases hs
      exact .inl ⟨rfl, ids_set ht rfl rfl (by simp [Stage.ids, outIds])⟩
    · rcases orAbort_cases (Option.some.inj hs) with h1 | ⟨v, hv, h1⟩
      · subst h1; exact .inl habort
      · split at h1
        · subst h1
          exact .inl ⟨rfl, ids_set ht rfl rfl (by simp [Stage.ids, verifyList_no_handle hv])⟩
        · subst h1
          exact .inl ⟨rfl, ids_set ht rfl rfl (by simp [Stage.ids])⟩
  | verifyNext h files =>
    cases files with
    | nil =>
      cases hs
      exact .inl ⟨rfl, ids_set ht rfl rfl (by simp [Stage.ids, outIds])⟩
    | cons file files =>
      cases hs
      refine .inl ⟨rfl, ids_set ht rfl rfl ?_⟩
      simp only [List.flatMap_cons, start_ids]
      simp [Stage.ids]
  | verifyResult h o files =>
    simp only [Sys.stepStage] at hs
    split at hs
    · cases hs
      exact .inl ⟨rfl, ids_set ht rfl rfl (by simp [Stage.ids, outIds])⟩
    · cases hs
      exact .inl ⟨rfl, ids_set ht rfl rfl (by simp [Stage.ids])⟩

theorem step_some {x : FfiEnv} {s s' : Sys} {t : Nat} (h : s.step x t = some s') :
    s.aborted = false ∧ ∃ top rest, s.threads[t]? = some (top :: rest) ∧ s.stepStage x t rest top = some s' := by
  unfold Sys.step at h
  split at h
  · cases h
  · rename_i ha
    split at h
    · rename_i top rest heq
      exact ⟨by simpa using ha, top, rest, heq, h⟩
    · cases h

theorem begin_some {s s' : Sys} {t : Nat} {c : Call} (h : s.begin t c = some s') :
    s.aborted = false ∧ s.threads[t]? = some [] ∧ s' = s.setStack t [c.start] := by
  unfold Sys.begin at h
  split at h
  · cases h
  · rename_i ha
    split at h
    · rename_i heq
      cases h
      exact ⟨by simpa using ha, heq, rfl⟩
    · cases h

/-- A property of states that every move keeps. -/
theorem Sys.Moves.keeps {x : FfiEnv} {allowed : Call → Prop} {P : Sys → Prop} {s s' : Sys} (h : Sys.Moves x allowed s s')
    (h0 : P s) (hstep : ∀ s s' t, P s → s.step x t = some s' → P s')
    (hbegin : ∀ s s' t c, P s → allowed c → s.begin t c = some s' → P s') : P s' := by
  induction h with
  | refl => exact h0
  | step t _ hs ih => exact hstep _ _ t ih hs
  | begin t c _ ha hs ih => exact hbegin _ _ t c ih ha hs

/-- What holds of the handles given out. -/
def Sys.GoodIds (s : Sys) : Prop := s.ids.Nodup ∧ (∀ id ∈ s.ids, 0 < id ∧ id < s.next) ∧ 0 < s.next

theorem goodIds_init (n : Nat) : (Sys.init n).GoodIds := by
  have : (Sys.init n).ids = [] := by
    unfold Sys.ids Sys.init
    simp only [List.flatMap_nil, List.nil_append, List.flatMap_eq_nil_iff]
    intro st hst
    rw [List.eq_of_mem_replicate hst]
    intro x hx; cases hx
  unfold Sys.GoodIds
  rw [this]
  exact ⟨List.nodup_nil, by simp, Nat.one_pos⟩

theorem goodIds_moves {x : FfiEnv} {allowed : Call → Prop} {s s' : Sys} (h : Sys.Moves x allowed s s') (h0 : s.GoodIds) :
    s'.GoodIds := by
  refine h.keeps h0 ?_ ?_
  · intro s s' t hg hs
    obtain ⟨_, top, rest, ht, hs⟩ := step_some hs
    rcases stepStage_ids ht hs with ⟨hn, hp⟩ | ⟨hn, hp⟩
    · refine ⟨hp.nodup_iff.2 hg.1, fun id hid => ?_, by rw [hn]; exact hg.2.2⟩
      rw [hn]; exact hg.2.1 id (hp.mem_iff.1 hid)
    · refine ⟨hp.nodup_iff.2 (List.nodup_cons.2 ⟨fun hm => ?_, hg.1⟩), fun id hid => ?_, by omega⟩
      · have := (hg.2.1 _ hm).2; omega
      · have := hp.mem_iff.1 hid
        rw [List.mem_cons] at this
        rcases this with h1 | h1
        · subst h1; have := hg.2.2; omega
        · have := hg.2.1 id h1; omega
  · intro s s' t c hg _ hs
    obtain ⟨_, ht, rfl⟩ := begin_some hs
    have hp := ids_set (s := s) (s1 := s) (new := [c.start]) ht rfl rfl (by simp [start_ids])
    exact ⟨hp.nodup_iff.2 hg.1, fun id hid => hg.2.1 id (hp.mem_iff.1 hid), hg.2.2⟩

end Mopaq
