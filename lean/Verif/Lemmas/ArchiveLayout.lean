import Verif.Lemmas.ArchiveRead
import Verif.Spec.Layout

/-! # Where the parts of a finished archive stand -/

namespace Mopaq

/-- Regions following each other without gap. -/
def Consecutive : Nat → List (Nat × Nat) → Nat → Prop
  | first, [], last => first = last
  | first, (start, len) :: rest, last => start = first ∧ Consecutive (first + len) rest last

theorem Consecutive.le : ∀ {first last : Nat} {rs : List (Nat × Nat)}, Consecutive first rs last → first ≤ last
  | _, _, [], h => Nat.le_of_eq h
  | _, _, (_, _) :: _, h => Nat.le_trans (Nat.le_add_right _ _) h.2.le

theorem Consecutive.inside : ∀ {first last : Nat} {rs : List (Nat × Nat)}, Consecutive first rs last →
    ∀ r ∈ rs, first ≤ r.1 ∧ r.1 + r.2 ≤ last
  | _, _, [], _, r, hr => by cases hr
  | first, last, (start, len) :: rest, h, r, hr => by
    obtain ⟨rfl, h⟩ := h
    rcases List.mem_cons.1 hr with rfl | hr
    · exact ⟨Nat.le_refl _, h.le⟩
    · have := h.inside r hr
      omega

theorem Consecutive.divides : ∀ {first last : Nat} {rs : List (Nat × Nat)}, Consecutive first rs last →
    Spec.divides first rs last
  | first, last, [], h => ⟨by simp, fun x h1 h2 => by have : first = last := h; omega⟩
  | first, last, (start, len) :: rest, h => by
    refine ⟨h.inside, ?_⟩
    obtain ⟨rfl, h⟩ := h
    intro x h1 h2
    obtain ⟨hin, hrest⟩ := h.divides
    by_cases hx : x < start + len
    · refine ⟨0, start, len, rfl, h1, hx, ?_⟩
      intro j s' l' hj hs hl
      cases j with
      | zero => rfl
      | succ j =>
        rw [List.getElem?_cons_succ] at hj
        have := hin _ (List.mem_of_getElem? hj)
        dsimp only at this
        omega
    · obtain ⟨i, s, l, hi, hs, hl, hu⟩ := hrest x (by omega) h2
      refine ⟨i + 1, s, l, by rw [List.getElem?_cons_succ]; exact hi, hs, hl, ?_⟩
      intro j s' l' hj hs' hl'
      cases j with
      | zero =>
        simp only [List.getElem?_cons_zero, Option.some.injEq, Prod.mk.injEq] at hj
        omega
      | succ j =>
        rw [List.getElem?_cons_succ] at hj
        rw [hu j s' l' hj hs' hl']

theorem Consecutive.append : ∀ {first mid last : Nat} {rs rs' : List (Nat × Nat)}, Consecutive first rs mid →
    Consecutive mid rs' last → Consecutive first (rs ++ rs') last
  | _, _, _, [], _, h, h' => by
    have : _ = _ := h
    subst this
    exact h'
  | _, _, _, (_, _) :: _, _, h, h' => ⟨h.1, h.2.append h'⟩

variable {e : Env} {md5 : Md5} {b : Builder} {f : List Byte}

/-- The position the reader computes for a stored file is where it stands. -/
theorem Layout.file_pos (L : Layout e md5 b f) (hmd : ∀ x, (md5 x).length = 16) (hlen : f.length < addressable b.version)
    {i : Nat} {s : Stored} (h1 : L.stored[i]? = some s) (pos : Nat)
    (hpos : pos ≤ b.version.headerSize.toNat + L.files.length) {p : PendingFile}
    (hst : storeFile e b.generateCrcs L.sectorSize pos p = .ok s) :
    (fullFilePos L.his i s.block).toNat = pos := by
  obtain ⟨data, w, _, _, hs⟩ := storeFile_ok hst
  have hfl := L.f_length hmd
  have h48 := addressable_le b.version
  have e48 : 2 ^ 48 = 281474976710656 := rfl
  have h32 : 2 ^ 32 = 4294967296 := rfl
  have hlow : s.block.filePos = BitVec.ofNat 32 pos := by rw [hs]
  have hhi : s.hi = BitVec.ofNat 16 (pos / 2 ^ 32) := by rw [hs]
  unfold Layout.his
  by_cases hi : L.hiNeeded = true
  · rw [if_pos hi]
    refine C11_positions_48_bit _ _ _ _ (by omega) hlow ?_
    rw [List.getElem?_map, h1, Option.map_some, hhi]
  · rw [if_neg hi]
    refine C11_positions_32_bit _ _ _ _ ?_ hlow (fun t ht => by cases ht)
    by_cases hv1 : b.version = .v1
    · unfold addressable at hlen; rw [if_pos hv1] at hlen; omega
    · have hge : b.version.ge .v2 = true := by
        revert hv1; cases b.version <;> decide
      have hfalse : hiBlockNeeded (L.stored.map (·.hi)) = false := by
        have := L.hiNeeded_eq
        rw [hge, Bool.true_and] at this
        rw [← this]; simpa using hi
      unfold hiBlockNeeded at hfalse
      rw [List.any_eq_false] at hfalse
      have := hfalse s.hi (List.mem_map.2 ⟨s, List.mem_of_getElem? h1, rfl⟩)
      have h0 : s.hi = 0 := by simpa using this
      rw [hhi] at h0
      have h0 := congrArg BitVec.toNat h0
      rw [BitVec.toNat_ofNat] at h0
      have h00 : (0 : U16).toNat = 0 := rfl
      rw [h00] at h0
      omega

/-- However opening went on with the extended tables and the attributes: if it succeeded, the classic tables are those
of the layout. -/
theorem Layout.opened_of_open (L : Layout e md5 b f) (hmd : ∀ x, (md5 x).length = 16) (before after : List Byte)
    (hal : before.length % 512 = 0)
    (hclean : ∀ o < before.length, o % 512 = 0 → ¬ Spec.archiveMark (before ++ f ++ after) o ∧
      ¬ Spec.userDataMark (before ++ f ++ after) o)
    (hlen : f.length < addressable b.version) (hfit : before.length + f.length < 2 ^ 64)
    (hn : L.pending.length < 0xFFFFFFFE) {a : Archive} (ha : openArchive e (before ++ f ++ after) = .ok a) :
    L.Opened before after a := by
  have hfv : L.hdr.formatVersion = b.version := rfl
  have key : ∃ het bet,
      (if b.version.ge .v3 then Mopaq.loadHet e (before ++ f ++ after) before.length L.hdr else pure none) = .ok het ∧
      (if b.version.ge .v3 then Mopaq.loadBet e (before ++ f ++ after) before.length L.hdr else pure none) = .ok bet := by
    unfold openArchive at ha
    rw [L.findHeader hmd before after hal hclean] at ha
    simp only [bind, Except.bind, if_true] at ha
    unfold Archive.loadTables at ha
    dsimp only at ha
    rw [hfv] at ha
    cases hv : b.version.ge .v3 with
    | false => exact ⟨none, none, rfl, rfl⟩
    | true =>
      simp only [hv, if_true] at ha
      obtain ⟨het, hhet, ha⟩ := bind_eq_ok.1 ha
      obtain ⟨bet, hbet, ha⟩ := bind_eq_ok.1 ha
      exact ⟨het, bet, hhet, hbet⟩
  obtain ⟨het, bet, hhet, hbet⟩ := key
  obtain ⟨a', ha', _, _, _, _, hop⟩ := L.open hmd before after hal hclean hlen hfit hn het bet hhet hbet
  rw [hop] at ha
  cases hl : a'.loadAttributes e with
  | error err => rw [hl] at ha; cases ha
  | ok at_ =>
    rw [hl] at ha
    injection ha with ha
    subst ha
    exact ⟨ha'.file, ha'.offset, ha'.header, ha'.hash, ha'.block, ha'.his⟩

end Mopaq
