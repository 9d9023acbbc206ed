import Verif.Model.Publish
import Verif.Props.Builder

/-! # Building replaces the destination at once (C40) -/

namespace Mopaq

theorem overwrite_nil (c : List Byte) (o : Nat) : overwrite c o [] = c := by simp [overwrite]

theorem overwrite_append (c : List Byte) (o : Nat) (x y : List Byte) :
    overwrite (overwrite c o x) (o + x.length) y = overwrite c o (x ++ y) := by
  by_cases hx : x = []
  · subst hx; simp [overwrite_nil]
  by_cases hy : y = []
  · subst hy; simp [overwrite_nil]
  have hxy : x ++ y ≠ [] := by simp [hx]
  unfold overwrite
  rw [if_neg hx, if_neg hy, if_neg hxy]
  have hl : (c.take o ++ List.replicate (o - c.length) (0 : Byte)).length = o := by
    rw [List.length_append, List.length_take, List.length_replicate]; omega
  generalize hp : c.take o ++ List.replicate (o - c.length) (0 : Byte) = p at hl
  have h1 : (p ++ x ++ c.drop (o + x.length)).take (o + x.length) = p ++ x :=
    List.take_left' (by rw [List.length_append, hl])
  have h2 : (p ++ x ++ c.drop (o + x.length)).length = o + x.length + (c.length - (o + x.length)) := by
    simp only [List.length_append, List.length_drop, hl]
  have h3 : (p ++ x ++ c.drop (o + x.length)).drop (o + x.length + y.length) = c.drop (o + (x ++ y).length) := by
    rw [← List.drop_drop, List.drop_left' (by rw [List.length_append, hl]), List.drop_drop, List.length_append]
    congr 1; omega
  rw [h1, h3, h2, show o + x.length - (o + x.length + (c.length - (o + x.length))) = 0 by omega]
  simp

theorem writePieces_apply (tmp : List Byte) : ∀ (ps : List (List Byte)) (d : Spec.Disk) (o : Nat) (c : List Byte),
    d tmp = some c → applyOps d (writePieces tmp o ps) = fun q => if q = tmp then some (overwrite c o ps.flatten) else d q
  | [], d, o, c, h => by
    funext q
    simp only [writePieces, applyOps, List.foldl_nil, List.flatten_nil, overwrite_nil]
    split
    · rename_i e; rw [e, h]
    · rfl
  | p :: ps, d, o, c, h => by
    rw [writePieces, applyOps, List.foldl_cons]
    have := writePieces_apply tmp ps (FsOp.apply d (.write tmp o p)) (o + p.length) (overwrite c o p)
      (by simp [FsOp.apply, h])
    rw [applyOps] at this
    rw [this, overwrite_append, List.flatten_cons]
    funext q
    split
    · rfl
    · rename_i e; simp [FsOp.apply, e]

/-- After the writes the temporary file holds the archive, and nothing else changed. -/
theorem WritesArchive.apply {v : FormatVersion} {f tmp : List Byte} {ops : List FsOp} (h : WritesArchive v f tmp ops)
    (d : Spec.Disk) (hd : d tmp = some []) : applyOps d ops = fun q => if q = tmp then some f else d q := by
  cases h with
  | buffered body hv hb =>
    rw [writePieces_apply tmp body d 0 [] hd, hb]
    funext q
    split
    · by_cases hf : f = []
      · simp [hf, overwrite]
      · simp [overwrite, hf]
    · rfl
  | direct body front hv hb hf =>
    rw [applyOps, List.foldl_append]
    have h1 := writePieces_apply tmp body d v.headerSize.toNat [] hd
    rw [applyOps] at h1
    rw [h1]
    have h2 := writePieces_apply tmp front (fun q => if q = tmp then some (overwrite [] v.headerSize.toNat body.flatten) else d q)
      0 _ (if_pos rfl)
    rw [applyOps] at h2
    rw [h2, hb, hf]
    funext q
    split
    · congr 1
      generalize v.headerSize.toNat = h
      by_cases hdr : f.drop h = []
      · rw [hdr, overwrite_nil]
        have : f.take h = f := List.take_of_length_le (List.drop_eq_nil_iff.1 hdr)
        rw [this]
        by_cases hf : f = []
        · simp [hf, overwrite]
        · simp [overwrite, hf]
      · have hlen : h < f.length := by
          rw [List.drop_eq_nil_iff] at hdr; omega
        have htl : (f.take h).length = h := by rw [List.length_take]; omega
        have e1 : overwrite [] h (f.drop h) = List.replicate h 0 ++ f.drop h := by
          unfold overwrite; rw [if_neg hdr]; simp
        rw [e1]
        by_cases ht : f.take h = []
        · have : h = 0 := by rw [ht] at htl; exact htl.symm
          subst this
          simp [overwrite_nil]
        · unfold overwrite
          rw [if_neg ht, htl, List.take_zero, Nat.zero_sub, Nat.zero_add, List.drop_left' (by simp)]
          simp
    · rfl

theorem applyOps_writes {tmp : List Byte} : ∀ (ops : List FsOp) (d : Spec.Disk), (∀ op ∈ ops, op.WritesTo tmp) →
    ∀ q, q ≠ tmp → applyOps d ops q = d q
  | [], _, _, _, _ => rfl
  | op :: ops, d, h, q, hq => by
    rw [applyOps, List.foldl_cons]
    obtain ⟨o, x, rfl⟩ := h op List.mem_cons_self
    have := applyOps_writes ops (FsOp.apply d (.write tmp o x)) (fun op h' => h op (List.mem_cons_of_mem _ h')) q hq
    rw [applyOps] at this
    rw [this]
    exact if_neg hq

theorem writePieces_to (tmp : List Byte) : ∀ (ps : List (List Byte)) (o : Nat), ∀ op ∈ writePieces tmp o ps, op.WritesTo tmp
  | [], _, _, h => by cases h
  | p :: ps, o, op, h => by
    rw [writePieces] at h
    rcases List.mem_cons.1 h with rfl | h
    · exact ⟨o, p, rfl⟩
    · exact writePieces_to tmp ps _ op h

theorem WritesArchive.to {v : FormatVersion} {f tmp : List Byte} {ops : List FsOp} (h : WritesArchive v f tmp ops) :
    ∀ op ∈ ops, op.WritesTo tmp := by
  cases h with
  | buffered body hv hb => exact writePieces_to tmp body 0
  | direct body front hv hb hf =>
    intro op hop
    rcases List.mem_append.1 hop with h | h
    · exact writePieces_to tmp _ _ op h
    · exact writePieces_to tmp _ _ op h

/-- The effect of the calls up to the last one on paths other than the temporary file. -/
theorem created_untouched {tmp : List Byte} {writes : List FsOp} (h : ∀ op ∈ writes, op.WritesTo tmp) (before : Spec.Disk)
    (q : List Byte) (hq : q ≠ tmp) : applyOps before (.create tmp :: writes) q = before q := by
  rw [applyOps, List.foldl_cons]
  have := applyOps_writes writes (FsOp.apply before (.create tmp)) h q hq
  rw [applyOps] at this
  rw [this]
  exact if_neg hq

theorem prefix_concat {α : Type} {p l : List α} {x : α} (h : p <+: l ++ [x]) : p <+: l ∨ p = l ++ [x] := by
  rw [List.prefix_concat_iff] at h
  exact h.symm

/-- C40 (partial): a run of `build` that is stopped anywhere, or fails anywhere, leaves the destination with its previous
content or with the complete archive; all other paths except the temporary file keep their content at every moment. If
`build` reports success the destination holds the archive and the temporary file is gone, if it reports an error the
destination is as it was. Missing: power failures (`C40_power_failure_loses_archive`). -/
theorem C40_atomic_partial (e : Env) (md5 : Md5) (b : Builder) (dest tmp : List Byte) (hne : tmp ≠ dest) (ops : List FsOp)
    (r : Res Unit) (hrun : BuildRun e md5 b dest tmp ops r) (before : Spec.Disk) :
    (∀ done, done <+: ops →
      (applyOps before done dest = before dest ∨ ∃ f, buildBytes e md5 b = .ok f ∧ applyOps before done dest = some f) ∧
      ∀ q, q ≠ dest → q ≠ tmp → applyOps before done q = before q) ∧
    (r = .ok () → ∃ f, buildBytes e md5 b = .ok f ∧ applyOps before ops dest = some f ∧ applyOps before ops tmp = none) ∧
    (r ≠ .ok () → applyOps before ops dest = before dest) := by
  have base : ∀ writes, (∀ op ∈ writes, FsOp.WritesTo tmp op) → ∀ done, done <+: (FsOp.create tmp :: writes) → ∀ q, q ≠ tmp →
      applyOps before done q = before q := by
    intro writes hw done hdone q hq
    cases done with
    | nil => rfl
    | cons op done =>
      obtain ⟨rfl, hp⟩ := List.cons_prefix_cons.1 hdone
      exact created_untouched (fun op hop => hw op (hp.subset hop)) before q hq
  cases hrun with
  | noTemp =>
    refine ⟨?_, by simp, by simp [applyOps]⟩
    intro done hdone
    rw [List.prefix_nil] at hdone
    subst hdone
    exact ⟨Or.inl rfl, fun _ _ _ => rfl⟩
  | failed writes h err =>
    have last : ∀ q, q ≠ tmp → applyOps before (.create tmp :: writes ++ [.unlink tmp]) q = before q := by
      intro q hq
      rw [applyOps, List.foldl_append]
      show (if q = tmp then none else applyOps before (.create tmp :: writes) q) = before q
      rw [if_neg hq]
      exact created_untouched h before q hq
    refine ⟨?_, by simp, fun _ => last dest (Ne.symm hne)⟩
    intro done hdone
    rcases prefix_concat hdone with hp | rfl
    · exact ⟨Or.inl (base writes h done hp dest (Ne.symm hne)), fun q _ hq => base writes h done hp q hq⟩
    · exact ⟨Or.inl (last dest (Ne.symm hne)), fun q _ hq => last q hq⟩
  | removalFails writes h err =>
    refine ⟨?_, by simp, fun _ => created_untouched h before dest (Ne.symm hne)⟩
    intro done hdone
    exact ⟨Or.inl (base writes h done hdone dest (Ne.symm hne)), fun q _ hq => base writes h done hdone q hq⟩
  | done f writes hf h =>
    have hall : ∀ q, applyOps before (.create tmp :: writes ++ [.rename tmp dest]) q =
        if q = dest then some f else if q = tmp then none else before q := by
      intro q
      rw [applyOps, List.foldl_append, List.foldl_cons (l := writes)]
      have := h.apply (FsOp.apply before (.create tmp)) (if_pos rfl)
      rw [applyOps] at this
      rw [this]
      show (if q = dest then (if tmp = tmp then some f else _) else if q = tmp then none else
        if q = tmp then some f else if q = tmp then some [] else before q) = _
      rw [if_pos rfl]
      by_cases h1 : q = dest
      · rw [if_pos h1, if_pos h1]
      · rw [if_neg h1, if_neg h1]
        by_cases h2 : q = tmp
        · rw [if_pos h2, if_pos h2]
        · simp only [if_neg h2]
    refine ⟨?_, ?_, by simp⟩
    · intro done hdone
      rcases prefix_concat hdone with hp | rfl
      · exact ⟨Or.inl (base writes h.to done hp dest (Ne.symm hne)), fun q _ hq => base writes h.to done hp q hq⟩
      · refine ⟨Or.inr ⟨f, hf, ?_⟩, fun q hd ht => ?_⟩
        · rw [hall, if_pos rfl]
        · rw [hall, if_neg hd, if_neg ht]
    · intro _
      exact ⟨f, hf, by rw [hall, if_pos rfl], by rw [hall, if_neg hne, if_pos rfl]⟩

theorem lasting_drop {tmp : List Byte} : ∀ {writes : List FsOp}, (∀ op ∈ writes, op.WritesTo tmp) → ∀ {rest left : List FsOp},
    Lasting rest left → Lasting (writes ++ rest) left
  | [], _, _, _, h => h
  | op :: ops, hw, rest, left, h => by
    obtain ⟨o, x, rfl⟩ := hw op List.mem_cons_self
    exact .lose _ _ _ (lasting_drop (fun op h' => hw op (List.mem_cons_of_mem _ h')) h)

/-- C40 fails for power failures: nothing is synchronised before the rename, so that after a failure following a successful
build of any archive the destination may be empty, its previous content lost. -/
theorem C40_power_failure_loses_archive (e : Env) (md5 : Md5) (b : Builder) (dest tmp : List Byte) (hmd : ∀ x, (md5 x).length = 16)
    (ops : List FsOp) (hrun : BuildRun e md5 b dest tmp ops (.ok ())) (before : Spec.Disk) :
    ∃ left, Lasting ops left ∧ applyOps before left dest = some [] ∧ buildBytes e md5 b ≠ .ok [] := by
  cases hrun with
  | done f writes hf h =>
    refine ⟨[.create tmp, .rename tmp dest], .keep _ (lasting_drop h.to (.keep _ .nil)), ?_, ?_⟩
    · simp [applyOps, FsOp.apply]
    · intro h
      obtain ⟨L⟩ := layout_of_build hmd h
      have hl := L.f_length hmd
      have : 32 ≤ b.version.headerSize.toNat := by cases b.version <;> decide
      simp only [List.length_nil] at hl
      omega

/-- There are successful runs: the sample archive written piece by piece, in every version from 2 on. -/
example (v : FormatVersion) (hv : v ≠ .v1) : ∃ f ops, buildBytes toyEnv zeroMd5 (sampleBuilder v) = .ok f ∧
    BuildRun toyEnv zeroMd5 (sampleBuilder v) (ascii "a.mpq") (ascii ".tmpX") ops (.ok ()) ∧
    applyOps (fun q => if q = ascii "a.mpq" then some [1, 2] else none) ops (ascii "a.mpq") = some f := by
  obtain ⟨f, _, hf, _⟩ := sample_reads v hv
  have hw : ∃ ws, WritesArchive (sampleBuilder v).version f (ascii ".tmpX") ws := by
    cases hg : (sampleBuilder v).version.ge .v3 with
    | true => exact ⟨_, .buffered [f.take 10, f.drop 10] hg (by simp)⟩
    | false => exact ⟨_, .direct [f.drop (sampleBuilder v).version.headerSize.toNat]
        [f.take (sampleBuilder v).version.headerSize.toNat] hg (by simp) (by simp)⟩
  obtain ⟨ws, hw⟩ := hw
  have hrun := BuildRun.done (dest := ascii "a.mpq") f ws hf hw
  obtain ⟨f', hf', h1, _⟩ := (C40_atomic_partial _ _ _ _ _ (by decide) _ _ hrun
    (fun q => if q = ascii "a.mpq" then some [1, 2] else none)).2.1 rfl
  rw [hf] at hf'
  cases hf'
  exact ⟨f, _, hf, hrun, h1⟩

/-- A run that fails after some writes, stopped before the removal: only the temporary file is left. -/
example (e : Env) (md5 : Md5) (b : Builder) (err : Err) : ∃ ops, BuildRun e md5 b (ascii "a.mpq") (ascii ".tmpX") ops (.error err) ∧
    ∃ done, done <+: ops ∧ applyOps (fun _ => none) done (ascii ".tmpX") = some [0, 0, 7] :=
  ⟨_, .failed [.write _ 2 [7]] (by simp [FsOp.WritesTo]) err, [.create (ascii ".tmpX"), .write (ascii ".tmpX") 2 [7]],
    ⟨[.unlink (ascii ".tmpX")], rfl⟩, by decide +kernel⟩

end Mopaq
