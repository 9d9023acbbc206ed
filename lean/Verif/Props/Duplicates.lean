import Verif.Props.Listing

/-! # Building an archive of two files with the same name (C08) -/

namespace Mopaq

/-- If all additions succeeded, no name was added twice for a locale. -/
theorem runAdds_pairwise {k : Nat} (hk : k < 32) (rev : List AddOp) : ∀ {t : HashTable}, ValidBlocks rev →
    runAdds (2 ^ k) rev.reverse = .ok t →
    rev.Pairwise (fun a b => ¬ (Spec.normalise (a.name.map BitVec.toNat) = Spec.normalise (b.name.map BitVec.toNat) ∧
      a.locale = b.locale)) := by
  induction rev with
  | nil => intro _ _ _; exact .nil
  | cons op rev ih =>
    intro t hb h
    rw [List.reverse_cons] at h
    obtain ⟨t0, h0, ha⟩ := runAdds_snoc.1 h
    have hb' : ValidBlocks rev := fun o ho => hb o (List.mem_cons_of_mem _ ho)
    rw [List.pairwise_cons]
    refine ⟨?_, ih hb' h0⟩
    intro o ho ⟨hn, hl⟩
    obtain ⟨hinv, _⟩ := runAdds_inv rfl hk rev.reverse (fun o ho => hb' o (List.mem_reverse.1 ho)) h0
    obtain ⟨d, hd, heq, hall⟩ := hinv.stored o (List.mem_reverse.2 ho)
    rw [startOf_normalise (2 ^ k) hn.symm] at heq hall
    unfold addToHashTable at ha
    obtain ⟨j, hj, he, _, hbef⟩ := add_ok hinv.len ha
    rw [hinv.len] at hj he hbef
    rcases Nat.lt_trichotomy d j with hlt | heq' | hgt
    · apply (hbef d hlt).2
      rw [heq]
      have := hashPair_normalise hn.symm
      unfold hashPair at this
      have := Prod.mk.inj this
      exact ⟨this.1, this.2, hl.symm⟩
    · subst heq'
      rw [heq, AddOp.entry_not_empty (hb' o ho)] at he; cases he
    · rw [hall j hgt] at he; cases he

theorem pairwise_of_opsFrom {R : AddOp → AddOp → Prop} {S : PendingFile → PendingFile → Prop}
    (h : ∀ p q i j, R ⟨p.name, i, p.locale⟩ ⟨q.name, j, q.locale⟩ → S p q) : ∀ {ps : List PendingFile} (i : Nat),
    (opsFrom i ps).Pairwise R → ps.Pairwise S
  | [], _, _ => .nil
  | p :: ps, i, hp => by
    rw [opsFrom, List.pairwise_cons] at hp
    rw [List.pairwise_cons]
    refine ⟨?_, pairwise_of_opsFrom h _ hp.2⟩
    intro q hq
    obtain ⟨j, hj⟩ := List.mem_iff_getElem?.1 hq
    refine h _ _ _ _ (hp.1 ⟨q.name, BitVec.ofNat 32 (i + 1 + j), q.locale⟩ ?_)
    apply List.mem_of_getElem? (i := j)
    rw [opsFrom_get, hj]
    rfl

theorem Layout.distinct {e : Env} {md5 : Md5} {b : Builder} {f : List Byte} (L : Layout e md5 b f)
    (hcount : L.pending.length < 0xFFFFFFFE) : DistinctFiles L.pending := by
  have h := runAdds_pairwise L.hk (opsFrom 0 L.pending).reverse (t := L.table)
    (fun o ho => opsFrom_valid hcount o (List.mem_reverse.1 ho)) (by rw [List.reverse_reverse]; exact L.adds)
  rw [List.pairwise_reverse] at h
  refine pairwise_of_opsFrom ?_ 0 h
  intro p q i j h ⟨h1, h2⟩
  exact h ⟨(normalise_of_sameName h1).symm, h2.symm⟩

/-- C08: an archive is only built of files (the listfile among them) no two of which have the same name up to case and
separator and the same locale, in every version and whatever the hashes of the names. So of two such files none silently
replaces the other. -/
theorem C08_built_files_distinct (e : Env) (md5 : Md5) (hmd : ∀ x, (md5 x).length = 16) (b : Builder) (f : List Byte)
    (hb : buildBytes e md5 b = .ok f) (pending : List PendingFile) (hp : prepareListfile b = .ok pending)
    (hcount : pending.length < 0xFFFFFFFE) (i j : Nat) (p q : PendingFile) (hij : i < j) (hi : pending[i]? = some p)
    (hj : pending[j]? = some q) :
    ¬ (Spec.sameName (p.name.map BitVec.toNat) (q.name.map BitVec.toNat) ∧ p.locale = q.locale) := by
  obtain ⟨L⟩ := layout_of_build hmd hb
  have hpe : L.pending = pending := by
    have := L.prepared
    rw [hp] at this
    exact (Except.ok.inj this).symm
  subst hpe
  have hd := L.distinct hcount
  have := List.pairwise_iff_getElem.1 hd i j (List.getElem?_eq_some_iff.1 hi).1 (List.getElem?_eq_some_iff.1 hj).1 hij
  rwa [(List.getElem?_eq_some_iff.1 hi).2, (List.getElem?_eq_some_iff.1 hj).2] at this

/-- The sample archive is built of three files, so they are distinct; with the first file once more under another spelling,
nothing is built. -/
example : (∃ f, buildBytes toyEnv zeroMd5 (sampleBuilder .v2) = .ok f) ∧
    ∀ f, buildBytes toyEnv zeroMd5 { sampleBuilder .v2 with
      pending := (sampleBuilder .v2).pending ++ [{ (samplePending.head (by decide)) with name := ascii "dir/A.TXT" }] } ≠ .ok f := by
  refine ⟨?_, ?_⟩
  · obtain ⟨f, _, hf, _⟩ := sample_reads .v2 (by decide)
    exact ⟨f, hf⟩
  · intro f hf
    refine C08_built_files_distinct toyEnv zeroMd5 (fun _ => List.length_replicate) _ f hf _ rfl (by decide) 0 2 _ _
      (by decide) rfl rfl ⟨?_, ?_⟩
    · decide +kernel
    · rfl

end Mopaq
