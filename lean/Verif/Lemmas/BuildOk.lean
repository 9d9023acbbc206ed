import Verif.Lemmas.ArchiveRead

/-! # When building succeeds -/

namespace Mopaq

/-- Additions of distinct names (or locales) succeed. -/
theorem runAdds_distinct {k : Nat} (hk : k < 32) (rev : List AddOp) : ValidBlocks rev → rev.length ≤ 2 ^ k →
    NoCollision (rev.map AddOp.name) →
    rev.Pairwise (fun a b => ¬ (Spec.normalise (a.name.map BitVec.toNat) = Spec.normalise (b.name.map BitVec.toNat) ∧
      a.locale = b.locale)) → ∃ t, runAdds (2 ^ k) rev.reverse = .ok t := by
  induction rev with
  | nil =>
    intro _ _ _ _
    simp only [List.reverse_nil, runAdds, HashTable.new, List.foldlM_nil]
    rw [isPowerOfTwo_of_two_pow k hk]
    exact ⟨_, rfl⟩
  | cons op rev ih =>
    intro hb hlen hc hd
    rw [List.length_cons] at hlen
    have hb' : ValidBlocks rev := fun o ho => hb o (List.mem_cons_of_mem _ ho)
    rw [List.pairwise_cons] at hd
    obtain ⟨t, ht⟩ := ih hb' (by omega) (fun a ha b hb => hc a (List.mem_cons_of_mem _ ha) b (List.mem_cons_of_mem _ hb)) hd.2
    have hbr : ValidBlocks rev.reverse := fun o ho => hb' o (List.mem_reverse.1 ho)
    have h8 := C08_duplicates_rejected k hk rev.reverse hbr t ht (by rw [List.length_reverse]; omega) op (by
      intro a ha b hb
      refine hc a ?_ b ?_
      · simpa using ha
      · simpa using hb)
    have hnp : Spec.present (toLog rev.reverse) (op.name.map BitVec.toNat) op.locale.toNat = false := by
      unfold Spec.present toLog
      simp only [List.any_map, List.any_eq_false, Function.comp, Bool.and_eq_true, beq_iff_eq]
      intro o ho ⟨h1, h2⟩
      refine hd.1 o (List.mem_reverse.1 ho) ⟨h1.symm, BitVec.eq_of_toNat_eq h2.symm⟩
    rw [hnp] at h8
    simp only [Bool.false_eq_true, if_false] at h8
    obtain ⟨t', ht'⟩ := h8
    refine ⟨t', ?_⟩
    rw [List.reverse_cons]
    unfold runAdds at ht ⊢
    cases hnew : HashTable.new (2 ^ k) with
    | error err => rw [hnew] at ht; cases ht
    | ok t0 =>
    rw [hnew] at ht
    dsimp only at ht ⊢
    rw [List.foldlM_append, ht]
    simp only [bind, Except.bind, List.foldlM_cons, List.foldlM_nil, ht']
    rfl

/-- Every piece of the data that is compressed on its own can be compressed. -/
def Compressible (e : Codecs) (ss : Nat) (m : Byte) (data : List Byte) : Prop :=
  if data.length ≤ ss then ∃ c, compress e data m = .ok c
  else ∀ x, Spec.IsSector ss data x → ∃ c, compress e x m = .ok c

theorem storeUnit_returns {e : Env} {m : Byte} {x : List Byte} (h : ∃ c, compress e.codecs x m = .ok c) :
    ∃ r, storeUnit e m x = .ok r := by
  obtain ⟨c, hc⟩ := h
  unfold storeUnit
  split
  · rw [hc]
    simp only [bind, Except.bind]
    split <;> exact ⟨_, rfl⟩
  · exact ⟨_, rfl⟩

theorem mapM_returns {α β : Type} {g : α → Res β} : ∀ {xs : List α}, (∀ x ∈ xs, ∃ y, g x = .ok y) → ∃ ys, xs.mapM g = .ok ys
  | [], _ => ⟨[], rfl⟩
  | x :: xs, h => by
    obtain ⟨y, hy⟩ := h x List.mem_cons_self
    obtain ⟨ys, hys⟩ := mapM_returns fun x hx => h x (List.mem_cons_of_mem _ hx)
    exact ⟨y :: ys, by rw [List.mapM_cons, hy, hys]; rfl⟩

theorem writeFile_returns {e : Env} {crcs : Bool} {p : FileWriteParams} {shift : U16}
    (hss : sectorSizeOf shift = .ok p.sectorSize) (h0 : 0 < p.sectorSize)
    (hsize : p.data.length + p.data.length / 64 + 12 < 2 ^ 32)
    (hc : Compressible e.codecs p.sectorSize p.compression p.data) : ∃ w, writeFile e crcs p = .ok w := by
  have h32 : 2 ^ 32 = 4294967296 := rfl
  unfold Compressible at hc
  unfold writeFile
  by_cases hlen : p.data.length ≤ p.sectorSize
  · rw [if_pos hlen] at hc ⊢
    obtain ⟨⟨s, c⟩, hr⟩ := storeUnit_returns hc
    unfold writeSingle
    rw [hr]
    exact ⟨_, rfl⟩
  · rw [if_neg hlen] at hc ⊢
    obtain ⟨count, hcd⟩ : ∃ count, divCeil p.data.length p.sectorSize = .ok count := by
      unfold divCeil; rw [if_neg (by omega)]; exact ⟨_, rfl⟩
    obtain ⟨hss0, hcount, hle, hpos, hge⟩ := divCeil_ok hcd
    have hcomp : ∀ x ∈ sectorsOf p.data p.sectorSize count, ∃ y, storeUnit e p.compression x = .ok y := by
      intro x hx
      exact storeUnit_returns (hc x ((mem_sectorsOf hcd x).1 hx))
    obtain ⟨stored, hs⟩ := mapM_returns hcomp
    have h512 := sectorSizeOf_512 hss hss0
    have hpw := mapM_ok hs
    obtain ⟨hflat, _⟩ := sectorsOf_spec p.sectorSize count p.data 0 hle
    have htot := flatten_stored_le hpw
    rw [hflat] at htot
    have hcb : (count - 1) * 512 ≤ p.data.length := Nat.le_trans (Nat.mul_le_mul_left _ h512) hge
    have hbound : (count + 1) * 4 + (if crcs then count * 4 else 0) + (stored.map (·.1)).flatten.length < 2 ^ 32 := by
      split <;> omega
    unfold writeSectored
    rw [hcd]
    simp only [bind, Except.bind]
    rw [hs]
    dsimp only
    cases p.encrypt with
    | false => exact ⟨_, rfl⟩
    | true =>
      rw [if_pos rfl]
      have := encryptSectors_ok ((count + 1) * 4 + (if crcs then count * 4 else 0))
        (calculateFileKey p.name p.filePos (BitVec.ofNat 32 p.data.length)
          ((if stored.any (·.2) = true then (if crcs = true then flagSectorCrc else 0#32) ||| flagCompress
            else if crcs = true then flagSectorCrc else 0#32) ||| flagEncrypted |||
            if p.useFixKey = true then flagFixKey else 0#32)) (stored.map (·.1)) [] 0 (by simpa using hbound)
      simp only [List.nil_append, List.length_nil, Nat.add_zero] at this
      rw [this]
      exact ⟨_, rfl⟩

theorem storeFiles_hashing {e : Env} {crcs : Bool} {ss limit : Nat} : ∀ {ps : List PendingFile} {index : Nat} (pos : Nat)
    {t t' : HashTable}, (∀ p ∈ ps, ∀ pos, ∃ s, storeFile e crcs ss pos p = .ok s) → addAll index t ps = .ok t' →
    index + ps.length ≤ limit → ∃ st, storeFiles e crcs true ss limit index pos t ps = .ok (t', st)
  | [], index, pos, t, t', _, ha, _ => by
    injection ha with ha
    subst ha
    exact ⟨[], rfl⟩
  | p :: ps, index, pos, t, t', hs, ha, hl => by
    rw [addAll] at ha
    obtain ⟨t1, ht1, ha⟩ := bind_eq_ok.1 ha
    rw [List.length_cons] at hl
    obtain ⟨s, hs1⟩ := hs p List.mem_cons_self pos
    obtain ⟨st, hst⟩ := storeFiles_hashing (pos + s.bytes.length) (fun q hq => hs q (List.mem_cons_of_mem _ hq)) ha
      (show index + 1 + ps.length ≤ limit by omega)
    refine ⟨s :: st, ?_⟩
    rw [storeFiles, hs1]
    simp only [bind, Except.bind, if_true, ht1]
    rw [if_neg (by omega)]
    simp only [pure, Except.pure, hst]

theorem storeFiles_plain {e : Env} {crcs : Bool} {ss limit : Nat} : ∀ {ps : List PendingFile} {index : Nat} (pos : Nat)
    {t : HashTable}, (∀ p ∈ ps, ∀ pos, ∃ s, storeFile e crcs ss pos p = .ok s) →
    index + ps.length ≤ limit → ∃ st, storeFiles e crcs false ss limit index pos t ps = .ok (t, st)
  | [], index, pos, t, _, _ => ⟨[], rfl⟩
  | p :: ps, index, pos, t, hs, hl => by
    rw [List.length_cons] at hl
    obtain ⟨s, hs1⟩ := hs p List.mem_cons_self pos
    obtain ⟨st, hst⟩ := storeFiles_plain (pos + s.bytes.length) (t := t) (fun q hq => hs q (List.mem_cons_of_mem _ hq))
      (show index + 1 + ps.length ≤ limit by omega)
    refine ⟨s :: st, ?_⟩
    rw [storeFiles, hs1]
    simp only [bind, Except.bind, Bool.false_eq_true, if_false, pure, Except.pure]
    rw [if_neg (by omega)]
    simp only [hst]

/-- No two files have the same name (up to case and separator) and the same locale. -/
def DistinctFiles (pending : List PendingFile) : Prop :=
  pending.Pairwise fun p q => ¬ (Spec.sameName (p.name.map BitVec.toNat) (q.name.map BitVec.toNat) ∧ p.locale = q.locale)

theorem opsFrom_pairwise {R : AddOp → AddOp → Prop} {S : PendingFile → PendingFile → Prop}
    (h : ∀ p q i j, S p q → R ⟨p.name, i, p.locale⟩ ⟨q.name, j, q.locale⟩) : ∀ {ps : List PendingFile} (i : Nat),
    ps.Pairwise S → (opsFrom i ps).Pairwise R
  | [], _, _ => .nil
  | p :: ps, i, hp => by
    rw [List.pairwise_cons] at hp
    rw [opsFrom, List.pairwise_cons]
    refine ⟨?_, opsFrom_pairwise h _ hp.2⟩
    intro o ho
    obtain ⟨j, hj⟩ := List.mem_iff_getElem?.1 ho
    rw [opsFrom_get] at hj
    cases hq : ps[j]? with
    | none => rw [hq] at hj; cases hj
    | some q =>
      rw [hq] at hj
      simp only [Option.map_some, Option.some.injEq] at hj
      subst hj
      exact h _ _ _ _ (hp.1 q (List.mem_of_getElem? hq))

theorem adds_ok {k : Nat} (hk : k < 32) {pending : List PendingFile} (hlen : pending.length ≤ 2 ^ k)
    (hcount : pending.length < 0xFFFFFFFE) (hc : NoCollision (pending.map (·.name))) (hd : DistinctFiles pending) :
    ∃ t0 t, HashTable.new (2 ^ k) = .ok t0 ∧ addAll 0 t0 pending = .ok t := by
  have hv := opsFrom_valid hcount
  have hpw : (opsFrom 0 pending).Pairwise (fun a b =>
      ¬ (Spec.normalise (a.name.map BitVec.toNat) = Spec.normalise (b.name.map BitVec.toNat) ∧ a.locale = b.locale)) := by
    refine opsFrom_pairwise ?_ 0 hd
    intro p q i j h ⟨h1, h2⟩
    exact h ⟨sameName_of_normalise h1, h2⟩
  have hpr : (opsFrom 0 pending).reverse.Pairwise (fun a b =>
      ¬ (Spec.normalise (a.name.map BitVec.toNat) = Spec.normalise (b.name.map BitVec.toNat) ∧ a.locale = b.locale)) := by
    rw [List.pairwise_reverse]
    exact hpw.imp fun h ⟨h1, h2⟩ => h ⟨h1.symm, h2.symm⟩
  obtain ⟨t, ht⟩ := runAdds_distinct hk (opsFrom 0 pending).reverse (fun o ho => hv o (List.mem_reverse.1 ho))
    (by rw [List.length_reverse, opsFrom_length]; exact hlen)
    (by
      intro a ha b hb
      rw [List.map_reverse, List.mem_reverse, opsFrom_names] at ha hb
      exact hc a ha b hb) hpr
  rw [List.reverse_reverse] at ht
  unfold runAdds at ht
  cases hnew : HashTable.new (2 ^ k) with
  | error err => rw [hnew] at ht; cases ht
  | ok t0 =>
    rw [hnew] at ht
    exact ⟨t0, t, rfl, by rw [addAll_eq]; exact ht⟩

/-- What building an archive needs: readable sources of less than 4 GiB, no two files with the same name and locale,
pieces that the codecs can compress. -/
structure Buildable (e : Env) (b : Builder) (pending : List PendingFile) : Prop where
  shift : b.blockSize.toNat < 55
  prepared : prepareListfile b = .ok pending
  count : (pending.length + 1) * 2 ≤ 2 ^ 31
  readable : ∀ p ∈ pending, ∃ data, p.source = some data ∧ data.length + data.length / 64 + 12 < 2 ^ 32 ∧
    Compressible e.codecs (512 * 2 ^ b.blockSize.toNat) p.compression data
  names : NoCollision (pending.map (·.name))
  distinct : DistinctFiles pending

theorem Buildable.sector {e : Env} {b : Builder} {pending : List PendingFile} (h : Buildable e b pending) :
    sectorSizeOf b.blockSize = .ok (512 * 2 ^ b.blockSize.toNat) := by
  have hs := h.shift
  have : 2 ^ b.blockSize.toNat < 2 ^ 55 := Nat.pow_lt_pow_right (by decide) hs
  unfold sectorSizeOf
  rw [if_pos (by omega), Nat.mod_eq_of_lt (by have : (2:Nat) ^ 64 = 512 * 2 ^ 55 := by decide
                                              omega)]

theorem Buildable.stores {e : Env} {b : Builder} {pending : List PendingFile} (h : Buildable e b pending) (crcs : Bool) :
    ∀ p ∈ pending, ∀ pos, ∃ s, storeFile e crcs (512 * 2 ^ b.blockSize.toNat) pos p = .ok s := by
  intro p hp pos
  obtain ⟨data, hd, hsz, hc⟩ := h.readable p hp
  have hpos : 0 < 512 * 2 ^ b.blockSize.toNat := Nat.mul_pos (by decide) (Nat.two_pow_pos _)
  obtain ⟨w, hw⟩ := writeFile_returns (e := e) (crcs := crcs) (p :=
    { data, name := p.name, compression := p.compression, encrypt := p.encrypt, useFixKey := p.useFixKey,
      sectorSize := 512 * 2 ^ b.blockSize.toNat, filePos := pos }) h.sector hpos hsz hc
  unfold storeFile
  rw [hd]
  simp only [pure_bind]
  rw [hw]
  exact ⟨_, rfl⟩

theorem Buildable.size {e : Env} {b : Builder} {pending : List PendingFile} (h : Buildable e b pending) :
    ∃ k, k < 32 ∧ hashSizeOf b pending = .ok (2 ^ k) ∧ pending.length ≤ 2 ^ k := by
  obtain ⟨k, hk, hs, h2, _⟩ := C07_builder_size pending.length (match b.listfile with | .none => false | _ => true) h.count
  refine ⟨k, hk, hs, ?_⟩
  have : pending.length ≤ pending.length + (if (match b.listfile with | .none => false | _ => true) = true then 1 else 0) :=
    Nat.le_add_right _ _
  omega

/-- Versions 1 and 2 always build. -/
theorem build_classic {e : Env} {md5 : Md5} {b : Builder} {pending : List PendingFile} (h : Buildable e b pending)
    (hv : b.version.ge .v3 = false) : ∃ f, buildBytes e md5 b = .ok f := by
  obtain ⟨k, hk, hs, hl⟩ := h.size
  have hcnt := h.count
  obtain ⟨t0, t, ht0, hadd⟩ := adds_ok hk hl (by omega) h.names h.distinct
  obtain ⟨st, hst⟩ := storeFiles_hashing b.version.headerSize.toNat (limit := pending.length % 2 ^ 32) (h.stores b.generateCrcs)
    hadd (by rw [Nat.mod_eq_of_lt (by omega)]; omega)
  unfold buildBytes
  rw [h.prepared]
  simp only [bind, Except.bind, hv]
  unfold writeArchiveClassic
  rw [hs]
  simp only [bind, Except.bind, Bool.false_eq_true, if_false, h.sector, ht0, hst]
  cases hver : b.version with
  | v1 => exact ⟨_, rfl⟩
  | v2 => exact ⟨_, rfl⟩
  | v3 => rw [hver] at hv; cases hv
  | v4 => rw [hver] at hv; cases hv

/-- Versions 3 and 4 build if the extended tables can be made. -/
theorem build_extended {e : Env} {md5 : Md5} {b : Builder} {pending : List PendingFile} (h : Buildable e b pending)
    (hv : b.version.ge .v3 = true) (hhet : ∃ hd het, createHetTable (pending.map (·.name)) = .ok hd ∧
      writeExtTable e.codecs b.tables hd hashTableKey = .ok het)
    (hbet : ∀ stored, StoredAt e b.generateCrcs (512 * 2 ^ b.blockSize.toNat) b.version.headerSize.toNat pending stored →
      ∃ bd bet, createBetTable (pending.map (·.name)) (stored.map (·.block)) = .ok bd ∧
        writeExtTable e.codecs b.tables bd blockTableKey = .ok bet) : ∃ f, buildBytes e md5 b = .ok f := by
  obtain ⟨k, hk, hs, hl⟩ := h.size
  have hcnt := h.count
  obtain ⟨t0, t, ht0, hadd⟩ := adds_ok hk hl (by omega) h.names h.distinct
  obtain ⟨st, hst⟩ := storeFiles_plain b.version.headerSize.toNat (limit := pending.length % 2 ^ 32) (t := [])
    (h.stores b.generateCrcs) (index := 0) (by rw [Nat.mod_eq_of_lt (by omega)]; omega)
  obtain ⟨hplaced, _⟩ := storeFiles_ok hst
  obtain ⟨hd, het, hhd, hhet⟩ := hhet
  obtain ⟨bd, bet, hbd, hbet⟩ := hbet st hplaced
  unfold buildBytes
  rw [h.prepared]
  simp only [bind, Except.bind, hv, if_true]
  unfold writeArchiveHetBet
  simp only [bind, Except.bind, h.sector, hst, hhd, hhet, hbd, hbet, hs, ht0, hadd]
  cases hver : b.version with
  | v1 => rw [hver] at hv; cases hv
  | v2 => rw [hver] at hv; cases hv
  | v3 => exact ⟨_, rfl⟩
  | v4 => exact ⟨_, rfl⟩

end Mopaq
