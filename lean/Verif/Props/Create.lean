import Verif.Model.Create
import Verif.Props.Listing
import Verif.Props.Deferred

/-! # Creating an empty archive (C60) -/

namespace Mopaq

/-- A small archive of version 1 or 2 is not much longer than its files. -/
theorem Layout.classic_length_le {e : Env} {md5 : Md5} {b : Builder} {f : List Byte} (L : Layout e md5 b f)
    (hmd : ∀ x, (md5 x).length = 16) (hv : b.version.ge .v3 = false) (hn : L.pending.length < 0xFFFFFFFE)
    (hb : ∀ p ∈ L.pending, storedBound p < 2 ^ 32) :
    f.length ≤ 208 + (L.pending.map storedBound).sum + 16 * 2 ^ L.k + 18 * L.pending.length := by
  have h1 := storedAt_length L.sector L.placed hb
  rw [← L.files_eq] at h1
  have h2 : L.hash.length = 16 * 2 ^ L.k := by rw [L.hash_eq, hashTableBytes_length, L.table_length hn]
  have h3 : L.block.length = 16 * L.pending.length := by
    rw [L.block_eq, blockTableBytes_length, List.length_map, L.placed.length]
  have h4 : L.hi.length ≤ 2 * L.pending.length := by
    rw [L.hi_eq]
    split
    · rw [hiBlockTableBytes_length, List.length_map, L.placed.length]; omega
    · simp
  obtain ⟨h5, h6⟩ := L.classic hv
  have hh : b.version.headerSize.toNat ≤ 208 := by cases b.version <;> decide
  rw [L.f_length hmd, h5, h6]
  simp only [List.length_nil]
  omega

def emptyPending : List PendingFile :=
  [{ source := some (listfileText []), name := listfileName, compression := 0x02, encrypt := false, useFixKey := false,
     locale := 0 }]

theorem emptyPending_eq (v : FormatVersion) : prepareListfile (emptyBuilder v) = .ok emptyPending := rfl

theorem empty_names : NoCollision (attributesName :: emptyPending.map (·.name)) := noCollision_lit (by decide +kernel)

theorem empty_buildable (e : Env) (v : FormatVersion) (hz : ∃ c, compress e.codecs (listfileText []) 0x02 = .ok c) :
    Buildable e (emptyBuilder v) emptyPending where
  shift := by show (3#16).toNat < 55; decide
  prepared := emptyPending_eq v
  count := by decide
  readable := by
    intro p hp
    rw [emptyPending, List.mem_singleton] at hp
    subst hp
    refine ⟨_, rfl, by decide, ?_⟩
    unfold Compressible
    rw [show (emptyBuilder v).blockSize = 3#16 from rfl, if_pos (by decide +kernel)]
    exact hz
  names := noCollision_tail empty_names
  distinct := List.pairwise_singleton ..

/-- What an empty archive is: it has the version asked for, 16 hash table slots, and its listing names the listfile and
nothing else. -/
structure EmptyArchive (e : Env) (v : FormatVersion) (a : Archive) : Prop where
  version : a.header.formatVersion = v
  slots : ∃ t, a.hashTable = some t ∧ t.length = 16
  listing : ∃ entries, a.list e = .ok entries ∧ entries.map (fun x => (x.name, x.size)) = [(listfileName, 12)]

theorem empty_archive (e : Env) (he : e.codecs.Lawful) (md5 : Md5) (hmd : ∀ x, (md5 x).length = 16)
    (hz : ∃ c, compress e.codecs (listfileText []) 0x02 = .ok c) (v : FormatVersion) :
    ∃ f a, buildBytes e md5 (emptyBuilder v) = .ok f ∧ openArchive e f = .ok a ∧ EmptyArchive e v a := by
  have hsum : (emptyPending.map storedBound).sum < 1000 := by decide +kernel
  have hsb : ∀ p ∈ emptyPending, storedBound p < 1000 := by decide +kernel
  have h21 : (2 : Nat) ^ 21 = 2097152 := rfl
  have h32 : (2 : Nat) ^ 32 = 4294967296 := rfl
  have h47 : (2 : Nat) ^ 47 = 140737488355328 := rfl
  have h48 : (2 : Nat) ^ 48 = 281474976710656 := rfl
  have h64 : (2 : Nat) ^ 64 = 18446744073709551616 := rfl
  have hh : v.headerSize.toNat ≤ 208 := by cases v <;> decide
  obtain ⟨f, hf⟩ := C50_extended_build_succeeds_partial e md5 (emptyBuilder v) emptyPending (empty_buildable e v hz)
    (.inl rfl) (by show _ + v.headerSize.toNat < _; omega)
  obtain ⟨L⟩ := layout_of_build hmd hf
  have hpe : L.pending = emptyPending := by
    have := L.prepared
    rw [emptyPending_eq] at this
    exact (Except.ok.inj this).symm
  have hk : 2 ^ L.k = 16 := by
    have hs := L.slots
    rw [hpe] at hs
    have : hashSizeOf (emptyBuilder v) emptyPending = .ok 16 := by
      show calculateHashTableSize 1 true = .ok 16
      decide +kernel
    rw [this] at hs
    exact (Except.ok.inj hs).symm
  have hn : L.pending.length < 0xFFFFFFFE := by rw [hpe]; decide
  have hlen : f.length < addressable (emptyBuilder v).version := by
    unfold addressable
    split
    · rename_i hv
      have := L.classic_length_le hmd (by rw [hv]; rfl) hn (by rw [hpe]; intro p hp; have := hsb p hp; omega)
      rw [hk, hpe, show emptyPending.length = 1 from rfl] at this
      omega
    · exact L.length_lt hmd hn (by rw [hpe]; intro p hp; have := hsb p hp; omega) (by rw [hpe]; omega)
  have hfit : f.length < 2 ^ 64 := by
    have : f.length < 2 ^ 48 := by unfold addressable at hlen; split at hlen <;> omega
    omega
  have hlm : Spec.LosslessMethod 0x02#8 (listfileText []) :=
    ⟨by decide, by decide, by decide, fun h => by rcases h with h | h <;> exact absurd h (by decide), by decide +kernel⟩
  obtain ⟨c, hc⟩ := hz
  obtain ⟨a, entries, h1, h2, h3, _⟩ := C27_generated_listing_partial e he md5 hmd (emptyBuilder v) f hf rfl [] rfl
    (by intro n hn; cases hn) (by intro n hn; cases hn) emptyPending (emptyPending_eq v) (List.pairwise_singleton ..)
    (fun _ => .inl ⟨rfl, by decide⟩) [] [] rfl (by intro o ho; cases ho) hlen (by simpa using hfit) (by decide)
    (by
      intro p hp data hd
      have := hsb p hp
      unfold storedBound at this
      rw [hd] at this
      dsimp only at this
      omega)
    (by decide +kernel) 4096 (show sectorSizeOf 3#16 = .ok 4096 by decide) (Or.inr hlm)
    (recoverable_of_lossless he (show (listfileText []).length ≤ 4096 by decide +kernel) hlm hc) empty_names
  obtain ⟨a', h4, h5, _⟩ := L.opens hmd (by rw [hpe]; exact fun _ => .inl ⟨rfl, by decide⟩) [] [] rfl
    (by intro o ho; cases ho) hlen (by simpa using hfit) hn (by rw [hpe]; decide +kernel) (by rw [hpe]; exact empty_names)
  rw [h1] at h4
  cases Except.ok.inj h4
  rw [List.nil_append, List.append_nil] at h1
  refine ⟨f, a, hf, h1, ?_, ⟨L.table, h5.hash, ?_⟩, entries, h2, ?_⟩
  · rw [h5.header]; rfl
  · rw [L.table_length hn, hk]
  · rw [h3]
    show [(listfileName, (listfileText []).length)] = _
    decide +kernel

/-- C60: the library creates an empty archive of the version asked for (version 1 if none is), replacing whatever is at the
path, and opens it; with deferred loading too. -/
theorem C60_library_create (e : Env) (he : e.codecs.Lawful) (md5 : Md5) (hmd : ∀ x, (md5 x).length = 16)
    (hz : ∃ c, compress e.codecs (listfileText []) 0x02 = .ok c) (version : Option FormatVersion) :
    ∃ f a, createArchive e md5 version true = .ok (f, a) ∧ EmptyArchive e (version.getD .v1) a ∧
      ∃ a', createArchive e md5 version false = .ok (f, a') ∧ a'.header = a.header ∧ a'.loadTables e = .ok a := by
  obtain ⟨f, a, h1, h2, h3⟩ := empty_archive e he md5 hmd hz (version.getD .v1)
  refine ⟨f, a, ?_, h3, ?_⟩
  · unfold createArchive
    rw [h1]
    show (openArchive e f true).bind _ = _
    rw [show openArchive e f true = .ok a from h2]
    rfl
  · have h4 := h2
    rw [C59_explicit_load_same] at h4
    obtain ⟨a', ha, hl⟩ := bind_eq_ok.1 h4
    refine ⟨a', ?_, ?_, hl⟩
    · unfold createArchive
      rw [h1]
      show (openArchive e f false).bind _ = _
      rw [ha]
      rfl
    · rw [loadTables_eq] at hl
      obtain ⟨_, _, hl⟩ := bind_eq_ok.1 hl
      obtain ⟨_, _, hl⟩ := bind_eq_ok.1 hl
      obtain ⟨_, _, hl⟩ := bind_eq_ok.1 hl
      obtain ⟨_, _, hl⟩ := bind_eq_ok.1 hl
      obtain ⟨_, _, hl⟩ := bind_eq_ok.1 hl
      cases Except.ok.inj hl
      rfl

/-- A hash table size that the C API accepts. -/
def ValidSize (size : U32) : Prop := ∃ k, 2 ≤ k ∧ size.toNat = 2 ^ k

theorem validSize_iff (size : U32) : ValidSize size ↔ (!isPowerOfTwo size || decide (size.toNat < 4)) = false := by
  rw [Bool.or_eq_false_iff, Bool.not_eq_false', decide_eq_false_iff_not]
  have hs : BitVec.ofNat 32 size.toNat = size := BitVec.ofNat_toNat ..
  constructor
  · rintro ⟨k, hk, h⟩
    have h32 : k < 32 := by
      have := size.isLt
      rw [h] at this
      exact (Nat.pow_lt_pow_iff_right (by decide)).1 this
    refine ⟨?_, ?_⟩
    · rw [← hs, h]; exact isPowerOfTwo_of_two_pow k h32
    · have : 2 ^ 2 ≤ 2 ^ k := Nat.pow_le_pow_right (by decide) hk
      omega
  · rintro ⟨h1, h2⟩
    rw [← hs] at h1
    obtain ⟨k, hk⟩ := isPowerOfTwo_two_pow _ size.isLt h1
    refine ⟨k, ?_, hk⟩
    apply Decidable.byContradiction
    intro hlt
    have : 2 ^ k ≤ 2 ^ 1 := Nat.pow_le_pow_right (by decide) (by omega)
    omega

instance (size : U32) : Decidable (ValidSize size) := decidable_of_iff _ (validSize_iff size).symm

/-- Whether a call asks for a new archive, by the documentation of the dispositions. -/
def Creates (content : Option (List Byte)) (disposition : U32) : Prop :=
  disposition = 1 ∧ content = none ∨ disposition = 2 ∨ disposition = 4 ∧ content = none ∨
    disposition = 5 ∧ ∃ c, content = some c

theorem createCheck_creates {content : Option (List Byte)} {d size : U32} (hs : ValidSize size) (hc : Creates content d) :
    createCheck content.isSome d size = .build := by
  unfold createCheck
  rw [(validSize_iff size).1 hs]
  rcases hc with ⟨rfl, rfl⟩ | rfl | ⟨rfl, rfl⟩ | ⟨rfl, c, rfl⟩ <;> rfl

/-- C60: a call to create an archive that asks for a new one succeeds when the disk works: there is an empty archive of version
2 at the path afterwards, whatever was there before. The number of hash table slots asked for has no effect: the
archive always has 16. -/
theorem C60_call_creates (e : Env) (he : e.codecs.Lawful) (md5 : Md5) (hmd : ∀ x, (md5 x).length = 16)
    (hz : ∃ c, compress e.codecs (listfileText []) 0x02 = .ok c) :
    ∃ f a, openArchive e f = .ok a ∧ EmptyArchive e .v2 a ∧ ∀ content disposition size, ValidSize size →
      Creates content disposition → createAlone e md5 true content disposition size = .ok (some f, .done (.ok a)) := by
  obtain ⟨f, a, h1, h2, h3⟩ := empty_archive e he md5 hmd hz .v2
  refine ⟨f, a, h2, h3, fun content d size hs hc => ?_⟩
  unfold createAlone createStep
  simp only [bind, Except.bind, createCheck_creates hs hc, if_true, h1, caught, pure, Except.pure, openPath, Option.elim, h2]

theorem createCheck_keeps {content : Option (List Byte)} {d size : U32} (hk : ¬ ValidSize size ∨ ¬ Creates content d) :
    createCheck content.isSome d size ≠ .build := by
  intro h
  unfold createCheck at h
  have hv : ValidSize size := by
    rw [validSize_iff]
    cases hb : (!isPowerOfTwo size || decide (size.toNat < 4)) with
    | false => rfl
    | true => rw [hb] at h; cases h
  rw [(validSize_iff size).1 hv, if_neg Bool.false_ne_true] at h
  refine (hk.resolve_left fun h => h hv) ?_
  cases content with
  | none =>
    simp only [Option.isSome_none, Bool.false_eq_true, if_false] at h
    split at h
    · rename_i hd; exact .inl ⟨hd, rfl⟩
    split at h
    · rename_i hd; exact .inr (.inl hd)
    split at h
    · cases h
    split at h
    · rename_i hd; exact .inr (.inr (.inl ⟨hd, rfl⟩))
    split at h <;> cases h
  | some c =>
    simp only [Option.isSome_some, if_true] at h
    split at h
    · cases h
    split at h
    · rename_i hd; exact .inr (.inl hd)
    split at h
    · cases h
    split at h
    · cases h
    split at h
    · rename_i hd; exact .inr (.inr (.inr ⟨hd, c, rfl⟩))
    · cases h

theorem createStep_keeps {e : Env} {md5 : Md5} {writable : Bool} {content content' : Option (List Byte)}
    {stage stage' : CreateStage} (h : createStep e md5 writable content stage = .ok (content', stage'))
    (hk : writable = false ∨ (∀ d size, stage = .check d size → createCheck content.isSome d size ≠ .build) ∧ stage ≠ .build) :
    content' = content ∧ (writable = false ∨ stage' ≠ .build) ∧ ∀ d size, stage' ≠ .check d size := by
  cases stage with
  | check d size =>
    cases Except.ok.inj h
    refine ⟨rfl, hk.imp_right fun h => h.1 d size rfl, ?_⟩
    intro d' size'
    unfold createCheck
    repeat' split
    all_goals exact fun h => nomatch h
  | build =>
    have hw := hk.resolve_right fun h => h.2 rfl
    subst hw
    cases Except.ok.inj h
    exact ⟨rfl, Or.inl rfl, fun _ _ h => nomatch h⟩
  | openPath =>
    unfold createStep at h
    obtain ⟨r, _, h⟩ := bind_eq_ok.1 h
    cases r <;> cases Except.ok.inj h <;> exact ⟨rfl, Or.inr (fun h => nomatch h), fun _ _ h => nomatch h⟩
  | done r =>
    cases Except.ok.inj h
    exact ⟨rfl, Or.inr (fun h => nomatch h), fun _ _ h => nomatch h⟩

/-- C60: a call that does not ask for a new archive, or whose size is not valid, or that cannot write, leaves the path as it is. -/
theorem C60_path_kept (e : Env) (md5 : Md5) (writable : Bool) (content content' : Option (List Byte)) (disposition size : U32)
    (stage : CreateStage) (h : createAlone e md5 writable content disposition size = .ok (content', stage))
    (hk : ¬ ValidSize size ∨ ¬ Creates content disposition ∨ writable = false) : content' = content := by
  unfold createAlone at h
  obtain ⟨⟨c1, s1⟩, h1, h⟩ := bind_eq_ok.1 h
  dsimp only at h
  obtain ⟨⟨c2, s2⟩, h2, h⟩ := bind_eq_ok.1 h
  have h3 : createStep e md5 writable c2 s2 = .ok (content', stage) := h
  have hk1 : writable = false ∨ createCheck content.isSome disposition size ≠ .build := by
    rcases hk with hk | hk | hk
    · exact .inr (createCheck_keeps (.inl hk))
    · exact .inr (createCheck_keeps (.inr hk))
    · exact .inl hk
  obtain ⟨rfl, k1, n1⟩ := createStep_keeps h1
    (hk1.imp_right fun hb => ⟨fun d size' hd => by cases hd; exact hb, fun hd => nomatch hd⟩)
  obtain ⟨rfl, k2, n2⟩ := createStep_keeps h2 (k1.imp_right fun hb => ⟨fun d size' hd => absurd hd (n1 d size'), hb⟩)
  exact (createStep_keeps h3 (k2.imp_right fun hb => ⟨fun d size' hd => absurd hd (n2 d size'), hb⟩)).1

/-- C60: the results of the other calls: codes 87, 183, 2 and 5 as documented; a call to open an existing archive or else create
one does the former. -/
theorem C60_call_refused (e : Env) (md5 : Md5) (writable : Bool) (content : Option (List Byte)) (disposition size : U32) :
    (¬ ValidSize size → createAlone e md5 writable content disposition size = .ok (content, .done (.error 87))) ∧
    (disposition ≠ 1 → disposition ≠ 2 → disposition ≠ 4 → disposition ≠ 5 →
      createAlone e md5 writable content disposition size = .ok (content, .done (.error 87))) ∧
    (ValidSize size → disposition = 1 → ∀ c, content = some c →
      createAlone e md5 writable content disposition size = .ok (content, .done (.error 183))) ∧
    (ValidSize size → disposition = 5 → content = none →
      createAlone e md5 writable content disposition size = .ok (content, .done (.error 2))) ∧
    (ValidSize size → disposition = 4 → ∀ c, content = some c → ∀ a, openArchive e c = .ok a →
      createAlone e md5 writable content disposition size = .ok (content, .done (.ok a))) ∧
    (ValidSize size → disposition = 4 → ∀ c, content = some c → ∀ err, openArchive e c = .error err → err ≠ .panic →
      err ≠ .diverge → createAlone e md5 writable content disposition size = .ok (content, .done (.error (errorCode err)))) ∧
    (ValidSize size → Creates content disposition → writable = false →
      createAlone e md5 writable content disposition size = .ok (content, .done (.error 5))) := by
  have key : ∀ r, createCheck content.isSome disposition size = .done r →
      createAlone e md5 writable content disposition size = .ok (content, .done r) := by
    intro r hr
    unfold createAlone createStep
    simp only [bind, Except.bind, hr]
  refine ⟨fun h => key _ ?_, fun h1 h2 h4 h5 => key _ ?_, fun h hd c hc => key _ ?_, fun h hd hc => key _ ?_, ?_, ?_, ?_⟩
  · unfold createCheck
    rw [if_pos]
    · rfl
    · cases hb : (!isPowerOfTwo size || decide (size.toNat < 4)) with
      | true => rfl
      | false => exact absurd ((validSize_iff size).2 hb) h
  · unfold createCheck
    rw [if_neg (show ¬ disposition = createNew from h1), if_neg (show ¬ disposition = createAlways from h2),
      if_neg (show ¬ disposition = openAlways from h4), if_neg (show ¬ disposition = truncateExisting from h5)]
    repeat' split
    all_goals rfl
  · subst hd hc
    unfold createCheck
    rw [(validSize_iff size).1 h]
    rfl
  · subst hd hc
    unfold createCheck
    rw [(validSize_iff size).1 h]
    rfl
  · rintro h rfl c rfl a ho
    have : createCheck (some c).isSome 4 size = .openPath := by
      unfold createCheck
      rw [(validSize_iff size).1 h]
      rfl
    unfold createAlone createStep
    simp only [bind, Except.bind, this, openPath, Option.elim, ho, caught, pure, Except.pure]
  · rintro h rfl c rfl err ho hp hd
    have : createCheck (some c).isSome 4 size = .openPath := by
      unfold createCheck
      rw [(validSize_iff size).1 h]
      rfl
    have hca : caught (openArchive e c) = .ok (.error err) := by
      rw [ho]
      cases err <;> first | rfl | exact absurd rfl hp | exact absurd rfl hd
    unfold createAlone createStep
    simp only [bind, Except.bind, this, openPath, Option.elim, hca, pure, Except.pure]
  · rintro h hc rfl
    unfold createAlone createStep
    simp only [bind, Except.bind, createCheck_creates h hc, Bool.false_eq_true, if_false, caught, pure, Except.pure]
    rfl

/-- C60 fails: of two calls at the same time that both insist on a new file, both can succeed: the look at the path and the
creation are two steps. -/
theorem C60_create_new_race (e : Env) (he : e.codecs.Lawful) (md5 : Md5) (hmd : ∀ x, (md5 x).length = 16)
    (hz : ∃ c, compress e.codecs (listfileText []) 0x02 = .ok c) (size size' : U32) (hs : ValidSize size)
    (hs' : ValidSize size') :
    ∃ f a, CreateMoves e md5 (none, [.check 1 size, .check 1 size'])
      (some f, [.done (.ok a), .done (.ok a)]) := by
  obtain ⟨f, a, h1, h2, _⟩ := empty_archive e he md5 hmd hz .v2
  have c1 : createStep e md5 true none (.check 1 size) = .ok (none, .build) := by
    show Except.ok (none, createCheck (none : Option (List Byte)).isSome 1 _) = _
    rw [createCheck_creates (content := none) hs (.inl ⟨rfl, rfl⟩)]
  have c2 : createStep e md5 true none (.check 1 size') = .ok (none, .build) := by
    show Except.ok (none, createCheck (none : Option (List Byte)).isSome 1 _) = _
    rw [createCheck_creates (content := none) hs' (.inl ⟨rfl, rfl⟩)]
  have b1 : ∀ content, createStep e md5 true content .build = .ok (some f, .openPath) := by
    intro content
    unfold createStep
    simp only [bind, Except.bind, if_true, h1, caught, pure, Except.pure]
  have o1 : createStep e md5 true (some f) .openPath = .ok (some f, .done (.ok a)) := by
    unfold createStep
    simp only [bind, Except.bind, openPath, Option.elim, h2, caught, pure, Except.pure]
  refine ⟨f, a, ?_⟩
  refine .tail (.tail (.tail (.tail (.tail (.tail (.refl _) (.step true [] _ _ _ _ _ c1)) (.step true [.build] [] _ _ _ _ c2))
    (.step true [] _ _ _ _ _ (b1 none))) (.step true [] _ _ _ _ _ o1)) (.step true [.done (.ok a)] [] _ _ _ _ (b1 _)))
    (.step true [.done (.ok a)] [] _ _ _ _ o1)

/-- C60 fails: a file that another program puts at the path after the look is replaced, though the call asked for a new file. -/
theorem C60_create_new_replaces (e : Env) (he : e.codecs.Lawful) (md5 : Md5) (hmd : ∀ x, (md5 x).length = 16)
    (hz : ∃ c, compress e.codecs (listfileText []) 0x02 = .ok c) (size : U32) (hs : ValidSize size) (other : List Byte) :
    ∃ f a stage, createStep e md5 true none (.check 1 size) = .ok (none, stage) ∧
      CreateMoves e md5 (some other, [stage]) (some f, [.done (.ok a)]) ∧ EmptyArchive e .v2 a := by
  obtain ⟨f, a, h1, h2, h3⟩ := empty_archive e he md5 hmd hz .v2
  refine ⟨f, a, .build, ?_, ?_, h3⟩
  · show Except.ok (none, createCheck (none : Option (List Byte)).isSome 1 _) = _
    rw [createCheck_creates (content := none) hs (.inl ⟨rfl, rfl⟩)]
  · refine .tail (.tail (.refl _) (.step true [] [] _ .openPath _ (some f) ?_))
      (.step true [] [] _ _ _ _ ?_)
    · unfold createStep
      simp only [bind, Except.bind, if_true, h1, caught, pure, Except.pure]
    · unfold createStep
      simp only [bind, Except.bind, openPath, Option.elim, h2, caught, pure, Except.pure]

/-- The codecs of the examples compress the text. -/
theorem toy_empty : ∃ c, compress toyEnv.codecs (listfileText []) 0x02 = .ok c :=
  ⟨(compress toyCodecs (listfileText []) 0x02#8).toOption.getD [],
    show compress toyCodecs (listfileText []) 0x02#8 = _ by decide +kernel⟩

/-- Sizes 4 and 65536 are accepted, and give the same archive; 0, 3 and 5 are not. -/
example : ∃ r, createAlone toyEnv zeroMd5 true none 1 4 = .ok r ∧
    createAlone toyEnv zeroMd5 true (some [1, 2, 3]) 2 65536 = .ok r ∧
    createAlone toyEnv zeroMd5 true none 1 3 = .ok (none, .done (.error 87)) := by
  obtain ⟨f, a, _, _, h⟩ := C60_call_creates toyEnv toyCodecs_lawful zeroMd5 (fun _ => List.length_replicate) toy_empty
  exact ⟨_, h none 1 4 (by decide) (.inl ⟨rfl, rfl⟩), h (some [1, 2, 3]) 2 65536 (by decide) (.inr (.inl rfl)),
    (C60_call_refused toyEnv zeroMd5 true none 1 3).1 (by decide)⟩

example : ¬ ValidSize 0 ∧ ¬ ValidSize 2 ∧ ¬ ValidSize 5 ∧ ValidSize 0x80000000 := by decide

/-- An existing file is kept by the dispositions 1 and 4. -/
example (content' : Option (List Byte)) (stage : CreateStage)
    (h : createAlone toyEnv zeroMd5 true (some [1, 2, 3]) 4 16 = .ok (content', stage)) : content' = some [1, 2, 3] :=
  C60_path_kept _ _ _ _ _ _ _ _ h (.inr (.inl (by
    rintro (⟨h, _⟩ | h | ⟨_, h⟩ | ⟨h, _⟩)
    · exact absurd h (by decide)
    · exact absurd h (by decide)
    · exact (nomatch h)
    · exact absurd h (by decide))))

example : ∃ f a, CreateMoves toyEnv zeroMd5 (none, [.check 1 16, .check 1 32])
    (some f, [.done (.ok a), .done (.ok a)]) :=
  C60_create_new_race _ toyCodecs_lawful _ (fun _ => List.length_replicate) toy_empty _ _ (by decide) (by decide)

example : ∃ f a, createArchive toyEnv zeroMd5 (some .v4) true = .ok (f, a) ∧ EmptyArchive toyEnv .v4 a :=
  let ⟨f, a, h1, h2, _⟩ := C60_library_create toyEnv toyCodecs_lawful zeroMd5 (fun _ => List.length_replicate) toy_empty (some .v4)
  ⟨f, a, h1, h2⟩

end Mopaq
