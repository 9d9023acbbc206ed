import Verif.Props.Info

/-! # Opening an archive without loading its tables (C59) -/

namespace Mopaq

/-- C59: opening with deferred tables and then loading them is the same as opening normally, in result and failure. -/
theorem C59_explicit_load_same (e : Env) (f : List Byte) :
    openArchive e f = (openArchive e f false).bind fun a => a.loadTables e := by
  unfold openArchive
  cases findHeader f with
  | error err => rfl
  | ok x => rfl

/-- The loads one after the other. -/
theorem loadTables_eq (e : Env) (a : Archive) : a.loadTables e =
    (if a.header.formatVersion.ge .v3 then loadHet e a.file a.archiveOffset a.header else .ok none).bind fun het =>
    (if a.header.formatVersion.ge .v3 then loadBet e a.file a.archiveOffset a.header else .ok none).bind fun bet =>
    (loadClassic a.file a.archiveOffset a.header (usableHetBet het bet).isSome).bind fun classic =>
    (loadHiBlock a.file a.archiveOffset a.header).bind fun hi =>
    (Archive.loadAttributes e { a with hetTable := het, betTable := bet, hashTable := classic.map Prod.fst,
                                       blockTable := classic.map Prod.snd, hiBlockTable := hi }).bind fun attributes =>
    .ok { a with hetTable := het, betTable := bet, hashTable := classic.map Prod.fst,
                 blockTable := classic.map Prod.snd, hiBlockTable := hi, attributes } := by
  unfold Archive.loadTables
  split <;> rfl

theorem loadTables_parts {e : Env} {a a' : Archive} (h : a.loadTables e = .ok a') (hn : a.attributes = none) :
    a'.loadTables e = .ok a' := by
  rw [loadTables_eq] at h
  rw [loadTables_eq]
  obtain ⟨het, h1, h⟩ := bind_eq_ok.1 h
  obtain ⟨bet, h2, h⟩ := bind_eq_ok.1 h
  obtain ⟨classic, h3, h⟩ := bind_eq_ok.1 h
  obtain ⟨hi, h4, h⟩ := bind_eq_ok.1 h
  obtain ⟨attributes, h5, h⟩ := bind_eq_ok.1 h
  cases Except.ok.inj h
  simp only [h1, h2, h3, h4, Except.bind]
  cases attributes with
  | some x => rfl
  | none =>
    have : ({ a with hetTable := het, betTable := bet, hashTable := classic.map Prod.fst,
                     blockTable := classic.map Prod.snd, hiBlockTable := hi, attributes := none } : Archive) =
        { a with hetTable := het, betTable := bet, hashTable := classic.map Prod.fst,
                 blockTable := classic.map Prod.snd, hiBlockTable := hi } := by rw [hn]
    rw [this, h5]
    exact congrArg Except.ok this

theorem openArchive_deferred {e : Env} {f : List Byte} {a : Archive} (h : openArchive e f false = .ok a) :
    a.file = f ∧ a.hashTable = none ∧ a.blockTable = none ∧ a.hetTable = none ∧ a.betTable = none ∧ a.attributes = none := by
  unfold openArchive at h
  obtain ⟨x, _, h⟩ := bind_eq_ok.1 h
  cases Except.ok.inj h
  exact ⟨rfl, rfl, rfl, rfl, rfl, rfl⟩

/-- C59: loading the tables of an archive once more changes nothing. -/
theorem C59_reload_same (e : Env) (f : List Byte) (a : Archive) (h : openArchive e f = .ok a) : a.loadTables e = .ok a := by
  rw [C59_explicit_load_same] at h
  obtain ⟨a0, h0, h⟩ := bind_eq_ok.1 h
  exact loadTables_parts h (openArchive_deferred h0).2.2.2.2.2

/-- C59: describing an archive opened with deferred tables loads them: the description, or the failure, is that of the archive
opened normally. -/
theorem C59_description_same (e : Env) (s : SigEnv) (f : List Byte) (a : Archive) (h : openArchive e f false = .ok a) :
    a.getInfo e s = (openArchive e f).bind fun a => a.getInfo e s := by
  obtain ⟨_, h1, _, h3, _, _⟩ := openArchive_deferred h
  have hen : a.ensureLoaded e = openArchive e f := by
    rw [C59_explicit_load_same, h]
    unfold Archive.ensureLoaded
    rw [h1, h3]
    rfl
  cases ho : openArchive e f with
  | error err =>
    unfold Archive.getInfo
    rw [hen, ho]
    rfl
  | ok a' =>
    have hen' : a'.ensureLoaded e = .ok a' := by
      unfold Archive.ensureLoaded
      split
      · exact C59_reload_same e f a' ho
      · rfl
    show _ = a'.getInfo e s
    unfold Archive.getInfo
    rw [hen, ho, hen']

/-- C59 fails: an archive opened with deferred tables does not load them on first access. Until they are loaded explicitly (or
the archive is described), every lookup, every read and every listing fails, whatever the archive contains. -/
theorem C59_deferred_access_fails (e : Env) (f : List Byte) (a : Archive) (h : openArchive e f false = .ok a) :
    (∀ name, a.findFile name = .error .invalidFormat ∧ a.readFile e name = .error .invalidFormat) ∧
    a.list e = .error .invalidFormat ∧ a.listAll = .error .invalidFormat := by
  obtain ⟨_, h1, h2, h3, h4, _⟩ := openArchive_deferred h
  have hf : ∀ name, a.findFile name = .error .invalidFormat := by
    intro name
    unfold Archive.findFile Archive.findFileClassic
    rw [h3, h1]
    rfl
  refine ⟨fun name => ⟨hf name, ?_⟩, ?_, ?_⟩
  · unfold Archive.readFile
    rw [hf]
    rfl
  · unfold Archive.list
    rw [hf]
    rfl
  · unfold Archive.listAll Archive.betListing
    rw [h3, h1]
    rfl

/-- The sample archive opens both ways; with deferred tables its files are not found until they are loaded. -/
example (v : FormatVersion) (hv : v ≠ .v1) : ∃ f a a', buildBytes toyEnv zeroMd5 (sampleBuilder v) = .ok f ∧
    openArchive toyEnv f false = .ok a ∧ openArchive toyEnv f = .ok a' ∧
    a.readFile toyEnv (ascii "dir/A.TXT") = .error .invalidFormat ∧
    a.loadTables toyEnv = .ok a' ∧ a'.readFile toyEnv (ascii "dir/A.TXT") = .ok (List.replicate 40 0x41#8) := by
  obtain ⟨f, a', hf, _, ho, hr, _⟩ := sample_reads v hv
  have ho' := ho
  rw [C59_explicit_load_same] at ho
  obtain ⟨a, ha, hl⟩ := bind_eq_ok.1 ho
  exact ⟨f, a, a', hf, ha, ho', ((C59_deferred_access_fails _ _ _ ha).1 _).2, hl, hr⟩

end Mopaq
