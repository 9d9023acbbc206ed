import Verif.Props.TextVerify

/-! # C65: the lists printed can be read back, whatever the archive -/

namespace Mopaq

theorem blockEntryOf_noLf {blocks : List BlockEntry} {i j : Nat} {x : FileEntry} (h : blockEntryOf blocks i j = some x) :
    0x0A#8 ∉ x.name := by
  unfold blockEntryOf at h
  split at h
  · cases h
  · split at h
    · cases h; exact anonymousName_noLf j
    · cases h

theorem blockEntries_noLf (blocks : List BlockEntry) : ∀ (h : HashTable) (seen : List Nat), ∀ x ∈ blockEntries blocks seen h,
    0x0A#8 ∉ x.name := by
  intro h
  induction h with
  | nil => intro seen x hx; cases hx
  | cons entry rest ih =>
    intro seen x hx
    unfold blockEntries at hx
    split at hx
    · split at hx
      · exact ih _ x hx
      · split at hx
        · rename_i y hy
          rcases List.mem_cons.1 hx with rfl | hx
          · exact blockEntryOf_noLf hy
          · exact ih _ x hx
        · exact ih _ x hx
    · exact ih _ x hx

theorem listedAll_noLf {a : Archive} {entries : List FileEntry} (h : a.listAll = .ok entries) : ∀ x ∈ entries, 0x0A#8 ∉ x.name := by
  unfold Archive.listAll at h
  obtain ⟨es, hes, h⟩ := bind_eq_ok.1 h
  split at h
  · cases h
    unfold Archive.betListing at hes
    split at hes
    · cases hes; intro x hx; cases hx
    · exact betEntries_noLf _ _ _ _ hes
  · split at h
    · cases h
      intro x hx
      exact blockEntries_noLf _ _ _ x (List.mem_mergeSort.1 hx)
    · cases h

theorem cliList_noLf {e : Env} {a : Archive} {all hashes : Bool} {pattern : Option Matcher} {shown : List HashedEntry}
    (h : cliList e a all hashes pattern = .ok shown) : ∀ x ∈ shown, 0x0A#8 ∉ x.1.name := by
  unfold cliList at h
  obtain ⟨start, hs, h⟩ := bind_eq_ok.1 h
  obtain ⟨kept, hk, h⟩ := bind_eq_ok.1 h
  cases h
  have hfiles := listedEntries_files e a all hashes
  rw [hs] at hfiles
  have hf : (if all then a.listAll else a.list e) = .ok (start.map Prod.fst) := hfiles.symm
  have hn : ∀ x ∈ start.map Prod.fst, 0x0A#8 ∉ x.name := by
    cases all with
    | true => exact listedAll_noLf hf
    | false => exact listed_noLf hf
  intro x hx
  have hx := List.mem_mergeSort.1 hx
  have hx : x ∈ start := by
    unfold applyPattern at hk
    split at hk
    · cases hk; exact hx
    · cases hk
    · cases hk; exact (List.mem_filter.1 hx).1
  exact hn _ (List.mem_map.2 ⟨x, hx, rfl⟩)

/-- C65: whatever the archive, the options and the pattern, what `list` prints can be read back. As text the lines are the names shown
in order, an empty line and the number of names; in CSV the names follow the heading, one on a line; with hashes each line has the
fields of the name and the two hashes. -/
theorem C65_list_lines (e : Env) (a : Archive) (all hashes : Bool) (pattern : Option Matcher) (shown : List HashedEntry)
    (h : cliList e a all hashes pattern = .ok shown) :
    (∃ n, Spec.IsNumber shown.length n ∧ Spec.lines (listText (shown.map (·.1.name))) =
      shown.map (·.1.name) ++ [[], ascii "Total: " ++ n ++ ascii " files", []]) ∧
    Spec.lines (listCsv (shown.map (·.1.name))) = ascii "filename" :: shown.map (·.1.name) ++ [[]] ∧
    ((∃ x ∈ shown, x.pair ≠ none) → ∃ rows, Spec.lines (hashesCsv shown) = ascii "filename,hash1,hash2" :: rows ++ [[]] ∧
      rows.map Spec.fields = shown.map fun x => Spec.fields x.1.name ++ Spec.hashFields x.pair) := by
  have hn := cliList_noLf h
  have hn' : ∀ n ∈ shown.map (·.1.name), 0x0A#8 ∉ n := by
    intro n hm
    obtain ⟨x, hx, rfl⟩ := List.mem_map.1 hm
    exact hn x hx
  refine ⟨⟨_, isNumber_decimal _, ?_⟩, (C65_names_readable _ hn').2, fun hany => C65_csv_rows shown hany hn⟩
  unfold listText
  rw [List.append_assoc, lines_flatMap _ hn']
  refine congrArg (_ ++ ·) ?_
  have h2 := lines_flatMap [[], totalWord ++ decimal (shown.map (·.1.name)).length ++ filesWord] (by
    intro n hm
    simp only [List.mem_cons, List.not_mem_nil, or_false] at hm
    rcases hm with rfl | rfl
    · exact List.not_mem_nil
    · exact noLf_append (noLf_append (by decide) (decimal_noLf _)) (by decide)) []
  rw [List.append_nil, List.flatMap_cons, List.flatMap_cons, List.flatMap_nil, List.append_nil] at h2
  rw [h2, List.length_map]
  rfl

theorem found_noLf {e : Env} {a : Archive} {pattern : Matcher} {fold : List Byte → List Byte} {found : List (List Byte)}
    (h : cliFind e a pattern fold = .ok found) : ∀ n ∈ found, 0x0A#8 ∉ n := by
  unfold cliFind at h
  obtain ⟨entries, he, h⟩ := bind_eq_ok.1 h
  obtain ⟨m, _, h⟩ := bind_eq_ok.1 h
  cases h
  intro n hn
  obtain ⟨x, hx, rfl⟩ := List.mem_map.1 (List.mem_filter.1 hn).1
  exact listed_noLf he x hx

/-- C65: the names that `find` prints have no line feeds either: its lines are the names found. -/
theorem C65_find_lines (e : Env) (a : Archive) (pattern : Matcher) (fold : List Byte → List Byte) (found : List (List Byte))
    (h : cliFind e a pattern fold = .ok found) : Spec.lines (found.flatMap outLine) = found ++ [[]] := by
  have := lines_flatMap found (found_noLf h) []
  rwa [List.append_nil] at this

/-- C65: what `find` prints: the names found, each on a line; with `--verbose` an empty line and how many they are; if there are
none, that there are none for the pattern; with `--quiet` the names alone. -/
theorem C65_find_output (e : Env) (a : Archive) (quiet verbose : Bool) (text : List Byte) (ht : 0x0A#8 ∉ text) (pattern : Matcher)
    (fold : List Byte → List Byte) (found : List (List Byte)) (h : cliFind e a pattern fold = .ok found) :
    ∃ out, cliFindOutput e a quiet verbose text pattern fold = .ok out ∧
      (quiet = true → Spec.lines out = found ++ [[]]) ∧
      (quiet = false → found = [] → Spec.lines out = [ascii "No files found matching pattern: " ++ text, []]) ∧
      (quiet = false → found ≠ [] → verbose = false → Spec.lines out = found ++ [[]]) ∧
      (quiet = false → found ≠ [] → verbose = true → ∃ n, Spec.IsNumber found.length n ∧
        Spec.lines out = found ++ [[], ascii "Found " ++ n ++ ascii " matching files", []]) := by
  have hl := C65_find_lines e a pattern fold found h
  unfold cliFindOutput
  rw [h]
  by_cases hf : found = []
  · subst hf
    refine ⟨_, rfl, ?_, ?_, fun _ h => absurd rfl h, fun _ h => absurd rfl h⟩
    · rintro rfl; rfl
    · rintro rfl _
      have := lines_flatMap [word "No files found matching pattern: " ++ text] (by
        intro l hl
        rw [List.mem_singleton.1 hl]
        exact noLf_append (by decide) ht) []
      rw [List.append_nil, List.flatMap_cons, List.flatMap_nil, List.append_nil] at this
      exact this
  · refine ⟨found.flatMap outLine ++ (if !quiet && verbose then outLine [] ++ outLine (word "Found " ++ decimal found.length ++
      word " matching files") else []), ?_, ?_, fun _ h => absurd h hf, ?_, ?_⟩
    · show (if found = [] then _ else _) = _
      rw [if_neg hf]
      rfl
    · rintro rfl
      rw [if_neg (by simp), List.append_nil]
      exact hl
    · rintro rfl _ rfl
      rw [if_neg (by simp), List.append_nil]
      exact hl
    · rintro rfl _ rfl
      refine ⟨decimal found.length, isNumber_decimal _, ?_⟩
      rw [if_pos (by decide), lines_flatMap found (found_noLf h)]
      have := lines_flatMap [[], word "Found " ++ decimal found.length ++ word " matching files"] (by
        intro l hl
        simp only [List.mem_cons, List.not_mem_nil, or_false] at hl
        rcases hl with rfl | rfl
        · decide
        · exact noLf_append (noLf_append (by decide) (decimal_noLf _)) (by decide)) []
      rw [List.append_nil, List.flatMap_cons, List.flatMap_cons, List.flatMap_nil, List.append_nil] at this
      rw [this]
      rfl

/-- The sample archive is listed. -/
example : ∃ f a shown, buildBytes toyEnv zeroMd5 (sampleBuilder .v2) = .ok f ∧ openArchive toyEnv f = .ok a ∧
    cliList toyEnv a false false none = .ok shown ∧ shown.length = 3 ∧
    ∃ found, cliFind toyEnv a (.ok fun _ => true) id = .ok found ∧ found.length = 3 := by
  obtain ⟨f, a, files, hf, ha, hl, hmap⟩ := sample_lists .v2 (by decide)
  have h3 : files.length = 3 := by
    have := congrArg List.length hmap
    simpa using this
  refine ⟨f, a, _, hf, ha, by unfold cliList listedEntries; rw [hl]; rfl, ?_, _, by unfold cliFind; rw [hl]; rfl, ?_⟩
  · rw [List.length_mergeSort, List.length_map, h3]
  · rw [List.filter_eq_self.2 (fun _ _ => rfl), List.length_map, h3]

end Mopaq
