import Verif.Model.ListOutput
import Verif.Props.VerboseList

/-!
# C97: options of the list of files
-/

namespace Mopaq

/-- A line of the list followed by two hashes of eight digits in brackets. -/
def Spec.withHashes (line : List Byte) (h1 h2 : Nat) : List Byte :=
  line ++ ascii " [" ++ Spec.hexWord h1 ++ ascii " " ++ Spec.hexWord h2 ++ ascii "]"

theorem hashedLine_spec (x : HashedEntry) :
    hashedLine x = match x.pair with
      | none => x.1.name
      | some (h1, h2) => Spec.withHashes x.1.name h1 h2 := by
  obtain ⟨f, h⟩ := x
  cases h with
  | none => rfl
  | some p =>
    show f.name ++ word " [" ++ hex8 p.1 ++ word " " ++ hex8 p.2 ++ word "]" = Spec.withHashes f.name p.1.toNat p.2.toNat
    rw [hex8_spec, hex8_spec]
    rfl

/-- The files that match an optional pattern, in order of their names. -/
def patternFiles (pattern : Option Matcher) (files : List FileEntry) : Res (List FileEntry) :=
  match pattern with
  | none => .ok (files.mergeSort fun x y => nameLe x.name y.name)
  | some (.error err) => .error err
  | some (.ok matches_) => .ok ((files.filter fun x => matches_ x.name).mergeSort fun x y => nameLe x.name y.name)

theorem cliList_files (e : Env) (a : Archive) (all hashes : Bool) (pattern : Option Matcher) :
    (cliList e a all hashes pattern).map (List.map Prod.fst) = (if all then a.listAll else a.list e) >>= patternFiles pattern := by
  rw [← listedEntries_files e a all hashes]
  unfold cliList
  cases listedEntries e a all hashes with
  | error err => rfl
  | ok l =>
    have hsort : ∀ l : List HashedEntry, (l.mergeSort fun x y => nameLe x.1.name y.1.name).map Prod.fst =
        (l.map Prod.fst).mergeSort fun x y => nameLe x.name y.name := fun l => List.map_mergeSort fun _ _ _ _ => rfl
    show Except.map (List.map Prod.fst) (applyPattern pattern l >>= _) = patternFiles pattern (l.map Prod.fst)
    unfold applyPattern patternFiles
    rcases pattern with _ | ⟨_ | m⟩
    · exact congrArg Except.ok (hsort l)
    · rfl
    · refine congrArg Except.ok ((hsort _).trans ?_)
      rw [List.filter_map]
      rfl

/-- C97: `--show-hashes` changes which files are shown, and their order, in no case: it fails if the list without it fails, and adds to
each line of its text nothing or two hashes in brackets. -/
theorem C97_hashes_only_add (e : Env) (up : Nat → Bool) (all : Bool) (pattern : Option Matcher) (a : Archive) :
    (∃ err, cliListOutput e up 0 .text all false pattern a = .error err ∧ cliListOutput e up 0 .text all true pattern a = .error err) ∨
    ∃ names rows last, cliListOutput e up 0 .text all false pattern a = .ok (Spec.textOf (names ++ [[], last])) ∧
      cliListOutput e up 0 .text all true pattern a = .ok (Spec.textOf (rows ++ [[], last])) ∧
      (∃ number, Spec.IsNumber names.length number ∧ last = ascii "Total: " ++ number ++ ascii " files") ∧
      rows.length = names.length ∧ ∀ row name, (row, name) ∈ rows.zip names →
        row = name ∨ ∃ h1 h2, h1 < 2 ^ 32 ∧ h2 < 2 ^ 32 ∧ row = Spec.withHashes name h1 h2 := by
  have h0 := cliList_files e a all false pattern
  have h1 := cliList_files e a all true pattern
  rw [← h0] at h1
  unfold cliListOutput
  cases hp : cliList e a all false pattern with
  | error err =>
    refine .inl ⟨err, rfl, ?_⟩
    rw [hp] at h1
    cases hh : cliList e a all true pattern with
    | error err' => rw [hh] at h1; cases h1; rfl
    | ok l => rw [hh] at h1; cases h1
  | ok plain =>
    rw [hp] at h1
    cases hh : cliList e a all true pattern with
    | error err' => rw [hh] at h1; cases h1
    | ok l =>
      rw [hh] at h1
      have hf : l.map Prod.fst = plain.map Prod.fst := Except.ok.inj h1
      have hn : plain.map (·.1.name) = l.map (·.1.name) := by
        have := congrArg (List.map FileEntry.name) hf
        rw [List.map_map, List.map_map] at this
        exact this.symm
      have hlen : l.length = plain.length := by simpa using congrArg List.length hf
      refine .inr ⟨plain.map (·.1.name), l.map hashedLine, totalWord ++ decimal plain.length ++ filesWord, ?_, ?_,
        ⟨_, by rw [List.length_map]; exact isNumber_decimal _, rfl⟩, by rw [List.length_map, List.length_map, hlen], ?_⟩
      · show Except.ok (listText (plain.map (·.1.name))) = _
        unfold listText Spec.textOf outLine
        rw [List.length_map, List.flatMap_append, List.append_assoc]
        simp
      · show Except.ok (hashesText l) = _
        unfold hashesText printLines Spec.textOf outLine
        rw [hlen, List.flatMap_append, List.append_assoc]
        simp
      · intro row name hm
        rw [hn, List.zip_map'] at hm
        obtain ⟨x, _, hx⟩ := List.mem_map.1 hm
        obtain ⟨rfl, rfl⟩ := Prod.mk.inj hx
        rw [hashedLine_spec]
        obtain ⟨f, h⟩ := x
        cases h with
        | none => exact .inl rfl
        | some p => exact .inr ⟨p.1.toNat, p.2.toNat, p.1.isLt, p.2.isLt, rfl⟩

/-- C97: verbosity changes nothing in JSON and CSV, so a program that reads the output need not know about it; in text every level from
the second on prints the same. -/
theorem C97_verbosity (e : Env) (up : Nat → Bool) (format : OutputFormat) (all hashes : Bool) (pattern : Option Matcher) (a : Archive) :
    (format ≠ .text → ∀ level, cliListOutput e up level format all hashes pattern a = cliListOutput e up 0 format all hashes pattern a) ∧
    ∀ level, 2 ≤ level → cliListOutput e up level format all hashes pattern a = cliListOutput e up 2 format all hashes pattern a := by
  refine ⟨fun h level => ?_, fun level hl => ?_⟩
  · unfold cliListOutput
    simp only [h, and_false, if_false]
  · unfold cliListOutput cliListVerbose
    simp only [hl, Nat.le_refl, if_true, show 0 < level by omega, show 0 < 2 by decide]

theorem hex8_inj {x y : U32} (h : hex8 x = hex8 y) : x = y := by
  have hd : ∀ a b : Nat, a < 16 → b < 16 → hexDigit a = hexDigit b → a = b := by
    intro a b ha hb he
    have := congrArg Spec.upperHexValue he
    rwa [(hexDigit_text a ha).1, (hexDigit_text b hb).1] at this
  unfold hex8 at h
  simp only [List.map_cons, List.map_nil, List.cons.injEq, and_true] at h
  obtain ⟨h7, h6, h5, h4, h3, h2, h1, h0⟩ := h
  have h7 := hd _ _ (Nat.mod_lt _ (by decide)) (Nat.mod_lt _ (by decide)) h7
  have h6 := hd _ _ (Nat.mod_lt _ (by decide)) (Nat.mod_lt _ (by decide)) h6
  have h5 := hd _ _ (Nat.mod_lt _ (by decide)) (Nat.mod_lt _ (by decide)) h5
  have h4 := hd _ _ (Nat.mod_lt _ (by decide)) (Nat.mod_lt _ (by decide)) h4
  have h3 := hd _ _ (Nat.mod_lt _ (by decide)) (Nat.mod_lt _ (by decide)) h3
  have h2 := hd _ _ (Nat.mod_lt _ (by decide)) (Nat.mod_lt _ (by decide)) h2
  have h1 := hd _ _ (Nat.mod_lt _ (by decide)) (Nat.mod_lt _ (by decide)) h1
  have h0 := hd _ _ (Nat.mod_lt _ (by decide)) (Nat.mod_lt _ (by decide)) h0
  apply BitVec.eq_of_toNat_eq
  have := x.isLt
  have := y.isLt
  omega

theorem hashedLine_inj {x y : HashedEntry} (hx : x.2 ≠ none) (hy : y.2 ≠ none) (h : hashedLine x = hashedLine y) :
    x.1.name = y.1.name ∧ x.2 = y.2 := by
  obtain ⟨f, _ | ⟨p1, p2⟩⟩ := x
  · exact absurd rfl hx
  obtain ⟨g, _ | ⟨q1, q2⟩⟩ := y
  · exact absurd rfl hy
  have h : f.name ++ word " [" ++ hex8 p1 ++ word " " ++ hex8 p2 ++ word "]" =
    g.name ++ word " [" ++ hex8 q1 ++ word " " ++ hex8 q2 ++ word "]" := h
  have h := List.append_cancel_right h
  obtain ⟨h, e2⟩ := List.append_inj' h rfl
  have h := List.append_cancel_right h
  obtain ⟨h, e1⟩ := List.append_inj' h rfl
  have h := List.append_cancel_right h
  exact ⟨h, by rw [hex8_inj e1, hex8_inj e2]⟩

theorem hashedLine_noLf (x : HashedEntry) (h : 0x0A#8 ∉ x.1.name) : 0x0A#8 ∉ hashedLine x := by
  obtain ⟨f, _ | ⟨p1, p2⟩⟩ := x
  · exact h
  · exact noLf_append (noLf_append (noLf_append (noLf_append (noLf_append h (by decide)) (hex8_plain p1).2) (by decide))
      (hex8_plain p2).2) (by decide)

theorem hashesText_lines (l : List HashedEntry) (h : ∀ x ∈ l, 0x0A#8 ∉ x.1.name) :
    Spec.lines (hashesText l) = l.map hashedLine ++ [[], totalWord ++ decimal l.length ++ filesWord, []] := by
  have h1 := lines_flatMap (l.map hashedLine ++ [[], totalWord ++ decimal l.length ++ filesWord]) (by
    intro n hn
    rcases List.mem_append.1 hn with hn | hn
    · obtain ⟨x, hx, rfl⟩ := List.mem_map.1 hn
      exact hashedLine_noLf x (h x hx)
    · simp only [List.mem_cons, List.not_mem_nil, or_false] at hn
      rcases hn with rfl | rfl
      · exact List.not_mem_nil
      · exact noLf_append (noLf_append (by decide) (decimal_noLf _)) (by decide)) []
  have h2 : hashesText l = (l.map hashedLine ++ [[], totalWord ++ decimal l.length ++ filesWord]).flatMap outLine ++ [] := by
    unfold hashesText printLines
    rw [List.flatMap_append, List.append_assoc]
    simp
  rw [h2, h1, List.append_assoc]
  rfl

/-- C97: names and hashes can be read back from the text if every file has hashes. Missing: files without hashes. -/
theorem C97_hashes_readable_partial (l m : List HashedEntry) (hl : ∀ x ∈ l, 0x0A#8 ∉ x.1.name ∧ x.2 ≠ none)
    (hm : ∀ x ∈ m, 0x0A#8 ∉ x.1.name ∧ x.2 ≠ none) (h : hashesText l = hashesText m) :
    l.map (fun x => (x.1.name, x.2)) = m.map fun x => (x.1.name, x.2) := by
  replace h := congrArg Spec.lines h
  rw [hashesText_lines l fun x hx => (hl x hx).1, hashesText_lines m fun x hx => (hm x hx).1] at h
  replace h := (List.append_inj' h rfl).1
  induction l generalizing m with
  | nil =>
    cases m with
    | nil => rfl
    | cons y m => cases h
  | cons x l ih =>
    cases m with
    | nil => cases h
    | cons y m =>
      rw [List.map_cons, List.map_cons, List.cons.injEq] at h
      obtain ⟨h1, h2⟩ := hashedLine_inj (hl x List.mem_cons_self).2 (hm y List.mem_cons_self).2 h.1
      rw [List.map_cons, List.map_cons, h1, h2, ih m (fun z hz => hl z (List.mem_cons_of_mem _ hz))
        (fun z hz => hm z (List.mem_cons_of_mem _ hz)) h.2]

/-- C97 is violated: without that, a file with hashes looks like one without hashes whose name ends in brackets, for every name and all
hashes. -/
theorem C97_hashes_ambiguous (f : FileEntry) (h1 h2 : U32) :
    hashesText [(f, some (h1, h2))] = hashesText [({ f with name := Spec.withHashes f.name h1.toNat h2.toNat }, none)] := by
  have h : hashedLine (f, some (h1, h2)) = hashedLine ({ f with name := Spec.withHashes f.name h1.toNat h2.toNat }, none) := by
    rw [hashedLine_spec, hashedLine_spec]
    rfl
  unfold hashesText
  rw [List.map_singleton, List.map_singleton, h]
  rfl

/-- The three files of C96: one line has hashes. -/
example : Spec.lines (hashesText tableSample) = [ascii "a.txt", ascii "b.txt [DEADBEEF 00000007]", List.replicate 41 0x63#8, [],
    ascii "Total: 3 files", []] := by decide +kernel

/-- Two files with hashes meet the hypotheses of C97_hashes_readable_partial. -/
example : ∀ x ∈ ([(⟨ascii "a", 1, 1, 0⟩, some (1#32, 2#32)), (⟨ascii "b [0", 1, 1, 0⟩, some (3#32, 4#32))] : List HashedEntry),
    0x0A#8 ∉ x.1.name ∧ x.2 ≠ none := by decide

/-- The sample of version 2 is listed in every format. -/
example : ∃ f a, buildBytes toyEnv zeroMd5 (sampleBuilder .v2) = .ok f ∧ openArchive toyEnv f = .ok a ∧
    ∀ format hashes, ∃ out, cliListOutput toyEnv (fun _ => false) 0 format false hashes none a = .ok out := by
  obtain ⟨f, a, files, hf, ha, hl, _⟩ := sample_lists .v2 (by decide)
  refine ⟨f, a, hf, ha, fun format hashes => ?_⟩
  obtain ⟨_, _, _, _, shown, hs, _⟩ := C65_list_shows toyEnv a false hashes (fun _ => true) files hl
  unfold cliListOutput
  rw [hs]
  cases hashes <;> exact ⟨_, rfl⟩

end Mopaq
