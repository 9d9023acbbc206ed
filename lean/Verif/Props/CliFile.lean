import Verif.Model.CliFile
import Verif.Props.Cli
import Verif.Props.CliList
import Verif.Props.Spelling

/-! # One file with the command line tool (C67) -/

namespace Mopaq

/-! ## Extracting it -/

/-- C67: extracting one file writes its content, all of it and nothing else, to the path given, or to the name of the file
if no path is given and paths are to be preserved. If the file cannot be read nothing is written and the reason is
reported. -/
theorem C67_extract_one (e : Env) (a : Archive) (name out : List Byte) (preserve : Bool) :
    (∀ data, a.readFile e name = .ok data →
      extractOne e a (some out) preserve name = ([(out, data)], .ok ()) ∧
      extractOne e a none true name = ([(name, data)], .ok ())) ∧
    ∀ err, a.readFile e name = .error err → ∀ output, extractOne e a output preserve name = ([], .error err) := by
  refine ⟨fun data h => ⟨?_, ?_⟩, fun err h output => ?_⟩ <;> unfold extractOne <;> rw [h] <;> rfl

theorem place_plain {last : List Byte} (h1 : 0x2F#8 ∉ last) (h2 : last ≠ []) (h3 : last ≠ [0x2E#8])
    (h4 : last ≠ [0x2E#8, 0x2E#8]) : Spec.place last = ⟨false, 0, [last]⟩ := by
  unfold Spec.place
  rw [follow_noslash _ _ _ h1, List.nil_append]
  have : ¬ last.head? = some 0x2F#8 := by
    have := noslash_relative h1
    unfold isAbsolute at this
    simpa using this
  unfold Spec.Place.enter
  rw [if_neg (by simp [h2, h3]), if_neg h4]
  simp [this]

/-- C67: with neither a path nor paths preserved, whatever the name is, at most one file is written, it lies directly in the
working directory, and it has the content of the file asked for. -/
theorem C67_plain_inside (e : Env) (a : Archive) (name path data : List Byte)
    (h : (path, data) ∈ (extractOne e a none false name).1) :
    Spec.place path = ⟨false, 0, [path]⟩ ∧ a.readFile e name = .ok data ∧
      extractOne e a none false name = ([(path, data)], .ok ()) := by
  unfold extractOne extractOnePath at h ⊢
  split at h
  · cases h
  · rename_i d hd
    rw [if_neg (by decide)] at h ⊢
    cases hn : fileName name with
    | none => rw [hn] at h; cases h
    | some last =>
      rw [hn] at h
      rw [List.mem_singleton] at h
      cases h
      obtain ⟨h1, h2, h3, h4⟩ := fileName_plain hn
      exact ⟨place_plain h1 h2 h3 h4, hd, rfl⟩

theorem fileName_last (pre last : List Byte) (hpre : pre = [] ∨ pre.getLast? = some 0x2F#8) (h1 : 0x2F#8 ∉ last)
    (h2 : last ≠ []) (h3 : last ≠ [0x2E#8]) :
    fileName (pre ++ last) = if last = [0x2E#8, 0x2E#8] then none else some last := by
  have hp : (pathParts (pre ++ last)).getLast? = some last := by
    have hl : (List.filter (fun part => !(part == []) && !(part == [0x2E#8])) [last]).getLast? = some last := by
      rw [List.filter_cons_of_pos (by simp [h2, h3])]
      rfl
    unfold pathParts
    rcases hpre with rfl | hpre
    · rw [List.nil_append, List.splitOn_eq_singleton h1]
      exact hl
    · obtain ⟨dir, rfl⟩ : ∃ dir, pre = dir ++ [0x2F#8] := by
        obtain ⟨dir, h⟩ := List.getLast?_eq_some_iff.1 hpre
        exact ⟨dir, h⟩
      rw [List.append_assoc, List.singleton_append, List.splitOn_append_cons_self, List.splitOn_eq_singleton h1,
        List.filter_append, List.getLast?_append, hl]
      rfl
  unfold fileName
  rw [hp]
  simp

/-- C67: it is called by the last part of the name, the part behind the last slash, if that is an ordinary one. -/
theorem C67_plain_last_part_partial (e : Env) (a : Archive) (pre last data : List Byte)
    (hpre : pre = [] ∨ pre.getLast? = some 0x2F#8) (h1 : 0x2F#8 ∉ last)
    (h2 : last ≠ []) (h3 : last ≠ [0x2E#8]) (h4 : last ≠ [0x2E#8, 0x2E#8]) (hr : a.readFile e (pre ++ last) = .ok data) :
    extractOne e a none false (pre ++ last) = ([(last, data)], .ok ()) := by
  unfold extractOne extractOnePath
  rw [hr, if_neg (by decide), fileName_last pre last hpre h1 h2 h3, if_neg h4]

/-- C67 fails for names whose last part is `..`: the file is read, and then the tool panics. -/
theorem C67_parent_panics (e : Env) (a : Archive) (pre data : List Byte) (hpre : pre = [] ∨ pre.getLast? = some 0x2F#8)
    (hr : a.readFile e (pre ++ ascii "..") = .ok data) :
    extractOne e a none false (pre ++ ascii "..") = ([], .error .panic) := by
  unfold extractOne extractOnePath
  rw [hr, if_neg (by decide), fileName_last pre (ascii "..") hpre (by decide) (by decide) (by decide)]
  rfl

/-- C67 fails for the other slash: the part behind the last backslash is not taken for the last part of a name, though
`dir\last` and `dir/last` are the same file. The one is written to `last`, the other to a file called `dir\last`. -/
theorem C67_backslash_kept (e : Env) (a : Archive) (dir last data : List Byte) (hd : 0x2F#8 ∉ dir) (h1 : 0x2F#8 ∉ last)
    (h2 : last ≠ []) (h3 : last ≠ [0x2E#8]) (h4 : last ≠ [0x2E#8, 0x2E#8])
    (hr : a.readFile e (dir ++ ascii "/" ++ last) = .ok data) :
    extractOne e a none false (dir ++ ascii "/" ++ last) = ([(last, data)], .ok ()) ∧
    extractOne e a none false (dir ++ ascii "\\" ++ last) = ([(dir ++ ascii "\\" ++ last, data)], .ok ()) ∧
    extractOne e a none true (dir ++ ascii "\\" ++ last) = ([(dir ++ ascii "\\" ++ last, data)], .ok ()) ∧
    Spec.place (dir ++ ascii "\\" ++ last) = ⟨false, 0, [dir ++ ascii "\\" ++ last]⟩ := by
  have hsame : a.readFile e (dir ++ ascii "\\" ++ last) = .ok data := by
    rw [← hr]
    refine (C66_same_file e a _ _ ?_).2
    rw [List.append_assoc, List.append_assoc, List.map_append, List.map_append, List.map_append, List.map_append]
    have refl : ∀ l : List Nat, Spec.sameName l l := by
      intro l
      induction l with
      | nil => trivial
      | cons c l ih => exact ⟨.inl rfl, ih⟩
    have app : ∀ l r r' : List Nat, Spec.sameName r r' → Spec.sameName (l ++ r) (l ++ r') := by
      intro l r r' h
      induction l with
      | nil => exact h
      | cons c l ih => exact ⟨.inl rfl, ih⟩
    refine app _ _ _ ⟨?_, refl _⟩
    exact .inr (.inr (.inr (.inr ⟨rfl, rfl⟩)))
  have hlen : (dir ++ ascii "\\" ++ last).length = dir.length + 1 + last.length := by
    rw [List.length_append, List.length_append]
    rfl
  have hlast := List.length_pos_iff.2 h2
  have hno : 0x2F#8 ∉ dir ++ ascii "\\" ++ last := by
    simp only [List.mem_append, not_or]
    exact ⟨⟨hd, by decide⟩, h1⟩
  have hne : ∀ x : List Byte, 0x5C#8 ∉ x → dir ++ ascii "\\" ++ last ≠ x := by
    rintro x hx rfl
    refine hx ?_
    rw [List.mem_append, List.mem_append]
    exact .inl (.inr (by decide))
  have p := hne [] (by decide)
  have p1 := hne [0x2E#8] (by decide)
  have p2 := hne [0x2E#8, 0x2E#8] (by decide)
  refine ⟨?_, ?_, ((C67_extract_one e a _ [] true).1 data hsame).2, place_plain hno p p1 p2⟩
  · exact C67_plain_last_part_partial e a _ last data
      (.inr (by rw [List.getLast?_append]; rfl)) h1 h2 h3 h4 hr
  · exact C67_plain_last_part_partial e a [] _ data (.inl rfl) hno p p1 p2 hsame

/-! ## Asking for its size -/

/-- A number written in decimal. -/
def Spec.number (digits : List Byte) : Nat := digits.foldl (fun n b => 10 * n + (b.toNat - 48)) 0

theorem decimal_digits (n : Nat) : ∀ b ∈ decimal n, 48 ≤ b.toNat ∧ b.toNat ≤ 57 := by
  intro b hb
  obtain ⟨c, hc, rfl⟩ := List.mem_map.1 hb
  have hd := Nat.isDigit_of_mem_toDigits (by decide) (by decide) hc
  have : 48 ≤ c.toNat ∧ c.toNat ≤ 57 := by
    unfold Char.isDigit at hd
    simp only [Bool.and_eq_true, decide_eq_true_eq] at hd
    exact ⟨hd.1, hd.2⟩
  rw [BitVec.toNat_ofNat]
  omega

theorem decimal_number (n : Nat) : Spec.number (decimal n) = n := by
  have key : ∀ (l : List Char) (k : Nat), (∀ c ∈ l, c.isDigit = true) →
      (l.map fun c => BitVec.ofNat 8 c.toNat).foldl (fun n (b : Byte) => 10 * n + (b.toNat - 48)) k = Nat.ofDigitChars 10 l k := by
    intro l
    induction l with
    | nil => intro k _; simp
    | cons c l ih =>
      intro k h
      have hd := h c List.mem_cons_self
      have : 48 ≤ c.toNat ∧ c.toNat ≤ 57 := by
        unfold Char.isDigit at hd
        simp only [Bool.and_eq_true, decide_eq_true_eq] at hd
        exact ⟨hd.1, hd.2⟩
      rw [List.map_cons, List.foldl_cons, ih _ fun x hx => h x (List.mem_cons_of_mem _ hx), Nat.ofDigitChars_cons,
        BitVec.toNat_ofNat, Nat.mod_eq_of_lt (by omega)]
      rfl
  unfold Spec.number decimal
  rw [key _ _ fun c hc => Nat.isDigit_of_mem_toDigits (by decide) (by decide) hc]
  exact Nat.ofDigitChars_toDigits (by decide) (by decide)

/-- C67: asking for information about a file works exactly if the file can be read, and the size shown is the number of
bytes that extracting it would write. As text, the third line shows the name and the fourth the size. -/
theorem C67_info_size (e : Env) (a : Archive) (name : List Byte) (hname : 0x0A#8 ∉ name) :
    (∀ data, a.readFile e name = .ok data → ∃ text digits, fileInfo e a false name = .ok text ∧
      Spec.lines text = [ascii "File Information", List.replicate 50 0x3D#8, ascii "Filename: " ++ name,
        ascii "Size:     " ++ digits ++ ascii " bytes", []] ∧
      Spec.number digits = data.length) ∧
    ∀ err, a.readFile e name = .error err → ∀ csv, fileInfo e a csv name = .error err := by
  refine ⟨fun data h => ?_, fun err h csv => ?_⟩
  · refine ⟨fileInfoText name data.length, decimal data.length, ?_, ?_, decimal_number _⟩
    · unfold fileInfo fileInfoSize
      rw [h]
      rfl
    · have := lines_flatMap [ascii "File Information", List.replicate 50 0x3D#8, ascii "Filename: " ++ name,
        ascii "Size:     " ++ decimal data.length ++ ascii " bytes"] (by
          intro l hl
          simp only [List.mem_cons, List.not_mem_nil, or_false] at hl
          rcases hl with rfl | rfl | rfl | rfl
          · decide
          · decide
          · rw [List.mem_append]
            exact fun h => h.elim (fun h => absurd h (by decide)) hname
          · rw [List.mem_append, List.mem_append]
            rintro ((h | h) | h)
            · exact absurd h (by decide)
            · exact decimal_noLf _ h
            · exact absurd h (by decide)) []
      simp only [List.flatMap_cons, List.flatMap_nil, List.append_nil] at this
      refine Eq.trans ?_ this
      unfold fileInfoText
      simp only [List.append_assoc]
      rfl
  · unfold fileInfo fileInfoSize
    rw [h]
    rfl

/-- C67: in CSV the second line holds the fields of the name and then the size; it has the two columns of the heading if and
only if the name contains no comma, since names are not quoted. -/
theorem C67_info_csv_partial (e : Env) (a : Archive) (name data : List Byte) (hname : 0x0A#8 ∉ name)
    (h : a.readFile e name = .ok data) :
    ∃ text row digits, fileInfo e a true name = .ok text ∧ Spec.lines text = [ascii "filename,size", row, []] ∧
      Spec.fields row = Spec.fields name ++ [digits] ∧ Spec.number digits = data.length ∧
      ((Spec.fields row).length = 2 ↔ 0x2C#8 ∉ name) := by
  have hcomma : 0x2C#8 ∉ decimal data.length := by
    intro hm
    have := (decimal_digits _ _ hm).1
    exact absurd this (by decide)
  have hf : Spec.fields (name ++ [0x2C#8] ++ decimal data.length) = Spec.fields name ++ [decimal data.length] := by
    unfold Spec.fields
    rw [List.append_assoc, List.singleton_append, List.splitOn_append_cons_self, List.splitOn_eq_singleton hcomma]
  refine ⟨fileInfoCsv name data.length, name ++ [0x2C#8] ++ decimal data.length, decimal data.length, ?_, ?_, hf,
    decimal_number _, ?_⟩
  · unfold fileInfo fileInfoSize
    rw [h]
    rfl
  · have := lines_flatMap [ascii "filename,size", name ++ [0x2C#8] ++ decimal data.length] (by
      intro l hl
      simp only [List.mem_cons, List.not_mem_nil, or_false] at hl
      rcases hl with rfl | rfl
      · decide
      · rw [List.mem_append, List.mem_append]
        rintro ((h | h) | h)
        · exact hname h
        · exact absurd h (by decide)
        · exact decimal_noLf _ h) []
    simp only [List.flatMap_cons, List.flatMap_nil, List.append_nil] at this
    exact this
  · rw [hf, List.length_append]
    unfold Spec.fields
    rw [splitOn_length, List.length_singleton, ← List.count_eq_zero]
    omega

/-! ## A sample -/

/-- `a/f` of the sample goes to `f`, `a\f` to `a\f`; `../x` goes to `x`. -/
example : ∃ f a, buildBytes toyEnv zeroMd5 trickyBuilder = .ok f ∧ openArchive toyEnv f = .ok a ∧
    extractOne toyEnv a none false (ascii "a/f") = ([(ascii "f", [5])], .ok ()) ∧
    extractOne toyEnv a none false (ascii "a\\f") = ([(ascii "a\\f", [5])], .ok ()) ∧
    extractOne toyEnv a none false (ascii "../x") = ([(ascii "x", [1, 2, 3])], .ok ()) ∧
    fileInfo toyEnv a true (ascii "b/f") = .ok (ascii "filename,size\nb/f,2\n") := by
  obtain ⟨f, a, entries, hf, ho, hl, hn, r0, r1, r2, r3, r4⟩ := tricky_archive
  have hb := C67_backslash_kept toyEnv a (ascii "a") (ascii "f") [5] (by decide) (by decide) (by decide) (by decide)
    (by decide) r2
  refine ⟨f, a, hf, ho, hb.1, hb.2.1,
    C67_plain_last_part_partial toyEnv a (ascii "../") (ascii "x") _ (.inr rfl) (by decide) (by decide) (by decide)
      (by decide) r0, ?_⟩
  unfold fileInfo fileInfoSize
  rw [r3]
  decide

/-- An archive of one file called `a/..`. -/
def parentBuilder : Builder := { trickyBuilder with pending := [plainFile (ascii "a/..") [9]], listfile := .none }

theorem parent_buildable : Buildable toyEnv parentBuilder [plainFile (ascii "a/..") [9]] where
  shift := by show (3#16).toNat < 55; decide
  prepared := rfl
  count := by decide
  readable := by
    intro p hp
    rw [List.mem_singleton] at hp
    subst hp
    exact ⟨_, rfl, by decide +kernel, by
      unfold Compressible; rw [show parentBuilder.blockSize = 3#16 from rfl, if_pos (by decide +kernel)]; exact ⟨_, by rfl⟩⟩
  names := noCollision_lit (by decide +kernel)
  distinct := by unfold DistinctFiles; decide +kernel

/-- Extracting its file panics, while asking for its size works. -/
example : ∃ f a, buildBytes toyEnv zeroMd5 parentBuilder = .ok f ∧ openArchive toyEnv f = .ok a ∧
    extractOne toyEnv a none false (ascii "a/..") = ([], .error .panic) ∧
    fileInfo toyEnv a true (ascii "a/..") = .ok (ascii "filename,size\na/..,1\n") := by
  have h47 : (2 : Nat) ^ 47 = 140737488355328 := rfl
  have e48 : (2 : Nat) ^ 48 = 281474976710656 := rfl
  have e64 : (2 : Nat) ^ 64 = 18446744073709551616 := rfl
  have hsum : ([plainFile (ascii "a/..") [9]].map storedBound).sum < 1000 := by decide +kernel
  obtain ⟨f, hf⟩ := C50_classic_build_succeeds toyEnv zeroMd5 parentBuilder _ parent_buildable (Or.inr rfl)
  obtain ⟨L⟩ := layout_of_build (fun _ => List.length_replicate) hf
  have hpe : L.pending = [plainFile (ascii "a/..") [9]] := Except.ok.inj (L.prepared.symm.trans parent_buildable.prepared)
  have hsb : ∀ p ∈ [plainFile (ascii "a/..") [9]], storedBound p + (p.source.getD []).length < 1000 := by decide +kernel
  have hlt : f.length < 2 ^ 48 := L.length_lt (fun _ => List.length_replicate) (by rw [hpe]; decide)
    (by rw [hpe]; intro p hp; have := hsb p hp; omega) (by rw [hpe]; omega)
  obtain ⟨a, ss, ho, hss, hr, _⟩ := C26_read_back_partial toyEnv toyCodecs_lawful zeroMd5 (fun _ => List.length_replicate)
    parentBuilder f hf _ parent_buildable.prepared (fun h => absurd h (by decide)) [] [] rfl
    (by intro o ho; cases ho) hlt
    (by simp only [List.length_nil]; omega)
    (by decide) (by
      intro p hp data hd
      have := hsb p hp
      rw [hd] at this
      have : storedBound p + data.length < 1000 := this
      omega) (by decide +kernel)
    (noCollision_lit (by decide +kernel))
  have h4096 : ss = 4096 := (Except.ok.inj (hss.symm.trans (show sectorSizeOf 3#16 = .ok 4096 by decide)))
  obtain ⟨data, hd, _, hok⟩ := hr 0 _ (ascii "a/..") rfl (sameName_refl _) (by intro j hj; omega)
  cases hd
  have hread := hok (by rw [h4096]; decide)
    ⟨by decide, by decide, by decide, fun h => by rcases h with h | h <;> exact absurd h (by decide), by decide +kernel⟩
  rw [List.nil_append, List.append_nil] at ho
  refine ⟨f, a, hf, ho, C67_parent_panics toyEnv a (ascii "a/") [9] (.inr rfl) hread, ?_⟩
  unfold fileInfo fileInfoSize
  rw [hread]
  decide

end Mopaq
