import Verif.Model.VerboseVerify
import Verif.Props.TextVerify

/-!
# C95: verification of an archive, file by file
-/

namespace Mopaq

/-- The line about a file: found and read, with the number of its bytes; found and not to be read; found, if contents are not looked
at; or not found. -/
inductive Spec.FileLine (e : Env) (a : Archive) (message : List Byte → List Byte) (contents : Bool) (name : List Byte) :
    List Byte → Prop
  | read {info : FileInfo} {data number : List Byte} : a.findFile name = .ok (some info) → contents = true →
      a.readFile e name = .ok data → Spec.IsNumber data.length number →
      Spec.FileLine e a message contents name ([0xE2, 0x9C, 0x93] ++ ascii " " ++ name ++ ascii " (" ++ number ++ ascii " bytes)")
  | unreadable {info : FileInfo} {err : Err} : a.findFile name = .ok (some info) → contents = true → a.readFile e name = .error err →
      Spec.FileLine e a message contents name ([0xE2, 0x9C, 0x97] ++ ascii " " ++ name ++ ascii " - " ++ message name)
  | found {info : FileInfo} : a.findFile name = .ok (some info) → contents = false →
      Spec.FileLine e a message contents name ([0xE2, 0x9C, 0x93] ++ ascii " " ++ name)
  | missing : a.findFile name = .ok none →
      Spec.FileLine e a message contents name ([0xE2, 0x9C, 0x97] ++ ascii " " ++ name ++ ascii " - File not found")

/-- A line that begins with ✗. -/
def Spec.saysFailed (line : List Byte) : Bool := List.isPrefixOf [0xE2, 0x9C, 0x97] line

/-- One line for every name, in the order of the names. -/
def Spec.FileLines (e : Env) (a : Archive) (message : List Byte → List Byte) (contents : Bool) (rows : List (List Byte × List Byte))
    (names lines : List (List Byte)) : Prop :=
  rows.map (·.1) = names ∧ rows.map (·.2) = lines ∧ ∀ x ∈ rows, Spec.FileLine e a message contents x.1 x.2

theorem passed_line (l : List Byte) : Spec.saysFailed ([0xE2, 0x9C, 0x93] ++ l) = false := rfl

theorem failed_line (l : List Byte) : Spec.saysFailed ([0xE2, 0x9C, 0x97] ++ l) = true := rfl

/-- One file: the line and the report go together. -/
theorem verifyName_line (e : Env) (a : Archive) (message : List Byte → List Byte) (crc contents : Bool) (name : List Byte)
    (r r' : VerifyReport) (h : verifyName e a crc contents name r = .ok r') : ∃ line, fileLine e a message contents name = .ok line ∧
      Spec.FileLine e a message contents name line ∧ r'.errors = r.errors ++ if Spec.saysFailed line then [name] else [] := by
  unfold verifyName at h
  obtain ⟨o, ho, h⟩ := bind_eq_ok.1 h
  unfold fileLine
  rw [ho]
  simp only [bind, Except.bind]
  cases o with
  | none =>
    cases h
    refine ⟨_, rfl, .missing ho, ?_⟩
    rw [show failMark ++ word " " ++ name ++ word " - File not found" =
      [0xE2, 0x9C, 0x97] ++ (word " " ++ name ++ word " - File not found") by simp [failMark], failed_line]
    rfl
  | some info =>
    dsimp only at h
    unfold verifyFound at h
    cases contents with
    | false =>
      cases h
      refine ⟨_, rfl, .found ho rfl, ?_⟩
      rw [show passMark ++ word " " ++ name = [0xE2, 0x9C, 0x93] ++ (word " " ++ name) by simp [passMark], passed_line]
      exact (List.append_nil _).symm
    | true =>
      simp only [if_true] at h ⊢
      cases hc : caught (a.readFile e name) with
      | error err => rw [hc] at h; cases h
      | ok o =>
        rw [hc] at h
        cases o with
        | ok data =>
          cases h
          refine ⟨_, rfl, .read ho rfl (caught_ok hc) (isNumber_decimal _), ?_⟩
          rw [show passMark ++ word " " ++ name ++ word " (" ++ decimal data.length ++ word " bytes)" =
            [0xE2, 0x9C, 0x93] ++ (word " " ++ name ++ word " (" ++ decimal data.length ++ word " bytes)") by simp [passMark], passed_line]
          exact (List.append_nil _).symm
        | error err =>
          cases h
          refine ⟨_, rfl, .unreadable ho rfl (caught_error hc), ?_⟩
          rw [show failMark ++ word " " ++ name ++ word " - " ++ message name =
            [0xE2, 0x9C, 0x97] ++ (word " " ++ name ++ word " - " ++ message name) by simp [failMark], failed_line]
          rfl

theorem verifyName_stops (e : Env) (a : Archive) (message : List Byte → List Byte) (crc contents : Bool) (name : List Byte)
    (r : VerifyReport) (err : Err) (h : verifyName e a crc contents name r = .error err) :
    fileLine e a message contents name = .error err := by
  unfold verifyName at h
  unfold fileLine
  cases ho : a.findFile name with
  | error err' =>
    rw [ho] at h
    cases h
    rfl
  | ok o =>
    rw [ho] at h
    simp only [bind, Except.bind] at h ⊢
    cases o with
    | none => cases h
    | some info =>
      dsimp only at h
      unfold verifyFound at h
      cases contents with
      | false => cases h
      | true =>
        simp only [if_true] at h ⊢
        cases hc : caught (a.readFile e name) with
        | error err' => rw [hc] at h; cases h; rfl
        | ok o =>
          rw [hc] at h
          cases o <;> cases h

theorem verifyNames_lines (e : Env) (a : Archive) (message : List Byte → List Byte) (crc contents : Bool) :
    ∀ (names : List (List Byte)) (r r' : VerifyReport), verifyNames e a crc contents names r = .ok r' →
      ∃ rows, Spec.FileLines e a message contents rows names (fileLines e a message contents names).1 ∧
        r'.errors = r.errors ++ (rows.filter fun x => Spec.saysFailed x.2).map (·.1) := by
  intro names
  induction names with
  | nil =>
    intro r r' h
    cases h
    exact ⟨[], ⟨rfl, rfl, by simp⟩, by simp⟩
  | cons name names ih =>
    intro r r' h
    unfold verifyNames at h
    obtain ⟨r1, h1, h⟩ := bind_eq_ok.1 h
    obtain ⟨line, hl, hs, he⟩ := verifyName_line e a message crc contents name r r1 h1
    obtain ⟨rows, ⟨h2, h3, h4⟩, h5⟩ := ih r1 r' h
    refine ⟨(name, line) :: rows, ⟨by rw [List.map_cons, h2], ?_, ?_⟩, ?_⟩
    · unfold fileLines
      rw [hl, List.map_cons, h3]
    · intro x hx
      rcases List.mem_cons.1 hx with rfl | hx
      · exact hs
      · exact h4 x hx
    · rw [h5, he, List.filter_cons, List.append_assoc]
      cases Spec.saysFailed line <;> rfl

theorem verifyNames_stopped (e : Env) (a : Archive) (message : List Byte → List Byte) (crc contents : Bool) (err : Err) :
    ∀ (names : List (List Byte)) (r : VerifyReport), verifyNames e a crc contents names r = .error err →
      ∃ rows done name rest, names = done ++ name :: rest ∧
        Spec.FileLines e a message contents rows done (fileLines e a message contents names).1 ∧
        fileLine e a message contents name = .error err := by
  intro names
  induction names with
  | nil => intro r h; cases h
  | cons name names ih =>
    intro r h
    unfold verifyNames at h
    cases h1 : verifyName e a crc contents name r with
    | error err' =>
      rw [h1] at h
      cases h
      have := verifyName_stops e a message crc contents name r err h1
      refine ⟨[], [], name, names, rfl, ⟨rfl, ?_, by simp⟩, this⟩
      unfold fileLines
      rw [this]
      rfl
    | ok r1 =>
      rw [h1] at h
      obtain ⟨line, hl, hs, _⟩ := verifyName_line e a message crc contents name r r1 h1
      obtain ⟨rows, done, n, rest, rfl, ⟨h2, h3, h4⟩, h5⟩ := ih r1 h
      refine ⟨(name, line) :: rows, name :: done, n, rest, rfl, ⟨by rw [List.map_cons, h2], ?_, ?_⟩, h5⟩
      · unfold fileLines
        rw [hl, List.map_cons, h3]
      · intro x hx
        rcases List.mem_cons.1 hx with rfl | hx
        · exact hs
        · exact h4 x hx

theorem number_noLf {n : Nat} {field : List Byte} (h : Spec.IsNumber n field) : 0x0A#8 ∉ field := fun hm => by
  have := h.1.2 _ hm
  revert this
  decide

theorem fileLine_noLf {e : Env} {a : Archive} {message : List Byte → List Byte} {contents : Bool} {name line : List Byte}
    (h : Spec.FileLine e a message contents name line) (hn : 0x0A#8 ∉ name) (hm : ∀ n, 0x0A#8 ∉ message n) : 0x0A#8 ∉ line := by
  cases h with
  | read _ _ _ hd =>
    refine noLf_append (noLf_append (noLf_append (noLf_append (by decide) hn) (by decide)) ?_) (by decide)
    exact number_noLf hd
  | unreadable _ _ _ => exact noLf_append (noLf_append (noLf_append (by decide) hn) (by decide)) (hm _)
  | found _ _ => exact noLf_append (by decide) hn
  | missing _ => exact noLf_append (noLf_append (by decide) hn) (by decide)

theorem rows_noLf {e : Env} {a : Archive} {message : List Byte → List Byte} {contents : Bool} {rows : List (List Byte × List Byte)}
    {names lines : List (List Byte)} (h : Spec.FileLines e a message contents rows names lines) (hn : ∀ n ∈ names, 0x0A#8 ∉ n)
    (hm : ∀ n, 0x0A#8 ∉ message n) : ∀ l ∈ lines, 0x0A#8 ∉ l := by
  obtain ⟨h1, h2, h3⟩ := h
  intro l hl
  rw [← h2] at hl
  obtain ⟨x, hx, rfl⟩ := List.mem_map.1 hl
  exact fileLine_noLf (h3 x hx) (hn _ (h1 ▸ List.mem_map.2 ⟨x, hx, rfl⟩)) hm

theorem blockLines_first (l : TextLine) (lines : List (List Byte)) (bs : List (List TextLine)) :
    blockLines ((l :: lines.map fun l => (l, [])) :: bs) =
      [l.1 ++ l.2] ++ lines ++ bs.flatMap fun b => [] :: b.map fun l => l.1 ++ l.2 := by
  show (l :: lines.map fun l => ((l, []) : TextLine)).map (fun l => l.1 ++ l.2) ++ _ = _
  rw [List.map_cons, List.map_map, show ((fun l : TextLine => l.1 ++ l.2) ∘ fun l : List Byte => ((l, []) : TextLine)) = id from
    funext fun l => List.append_nil l, List.map_id]
  rfl

theorem blockLines_one (l : TextLine) (bs : List (List TextLine)) :
    blockLines ([l] :: bs) = [l.1 ++ l.2] ++ bs.flatMap fun b => [] :: b.map fun l => l.1 ++ l.2 := rfl

/-- C95: for a path and messages without line feeds, `--verbose` adds to the text of `archive verify` (C91) one line for every file
listed, in the order of the list, after the first line, and changes nothing else. The line says whether the file is found and, if
contents are checked, how many bytes it has or why it cannot be read. The files of the lines with ✗ are those the report has errors
about, so the command succeeds exactly if there is no such line. -/
theorem C95_verbose_lines (e : Env) (s : SigEnv) (message : List Byte → List Byte) (path f : List Byte) (crc contents : Bool)
    (r : VerifyReport) (h : cliVerifyReport e s f crc contents = .ok r) (hp : 0x0A#8 ∉ path) (hm : ∀ n, 0x0A#8 ∉ message n) :
    ∃ a entries rows lines rest, openArchive e f = .ok a ∧ a.list e = .ok entries ∧
      Spec.FileLines e a message contents rows (entries.map (·.name)) lines ∧
      Spec.lines (cliVerifyText e s message false path f crc contents).1 = [ascii "Verifying archive: " ++ path] ++ rest ∧
      Spec.lines (cliVerifyVerbose e s message path f crc contents).1 = [ascii "Verifying archive: " ++ path] ++ lines ++ rest ∧
      r.errors = (rows.filter fun x => Spec.saysFailed x.2).map (·.1) ∧
      (cliVerifyVerbose e s message path f crc contents).2 = (cliVerifyText e s message false path f crc contents).2 ∧
      ((cliVerifyVerbose e s message path f crc contents).2 = .ok () ↔ ∀ l ∈ lines, Spec.saysFailed l = false) := by
  have h0 := h
  unfold cliVerifyReport at h
  obtain ⟨a, ha, h⟩ := bind_eq_ok.1 h
  obtain ⟨info, hi, h⟩ := bind_eq_ok.1 h
  obtain ⟨entries, he, h⟩ := bind_eq_ok.1 h
  obtain ⟨rows, hrows, herr⟩ := verifyNames_lines e a message crc contents _ _ _ h
  have hn : ∀ n ∈ entries.map (·.name), 0x0A#8 ∉ n := by
    intro n hn
    obtain ⟨x, hx, rfl⟩ := List.mem_map.1 hn
    exact listed_noLf he x hx
  have hclean := rows_noLf hrows hn hm
  have hv : verboseLines e s message f contents = (fileLines e a message contents (entries.map (·.name))).1 := by
    unfold verboseLines
    rw [ha]
    simp only [bind, Except.bind]
    rw [hi]
    simp only
    rw [he]
    rfl
  have hb := verify_clean hp (verifyReport_noLf h0).1 (verifyReport_noLf h0).2 (message := message) fun n _ => hm n
  obtain ⟨bs, hbs⟩ : ∃ bs, verifyBlocks message path r = [(word "Verifying archive: ", path)] :: bs := ⟨_, rfl⟩
  have hplain := blockLines_clean hb
  rw [hbs, blockLines_one] at hplain
  refine ⟨a, entries, rows, _, bs.flatMap (fun b => [] :: b.map fun l => l.1 ++ l.2) ++ [[]], ha, he, hrows, ?_, ?_, ?_, ?_, ?_⟩
  · unfold cliVerifyText
    rw [h0]
    show Spec.lines (printLines (blockLines (verifyBlocks message path r))) = _
    rw [lines_blocks hb, hbs, blockLines_one, List.append_assoc]
    rfl
  · unfold cliVerifyVerbose
    rw [h0, hv]
    dsimp only
    rw [hbs]
    show Spec.lines (printLines _) = _
    have := lines_flatMap (blockLines (((word "Verifying archive: ", path) ::
      ((fileLines e a message contents (entries.map (·.name))).1).map fun l => (l, [])) :: bs)) (by
        rw [blockLines_first]
        intro l hl
        simp only [List.mem_append] at hl hplain
        rcases hl with (hl | hl) | hl
        · exact hplain l (.inl hl)
        · exact hclean l hl
        · exact hplain l (.inr hl)) []
    rw [List.append_nil] at this
    refine this.trans ?_
    rw [blockLines_first]
    simp only [List.append_assoc]
    rfl
  · rw [herr]
    rfl
  · unfold cliVerifyVerbose cliVerifyText
    rw [h0]
  · unfold cliVerifyVerbose
    rw [h0]
    dsimp only
    have herr : r.errors = (rows.filter fun x => Spec.saysFailed x.2).map (·.1) := herr
    have key : r.errors = [] ↔ ∀ l ∈ (fileLines e a message contents (entries.map (·.name))).1, Spec.saysFailed l = false := by
      rw [herr, List.map_eq_nil_iff, List.filter_eq_nil_iff, ← hrows.2.1]
      constructor
      · intro h l hl
        obtain ⟨x, hx, rfl⟩ := List.mem_map.1 hl
        simpa using h x hx
      · intro h x hx
        simpa using h x.2 (List.mem_map.2 ⟨x, hx, rfl⟩)
    rw [← key]
    by_cases he : r.errors = []
    · simp [he]
    · simp [he]

/-- C95: if the command stops at a file, the lines about the files before it have been printed, and nothing else but the path. -/
theorem C95_stopped (e : Env) (s : SigEnv) (message : List Byte → List Byte) (path f : List Byte) (crc contents : Bool) (err : Err)
    (h : cliVerifyReport e s f crc contents = .error err) (hp : 0x0A#8 ∉ path) (hm : ∀ n, 0x0A#8 ∉ message n) (a : Archive)
    (ha : openArchive e f = .ok a) (info : ArchiveInfo) (hi : a.getInfo e s = .ok info) (entries : List FileEntry)
    (he : a.list e = .ok entries) :
    ∃ rows done name rest lines, entries.map (·.name) = done ++ name :: rest ∧
      Spec.FileLines e a message contents rows done lines ∧
      (a.findFile name = .error err ∨ contents = true ∧ a.readFile e name = .error err) ∧
      Spec.lines (cliVerifyVerbose e s message path f crc contents).1 = [ascii "Verifying archive: " ++ path] ++ lines ++ [[]] ∧
      (cliVerifyVerbose e s message path f crc contents).2 = .error err := by
  have h0 := h
  unfold cliVerifyReport at h
  rw [ha] at h
  simp only [bind, Except.bind] at h
  rw [hi] at h
  simp only at h
  rw [he] at h
  simp only at h
  obtain ⟨rows, done, name, rest, hnames, hrows, hstop⟩ := verifyNames_stopped e a message crc contents err _ _ h
  have hn : ∀ n ∈ entries.map (·.name), 0x0A#8 ∉ n := by
    intro n hn
    obtain ⟨x, hx, rfl⟩ := List.mem_map.1 hn
    exact listed_noLf he x hx
  have hclean := rows_noLf hrows (fun n hd => hn n (hnames ▸ List.mem_append_left _ hd)) hm
  have hv : verboseLines e s message f contents = (fileLines e a message contents (entries.map (·.name))).1 := by
    unfold verboseLines
    rw [ha]
    simp only [bind, Except.bind]
    rw [hi]
    simp only
    rw [he]
    rfl
  refine ⟨rows, done, name, rest, _, hnames, hrows, ?_, ?_, ?_⟩
  · unfold fileLine at hstop
    cases ho : a.findFile name with
    | error err' =>
      rw [ho] at hstop
      cases hstop
      exact .inl rfl
    | ok o =>
      rw [ho] at hstop
      simp only [bind, Except.bind] at hstop
      cases o with
      | none => cases hstop
      | some i =>
        cases contents with
        | false => cases hstop
        | true =>
          simp only [if_true] at hstop
          refine .inr ⟨rfl, ?_⟩
          cases hr : a.readFile e name with
          | ok d => rw [hr] at hstop; cases hstop
          | error err' =>
            rw [hr] at hstop
            unfold caught at hstop
            cases err' <;> cases hstop <;> rfl
  · unfold cliVerifyVerbose
    rw [h0, hv]
    show Spec.lines (printLines _) = _
    have := lines_flatMap (blockLines [((word "Verifying archive: ", path) ::
      ((fileLines e a message contents (entries.map (·.name))).1).map fun l => (l, []))]) (by
        rw [blockLines_first]
        intro l hl
        simp only [List.mem_append, List.flatMap_nil, List.not_mem_nil, or_false, List.mem_singleton] at hl
        rcases hl with rfl | hl
        · exact noLf_append (by decide) hp
        · exact hclean l hl) []
    rw [List.append_nil] at this
    refine this.trans ?_
    rw [blockLines_first, List.flatMap_nil, List.append_nil]
    rfl
  · unfold cliVerifyVerbose
    rw [h0]

/-- A built archive: no line says that a file failed. -/
example : ∃ f r, cliVerifyReport toyEnv toySigEnv f true true = .ok r ∧
    (cliVerifyVerbose toyEnv toySigEnv (fun _ => ascii "bad") (ascii "a.mpq") f true true).2 = .ok () := by
  obtain ⟨f, _, _, _, _, _, hok⟩ := sample_verifies .v2 (by decide) true true
  rw [List.nil_append, List.append_nil] at hok
  cases hr : cliVerifyReport toyEnv toySigEnv f true true with
  | error err =>
    unfold cliVerify at hok
    rw [hr] at hok
    cases hok
  | ok r =>
    obtain ⟨_, _, _, _, _, _, _, _, _, _, _, he, _⟩ := C95_verbose_lines toyEnv toySigEnv (fun _ => ascii "bad") (ascii "a.mpq") f true true
      r hr (by decide) (fun _ => by decide)
    refine ⟨f, r, hr, he.trans ?_⟩
    rw [(C91_verify_text_quiet toyEnv toySigEnv (fun _ => ascii "bad") false (ascii "a.mpq") f true true).1]
    exact hok

/-- Lines about a file that can be read and one that is not found. -/
example (a : Archive) (info : FileInfo) (h : a.findFile (ascii "a.txt") = .ok (some info))
    (hr : a.readFile toyEnv (ascii "a.txt") = .ok [1, 2, 3]) (hn : a.findFile (ascii "b") = .ok none) :
    fileLine toyEnv a (fun _ => []) true (ascii "a.txt") = .ok ([0xE2, 0x9C, 0x93] ++ ascii " a.txt (3 bytes)") ∧
    fileLine toyEnv a (fun _ => []) true (ascii "b") = .ok ([0xE2, 0x9C, 0x97] ++ ascii " b - File not found") := by
  unfold fileLine
  rw [h, hn]
  simp only [bind, Except.bind]
  rw [hr]
  exact ⟨by simp only [caught, if_true]; decide +kernel, by decide +kernel⟩

end Mopaq
