import Verif.Props.TextReport
import Verif.Props.Listfile
import Verif.Props.Repack

/-! # C91: the verification report for people -/

namespace Mopaq

/-! ## What the report says -/

/-- Exactly one line of the text begins with the label, and it goes on with the value. -/
def Spec.LineSays (out label value : List Byte) : Prop := (Spec.lines out).filter label.isPrefixOf = [label ++ value]

/-- Whether a table was loaded; nothing is said about a table that is not there. -/
def Spec.SaysLoaded (out label : List Byte) : Option TableInfo → Prop
  | none => Spec.TextSilent out (ascii "Table Verification") label
  | some t => Spec.TextSays out (ascii "Table Verification") label (Spec.choice t.failedToLoad "Failed to load" "Loaded successfully")

/-- The last line: a check mark or a cross (in UTF-8), and the result. -/
def Spec.verdict (passed : Bool) : List Byte :=
  if passed then [0xE2, 0x9C, 0x93] ++ ascii " Archive verification PASSED" else [0xE2, 0x9C, 0x97] ++ ascii " Archive verification FAILED"

/-- A text tells everything a verification found out. -/
structure Spec.VerifyTextSays (out path : List Byte) (message : List Byte → List Byte) (r : VerifyReport) : Prop where
  archive : Spec.TextSays out (ascii "Archive Verification Report") (ascii "Archive: ") path
  version : ∃ t, Spec.IsNumber (Spec.versionOf r.info.formatVersion) t ∧
    Spec.TextSays out (ascii "Archive Verification Report") (ascii "Format: ") (ascii "MPQ v" ++ t)
  signature : Spec.TextSays out (ascii "Header Verification") (ascii "Digital Signature:  ") (Spec.signatureText r.info.signatureStatus)
  hash : Spec.SaysLoaded out (ascii "Hash Table:         ") (some r.info.hashTableInfo)
  block : Spec.SaysLoaded out (ascii "Block Table:        ") (some r.info.blockTableInfo)
  het : Spec.SaysLoaded out (ascii "HET Table:          ") r.info.hetTableInfo
  bet : Spec.SaysLoaded out (ascii "BET Table:          ") r.info.betTableInfo
  md5 : match r.info.md5Status with
    | none => Spec.section out (ascii "MD5 Checksum Verification (v4)") = []
    | some m => ∀ l b, (l, b) ∈ [("Header MD5:         ", m.headerValid), ("Hash Table MD5:     ", m.hashTableValid),
        ("Block Table MD5:    ", m.blockTableValid), ("Hi-Block Table MD5: ", m.hiBlockTableValid),
        ("HET Table MD5:      ", m.hetTableValid), ("BET Table MD5:      ", m.betTableValid)] →
        Spec.TextSays out (ascii "MD5 Checksum Verification (v4)") (ascii l) (Spec.choice b "Valid" "Invalid")
  total : Spec.TextNumber out (ascii "File Verification Summary") (ascii "Total Files:        ") r.totalFiles []
  found : Spec.TextNumber out (ascii "File Verification Summary") (ascii "Files Found:        ") r.filesFound []
  readable : Spec.TextNumber out (ascii "File Verification Summary") (ascii "Files Readable:     ") r.filesReadable []
  missing : Spec.TextNumber out (ascii "File Verification Summary") (ascii "Files Missing:      ") r.filesMissing []
  corrupted : Spec.TextNumber out (ascii "File Verification Summary") (ascii "Files Corrupted:    ") r.filesCorrupted []
  verified : ∃ n k p percent, Spec.IsNumber r.verifiedFiles n ∧ Spec.IsNumber r.totalFiles k ∧ Spec.IsNumber percent p ∧
    Spec.LineSays out (ascii "Verified:           ") (n ++ ascii " / " ++ k ++ ascii " (" ++ p ++ ascii "%)") ∧
    (0 < r.totalFiles → percent * r.totalFiles ≤ 100 * r.verifiedFiles ∧ 100 * r.verifiedFiles < (percent + 1) * r.totalFiles)
  warnings : Spec.section out (ascii "Warnings:") = r.warnings.map fun n => ascii "  " ++ [0xE2, 0x9A, 0xA0] ++
    ascii " CRC verification requested but not yet implemented for file: " ++ n
  errors : Spec.section out (ascii "Errors:") = r.errors.map fun n => ascii "  " ++ [0xE2, 0x9C, 0x97] ++ ascii " " ++ n ++
    ascii " - " ++ message n
  verdict : Spec.section out (ascii "Overall Status") = [List.replicate 60 0x3D#8, Spec.verdict (r.errors = [])]

/-! ## Names in a listing -/

theorem digits_noLf : ∀ (fuel width n : Nat), 0x0A#8 ∉ digits fuel width n := by
  have hd : ∀ k, 0x0A#8 ≠ BitVec.ofNat 8 (48 + k % 10) := by
    intro k he
    have := congrArg BitVec.toNat he
    rw [BitVec.toNat_ofNat] at this
    have : 10 = (48 + k % 10) % 256 := this
    omega
  intro fuel
  induction fuel with
  | zero => intro w n; exact List.not_mem_nil
  | succ fuel ih =>
    intro w n
    unfold digits
    split
    · rename_i h
      have := hd n
      rw [Nat.mod_eq_of_lt h.1] at this
      simpa using this
    · exact noLf_append (ih _ _) (by simpa using hd n)

theorem anonymousName_noLf (i : Nat) : 0x0A#8 ∉ anonymousName i :=
  noLf_append (noLf_append (by decide) (digits_noLf _ _ _)) (by decide)

theorem lookupAll_noLf {a : Archive} : ∀ {names : List (List Byte)} {entries : List FileEntry}, a.lookupAll names = .ok entries →
    (∀ n ∈ names, 0x0A#8 ∉ n) → ∀ x ∈ entries, 0x0A#8 ∉ x.name := by
  intro names
  induction names with
  | nil => intro entries h _ x hx; cases h; cases hx
  | cons n names ih =>
    intro entries h hn x hx
    unfold Archive.lookupAll at h
    obtain ⟨info, _, h⟩ := bind_eq_ok.1 h
    obtain ⟨more, hm, h⟩ := bind_eq_ok.1 h
    have hrest := ih hm fun m hm => hn m (List.mem_cons_of_mem _ hm)
    cases info with
    | none => cases h; exact hrest x hx
    | some info =>
      cases h
      rcases List.mem_cons.1 hx with rfl | hx
      · exact hn n List.mem_cons_self
      · exact hrest x hx

theorem betEntries_noLf (bet : BetTable) : ∀ (n i : Nat) (entries : List FileEntry), betEntries bet i n = .ok entries →
    ∀ x ∈ entries, 0x0A#8 ∉ x.name := by
  intro n
  induction n with
  | zero => intro i entries h x hx; cases h; cases hx
  | succ n ih =>
    intro i entries h x hx
    unfold betEntries at h
    obtain ⟨info, _, h⟩ := bind_eq_ok.1 h
    obtain ⟨more, hm, h⟩ := bind_eq_ok.1 h
    cases info with
    | none => cases h; exact ih _ _ hm x hx
    | some info =>
      dsimp only at h
      split at h
      · cases h
        rcases List.mem_cons.1 hx with rfl | hx
        · exact anonymousName_noLf i
        · exact ih _ _ hm x hx
      · cases h; exact ih _ _ hm x hx

theorem slotEntries_noLf (blocks : List BlockEntry) : ∀ (h : HashTable) (i : Nat), ∀ x ∈ slotEntries blocks i h, 0x0A#8 ∉ x.name := by
  intro h
  induction h with
  | nil => intro i x hx; cases hx
  | cons entry rest ih =>
    intro i x hx
    unfold slotEntries at hx
    split at hx
    · rename_i y hy
      rcases List.mem_cons.1 hx with rfl | hx
      · split at hy
        · unfold blockEntryOf at hy
          split at hy
          · cases hy
          · split at hy
            · cases hy; exact anonymousName_noLf i
            · cases hy
        · cases hy
      · exact ih _ x hx
    · exact ih _ x hx

/-- No listed name has a line feed, whatever the archive. -/
theorem listed_noLf {e : Env} {a : Archive} {entries : List FileEntry} (h : a.list e = .ok entries) :
    ∀ x ∈ entries, 0x0A#8 ∉ x.name := by
  unfold Archive.list at h
  obtain ⟨o, _, h⟩ := bind_eq_ok.1 h
  cases o with
  | some i =>
    obtain ⟨data, _, h⟩ := bind_eq_ok.1 h
    exact lookupAll_noLf h fun n hn => (C28_parsed_names_are_clean data n hn).2.2.1
  | none =>
    obtain ⟨es, hes, h⟩ := bind_eq_ok.1 h
    split at h
    · cases h
      unfold Archive.betListing at hes
      split at hes
      · cases hes; intro x hx; cases hx
      · exact betEntries_noLf _ _ _ _ hes
    · split at h
      · cases h; exact slotEntries_noLf _ _ _
      · cases h

theorem verifyNames_sub (e : Env) (a : Archive) (crc contents : Bool) : ∀ (names : List (List Byte)) (r r' : VerifyReport),
    verifyNames e a crc contents names r = .ok r' →
    (∀ n ∈ r'.errors, n ∈ r.errors ∨ n ∈ names) ∧ ∀ n ∈ r'.warnings, n ∈ r.warnings ∨ n ∈ names := by
  intro names
  induction names with
  | nil => intro r r' h; cases h; exact ⟨fun n hn => .inl hn, fun n hn => .inl hn⟩
  | cons name names ih =>
    intro r r' h
    unfold verifyNames at h
    obtain ⟨r1, h1, h⟩ := bind_eq_ok.1 h
    have hs : (∀ n ∈ r1.errors, n ∈ r.errors ∨ n = name) ∧ ∀ n ∈ r1.warnings, n ∈ r.warnings ∨ n = name := by
      unfold verifyName at h1
      obtain ⟨o, _, h1⟩ := bind_eq_ok.1 h1
      cases o with
      | none =>
        cases h1
        exact ⟨fun n hn => (List.mem_append.1 hn).imp id List.mem_singleton.1, fun n hn => .inl hn⟩
      | some i =>
        dsimp only at h1
        unfold verifyFound at h1
        split at h1
        · split at h1
          · cases h1
          · cases h1
            refine ⟨fun n hn => .inl hn, fun n hn => ?_⟩
            dsimp only at hn
            split at hn
            · exact (List.mem_append.1 hn).imp id List.mem_singleton.1
            · exact .inl hn
          · cases h1
            exact ⟨fun n hn => (List.mem_append.1 hn).imp id List.mem_singleton.1, fun n hn => .inl hn⟩
        · cases h1
          exact ⟨fun n hn => .inl hn, fun n hn => .inl hn⟩
    obtain ⟨i1, i2⟩ := ih r1 r' h
    refine ⟨fun n hn => ?_, fun n hn => ?_⟩
    · rcases i1 n hn with hn | hn
      · exact (hs.1 n hn).imp id fun (h : n = name) => List.mem_cons.2 (.inl h)
      · exact .inr (List.mem_cons_of_mem _ hn)
    · rcases i2 n hn with hn | hn
      · exact (hs.2 n hn).imp id fun (h : n = name) => List.mem_cons.2 (.inl h)
      · exact .inr (List.mem_cons_of_mem _ hn)

theorem verifyReport_noLf {e : Env} {s : SigEnv} {f : List Byte} {crc contents : Bool} {r : VerifyReport}
    (h : cliVerifyReport e s f crc contents = .ok r) : (∀ n ∈ r.errors, 0x0A#8 ∉ n) ∧ ∀ n ∈ r.warnings, 0x0A#8 ∉ n := by
  unfold cliVerifyReport at h
  obtain ⟨a, _, h⟩ := bind_eq_ok.1 h
  obtain ⟨info, _, h⟩ := bind_eq_ok.1 h
  obtain ⟨entries, he, h⟩ := bind_eq_ok.1 h
  obtain ⟨h1, h2⟩ := verifyNames_sub e a crc contents _ _ _ h
  have hn : ∀ n ∈ entries.map (·.name), 0x0A#8 ∉ n := by
    intro n hn
    obtain ⟨x, hx, rfl⟩ := List.mem_map.1 hn
    exact listed_noLf he x hx
  refine ⟨fun n hm => ?_, fun n hm => ?_⟩
  · rcases h1 n hm with hm | hm
    · cases hm
    · exact hn n hm
  · rcases h2 n hm with hm | hm
    · cases hm
    · exact hn n hm

/-! ## The blocks -/

local macro "plain" : tactic => `(tactic| ((try dsimp only); decide))

local macro "labels" : tactic =>
  `(tactic| (simp only [List.map_cons, List.map_nil, doubleRule, singleRule, List.cons_append, List.nil_append, List.append_nil,
      Option.map_none, Option.map_some, Option.toList_none, Option.toList_some]; decide +kernel))

theorem loadedText_noLf (b : Bool) : 0x0A#8 ∉ loadedText b := by cases b <;> decide

theorem loadedText_eq (b : Bool) : loadedText b = Spec.choice b "Failed to load" "Loaded successfully" := by cases b <;> rfl

/-- What the names of tables are followed by, for lines made from an optional table. -/
def loadedLine (label : List Byte) (o : Option TableInfo) : List TextLine := (o.map fun t => (label, loadedText t.failedToLoad)).toList

theorem loadedLine_noLf {label : List Byte} (hl : 0x0A#8 ∉ label) (o : Option TableInfo) :
    ∀ l ∈ loadedLine label o, 0x0A#8 ∉ l.1 ∧ 0x0A#8 ∉ l.2 := by
  intro l h
  cases o with
  | none => cases h
  | some t => rw [List.mem_singleton.1 h]; exact ⟨hl, loadedText_noLf _⟩

/-- The first four blocks. -/
def verifyFirst (path : List Byte) (r : VerifyReport) : List (List TextLine) :=
  [[(word "Verifying archive: ", path)],
    heading (word "Archive Verification Report") doubleRule ++
      [(word "Archive: ", path), (word "Format: ", word "MPQ v" ++ decimal (versionNumber r.info.formatVersion))],
    heading (word "Header Verification") singleRule ++
      [(word "MPQ Signature:      ", word "Valid"),
        (word "Format Version:     ", word "Supported (v" ++ decimal (versionNumber r.info.formatVersion) ++ word ")"),
        (word "Digital Signature:  ", r.info.signatureStatus.text)],
    heading (word "Table Verification") singleRule ++
      [(word "Hash Table:         ", loadedText r.info.hashTableInfo.failedToLoad),
        (word "Block Table:        ", loadedText r.info.blockTableInfo.failedToLoad)] ++
      loadedLine (word "HET Table:          ") r.info.hetTableInfo ++ loadedLine (word "BET Table:          ") r.info.betTableInfo]

/-- The counts. -/
def summaryBlock (r : VerifyReport) : List TextLine :=
  heading (word "File Verification Summary") singleRule ++
      [(word "Total Files:        ", decimal r.totalFiles), (word "Files Found:        ", decimal r.filesFound),
        (word "Files Readable:     ", decimal r.filesReadable), (word "Files Missing:      ", decimal r.filesMissing),
        (word "Files Corrupted:    ", decimal r.filesCorrupted)]

/-- The line about files verified. -/
def verifiedLine (r : VerifyReport) : TextLine :=
  (word "Verified:           ", decimal r.verifiedFiles ++ word " / " ++ decimal r.totalFiles ++ word " (" ++
        decimal (r.verifiedFiles * 100 / max r.totalFiles 1) ++ word "%)")

/-- The last line. -/
def statusLine (r : VerifyReport) : TextLine :=
  if r.errors.isEmpty then (passMark, word " Archive verification PASSED") else (failMark, word " Archive verification FAILED")

theorem verify_split (message : List Byte → List Byte) (path : List Byte) (r : VerifyReport) : verifyBlocks message path r =
    verifyFirst path r ++ (r.info.md5Status.map md5CheckBlock).toList ++ [summaryBlock r, [verifiedLine r]] ++ warningBlock r.warnings ++
      errorBlock message r.errors ++ [heading (word "Overall Status") doubleRule ++ [statusLine r]] := rfl

theorem clean_append {a b : List (List TextLine)} (ha : CleanBlocks a) (hb : CleanBlocks b) : CleanBlocks (a ++ b) := by
  intro x hx
  rcases List.mem_append.1 hx with hx | hx
  · exact ha x hx
  · exact hb x hx

theorem verifyFirst_clean {path : List Byte} (hp : 0x0A#8 ∉ path) (r : VerifyReport) : CleanBlocks (verifyFirst path r) := by
  intro b hb l hl
  unfold verifyFirst at hb
  simp only [List.mem_cons, List.not_mem_nil, or_false] at hb
  rcases hb with rfl | rfl | rfl | rfl
  all_goals simp only [heading, List.mem_append, List.mem_cons, List.not_mem_nil, or_false] at hl
  · subst hl; exact ⟨by plain, hp⟩
  · rcases hl with (rfl | rfl) | rfl | rfl
    · exact ⟨by plain, by plain⟩
    · exact ⟨by plain, by plain⟩
    · exact ⟨by plain, hp⟩
    · exact ⟨by plain, noLf_append (by decide) (decimal_noLf _)⟩
  · rcases hl with (rfl | rfl) | rfl | rfl | rfl
    · exact ⟨by plain, by plain⟩
    · exact ⟨by plain, by plain⟩
    · exact ⟨by plain, by plain⟩
    · exact ⟨by plain, noLf_append (noLf_append (by decide) (decimal_noLf _)) (by decide)⟩
    · exact ⟨by plain, signatureText_noLf _⟩
  · rcases hl with (((rfl | rfl) | rfl | rfl) | hl) | hl
    · exact ⟨by plain, by plain⟩
    · exact ⟨by plain, by plain⟩
    · exact ⟨by plain, loadedText_noLf _⟩
    · exact ⟨by plain, loadedText_noLf _⟩
    · exact loadedLine_noLf (by decide) _ l hl
    · exact loadedLine_noLf (by decide) _ l hl

theorem md5Check_clean (o : Option Md5Status) : CleanBlocks (o.map md5CheckBlock).toList := by
  intro b hb l hl
  cases o with
  | none => cases hb
  | some m =>
    rw [List.mem_singleton.1 hb] at hl
    simp only [md5CheckBlock, heading, List.mem_append, List.mem_cons, List.not_mem_nil, or_false] at hl
    rcases hl with (rfl | rfl) | rfl | rfl | rfl | rfl | rfl | rfl
    · exact ⟨by plain, by plain⟩
    · exact ⟨by plain, by plain⟩
    all_goals exact ⟨by plain, validText_noLf _⟩

theorem summary_clean (r : VerifyReport) : CleanBlocks [summaryBlock r, [verifiedLine r]] := by
  intro b hb l hl
  simp only [List.mem_cons, List.not_mem_nil, or_false] at hb
  rcases hb with rfl | rfl
  · simp only [summaryBlock, heading, List.mem_append, List.mem_cons, List.not_mem_nil, or_false] at hl
    rcases hl with (rfl | rfl) | rfl | rfl | rfl | rfl | rfl
    · exact ⟨by plain, by plain⟩
    · exact ⟨by plain, by plain⟩
    all_goals exact ⟨by plain, decimal_noLf _⟩
  · rw [List.mem_singleton.1 hl]
    unfold verifiedLine
    exact ⟨by plain, noLf_append (noLf_append (noLf_append (noLf_append (noLf_append (decimal_noLf _) (by decide)) (decimal_noLf _))
      (by decide)) (decimal_noLf _)) (by decide)⟩

theorem warning_clean {ws : List (List Byte)} (h : ∀ n ∈ ws, 0x0A#8 ∉ n) : CleanBlocks (warningBlock ws) := by
  intro b hb l hl
  unfold warningBlock at hb
  split at hb
  · cases hb
  · rw [List.mem_singleton.1 hb] at hl
    rcases List.mem_cons.1 hl with rfl | hl
    · exact ⟨by plain, by plain⟩
    · obtain ⟨n, hn, rfl⟩ := List.mem_map.1 hl
      exact ⟨by plain, noLf_append (by decide) (h n hn)⟩

theorem error_clean {message : List Byte → List Byte} {es : List (List Byte)} (h : ∀ n ∈ es, 0x0A#8 ∉ n)
    (hm : ∀ n ∈ es, 0x0A#8 ∉ message n) : CleanBlocks (errorBlock message es) := by
  intro b hb l hl
  unfold errorBlock at hb
  split at hb
  · cases hb
  · rw [List.mem_singleton.1 hb] at hl
    rcases List.mem_cons.1 hl with rfl | hl
    · exact ⟨by plain, by plain⟩
    · obtain ⟨n, hn, rfl⟩ := List.mem_map.1 hl
      exact ⟨by plain, noLf_append (noLf_append (h n hn) (by decide)) (hm n hn)⟩

theorem status_clean (r : VerifyReport) : CleanBlocks [heading (word "Overall Status") doubleRule ++ [statusLine r]] := by
  intro b hb l hl
  rw [List.mem_singleton.1 hb] at hl
  simp only [heading, List.mem_append, List.mem_cons, List.not_mem_nil, or_false] at hl
  rcases hl with (rfl | rfl) | rfl
  · exact ⟨by plain, by plain⟩
  · exact ⟨by plain, by plain⟩
  · unfold statusLine
    split <;> exact ⟨by decide, by decide⟩

theorem verify_clean {message : List Byte → List Byte} {path : List Byte} {r : VerifyReport} (hp : 0x0A#8 ∉ path)
    (he : ∀ n ∈ r.errors, 0x0A#8 ∉ n) (hw : ∀ n ∈ r.warnings, 0x0A#8 ∉ n) (hm : ∀ n ∈ r.errors, 0x0A#8 ∉ message n) :
    CleanBlocks (verifyBlocks message path r) := by
  rw [verify_split]
  exact clean_append (clean_append (clean_append (clean_append (clean_append (verifyFirst_clean hp r) (md5Check_clean _))
    (summary_clean r)) (warning_clean hw)) (error_clean he hm)) (status_clean r)

/-! ## Labels -/

def vLabels3 : List (List Byte) :=
  [word "Verifying archive: ", word "Archive Verification Report", List.replicate 60 0x3D#8, word "Archive: ", word "Format: ",
    word "Header Verification", List.replicate 60 0x2D#8, word "MPQ Signature:      ", word "Format Version:     ",
    word "Digital Signature:  "]

def vLabels4 : List (List Byte) :=
  vLabels3 ++ [word "Table Verification", List.replicate 60 0x2D#8, word "Hash Table:         ", word "Block Table:        ",
    word "HET Table:          ", word "BET Table:          "]

def vMd5 : List (List Byte) :=
  [word "MD5 Checksum Verification (v4)", List.replicate 60 0x2D#8, word "Header MD5:         ", word "Hash Table MD5:     ",
    word "Block Table MD5:    ", word "Hi-Block Table MD5: ", word "HET Table MD5:      ", word "BET Table MD5:      "]

def vSummary : List (List Byte) :=
  [word "File Verification Summary", List.replicate 60 0x2D#8, word "Total Files:        ", word "Files Found:        ",
    word "Files Readable:     ", word "Files Missing:      ", word "Files Corrupted:    ", word "Verified:           "]

def vWarn : List (List Byte) := [word "Warnings:", word "  " ++ warnMark ++ word " "]
def vError : List (List Byte) := [word "Errors:", word "  " ++ failMark ++ word " "]
def vStatus : List (List Byte) := [word "Overall Status", List.replicate 60 0x3D#8, passMark, failMark]

theorem first_labels (path : List Byte) (r : VerifyReport) : ∀ l ∈ labelsOf (verifyFirst path r), l ∈ vLabels4 := by
  intro l hl
  unfold verifyFirst loadedLine at hl
  generalize r.info.hetTableInfo = o1 at hl
  generalize r.info.betTableInfo = o2 at hl
  have : ∀ k ∈ [4, 5, 6], ∀ l ∈ vLabels4.take (10 + k), l ∈ vLabels4 := by
    intro k _ l h
    exact List.mem_of_mem_take h
  cases o1 with
  | none =>
    cases o2 with
    | none => exact this 4 (by decide) l hl
    | some t =>
      have sub : ∀ l ∈ vLabels4.take 14 ++ [word "BET Table:          "], l ∈ vLabels4 := by decide +kernel
      exact sub l hl
  | some t =>
    cases o2 with
    | none => exact this 5 (by decide) l hl
    | some t' => exact this 6 (by decide) l hl

theorem md5Check_labels (o : Option Md5Status) : ∀ l ∈ labelsOf (o.map md5CheckBlock).toList, l ∈ vMd5 := by
  intro l hl
  cases o with
  | none => cases hl
  | some m => exact hl

theorem summary_labels (r : VerifyReport) : ∀ l ∈ labelsOf [summaryBlock r, [verifiedLine r]], l ∈ vSummary := fun _ hl => hl

theorem warning_labels (ws : List (List Byte)) : ∀ l ∈ labelsOf (warningBlock ws), l ∈ vWarn := by
  intro l hl
  unfold warningBlock at hl
  split at hl
  · cases hl
  · obtain ⟨b, hb, hl⟩ := List.mem_flatMap.1 hl
    rw [List.mem_singleton.1 hb] at hl
    rw [List.map_cons] at hl
    rcases List.mem_cons.1 hl with rfl | hl
    · exact List.mem_cons_self
    · obtain ⟨x, hx, rfl⟩ := List.mem_map.1 hl
      obtain ⟨n, _, rfl⟩ := List.mem_map.1 hx
      exact List.mem_cons_of_mem _ List.mem_cons_self

theorem error_labels (message : List Byte → List Byte) (es : List (List Byte)) : ∀ l ∈ labelsOf (errorBlock message es), l ∈ vError := by
  intro l hl
  unfold errorBlock at hl
  split at hl
  · cases hl
  · obtain ⟨b, hb, hl⟩ := List.mem_flatMap.1 hl
    rw [List.mem_singleton.1 hb] at hl
    rw [List.map_cons] at hl
    rcases List.mem_cons.1 hl with rfl | hl
    · exact List.mem_cons_self
    · obtain ⟨x, hx, rfl⟩ := List.mem_map.1 hl
      obtain ⟨n, _, rfl⟩ := List.mem_map.1 hx
      exact List.mem_cons_of_mem _ List.mem_cons_self

theorem status_labels (r : VerifyReport) :
    ∀ l ∈ labelsOf [heading (word "Overall Status") doubleRule ++ [statusLine r]], l ∈ vStatus := by
  intro l hl
  unfold statusLine at hl
  split at hl
  · have sub : ∀ l ∈ [word "Overall Status", List.replicate 60 0x3D#8, passMark], l ∈ vStatus := by decide +kernel
    exact sub l hl
  · have sub : ∀ l ∈ [word "Overall Status", List.replicate 60 0x3D#8, failMark], l ∈ vStatus := by decide +kernel
    exact sub l hl

theorem labels_append {a b : List (List TextLine)} {x y : List (List Byte)} (ha : ∀ l ∈ labelsOf a, l ∈ x)
    (hb : ∀ l ∈ labelsOf b, l ∈ y) : ∀ l ∈ labelsOf (a ++ b), l ∈ x ++ y := by
  intro l hl
  rw [labelsOf_append] at hl
  exact List.mem_append.2 ((List.mem_append.1 hl).imp (ha l) (hb l))

/-! ## The sections -/

/-- What is assumed about a report: no line feeds in the names and messages. -/
structure Tidy (message : List Byte → List Byte) (path : List Byte) (r : VerifyReport) : Prop where
  path : 0x0A#8 ∉ path
  errors : ∀ n ∈ r.errors, 0x0A#8 ∉ n
  warnings : ∀ n ∈ r.warnings, 0x0A#8 ∉ n
  messages : ∀ n ∈ r.errors, 0x0A#8 ∉ message n

variable {message : List Byte → List Byte} {path : List Byte} {r : VerifyReport}

theorem verify_section (h : Tidy message path r) {pre post : List (List TextLine)} {t : List Byte} {body : List TextLine}
    {known : List (List Byte)} (hs : verifyBlocks message path r = pre ++ ((t, []) :: body) :: post) (ht : t ≠ [])
    (hpre : ∀ l ∈ labelsOf pre, l ∈ known) (hk : ∀ l ∈ known, l.isPrefixOf t = false) (hbody : ∀ l ∈ body.map Prod.fst, l ≠ []) :
    Spec.section (printLines (blockLines (verifyBlocks message path r))) t = joinedLines body := by
  have hc := verify_clean h.path h.errors h.warnings h.messages
  rw [hs] at hc ⊢
  exact section_at pre post t body ht hc (fun l hl => hk l (hpre l hl)) fun l hl => hbody _ (List.mem_map.2 ⟨l, hl, rfl⟩)

theorem verify_noSection (h : Tidy message path r) {t : List Byte} {known : List (List Byte)} (ht : t ≠ [])
    (hpre : ∀ l ∈ labelsOf (verifyBlocks message path r), l ∈ known) (hk : ∀ l ∈ known, l.isPrefixOf t = false) :
    Spec.section (printLines (blockLines (verifyBlocks message path r))) t = [] :=
  section_none _ _ ht (verify_clean h.path h.errors h.warnings h.messages) fun l hl => hk l (hpre l hl)

theorem verify_sec1 (h : Tidy message path r) :
    Spec.section (printLines (blockLines (verifyBlocks message path r))) (word "Archive Verification Report") = joinedLines
      [doubleRule, (word "Archive: ", path), (word "Format: ", word "MPQ v" ++ decimal (versionNumber r.info.formatVersion))] :=
  verify_section h (pre := (verifyFirst path r).take 1) (post := (verifyBlocks message path r).drop 2) (known := vLabels3.take 1) rfl
    (by decide) (fun _ hl => hl) (by decide +kernel) (by labels)

theorem verify_sec2 (h : Tidy message path r) :
    Spec.section (printLines (blockLines (verifyBlocks message path r))) (word "Header Verification") = joinedLines
      [singleRule, (word "MPQ Signature:      ", word "Valid"),
        (word "Format Version:     ", word "Supported (v" ++ decimal (versionNumber r.info.formatVersion) ++ word ")"),
        (word "Digital Signature:  ", r.info.signatureStatus.text)] :=
  verify_section h (pre := (verifyFirst path r).take 2) (post := (verifyBlocks message path r).drop 3) (known := vLabels3.take 5) rfl
    (by decide) (fun _ hl => hl) (by decide +kernel) (by labels)

theorem verify_sec3 (h : Tidy message path r) :
    Spec.section (printLines (blockLines (verifyBlocks message path r))) (word "Table Verification") = joinedLines
      ([singleRule, (word "Hash Table:         ", loadedText r.info.hashTableInfo.failedToLoad),
        (word "Block Table:        ", loadedText r.info.blockTableInfo.failedToLoad)] ++
      loadedLine (word "HET Table:          ") r.info.hetTableInfo ++ loadedLine (word "BET Table:          ") r.info.betTableInfo) := by
  refine verify_section h (pre := (verifyFirst path r).take 3) (post := (verifyBlocks message path r).drop 4) (known := vLabels3) rfl
    (by decide) (fun _ hl => hl) (by decide +kernel) ?_
  unfold loadedLine
  generalize r.info.hetTableInfo = o1
  generalize r.info.betTableInfo = o2
  cases o1 <;> cases o2 <;> labels

theorem verify_sec4 (h : Tidy message path r) (m : Md5Status) (hm : r.info.md5Status = some m) :
    Spec.section (printLines (blockLines (verifyBlocks message path r))) (word "MD5 Checksum Verification (v4)") = joinedLines
      [singleRule, (word "Header MD5:         ", validText m.headerValid), (word "Hash Table MD5:     ", validText m.hashTableValid),
      (word "Block Table MD5:    ", validText m.blockTableValid), (word "Hi-Block Table MD5: ", validText m.hiBlockTableValid),
      (word "HET Table MD5:      ", validText m.hetTableValid), (word "BET Table MD5:      ", validText m.betTableValid)] := by
  refine verify_section h (pre := verifyFirst path r) (post := (verifyBlocks message path r).drop 5) (known := vLabels4) ?_
    (by decide) (first_labels path r) (by decide +kernel) (by labels)
  rw [verify_split, hm]
  rfl

theorem verify_sec5 (h : Tidy message path r) :
    Spec.section (printLines (blockLines (verifyBlocks message path r))) (word "File Verification Summary") = joinedLines
      [singleRule, (word "Total Files:        ", decimal r.totalFiles), (word "Files Found:        ", decimal r.filesFound),
        (word "Files Readable:     ", decimal r.filesReadable), (word "Files Missing:      ", decimal r.filesMissing),
        (word "Files Corrupted:    ", decimal r.filesCorrupted)] := by
  refine verify_section h (pre := verifyFirst path r ++ (r.info.md5Status.map md5CheckBlock).toList)
    (post := [verifiedLine r] :: (warningBlock r.warnings ++ errorBlock message r.errors ++
      [heading (word "Overall Status") doubleRule ++ [statusLine r]])) (known := vLabels4 ++ vMd5) ?_
    (by decide) (labels_append (first_labels path r) (md5Check_labels _)) (by decide +kernel) (by labels)
  rw [verify_split]
  simp only [List.append_assoc, List.cons_append, List.nil_append]
  rfl

theorem joined_map {α : Type} (l : List Byte) (f : α → List Byte) (xs : List α) :
    joinedLines (xs.map fun n => (l, f n)) = xs.map fun n => l ++ f n := by
  unfold joinedLines
  rw [List.map_map]
  rfl

theorem body_labels {α : Type} {l : List Byte} (hl : l ≠ []) (f : α → List Byte) (xs : List α) :
    ∀ x ∈ (xs.map fun n => (l, f n)).map Prod.fst, x ≠ [] := by
  intro x hx
  obtain ⟨y, hy, rfl⟩ := List.mem_map.1 hx
  obtain ⟨z, _, rfl⟩ := List.mem_map.1 hy
  exact hl

theorem before_warnings (path : List Byte) (r : VerifyReport) : ∀ l ∈ labelsOf (verifyFirst path r ++
    (r.info.md5Status.map md5CheckBlock).toList ++ [summaryBlock r, [verifiedLine r]]), l ∈ vLabels4 ++ vMd5 ++ vSummary :=
  labels_append (labels_append (first_labels path r) (md5Check_labels _)) (summary_labels r)

theorem all_labels (message : List Byte → List Byte) (path : List Byte) (r : VerifyReport) :
    ∀ l ∈ labelsOf (verifyBlocks message path r), l ∈ vLabels4 ++ vMd5 ++ vSummary ++ vWarn ++ vError ++ vStatus := by
  rw [verify_split]
  exact labels_append (labels_append (labels_append (before_warnings path r) (warning_labels _)) (error_labels _ _)) (status_labels r)

theorem verify_noMd5 (h : Tidy message path r) (hm : r.info.md5Status = none) :
    Spec.section (printLines (blockLines (verifyBlocks message path r))) (word "MD5 Checksum Verification (v4)") = [] := by
  refine verify_noSection h (known := vLabels4 ++ vSummary ++ vWarn ++ vError ++ vStatus) (by decide) ?_ (by decide +kernel)
  rw [verify_split, hm, Option.map_none, Option.toList_none, List.append_nil]
  exact labels_append (labels_append (labels_append (labels_append (first_labels path r) (summary_labels r)) (warning_labels _))
    (error_labels _ _)) (status_labels r)

theorem verify_warnings (h : Tidy message path r) :
    Spec.section (printLines (blockLines (verifyBlocks message path r))) (word "Warnings:") =
      r.warnings.map fun n => (word "  " ++ warnMark ++ word " ") ++ crcWarning n := by
  cases hw : r.warnings with
  | nil =>
    refine verify_noSection h (known := vLabels4 ++ vMd5 ++ vSummary ++ vError ++ vStatus) (by decide) ?_ (by decide +kernel)
    rw [verify_split, hw, show warningBlock [] = [] from rfl, List.append_nil]
    exact labels_append (labels_append (before_warnings path r) (error_labels _ _)) (status_labels r)
  | cons w ws =>
    rw [← joined_map (word "  " ++ warnMark ++ word " ") crcWarning (w :: ws)]
    refine verify_section h (pre := verifyFirst path r ++ (r.info.md5Status.map md5CheckBlock).toList ++
      [summaryBlock r, [verifiedLine r]]) (post := errorBlock message r.errors ++
      [heading (word "Overall Status") doubleRule ++ [statusLine r]]) ?_ (by decide) (before_warnings path r) (by decide +kernel)
      (body_labels (by decide) _ _)
    rw [verify_split, hw]
    simp only [List.append_assoc]
    rfl

theorem verify_errors (h : Tidy message path r) :
    Spec.section (printLines (blockLines (verifyBlocks message path r))) (word "Errors:") =
      r.errors.map fun n => (word "  " ++ failMark ++ word " ") ++ (n ++ word " - " ++ message n) := by
  cases hw : r.errors with
  | nil =>
    refine verify_noSection h (known := vLabels4 ++ vMd5 ++ vSummary ++ vWarn ++ vStatus) (by decide) ?_ (by decide +kernel)
    rw [verify_split, hw, show errorBlock message [] = [] from rfl, List.append_nil]
    exact labels_append (labels_append (before_warnings path r) (warning_labels _)) (status_labels r)
  | cons w ws =>
    rw [← joined_map (word "  " ++ failMark ++ word " ") (fun n => n ++ word " - " ++ message n) (w :: ws)]
    refine verify_section h (pre := verifyFirst path r ++ (r.info.md5Status.map md5CheckBlock).toList ++
      [summaryBlock r, [verifiedLine r]] ++ warningBlock r.warnings) (post :=
      [heading (word "Overall Status") doubleRule ++ [statusLine r]]) ?_ (by decide)
      (labels_append (before_warnings path r) (warning_labels _)) (by decide +kernel) (body_labels (by decide) _ _)
    rw [verify_split, hw]
    rw [List.append_assoc _ (errorBlock message (w :: ws))]
    rfl

theorem verify_status (h : Tidy message path r) :
    Spec.section (printLines (blockLines (verifyBlocks message path r))) (word "Overall Status") =
      joinedLines [doubleRule, statusLine r] := by
  refine verify_section h (pre := verifyFirst path r ++ (r.info.md5Status.map md5CheckBlock).toList ++
    [summaryBlock r, [verifiedLine r]] ++ warningBlock r.warnings ++ errorBlock message r.errors) (post := []) (verify_split _ _ _)
    (by decide) (labels_append (labels_append (before_warnings path r) (warning_labels _)) (error_labels _ _)) (by decide +kernel) ?_
  unfold statusLine
  split <;> labels

theorem loaded_of {out : List Byte} {body : List TextLine} (hs : Spec.section out (word "Table Verification") = joinedLines body)
    (a b : List TextLine) (label : List Byte) (o : Option TableInfo) (h : body = a ++ loadedLine label o ++ b)
    (ha : ∀ l ∈ a.map Prod.fst, textsApart label l = true) (hb : ∀ l ∈ b.map Prod.fst, textsApart label l = true) :
    Spec.SaysLoaded out label o := by
  rw [h] at hs
  cases o with
  | none =>
    refine silent_of hs fun l hl => ?_
    rw [show loadedLine label none = [] from rfl, List.append_nil, List.map_append] at hl
    rcases List.mem_append.1 hl with hl | hl
    · exact ha l hl
    · exact hb l hl
  | some t =>
    show Spec.TextSays out _ label (Spec.choice t.failedToLoad _ _)
    rw [← loadedText_eq]
    refine says_of hs a b ?_ ha hb
    show a ++ [_] ++ b = _
    rw [List.append_assoc]
    rfl

theorem loaded_say {out : List Byte} (t1 t2 : TableInfo) (o1 o2 : Option TableInfo)
    (hs : Spec.section out (word "Table Verification") = joinedLines
      ([singleRule, (word "Hash Table:         ", loadedText t1.failedToLoad), (word "Block Table:        ", loadedText t2.failedToLoad)] ++
      loadedLine (word "HET Table:          ") o1 ++ loadedLine (word "BET Table:          ") o2)) :
    Spec.SaysLoaded out (word "Hash Table:         ") (some t1) ∧ Spec.SaysLoaded out (word "Block Table:        ") (some t2) ∧
    Spec.SaysLoaded out (word "HET Table:          ") o1 ∧ Spec.SaysLoaded out (word "BET Table:          ") o2 := by
  refine ⟨loaded_of hs [singleRule] ((word "Block Table:        ", loadedText t2.failedToLoad) ::
      (loadedLine (word "HET Table:          ") o1 ++ loadedLine (word "BET Table:          ") o2)) _ _ ?_ (by labels) ?_,
    loaded_of hs [singleRule, (word "Hash Table:         ", loadedText t1.failedToLoad)]
      (loadedLine (word "HET Table:          ") o1 ++ loadedLine (word "BET Table:          ") o2) _ _ ?_ (by labels) ?_,
    loaded_of hs [singleRule, (word "Hash Table:         ", loadedText t1.failedToLoad), (word "Block Table:        ", loadedText t2.failedToLoad)]
      (loadedLine (word "BET Table:          ") o2) _ _ rfl (by labels) ?_,
    loaded_of hs ([singleRule, (word "Hash Table:         ", loadedText t1.failedToLoad),
      (word "Block Table:        ", loadedText t2.failedToLoad)] ++ loadedLine (word "HET Table:          ") o1) [] _ _ (by simp) ?_
      (by labels)⟩
  · simp [loadedLine]
  · unfold loadedLine; cases o1 <;> cases o2 <;> labels
  · simp [loadedLine]
  · unfold loadedLine; cases o1 <;> cases o2 <;> labels
  · unfold loadedLine; cases o2 <;> labels
  · unfold loadedLine; cases o1 <;> labels

/-- The lines of blocks that have an apart first part. -/
theorem blockLines_apart {bs : List (List TextLine)} {label : List Byte} (hl : label ≠ [])
    (h : ∀ l ∈ labelsOf bs, textsApart label l = true) : (spacedLines bs).filter label.isPrefixOf = [] := by
  rw [List.filter_eq_nil_iff]
  intro x hx
  obtain ⟨b, hb, hx⟩ := List.mem_flatMap.1 hx
  rcases List.mem_cons.1 hx with rfl | hx
  · cases label with
    | nil => exact absurd rfl hl
    | cons y ys => exact (nomatch ·)
  · obtain ⟨l, hm, rfl⟩ := List.mem_map.1 hx
    rw [prefix_join (h _ (List.mem_flatMap.2 ⟨b, hb, List.mem_map.2 ⟨l, hm, rfl⟩⟩))]
    decide

theorem verified_line (h : Tidy message path r) :
    Spec.LineSays (printLines (blockLines (verifyBlocks message path r))) (word "Verified:           ") (verifiedLine r).2 := by
  unfold Spec.LineSays
  rw [lines_blocks (verify_clean h.path h.errors h.warnings h.messages)]
  have h0 : ∀ ls : List (List Byte), List.filter (word "Verified:           ").isPrefixOf ls =
      List.filter (word "Verified:           ").isPrefixOf ([] :: ls) := by
    intro ls
    rw [List.filter_cons, if_neg (by decide)]
  rw [List.filter_append, h0 (blockLines _), ← spaced_eq (by rw [verify_split]; simp)]
  have hsplit : verifyBlocks message path r = (verifyFirst path r ++ (r.info.md5Status.map md5CheckBlock).toList ++ [summaryBlock r]) ++
      ([verifiedLine r] :: (warningBlock r.warnings ++ errorBlock message r.errors ++
        [heading (word "Overall Status") doubleRule ++ [statusLine r]])) := by
    rw [verify_split]
    simp only [List.append_assoc, List.cons_append, List.nil_append]
  rw [hsplit]
  have hsp : ∀ (a : List (List TextLine)) (x : List TextLine) (b : List (List TextLine)),
      spacedLines (a ++ x :: b) = spacedLines a ++ ([] :: joinedLines x) ++ spacedLines b := by
    intro a x b
    unfold spacedLines
    rw [List.flatMap_append, List.flatMap_cons, List.append_assoc]
  have k1 : ∀ l ∈ vLabels4 ++ vMd5 ++ vSummary.take 7, textsApart (word "Verified:           ") l = true := by decide +kernel
  have k2 : ∀ l ∈ vWarn ++ vError ++ vStatus, textsApart (word "Verified:           ") l = true := by decide +kernel
  rw [hsp, List.filter_append, List.filter_append,
    blockLines_apart (by decide) fun l hl => k1 l (labels_append (labels_append (first_labels path r) (md5Check_labels _))
      (show ∀ l ∈ labelsOf [summaryBlock r], l ∈ vSummary.take 7 from fun _ hl => hl) l hl),
    blockLines_apart (by decide) fun l hl => k2 l (labels_append (labels_append (warning_labels _) (error_labels _ _)) (status_labels r) l hl)]
  show _ ++ List.filter _ ([] :: [word "Verified:           " ++ (verifiedLine r).2]) ++ _ ++ List.filter _ [[]] = _
  rw [List.filter_cons, if_neg (by decide), List.filter_cons,
    if_pos (List.isPrefixOf_iff_prefix.2 (List.prefix_append (word "Verified:           ") (verifiedLine r).2)), List.filter_cons,
    if_neg (by decide)]
  rfl

theorem verifyText_says (h : Tidy message path r) :
    Spec.VerifyTextSays (printLines (blockLines (verifyBlocks message path r))) path message r where
  archive := says_of (verify_sec1 h) [_] [_] rfl (by labels) (by labels)
  version := ⟨_, versionNumber_spec _ ▸ isNumber_decimal _, says_of (verify_sec1 h) [_, _] [] rfl (by labels) (by labels)⟩
  signature := by
    rw [← signatureText_eq]
    exact says_of (verify_sec2 h) [_, _, _] [] rfl (by labels) (by labels)
  hash := (loaded_say _ _ _ _ (verify_sec3 h)).1
  block := (loaded_say _ _ _ _ (verify_sec3 h)).2.1
  het := (loaded_say _ _ _ _ (verify_sec3 h)).2.2.1
  bet := (loaded_say _ _ _ _ (verify_sec3 h)).2.2.2
  md5 := by
    cases hm : r.info.md5Status with
    | none => exact verify_noMd5 h hm
    | some m =>
      intro l b hl
      have hs := verify_sec4 h m hm
      simp only [List.mem_cons, Prod.mk.injEq, List.not_mem_nil, or_false] at hl
      rw [← validText_eq]
      rcases hl with ⟨rfl, rfl⟩ | ⟨rfl, rfl⟩ | ⟨rfl, rfl⟩ | ⟨rfl, rfl⟩ | ⟨rfl, rfl⟩ | ⟨rfl, rfl⟩
      · exact says_of hs [_] [_, _, _, _, _] rfl (by labels) (by labels)
      · exact says_of hs [_, _] [_, _, _, _] rfl (by labels) (by labels)
      · exact says_of hs [_, _, _] [_, _, _] rfl (by labels) (by labels)
      · exact says_of hs [_, _, _, _] [_, _] rfl (by labels) (by labels)
      · exact says_of hs [_, _, _, _, _] [_] rfl (by labels) (by labels)
      · exact says_of hs [_, _, _, _, _, _] [] rfl (by labels) (by labels)
  total := ⟨_, isNumber_decimal _, says_of (verify_sec5 h) [_] [_, _, _, _] (by rw [List.append_nil]; rfl) (by labels) (by labels)⟩
  found := ⟨_, isNumber_decimal _, says_of (verify_sec5 h) [_, _] [_, _, _] (by rw [List.append_nil]; rfl) (by labels) (by labels)⟩
  readable := ⟨_, isNumber_decimal _, says_of (verify_sec5 h) [_, _, _] [_, _] (by rw [List.append_nil]; rfl) (by labels) (by labels)⟩
  missing := ⟨_, isNumber_decimal _, says_of (verify_sec5 h) [_, _, _, _] [_] (by rw [List.append_nil]; rfl) (by labels) (by labels)⟩
  corrupted := ⟨_, isNumber_decimal _, says_of (verify_sec5 h) [_, _, _, _, _] [] (by rw [List.append_nil]; rfl) (by labels) (by labels)⟩
  verified := by
    refine ⟨_, _, _, _, isNumber_decimal _, isNumber_decimal _, isNumber_decimal _, verified_line h, fun hpos => ?_⟩
    have hmax : max r.totalFiles 1 = r.totalFiles := by omega
    rw [hmax, Nat.mul_comm 100]
    exact ⟨Nat.div_mul_le_self _ _, by rw [Nat.mul_comm (_ + 1)]; exact Nat.lt_mul_div_succ _ hpos⟩
  warnings := by
    have := verify_warnings h
    rw [show word "Warnings:" = ascii "Warnings:" from rfl] at this
    rw [this]
    refine List.map_congr_left fun n _ => ?_
    unfold crcWarning
    rw [← List.append_assoc, List.append_assoc _ (word " ")]
    rfl
  errors := by
    have := verify_errors h
    rw [show word "Errors:" = ascii "Errors:" from rfl] at this
    rw [this]
    refine List.map_congr_left fun n _ => ?_
    simp only [List.append_assoc]
    rfl
  verdict := by
    have := verify_status h
    rw [show word "Overall Status" = ascii "Overall Status" from rfl] at this
    rw [this]
    unfold statusLine Spec.verdict
    cases r.errors with
    | nil => rfl
    | cons n ns => rfl

/-- C91: for a path and messages without line feeds, the text that `archive verify` prints says what was found out: every count and
check once and under its heading, every warning and every error in order, and as the last line whether the archive passed, which
is how the command ends. -/
theorem C91_verify_text (e : Env) (s : SigEnv) (message : List Byte → List Byte) (path f : List Byte) (crc contents : Bool)
    (r : VerifyReport) (h : cliVerifyReport e s f crc contents = .ok r) (hp : 0x0A#8 ∉ path) (hm : ∀ n, 0x0A#8 ∉ message n) :
    Spec.VerifyTextSays (cliVerifyText e s message false path f crc contents).1 path message r ∧
    ((cliVerifyText e s message false path f crc contents).2 = .ok () ↔ r.errors = []) := by
  unfold cliVerifyText
  rw [h]
  refine ⟨verifyText_says ⟨hp, (verifyReport_noLf h).1, (verifyReport_noLf h).2, fun n _ => hm n⟩, ?_⟩
  by_cases he : r.errors = []
  · simp [he]
  · simp [he]

/-- C91: how the command ends does not depend on what is printed, and with `--quiet` nothing is printed. -/
theorem C91_verify_text_quiet (e : Env) (s : SigEnv) (message : List Byte → List Byte) (quiet : Bool) (path f : List Byte)
    (crc contents : Bool) :
    (cliVerifyText e s message quiet path f crc contents).2 = cliVerify e s f crc contents ∧
    ((cliVerifyText e s message quiet path f crc contents).1 = [] ↔ quiet = true) := by
  unfold cliVerifyText cliVerify
  cases h : cliVerifyReport e s f crc contents with
  | error err =>
    refine ⟨rfl, ?_⟩
    cases quiet with
    | true => exact ⟨fun _ => rfl, fun _ => rfl⟩
    | false => exact ⟨fun h => (nomatch h), fun h => (nomatch h)⟩
  | ok r =>
    refine ⟨?_, ?_⟩
    · show (if r.errors = [] then _ else _) = if r.errors = [] then _ else _
      split <;> rfl
    · cases quiet with
      | true => exact ⟨fun _ => rfl, fun _ => rfl⟩
      | false => exact ⟨fun h => (nomatch h), fun h => (nomatch h)⟩

/-- A report about two files, one of them damaged. -/
example (info : ArchiveInfo) : (errorBlock (fun _ => ascii "bad") [ascii "a.txt"]).flatMap joinedLines =
      [ascii "Errors:", ascii "  " ++ [0xE2, 0x9C, 0x97] ++ ascii " a.txt - bad"] ∧
    verifiedLine ⟨info, 3, 2, [ascii "a.txt"], [], 3, 2, 0, 1⟩ = (ascii "Verified:           ", ascii "2 / 3 (66%)") := by
  refine ⟨rfl, ?_⟩
  show (word "Verified:           ", decimal 2 ++ word " / " ++ decimal 3 ++ word " (" ++ decimal (2 * 100 / max 3 1) ++ word "%)") = _
  decide +kernel

/-- The sample archive is verified, with warnings. -/
example : ∃ f r, buildBytes toyEnv zeroMd5 (sampleBuilder .v4) = .ok f ∧ cliVerifyReport toyEnv toySigEnv f true true = .ok r ∧
    (cliVerifyText toyEnv toySigEnv (fun _ => ascii "bad") false (ascii "a.mpq") f true true).2 = .ok () ∧
    Spec.VerifyTextSays (cliVerifyText toyEnv toySigEnv (fun _ => ascii "bad") false (ascii "a.mpq") f true true).1 (ascii "a.mpq")
      (fun _ => ascii "bad") r := by
  obtain ⟨f, a, hf, _, _, ha, hok⟩ := sample_verifies .v4 (by decide) true true
  rw [List.nil_append, List.append_nil] at ha hok
  have hok' := hok
  unfold cliVerify at hok'
  obtain ⟨r, hr, hok'⟩ := bind_eq_ok.1 hok'
  obtain ⟨h1, h2⟩ := C91_verify_text toyEnv toySigEnv (fun _ => ascii "bad") (ascii "a.mpq") f true true r hr (by decide)
    fun _ => by decide
  exact ⟨f, r, hf, hr, ((C91_verify_text_quiet ..).1).trans hok, h1⟩

end Mopaq
