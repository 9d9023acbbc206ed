import Verif.Model.FullAnalysis
import Verif.Props.TextAnalysis
import Verif.Props.Extensions
import Verif.Props.CliCreate

/-!
# C94: the analysis of an archive for people, file by file and by extension
-/

namespace Mopaq

/-- The files of a list that are found in an archive, with what is known about them. -/
def Spec.foundFiles (a : Archive) (entries : List FileEntry) : List (FileEntry × FileInfo) :=
  entries.filterMap fun x => match a.findFile x.name with
    | .ok (some info) => some (x, info)
    | _ => none

/-- A line about a file: whether its method is supported, its name and its method; with `stats` its size, the number of bytes stored
and how many percent these are. -/
def Spec.DetailLine (line : List Byte) (stats : Bool) (name : List Byte) (info : FileInfo) : Prop :=
  ∃ size stored percent, Spec.IsNumber info.fileSize size ∧ Spec.IsNumber info.compressedSize stored ∧
    Spec.IsNumber (shownRatio info.compressedSize info.fileSize) percent ∧
    line = Spec.methodMark (Spec.methodOf info) ++ ascii " " ++ name ++ ascii " " ++ Spec.methodWord (Spec.methodOf info) ++
      if stats then ascii " (" ++ size ++ ascii " -> " ++ stored ++ ascii " bytes, " ++ percent ++ ascii "%)" else []

/-- One line for every file, in the order of the files. -/
def Spec.DetailLines (lines : List (List Byte)) (stats : Bool) (files : List (FileEntry × FileInfo)) : Prop :=
  ∃ rows : List ((FileEntry × FileInfo) × List Byte), rows.map (·.1) = files ∧ rows.map (·.2) = lines ∧
    ∀ x ∈ rows, Spec.DetailLine x.2 stats x.1.1.name x.1.2

/-- The lines about an extension: how many files have it, and a line for every method these have, those with most files first. -/
def Spec.ExtensionLines (lines : List (List Byte)) (ext : List Byte) (total : Nat) (count : Method → Nat) : Prop :=
  ∃ (number : List Byte) (rows : List (Method × List Byte)), Spec.IsNumber total number ∧
    lines = (ext ++ ascii " (" ++ number ++ ascii " files):") :: rows.map (fun x => ascii "  " ++ x.2) ∧
    (rows.map (·.1)).Nodup ∧ (∀ m, m ∈ rows.map (·.1) ↔ count m ≠ 0) ∧ rows.Pairwise (fun x y => count y.1 ≤ count x.1) ∧
    ∀ x ∈ rows, Spec.MethodLine x.2 x.1 (count x.1) (shownRatio (count x.1) total)

/-- The part about the extensions: a heading, and lines about every extension, those with most files first, with an empty line in
front of each. -/
def Spec.ExtensionTable (lines : List (List Byte)) (s : ExtensionStats) : Prop :=
  ∃ groups : List (List Byte × List (List Byte)),
    lines = [[], ascii "Compression by File Extension", List.replicate 60 0x3D#8] ++ groups.flatMap (fun g => [] :: g.2) ∧
    (groups.map (·.1)).Perm s.extensions ∧ groups.Pairwise (fun x y => s.total y.1 ≤ s.total x.1) ∧
    ∀ g ∈ groups, Spec.ExtensionLines g.2 g.1 (s.total g.1) (s.count g.1)

/-! ## The lines about the files -/

theorem supported_spec (m : Method) : m.supported = true ↔ m ∈ Spec.supportedMethods := by
  cases m <;> simp [Method.supported, Spec.supportedMethods]

theorem detailLine_spec (stats : Bool) (name : List Byte) (info : FileInfo) :
    Spec.DetailLine (detailLine stats name info) stats name info := by
  refine ⟨_, _, _, isNumber_decimal _, isNumber_decimal _, isNumber_decimal _, ?_⟩
  unfold detailLine
  show (if (Spec.methodOf info).supported then passMark else failMark) ++ _ ++ _ ++ _ ++ (Spec.methodOf info).name ++ _ = _
  have hm : (if (Spec.methodOf info).supported then passMark else failMark) = Spec.methodMark (Spec.methodOf info) := by
    unfold Spec.methodMark
    by_cases h : Spec.methodOf info ∈ Spec.supportedMethods
    · rw [if_pos h, if_pos ((supported_spec _).2 h)]
      rfl
    · rw [if_neg h, if_neg fun h' => h ((supported_spec _).1 h')]
      rfl
  rw [hm, methodName_spec]
  rfl

theorem detailLine_noLf {stats : Bool} {name : List Byte} (info : FileInfo) (h : 0x0A#8 ∉ name) :
    0x0A#8 ∉ detailLine stats name info := by
  unfold detailLine
  dsimp only
  refine noLf_append (noLf_append (noLf_append (noLf_append (noLf_append ?_ (by decide)) h) (by decide)) (methodName_noLf _)) ?_
  · split <;> decide
  · split
    · exact noLf_append (noLf_append (noLf_append (noLf_append (noLf_append (noLf_append (by decide) (decimal_noLf _)) (by decide))
        (decimal_noLf _)) (by decide)) (decimal_noLf _)) (by decide)
    · exact List.not_mem_nil

theorem detailLoop_lines (a : Archive) (only stats : Bool) : ∀ (entries : List FileEntry) (r r' : Analysis),
    a.analyzeLoop entries r = .ok r' → ∃ lines, a.detailLoop only stats entries = .ok lines ∧
      Spec.DetailLines lines stats
        ((Spec.foundFiles a entries).filter fun x => !only || decide (Spec.methodOf x.2 ∉ Spec.supportedMethods)) ∧
      ((∀ x ∈ entries, 0x0A#8 ∉ x.name) → ∀ l ∈ lines, 0x0A#8 ∉ l)
  | [], r, r', _ => ⟨[], rfl, ⟨[], rfl, rfl, by simp⟩, by simp⟩
  | x :: rest, r, r', h => by
    rw [Archive.analyzeLoop] at h
    rw [Archive.detailLoop]
    cases hf : a.findFile x.name with
    | error err => rw [hf] at h; cases h
    | ok o =>
      rw [hf] at h
      cases o with
      | none =>
        obtain ⟨lines, h1, h2, h3⟩ := detailLoop_lines a only stats rest _ _ h
        refine ⟨lines, h1, ?_, fun hn => h3 fun y hy => hn y (List.mem_cons_of_mem _ hy)⟩
        have : Spec.foundFiles a (x :: rest) = Spec.foundFiles a rest := by
          unfold Spec.foundFiles
          rw [List.filterMap_cons]
          simp only [hf]
        rw [this]
        exact h2
      | some info =>
        simp only [bind, Except.bind] at h ⊢
        split at h
        · cases h
        split at h
        · cases h
        obtain ⟨lines, h1, ⟨rows, h2, h3, h4⟩, h5⟩ := detailLoop_lines a only stats rest _ _ h
        have : Spec.foundFiles a (x :: rest) = (x, info) :: Spec.foundFiles a rest := by
          unfold Spec.foundFiles
          rw [List.filterMap_cons]
          simp only [hf]
        rw [this, h1, List.filter_cons]
        simp only
        have hs : (!(Method.fromFlags (info.flags.setWidth 8)).supported) = decide (Spec.methodOf info ∉ Spec.supportedMethods) := by
          rw [Bool.eq_iff_iff, Bool.not_eq_true', decide_eq_true_eq, ← Bool.not_eq_true]
          exact not_congr (supported_spec _)
        rw [hs]
        by_cases hc : (!only || decide (Spec.methodOf info ∉ Spec.supportedMethods)) = true
        · rw [if_pos hc, if_pos hc]
          refine ⟨_, rfl, ⟨((x, info), detailLine stats x.name info) :: rows, ?_, ?_, ?_⟩, ?_⟩
          · rw [List.map_cons, h2]
          · rw [List.map_cons, h3]
          · intro y hy
            rcases List.mem_cons.1 hy with rfl | hy
            · exact detailLine_spec stats x.name info
            · exact h4 y hy
          · intro hn l hl
            rcases List.mem_cons.1 hl with rfl | hl
            · exact detailLine_noLf info (hn x List.mem_cons_self)
            · exact h5 (fun y hy => hn y (List.mem_cons_of_mem _ hy)) l hl
        · rw [if_neg hc, if_neg hc]
          exact ⟨_, rfl, ⟨rows, h2, h3, h4⟩, fun hn => h5 fun y hy => hn y (List.mem_cons_of_mem _ hy)⟩

/-! ## The part about the extensions -/

/-- The lines of blocks with an empty line in front of each. -/
def spaced (bs : List (List TextLine)) : List (List Byte) := bs.flatMap fun b => [] :: b.map fun l => l.1 ++ l.2

theorem extensionBlock_spec (order : List Method → List Method) (ho : ∀ l, (order l).Perm l) (s : ExtensionStats) (ext : List Byte) :
    Spec.ExtensionLines ((extensionBlock order s ext).map fun l => l.1 ++ l.2) ext (s.total ext) (s.count ext) := by
  have hperm : (extensionMethods order s ext).Perm (allMethods.filter fun m => s.count ext m ≠ 0) :=
    (List.mergeSort_perm _ _).trans (ho _)
  refine ⟨decimal (s.total ext), (extensionMethods order s ext).map fun m =>
    (m, Spec.methodMark m ++ ascii " " ++ (extensionRow s ext m).2), isNumber_decimal _, ?_, ?_, ?_, ?_, ?_⟩
  · unfold extensionBlock
    rw [List.map_cons, List.map_map, List.map_map]
    congr 1
    · simp only [word_ascii, List.append_assoc]
    · refine List.map_congr_left fun m _ => ?_
      simp only [Function.comp, extensionRow, methodMark_eq, word_ascii, List.append_assoc]
  · rw [List.map_map]
    rw [show ((fun x : Method × List Byte => x.1) ∘ fun m => (m, Spec.methodMark m ++ ascii " " ++ (extensionRow s ext m).2)) = id from
      rfl, List.map_id]
    exact hperm.nodup_iff.2 (allMethods_nodup.filter _)
  · intro m
    rw [List.map_map]
    rw [show ((fun x : Method × List Byte => x.1) ∘ fun m => (m, Spec.methodMark m ++ ascii " " ++ (extensionRow s ext m).2)) = id from
      rfl, List.map_id, hperm.mem_iff, List.mem_filter]
    exact ⟨fun h => by simpa using h.2, fun h => ⟨mem_allMethods m, by simpa using h⟩⟩
  · rw [List.pairwise_map]
    have := List.pairwise_mergeSort (le := fun a b => decide (s.count ext b ≤ s.count ext a))
      (fun a b c h1 h2 => by simp only [decide_eq_true_eq] at *; omega)
      (fun a b => by simp only [Bool.or_eq_true, decide_eq_true_eq]; omega) (order (allMethods.filter fun m => s.count ext m ≠ 0))
    exact this.imp fun h => by simpa using h
  · intro x hx
    obtain ⟨m, _, rfl⟩ := List.mem_map.1 hx
    refine ⟨18 - m.name.length, 4 - (decimal (s.count ext m)).length, 3 - (decimal (shownRatio (s.count ext m) (s.total ext))).length,
      decimal (s.count ext m), decimal (shownRatio (s.count ext m) (s.total ext)), isNumber_decimal _, isNumber_decimal _, ?_⟩
    unfold extensionRow padRight padLeft
    dsimp only
    rw [← methodName_spec]
    simp only [word_ascii, List.append_assoc]

theorem extensionBlocks_spec (outer : List (List Byte) → List (List Byte)) (hout : ∀ l, (outer l).Perm l)
    (inner : List Byte → List Method → List Method) (hin : ∀ x l, (inner x l).Perm l) (s : ExtensionStats) (h : s.extensions ≠ []) :
    Spec.ExtensionTable (spaced (extensionBlocks outer inner true s)) s := by
  have hperm : (sortedExtensions outer s).Perm s.extensions := (List.mergeSort_perm _ _).trans (hout _)
  refine ⟨(sortedExtensions outer s).map fun x => (x, (extensionBlock (inner x) s x).map fun l => l.1 ++ l.2), ?_, ?_, ?_, ?_⟩
  · unfold extensionBlocks spaced
    rw [if_pos (by simpa using h), List.flatMap_cons, List.flatMap_map, List.flatMap_map]
    rfl
  · rw [List.map_map]
    rw [show ((fun x : List Byte × List (List Byte) => x.1) ∘ fun x => (x, (extensionBlock (inner x) s x).map fun l => l.1 ++ l.2)) = id from
      rfl, List.map_id]
    exact hperm
  · rw [List.pairwise_map]
    have := List.pairwise_mergeSort (le := fun a b => decide (s.total b ≤ s.total a))
      (fun a b c h1 h2 => by simp only [decide_eq_true_eq] at *; omega)
      (fun a b => by simp only [Bool.or_eq_true, decide_eq_true_eq]; omega) (outer s.extensions)
    exact this.imp fun h => by simpa using h
  · intro g hg
    obtain ⟨x, _, rfl⟩ := List.mem_map.1 hg
    exact extensionBlock_spec (inner x) (hin x) s x

theorem extensionBlocks_noLf (outer : List (List Byte) → List (List Byte)) (hout : ∀ l, (outer l).Perm l)
    (inner : List Byte → List Method → List Method) (byExtension : Bool) (s : ExtensionStats) (h : ∀ x ∈ s.extensions, 0x0A#8 ∉ x) :
    ∀ l ∈ spaced (extensionBlocks outer inner byExtension s), 0x0A#8 ∉ l := by
  have hperm : (sortedExtensions outer s).Perm s.extensions := (List.mergeSort_perm _ _).trans (hout _)
  intro l hl
  obtain ⟨b, hb, hl⟩ := List.mem_flatMap.1 hl
  rcases List.mem_cons.1 hl with rfl | hl
  · exact List.not_mem_nil
  obtain ⟨t, ht, rfl⟩ := List.mem_map.1 hl
  unfold extensionBlocks at hb
  split at hb
  · rcases List.mem_cons.1 hb with rfl | hb
    · unfold heading at ht
      simp only [List.mem_cons, List.not_mem_nil, or_false] at ht
      rcases ht with rfl | rfl <;> decide
    · obtain ⟨x, hx, rfl⟩ := List.mem_map.1 hb
      rcases List.mem_cons.1 ht with rfl | ht
      · exact noLf_append (h x (hperm.mem_iff.1 hx)) (noLf_append (noLf_append (by decide) (decimal_noLf _)) (by decide))
      · obtain ⟨m, _, rfl⟩ := List.mem_map.1 ht
        unfold extensionRow
        dsimp only
        refine noLf_append (noLf_append (noLf_append (by decide) (by split <;> decide)) (by decide)) ?_
        exact noLf_append (noLf_append (noLf_append (noLf_append (noLf_append (padRight_noLf (methodName_noLf _)) (by decide))
          (padLeft_noLf (decimal_noLf _))) (by decide)) (padLeft_noLf (decimal_noLf _))) (by decide)
  · cases hb

/-! ## The whole -/

theorem fileName_noLf {p f : List Byte} (h : fileName p = some f) (hp : 0x0A#8 ∉ p) : 0x0A#8 ∉ f := by
  unfold fileName at h
  split at h
  · rename_i part hl
    split at h
    · cases h
    · cases h
      have hm : f ∈ p.splitOnP (· == 0x2F#8) := (List.mem_filter.1 (List.mem_of_getLast? hl)).1
      exact fun hx => hp ((splitOnP_infix p f hm).1.subset hx)
  · cases h

theorem splitLastDot_noLf {file before after : List Byte} (h : splitLastDot file = some (before, after)) (hf : 0x0A#8 ∉ file) :
    0x0A#8 ∉ after := by
  unfold splitLastDot at h
  split at h
  · cases h
  · cases h
    exact fun hm => hf (List.mem_reverse.1 ((List.takeWhile_sublist _).subset (List.mem_reverse.1 hm)))

theorem fileExtension_noLf {lower : List Byte → List Byte} (hlow : ∀ t, 0x0A#8 ∉ t → 0x0A#8 ∉ lower t) {name : List Byte}
    (h : 0x0A#8 ∉ name) : 0x0A#8 ∉ fileExtension lower name := by
  have key : ∀ ext, pathExtension name = some ext → 0x0A#8 ∉ ext := by
    intro ext he
    unfold pathExtension at he
    split at he
    · cases he
    rename_i file hf
    split at he
    · cases he
    rename_i before after hs
    split at he
    · cases he
    · cases he
      exact splitLastDot_noLf hs (fileName_noLf hf h)
  unfold fileExtension
  split
  · rename_i ext he
    exact hlow _ (key ext he)
  · decide

theorem blockLines_cons (b : List TextLine) (bs : List (List TextLine)) :
    blockLines (b :: bs) = b.map (fun l => l.1 ++ l.2) ++ spaced bs := rfl

theorem spaced_append (as bs : List (List TextLine)) : spaced (as ++ bs) = spaced as ++ spaced bs := by
  unfold spaced
  rw [List.flatMap_append]

/-- C94: `--detailed` and `--by-extension` add lines to the text that `archive analyze` prints (C93) and change nothing else. With
`--detailed` there is one line for each file listed that is found, in the order of the list, right after the first line; with
`--unsupported-only` for the files whose methods are not supported. It tells whether the method is supported, the name and the method,
with `--show-stats` also the sizes. With `--by-extension` there is a part about every extension of a file that is found, those with
most files first, with the counts of C92. Case is changed in any way that makes no line feeds. -/
theorem C94_options_add (e : Env) (lower : List Byte → List Byte) (hlow : ∀ t, 0x0A#8 ∉ t → 0x0A#8 ∉ lower t)
    (order : List Method → List Method) (outer : List (List Byte) → List (List Byte)) (hout : ∀ l, (outer l).Perm l)
    (inner : List Byte → List Method → List Method) (hin : ∀ x l, (inner x l).Perm l)
    (quiet only stats detailed byExtension : Bool) (path : List Byte) (hp : 0x0A#8 ∉ path) (a : Archive) (r : Analysis)
    (s : ExtensionStats) (h : a.analyzeByExtension e lower = .ok (some (r, s))) :
    ∃ plain out entries first details middle extensions last,
      cliAnalyzeText e order quiet only stats path a = .ok plain ∧
      cliAnalyzeFull e lower order outer inner quiet only stats detailed byExtension path a = .ok out ∧ a.list e = .ok entries ∧
      first = (if quiet then [] else [ascii "Analyzing compression methods: " ++ path]) ∧
      Spec.lines plain = first ++ middle ++ last ∧ Spec.lines out = first ++ details ++ middle ++ extensions ++ last ∧
      (if detailed then Spec.DetailLines details stats
          ((Spec.foundFiles a entries).filter fun x => !only || decide (Spec.methodOf x.2 ∉ Spec.supportedMethods))
        else details = []) ∧
      (if byExtension ∧ s.extensions ≠ [] then Spec.ExtensionTable extensions s else extensions = []) := by
  have h0 := h
  unfold Archive.analyzeByExtension at h
  obtain ⟨hashed, hl, h⟩ := bind_eq_ok.1 h
  split at h
  · cases h
  rename_i hne
  obtain ⟨r', hr, h⟩ := bind_eq_ok.1 h
  obtain ⟨s', hs, h⟩ := bind_eq_ok.1 h
  cases Option.some.inj (Except.ok.inj h)
  have han : a.analyze e = .ok (some r) := by
    unfold Archive.analyze
    rw [hl]
    simp only [bind, Except.bind, if_neg hne]
    rw [hr]
    rfl
  unfold Archive.listWithHashes at hl
  obtain ⟨entries, hes, hl⟩ := bind_eq_ok.1 hl
  have hmap : hashed.map (·.1) = entries := by
    cases hl
    rw [List.map_map]
    exact (List.map_congr_left fun _ _ => rfl).trans (List.map_id _)
  rw [hmap] at hr hs
  obtain ⟨lines, hd, hspec, hclean⟩ := detailLoop_lines a only stats entries _ _ hr
  have hclean := hclean (listed_noLf hes)
  obtain ⟨s2, entries2, found, hes2, hby, hfound, hsub, _, _, _, hext, _⟩ := C92_figures e lower a r han
  cases hes.symm.trans hes2
  cases h0.symm.trans hby
  have hextLf : ∀ x ∈ s.extensions, 0x0A#8 ∉ x := by
    intro x hx
    obtain ⟨y, hy, rfl⟩ := (hext x).1 hx
    exact fileExtension_noLf hlow (listed_noLf hes y.1 (hsub.subset (List.mem_map.2 ⟨y, hy, rfl⟩)))
  obtain ⟨_, hn⟩ := unsupportedWith_count han
  have hplain := blockLines_clean (analysisBlocks_clean order quiet only stats hp r hn)
  rw [analysisBlocks_parts, blockLines_cons, spaced_append] at hplain
  have hx := extensionBlocks_noLf outer hout inner byExtension s hextLf
  have hdet : ∀ l ∈ (if detailed then lines else []), 0x0A#8 ∉ l := by
    intro l hl
    cases detailed
    · cases hl
    · exact hclean l hl
  refine ⟨printLines (blockLines (analysisBlocks order quiet only stats path r)),
    printLines (blockLines (fullBlocks order outer inner quiet only stats byExtension path (if detailed then lines else []) r s)),
    entries, (firstPart quiet path).map (fun l => l.1 ++ l.2), if detailed then lines else [],
    spaced (methodPart order only r ++ statisticsPart only stats r), spaced (extensionBlocks outer inner byExtension s),
    spaced (lastPart order only r) ++ [[]], ?_, ?_, hes, ?_, ?_, ?_, ?_, ?_⟩
  · unfold cliAnalyzeText
    rw [han]
    rfl
  · unfold cliAnalyzeFull
    rw [h0]
    simp only [bind, Except.bind]
    rw [hes]
    simp only
    cases detailed
    · rfl
    · rw [if_pos rfl, hd]
      rfl
  · cases quiet <;> rfl
  · rw [lines_blocks (analysisBlocks_clean order quiet only stats hp r hn), analysisBlocks_parts, blockLines_cons, spaced_append,
      List.append_assoc, List.append_assoc, List.append_assoc]
  · have e1 : blockLines (fullBlocks order outer inner quiet only stats byExtension path (if detailed then lines else []) r s) =
        (firstPart quiet path).map (fun l => l.1 ++ l.2) ++ (if detailed then lines else []) ++
          spaced (methodPart order only r ++ statisticsPart only stats r) ++ spaced (extensionBlocks outer inner byExtension s) ++
          spaced (lastPart order only r) := by
      show blockLines ((firstPart quiet path ++ (if detailed then lines else []).map fun l => (l, [])) ::
        (methodPart order only r ++ statisticsPart only stats r ++ extensionBlocks outer inner byExtension s ++
          lastPart order only r)) = _
      rw [blockLines_cons, spaced_append, spaced_append, List.map_append, List.map_map,
        show ((fun l : TextLine => l.1 ++ l.2) ∘ fun l : List Byte => ((l, []) : TextLine)) = id from
          funext fun l => List.append_nil l, List.map_id]
      simp only [List.append_assoc]
    have := lines_flatMap (blockLines (fullBlocks order outer inner quiet only stats byExtension path
      (if detailed then lines else []) r s)) (by
        rw [e1]
        intro l hl
        simp only [List.mem_append] at hl hplain hx hdet
        rcases hl with (((hl | hl) | hl) | hl) | hl
        · exact hplain l (.inl hl)
        · exact hdet l hl
        · exact hplain l (.inr (.inl hl))
        · exact hx l hl
        · exact hplain l (.inr (.inr hl))) []
    rw [List.append_nil] at this
    refine this.trans ?_
    rw [e1]
    simp only [List.append_assoc]
    rfl
  · cases detailed
    · rfl
    · exact hspec
  · by_cases hb : byExtension = true ∧ s.extensions ≠ []
    · rw [if_pos hb]
      obtain ⟨rfl, hb⟩ := hb
      exact extensionBlocks_spec outer hout inner hin s hb
    · rw [if_neg hb]
      unfold extensionBlocks
      rw [if_neg]
      · rfl
      · intro hc
        rw [Bool.and_eq_true] at hc
        exact hb ⟨hc.1, by simpa using hc.2⟩

/-- C94: without files listed the options change nothing. -/
theorem C94_nothing (e : Env) (lower : List Byte → List Byte) (order : List Method → List Method)
    (outer : List (List Byte) → List (List Byte)) (inner : List Byte → List Method → List Method)
    (quiet only stats detailed byExtension : Bool) (path : List Byte) (a : Archive) (h : a.list e = .ok []) :
    cliAnalyzeFull e lower order outer inner quiet only stats detailed byExtension path a =
      cliAnalyzeText e order quiet only stats path a := by
  have h1 : a.analyze e = .ok none := (C63_nothing_iff e a).2 h
  have h2 : a.analyzeByExtension e lower = .ok none := by
    unfold Archive.analyzeByExtension Archive.listWithHashes
    rw [h]
    rfl
  unfold cliAnalyzeFull cliAnalyzeText
  rw [h1, h2]
  rfl

/-- C94 is violated: `--unsupported-only` has no effect on the part by extension, which has lines about every method that
occurs, supported or not. -/
theorem C94_supported_shown (e : Env) (lower : List Byte → List Byte) (hlow : ∀ t, 0x0A#8 ∉ t → 0x0A#8 ∉ lower t)
    (order : List Method → List Method) (outer : List (List Byte) → List (List Byte)) (hout : ∀ l, (outer l).Perm l)
    (inner : List Byte → List Method → List Method) (hin : ∀ x l, (inner x l).Perm l)
    (quiet stats detailed : Bool) (path : List Byte) (hp : 0x0A#8 ∉ path) (a : Archive) (r : Analysis)
    (h : a.analyze e = .ok (some r)) (m : Method) (hm : r.count m ≠ 0) :
    ∃ out line n p, cliAnalyzeFull e lower order outer inner quiet true stats detailed true path a = .ok out ∧ n ≠ 0 ∧
      Spec.MethodLine line m n p ∧ ascii "  " ++ line ∈ Spec.lines out := by
  obtain ⟨s, _, _, _, hs, _, _, _, _, _, _, _, hsum⟩ := C92_figures e lower a r h
  have hx : ∃ x ∈ s.extensions, s.count x m ≠ 0 := by
    refine Classical.byContradiction fun hno => hm ?_
    rw [← hsum m]
    have : s.extensions.map (fun x => s.count x m) = s.extensions.map fun _ => 0 :=
      List.map_congr_left fun x hx => Classical.byContradiction fun hc => hno ⟨x, hx, hc⟩
    rw [this]
    clear this hno hsum hs
    induction s.extensions with
    | nil => rfl
    | cons y ys ih => rw [List.map_cons, List.sum_cons, ih]
  obtain ⟨x, hx, hc⟩ := hx
  obtain ⟨plain, out, entries, first, details, middle, extensions, last, _, ho, _, _, _, hl, _, ht⟩ :=
    C94_options_add e lower hlow order outer hout inner hin quiet true stats detailed true path hp a r s hs
  rw [if_pos ⟨rfl, fun h => by rw [h] at hx; cases hx⟩] at ht
  obtain ⟨groups, hg, hperm, _, hrows⟩ := ht
  obtain ⟨g, hgm, rfl⟩ := List.mem_map.1 (hperm.mem_iff.2 hx)
  obtain ⟨number, rows, _, hlines, _, hmem, _, hline⟩ := hrows g hgm
  obtain ⟨row, hrow, rfl⟩ := List.mem_map.1 ((hmem m).2 hc)
  refine ⟨out, row.2, _, _, ho, hc, hline row hrow, ?_⟩
  rw [hl, hg]
  refine List.mem_append_left _ (List.mem_append_right _ (List.mem_append_right _ (List.mem_flatMap.2 ⟨g, hgm, ?_⟩)))
  rw [hlines]
  exact List.mem_cons_of_mem _ (List.mem_cons_of_mem _ (List.mem_map.2 ⟨row, hrow, rfl⟩))

/-- A line about a file. -/
example : detailLine true (ascii "a.txt") ⟨0, 0, 0, 10, 20, 8#32, 0⟩ =
    [0xE2, 0x9C, 0x97] ++ ascii " a.txt PKWare DCL (20 -> 10 bytes, 50%)" := by
  decide +kernel

/-- The sample archive has one line about its file, and one extension. -/
example : ∃ a r s, Archive.analyzeByExtension toyEnv id a = .ok (some (r, s)) ∧ s.extensions ≠ [] := by
  obtain ⟨r, h, _, h1, _⟩ := methodArchive_sample _ _ rfl rfl
  obtain ⟨s, _, _, _, hs, _, _, _, _, _, _, _, hm⟩ := C92_figures toyEnv id _ r h
  refine ⟨_, r, s, hs, fun h => ?_⟩
  have := (hm .none).trans h1
  rw [h] at this
  cases this

end Mopaq
