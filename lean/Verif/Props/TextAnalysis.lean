import Verif.Model.TextAnalysis
import Verif.Props.TextVerify
import Verif.Props.Analyze
import Verif.Props.Compression

/-!
# C93: the analysis of an archive for people
-/

namespace Mopaq

/-- The mark for a method: ✓ if it is supported, else ✗. -/
def Spec.methodMark (m : Method) : List Byte := if m ∈ Spec.supportedMethods then [0xE2, 0x9C, 0x93] else [0xE2, 0x9C, 0x97]

/-- A line about `n` files with a method, which are `p` percent of all: mark, method, numbers, with spaces between them. -/
def Spec.MethodLine (line : List Byte) (m : Method) (n p : Nat) : Prop :=
  ∃ a b c number percent, Spec.IsNumber n number ∧ Spec.IsNumber p percent ∧
    line = Spec.methodMark m ++ ascii " " ++ Spec.methodWord m ++ List.replicate a 0x20#8 ++ ascii " " ++ List.replicate b 0x20#8 ++
      number ++ ascii " files (" ++ List.replicate c 0x20#8 ++ percent ++ ascii "%)"

/-- One line for every method that occurs, those with most files first. -/
def Spec.MethodTable (lines : List (List Byte)) (count : Method → Nat) (total : Nat) : Prop :=
  ∃ rows : List (Method × List Byte), lines = List.replicate 60 0x3D#8 :: rows.map (·.2) ∧
    (rows.map (·.1)).Nodup ∧ (∀ m, m ∈ rows.map (·.1) ↔ count m ≠ 0) ∧ rows.Pairwise (fun x y => count y.1 ≤ count x.1) ∧
    ∀ x ∈ rows, Spec.MethodLine x.2 x.1 (count x.1) (shownRatio (count x.1) total)

/-- One line for every method that is not supported and occurs. -/
def Spec.Breakdown (lines : List (List Byte)) (count : Method → Nat) : Prop :=
  ∃ rows : List (Method × List Byte), lines = rows.map (·.2) ∧ (rows.map (·.1)).Nodup ∧
    (∀ m, m ∈ rows.map (·.1) ↔ count m ≠ 0 ∧ m ∉ Spec.supportedMethods) ∧
    ∀ x ∈ rows, ∃ n, Spec.IsNumber (count x.1) n ∧ x.2 = ascii "  " ++ Spec.methodWord x.1 ++ ascii " - " ++ n ++ ascii " files"

/-- The line that is printed if all is well. -/
def Spec.allSupported : List Byte := [0xE2, 0x9C, 0x93] ++ ascii " All compression methods in this archive are supported!"

/-- What the text says about an analysis. Percentages are those of C89. -/
structure Spec.AnalysisTextSays (out : List Byte) (only stats : Bool) (r : Analysis) : Prop where
  methods : if only then Spec.section out (ascii "Compression Method Summary") = []
    else Spec.MethodTable (Spec.section out (ascii "Compression Method Summary")) r.count r.totalFiles
  statistics : if stats && !only then
      Spec.TextNumber out (ascii "Archive Statistics") (ascii "Total files:           ") r.totalFiles [] ∧
      Spec.TextNumber out (ascii "Archive Statistics") (ascii "Total uncompressed:    ") r.uncompressed (ascii " bytes") ∧
      Spec.TextNumber out (ascii "Archive Statistics") (ascii "Total compressed:      ") r.compressed (ascii " bytes") ∧
      Spec.TextNumber out (ascii "Archive Statistics") (ascii "Overall compression:   ") (shownRatio r.compressed r.uncompressed)
        (ascii "%")
    else Spec.section out (ascii "Archive Statistics") = []
  unsupported : if r.unsupported = [] then Spec.section out (ascii "Unsupported Compression Methods") = []
    else ∃ gap number percent, Spec.IsNumber r.unsupported.length number ∧
      Spec.IsNumber (shownRatio r.unsupported.length r.totalFiles) percent ∧
      Spec.section out (ascii "Unsupported Compression Methods") = List.replicate 60 0x3D#8 ::
        (ascii "Found " ++ number ++ ascii " files (" ++ List.replicate gap 0x20#8 ++ percent ++
          ascii "%) using unsupported compression methods:") ::
        if only then r.unsupported.map fun x => [0xE2, 0x9C, 0x97] ++ ascii " " ++ x.1 ++ ascii " " ++ Spec.methodWord x.2 else []
  breakdown : if r.unsupported = [] then Spec.section out (ascii "Unsupported method breakdown:") = []
    else Spec.Breakdown (Spec.section out (ascii "Unsupported method breakdown:")) r.count
  verdict : Spec.allSupported ∈ Spec.lines out ↔ r.unsupported = [] ∧ only = false

theorem methodName_noLf (m : Method) : 0x0A#8 ∉ m.name := by
  cases m with
  | multiple flags =>
    have hd : ∀ n, n < 16 → 0x0A#8 ≠ hexDigit n := by
      intro n hn he
      have := (hexDigit_text n hn).2
      rw [← he] at this
      revert this
      decide
    have h1 := hd (flags.toNat / 16) (by omega)
    have h2 := hd (flags.toNat % 16) (by omega)
    show 0x0A#8 ∉ word "Multiple (0x" ++ [hexDigit (flags.toNat / 16), hexDigit (flags.toNat % 16)] ++ word ")"
    refine noLf_append (noLf_append (by decide) ?_) (by decide)
    intro h
    simp only [List.mem_cons, List.not_mem_nil, or_false] at h
    exact h.elim h1 h2
  | _ => decide

theorem padLeft_noLf {w : Nat} {t : List Byte} (h : 0x0A#8 ∉ t) : 0x0A#8 ∉ padLeft w t :=
  noLf_append (fun h => absurd (List.mem_replicate.1 h).2 (by decide)) h

theorem padRight_noLf {w : Nat} {t : List Byte} (h : 0x0A#8 ∉ t) : 0x0A#8 ∉ padRight w t :=
  noLf_append h (fun h => absurd (List.mem_replicate.1 h).2 (by decide))

theorem methodMark_eq (m : Method) : (if methodNameSupported m.name then passMark else failMark) = Spec.methodMark m := by
  unfold Spec.methodMark
  rw [methodName_spec]
  by_cases h : m ∈ Spec.supportedMethods
  · rw [if_pos ((C73_method_words m m).2.2 h), if_pos h]; rfl
  · rw [if_neg (fun h' => h ((C73_method_words m m).2.1 h')), if_neg h]; rfl

/-! ## The labels of the blocks -/

def firstPart (quiet : Bool) (path : List Byte) : List TextLine :=
  if quiet then [] else [(word "Analyzing compression methods: ", path)]

def methodPart (order : List Method → List Method) (only : Bool) (r : Analysis) : List (List TextLine) :=
  if only then [] else [methodBlock order r]

def statisticsPart (only stats : Bool) (r : Analysis) : List (List TextLine) := if stats && !only then [statisticsBlock r] else []

def lastPart (order : List Method → List Method) (only : Bool) (r : Analysis) : List (List TextLine) :=
  if r.unsupported = [] then
    if only then [] else [[(passMark ++ word " ", word "All compression methods in this archive are supported!")]]
  else [unsupportedBlock only r, breakdownBlock order r]

theorem analysisBlocks_parts (order : List Method → List Method) (quiet only stats : Bool) (path : List Byte) (r : Analysis) :
    analysisBlocks order quiet only stats path r =
      firstPart quiet path :: (methodPart order only r ++ statisticsPart only stats r ++ lastPart order only r) := rfl

def labels0 : List (List Byte) := [word "Analyzing compression methods: "]
def labels1 : List (List Byte) :=
  [word "Compression Method Summary", List.replicate 60 0x3D#8, passMark ++ word " ", failMark ++ word " "]
def labels2 : List (List Byte) :=
  [word "Archive Statistics", List.replicate 60 0x2D#8, word "Total files:           ", word "Total uncompressed:    ",
    word "Total compressed:      ", word "Overall compression:   "]
def labels3 : List (List Byte) :=
  [word "Unsupported Compression Methods", List.replicate 60 0x3D#8, word "Found ", failMark ++ word " "]
def labels4 : List (List Byte) := [word "Unsupported method breakdown:", word "  "]

theorem firstPart_labels (quiet : Bool) (path : List Byte) : ∀ l ∈ (firstPart quiet path).map Prod.fst, l ∈ labels0 := by
  cases quiet <;> simp [firstPart, labels0]

theorem methodBlock_labels (order : List Method → List Method) (r : Analysis) :
    ∀ l ∈ (methodBlock order r).map Prod.fst, l ∈ labels1 := by
  intro l hl
  obtain ⟨x, hx, rfl⟩ := List.mem_map.1 hl
  unfold methodBlock heading at hx
  simp only [List.mem_append, List.mem_cons, List.not_mem_nil, or_false, List.mem_map] at hx
  rcases hx with (rfl | rfl) | ⟨m, _, rfl⟩
  · simp [labels1]
  · simp [labels1, doubleRule]
  · unfold methodRow
    dsimp only
    split <;> simp [labels1]

theorem statisticsBlock_labels (r : Analysis) : (statisticsBlock r).map Prod.fst = labels2 := rfl

theorem unsupportedBlock_labels (only : Bool) (r : Analysis) : ∀ l ∈ (unsupportedBlock only r).map Prod.fst, l ∈ labels3 := by
  intro l hl
  obtain ⟨x, hx, rfl⟩ := List.mem_map.1 hl
  unfold unsupportedBlock heading at hx
  simp only [List.mem_append, List.mem_cons, List.not_mem_nil, or_false] at hx
  rcases hx with (rfl | rfl) | rfl | hx
  · simp [labels3]
  · simp [labels3, doubleRule]
  · simp [labels3]
  · split at hx
    · obtain ⟨y, _, rfl⟩ := List.mem_map.1 hx
      simp [labels3]
    · cases hx

theorem breakdownBlock_labels (order : List Method → List Method) (r : Analysis) :
    ∀ l ∈ (breakdownBlock order r).map Prod.fst, l ∈ labels4 := by
  intro l hl
  obtain ⟨x, hx, rfl⟩ := List.mem_map.1 hl
  unfold breakdownBlock at hx
  simp only [List.mem_cons, List.mem_map] at hx
  rcases hx with rfl | ⟨m, _, rfl⟩ <;> simp [labels4]

theorem labels_cons {b : List TextLine} {bs : List (List TextLine)} {L M : List (List Byte)} (h1 : ∀ l ∈ b.map Prod.fst, l ∈ L)
    (h2 : ∀ l ∈ labelsOf bs, l ∈ M) : ∀ l ∈ labelsOf (b :: bs), l ∈ L ++ M := by
  intro l hl
  unfold labelsOf at hl
  rw [List.flatMap_cons] at hl
  rcases List.mem_append.1 hl with hl | hl
  · exact List.mem_append_left _ (h1 l hl)
  · exact List.mem_append_right _ (h2 l hl)

theorem labelsIn_append {as bs : List (List TextLine)} {L M : List (List Byte)} (h1 : ∀ l ∈ labelsOf as, l ∈ L)
    (h2 : ∀ l ∈ labelsOf bs, l ∈ M) : ∀ l ∈ labelsOf (as ++ bs), l ∈ L ++ M := by
  intro l hl
  unfold labelsOf at hl
  rw [List.flatMap_append] at hl
  rcases List.mem_append.1 hl with hl | hl
  · exact List.mem_append_left _ (h1 l hl)
  · exact List.mem_append_right _ (h2 l hl)

theorem methodPart_labels (order : List Method → List Method) (only : Bool) (r : Analysis) :
    ∀ l ∈ labelsOf (methodPart order only r), l ∈ (if only then [] else labels1) := by
  cases only
  · intro l hl
    have hl : l ∈ labelsOf [methodBlock order r] := hl
    unfold labelsOf at hl
    rw [List.flatMap_cons, List.flatMap_nil, List.append_nil] at hl
    exact methodBlock_labels order r l hl
  · intro l hl; cases hl

theorem statisticsPart_labels (only stats : Bool) (r : Analysis) :
    ∀ l ∈ labelsOf (statisticsPart only stats r), l ∈ (if stats && !only then labels2 else []) := by
  intro l hl
  unfold statisticsPart at hl
  by_cases h : (stats && !only) = true
  · rw [if_pos h] at hl ⊢
    unfold labelsOf at hl
    rw [List.flatMap_cons, List.flatMap_nil, List.append_nil, statisticsBlock_labels] at hl
    exact hl
  · rw [if_neg h] at hl
    cases hl

theorem lastPart_labels (order : List Method → List Method) (only : Bool) (r : Analysis) :
    ∀ l ∈ labelsOf (lastPart order only r), l ∈ (if r.unsupported = [] then [passMark ++ word " "] else labels3 ++ labels4) := by
  intro l hl
  unfold lastPart at hl
  by_cases h : r.unsupported = []
  · rw [if_pos h] at hl ⊢
    cases only
    · exact hl
    · cases hl
  · rw [if_neg h] at hl ⊢
    have h2 : ∀ l ∈ labelsOf [breakdownBlock order r], l ∈ labels4 := by
      intro l hl
      unfold labelsOf at hl
      rw [List.flatMap_cons, List.flatMap_nil, List.append_nil] at hl
      exact breakdownBlock_labels order r l hl
    exact labels_cons (unsupportedBlock_labels only r) h2 l hl

theorem sub_of_if {c : Prop} [Decidable c] {L M : List (List Byte)} {l : List Byte} (h : l ∈ (if c then L else M)) : l ∈ L ++ M := by
  split at h
  · exact List.mem_append_left _ h
  · exact List.mem_append_right _ h

/-! ## No line feeds -/

theorem analysisBlocks_clean (order : List Method → List Method) (quiet only stats : Bool) {path : List Byte} (hp : 0x0A#8 ∉ path)
    (r : Analysis) (hn : ∀ x ∈ r.unsupported, 0x0A#8 ∉ x.1) : CleanBlocks (analysisBlocks order quiet only stats path r) := by
  intro b hb l hl
  rw [analysisBlocks_parts] at hb
  simp only [List.mem_cons, List.mem_append] at hb
  rcases hb with rfl | (hb | hb) | hb
  · cases quiet
    · rw [List.mem_singleton.1 hl]
      exact ⟨by dsimp only; decide, hp⟩
    · cases hl
  · cases only
    · rw [List.mem_singleton.1 hb] at hl
      unfold methodBlock heading at hl
      simp only [List.mem_append, List.mem_cons, List.not_mem_nil, or_false, List.mem_map] at hl
      rcases hl with (rfl | rfl) | ⟨m, _, rfl⟩
      · exact ⟨by dsimp only; decide, by dsimp only; decide⟩
      · exact ⟨by decide, by decide⟩
      · unfold methodRow
        dsimp only
        refine ⟨?_, ?_⟩
        · split <;> decide
        · exact noLf_append (noLf_append (noLf_append (noLf_append (noLf_append (padRight_noLf (methodName_noLf m)) (by decide))
            (padLeft_noLf (decimal_noLf _))) (by decide)) (padLeft_noLf (decimal_noLf _))) (by decide)
    · cases hb
  · unfold statisticsPart at hb
    split at hb
    · rw [List.mem_singleton.1 hb] at hl
      unfold statisticsBlock heading at hl
      simp only [List.mem_append, List.mem_cons, List.not_mem_nil, or_false] at hl
      rcases hl with (rfl | rfl) | rfl | rfl | rfl | rfl
      · exact ⟨by dsimp only; decide, by dsimp only; decide⟩
      · exact ⟨by decide, by decide⟩
      · exact ⟨by dsimp only; decide, decimal_noLf _⟩
      · exact ⟨by dsimp only; decide, noLf_append (decimal_noLf _) (by decide)⟩
      · exact ⟨by dsimp only; decide, noLf_append (decimal_noLf _) (by decide)⟩
      · exact ⟨by dsimp only; decide, noLf_append (decimal_noLf _) (by decide)⟩
    · cases hb
  · unfold lastPart at hb
    split at hb
    · cases only
      · rw [List.mem_singleton.1 hb] at hl
        rw [List.mem_singleton.1 hl]
        exact ⟨by decide, by decide⟩
      · cases hb
    · simp only [List.mem_cons, List.not_mem_nil, or_false] at hb
      rcases hb with rfl | rfl
      · unfold unsupportedBlock heading at hl
        simp only [List.mem_append, List.mem_cons, List.not_mem_nil, or_false] at hl
        rcases hl with (rfl | rfl) | rfl | hl
        · exact ⟨by dsimp only; decide, by dsimp only; decide⟩
        · exact ⟨by decide, by decide⟩
        · exact ⟨by dsimp only; decide, noLf_append (noLf_append (noLf_append (decimal_noLf _) (by decide))
            (padLeft_noLf (decimal_noLf _))) (by decide)⟩
        · split at hl
          · obtain ⟨y, hy, rfl⟩ := List.mem_map.1 hl
            exact ⟨by dsimp only; decide, noLf_append (noLf_append (hn y hy) (by decide)) (methodName_noLf _)⟩
          · cases hl
      · unfold breakdownBlock at hl
        simp only [List.mem_cons, List.mem_map] at hl
        rcases hl with rfl | ⟨m, _, rfl⟩
        · exact ⟨by dsimp only; decide, by dsimp only; decide⟩
        · exact ⟨by dsimp only; decide, noLf_append (noLf_append (noLf_append (methodName_noLf m) (by decide)) (decimal_noLf _))
            (by decide)⟩

/-! ## What the blocks say -/

theorem methodLine_row (r : Analysis) (m : Method) :
    Spec.MethodLine ((methodRow r m).1 ++ (methodRow r m).2) m (r.count m) (shownRatio (r.count m) r.totalFiles) := by
  refine ⟨20 - m.name.length, 6 - (decimal (r.count m)).length, 3 - (decimal (shownRatio (r.count m) r.totalFiles)).length,
    decimal (r.count m), decimal (shownRatio (r.count m) r.totalFiles), isNumber_decimal _, isNumber_decimal _, ?_⟩
  unfold methodRow padRight padLeft
  dsimp only
  rw [methodMark_eq, ← methodName_spec]
  simp only [word_ascii, List.append_assoc]

theorem methodTable_block (order : List Method → List Method) (ho : ∀ l, (order l).Perm l) (r : Analysis) :
    Spec.MethodTable (joinedLines (doubleRule :: (sortedMethods order r).map (methodRow r))) r.count r.totalFiles := by
  have hperm : (sortedMethods order r).Perm r.methods := (List.mergeSort_perm _ _).trans (ho _)
  have hrows : ((sortedMethods order r).map fun m => (m, (methodRow r m).1 ++ (methodRow r m).2)).map (·.1) = sortedMethods order r := by
    rw [List.map_map]
    exact (List.map_congr_left fun _ _ => rfl).trans (List.map_id _)
  refine ⟨(sortedMethods order r).map fun m => (m, (methodRow r m).1 ++ (methodRow r m).2), ?_, ?_, ?_, ?_, ?_⟩
  · unfold joinedLines
    rw [List.map_cons, List.map_map, List.map_map]
    rfl
  · rw [hrows]
    exact hperm.nodup_iff.2 (allMethods_nodup.filter _)
  · intro m
    rw [hrows, hperm.mem_iff]
    unfold Analysis.methods
    rw [List.mem_filter]
    exact ⟨fun h => by simpa using h.2, fun h => ⟨mem_allMethods m, by simpa using h⟩⟩
  · rw [List.pairwise_map]
    have := List.pairwise_mergeSort (le := fun a b => decide (r.count b ≤ r.count a))
      (fun a b c h1 h2 => by simp only [decide_eq_true_eq] at *; omega)
      (fun a b => by simp only [Bool.or_eq_true, decide_eq_true_eq]; omega) (order r.methods)
    exact this.imp fun h => by simpa using h
  · intro x hx
    obtain ⟨m, _, rfl⟩ := List.mem_map.1 hx
    exact methodLine_row r m

theorem breakdown_block (order : List Method → List Method) (ho : ∀ l, (order l).Perm l) (r : Analysis)
    (hu : ∀ m, unsupportedWith r m = if m ∈ Spec.supportedMethods then 0 else r.count m) :
    Spec.Breakdown (joinedLines ((order (allMethods.filter fun m => unsupportedWith r m ≠ 0)).map fun m =>
      (word "  ", m.name ++ word " - " ++ decimal (unsupportedWith r m) ++ word " files"))) r.count := by
  have hperm := ho (allMethods.filter fun m => unsupportedWith r m ≠ 0)
  have hmem : ∀ m, m ∈ order (allMethods.filter fun m => unsupportedWith r m ≠ 0) ↔ r.count m ≠ 0 ∧ m ∉ Spec.supportedMethods := by
    intro m
    rw [hperm.mem_iff, List.mem_filter]
    have : decide (unsupportedWith r m ≠ 0) = true ↔ r.count m ≠ 0 ∧ m ∉ Spec.supportedMethods := by
      rw [decide_eq_true_eq, hu m]
      by_cases h : m ∈ Spec.supportedMethods
      · rw [if_pos h]; exact ⟨fun h' => absurd rfl h', fun h' => absurd h h'.2⟩
      · rw [if_neg h]; exact ⟨fun h' => ⟨h', h⟩, fun h' => h'.1⟩
    rw [this]
    exact ⟨fun h => h.2, fun h => ⟨mem_allMethods m, h⟩⟩
  have hrows : ((order (allMethods.filter fun m => unsupportedWith r m ≠ 0)).map fun m =>
      (m, word "  " ++ (m.name ++ word " - " ++ decimal (unsupportedWith r m) ++ word " files"))).map (·.1) =
        order (allMethods.filter fun m => unsupportedWith r m ≠ 0) := by
    rw [List.map_map]
    exact (List.map_congr_left fun _ _ => rfl).trans (List.map_id _)
  refine ⟨(order (allMethods.filter fun m => unsupportedWith r m ≠ 0)).map fun m =>
      (m, word "  " ++ (m.name ++ word " - " ++ decimal (unsupportedWith r m) ++ word " files")), ?_, ?_, ?_, ?_⟩
  · unfold joinedLines
    rw [List.map_map, List.map_map]
    rfl
  · rw [hrows]
    exact hperm.nodup_iff.2 (allMethods_nodup.filter _)
  · intro m
    rw [hrows]
    exact hmem m
  · intro x hx
    obtain ⟨m, hm, rfl⟩ := List.mem_map.1 hx
    refine ⟨decimal (r.count m), isNumber_decimal _, ?_⟩
    have := hu m
    rw [if_neg ((hmem m).1 hm).2] at this
    dsimp only
    rw [this, ← methodName_spec]
    simp only [word_ascii, List.append_assoc]

theorem unsupportedWith_count {e : Env} {a : Archive} {r : Analysis} (h : a.analyze e = .ok (some r)) :
    (∀ m, unsupportedWith r m = if m ∈ Spec.supportedMethods then 0 else r.count m) ∧ (∀ x ∈ r.unsupported, 0x0A#8 ∉ x.1) := by
  obtain ⟨entries, found, hl, _, _, hsub, _, _, hc, _, _, hun⟩ := C63_figures e a r h
  refine ⟨fun m => ?_, fun x hx => ?_⟩
  · unfold unsupportedWith
    rw [hun, hc m, List.filter_map, List.length_map, List.filter_filter]
    by_cases hm : m ∈ Spec.supportedMethods
    · rw [if_pos hm, List.length_eq_zero_iff, List.filter_eq_nil_iff]
      intro y _ hy
      simp only [Function.comp, Bool.and_eq_true, decide_eq_true_eq] at hy
      exact hy.2 (hy.1 ▸ hm)
    · rw [if_neg hm]
      congr 1
      refine List.filter_congr fun y _ => ?_
      simp only [Function.comp]
      by_cases hy : Spec.methodOf y.2 = m
      · simp [hy, hm]
      · simp [hy]
  · rw [hun] at hx
    obtain ⟨y, hy, rfl⟩ := List.mem_map.1 hx
    exact listed_noLf hl y.1 (hsub.mem (List.mem_map.2 ⟨y, (List.mem_filter.1 hy).1, rfl⟩))

theorem last_of_append {a b : List Byte} (hb : b ≠ []) : (a ++ b).getLast? = b.getLast? := by
  rw [List.getLast?_append]
  cases h : b.getLast? with
  | none => exact absurd (List.getLast?_eq_none_iff.1 h) hb
  | some x => rfl

/-- Only one line is the verdict. -/
theorem not_allSupported (order : List Method → List Method) (quiet only stats : Bool) (path : List Byte) (r : Analysis) :
    Spec.allSupported ∈ blockLines (analysisBlocks order quiet only stats path r) ↔ r.unsupported = [] ∧ only = false := by
  have hlines : ∀ bs : List (List TextLine), Spec.allSupported ∈ blockLines bs ↔ ∃ b ∈ bs, ∃ l ∈ b, l.1 ++ l.2 = Spec.allSupported := by
    intro bs
    cases bs with
    | nil => simp [blockLines]
    | cons b bs =>
      unfold blockLines
      simp only [List.mem_append, List.mem_flatMap, List.mem_cons, List.mem_map]
      constructor
      · rintro (⟨l, hl, h⟩ | ⟨c, hc, h | ⟨l, hl, h⟩⟩)
        · exact ⟨b, .inl rfl, l, hl, h⟩
        · exact absurd h (by decide)
        · exact ⟨c, .inr hc, l, hl, h⟩
      · rintro ⟨c, rfl | hc, l, hl, h⟩
        · exact .inl ⟨l, hl, h⟩
        · exact .inr ⟨c, hc, .inr ⟨l, hl, h⟩⟩
  rw [hlines, analysisBlocks_parts]
  have hother : ∀ (L : List (List Byte)) (l : TextLine), l.1 ∈ L → (∀ x ∈ L, x.isPrefixOf Spec.allSupported = false) →
      l.1 ++ l.2 ≠ Spec.allSupported := fun L l h1 h2 => join_ne (h2 _ h1)
  constructor
  · rintro ⟨b, hb, l, hl, h⟩
    simp only [List.mem_cons, List.mem_append] at hb
    rcases hb with rfl | (hb | hb) | hb
    · exact absurd h (hother labels0 l (firstPart_labels quiet path _ (List.mem_map.2 ⟨l, hl, rfl⟩)) (by decide))
    · cases only
      · rw [List.mem_singleton.1 hb] at hl
        unfold methodBlock heading at hl
        simp only [List.mem_append, List.mem_cons, List.not_mem_nil, or_false, List.mem_map] at hl
        rcases hl with (rfl | rfl) | ⟨m, _, rfl⟩
        · exact absurd h (by decide)
        · exact absurd h (by decide)
        · have hl := congrArg List.getLast? h
          unfold methodRow at hl
          dsimp only at hl
          rw [← List.append_assoc, last_of_append (by decide)] at hl
          exact absurd hl (by decide)
      · cases hb
    · unfold statisticsPart at hb
      split at hb
      · rw [List.mem_singleton.1 hb] at hl
        exact absurd h (hother labels2 l (statisticsBlock_labels r ▸ List.mem_map.2 ⟨l, hl, rfl⟩) (by decide))
      · cases hb
    · unfold lastPart at hb
      split at hb
      · rename_i hr
        cases only
        · exact ⟨hr, rfl⟩
        · cases hb
      · simp only [List.mem_cons, List.not_mem_nil, or_false] at hb
        rcases hb with rfl | rfl
        · exact absurd h (hother labels3 l (unsupportedBlock_labels only r _ (List.mem_map.2 ⟨l, hl, rfl⟩)) (by decide))
        · exact absurd h (hother labels4 l (breakdownBlock_labels order r _ (List.mem_map.2 ⟨l, hl, rfl⟩)) (by decide))
  · rintro ⟨hr, rfl⟩
    refine ⟨[(passMark ++ word " ", word "All compression methods in this archive are supported!")], ?_, _, List.mem_singleton.2 rfl, ?_⟩
    · refine List.mem_cons_of_mem _ (List.mem_append_right _ ?_)
      unfold lastPart
      rw [if_pos hr]
      exact List.mem_singleton.2 rfl
    · decide

theorem analysisText_says (order : List Method → List Method) (ho : ∀ l, (order l).Perm l) (quiet only stats : Bool) {path : List Byte}
    (hp : 0x0A#8 ∉ path) (r : Analysis) (hn : ∀ x ∈ r.unsupported, 0x0A#8 ∉ x.1)
    (hu : ∀ m, unsupportedWith r m = if m ∈ Spec.supportedMethods then 0 else r.count m) :
    Spec.AnalysisTextSays (printLines (blockLines (analysisBlocks order quiet only stats path r))) only stats r := by
  have hc := analysisBlocks_clean order quiet only stats hp r hn
  have l0 := firstPart_labels quiet path
  have l1 := methodPart_labels order only r
  have l2 := statisticsPart_labels only stats r
  have l3 := lastPart_labels order only r
  have l1w : ∀ l ∈ labelsOf (methodPart order only r), l ∈ [] ++ labels1 := fun l h => sub_of_if (l1 l h)
  have l2w : ∀ l ∈ labelsOf (statisticsPart only stats r), l ∈ labels2 ++ [] := fun l h => sub_of_if (l2 l h)
  have l3w : ∀ l ∈ labelsOf (lastPart order only r), l ∈ [passMark ++ word " "] ++ (labels3 ++ labels4) := fun l h => sub_of_if (l3 l h)
  refine ⟨?_, ?_, ?_, ?_, ?_⟩
  · cases only
    · have e : analysisBlocks order quiet false stats path r = [firstPart quiet path] ++
          ((word "Compression Method Summary", []) :: doubleRule :: (sortedMethods order r).map (methodRow r)) ::
          (statisticsPart false stats r ++ lastPart order false r) := rfl
      have := section_at [firstPart quiet path] (statisticsPart false stats r ++ lastPart order false r)
        (word "Compression Method Summary") (doubleRule :: (sortedMethods order r).map (methodRow r)) (by decide) (e ▸ hc) ?_ ?_
      · show Spec.MethodTable _ _ _
        rw [e]
        refine Eq.symm this ▸ methodTable_block order ho r
      · intro l hl
        have := labels_cons (M := []) l0 (fun l h => by cases h) l hl
        clear hl
        revert l
        decide
      · intro l hl
        have := methodBlock_labels order r l.1 (List.mem_map.2 ⟨l, List.mem_cons_of_mem _ hl, rfl⟩)
        revert this
        generalize l.1 = x
        revert x
        decide
    · show Spec.section _ _ = []
      refine section_none _ _ (by decide) hc fun l hl => ?_
      have := labels_cons l0 (labelsIn_append (labelsIn_append (L := []) (fun l h => by cases h) l2w) l3w) l hl
      clear hl
      revert l
      decide
  · by_cases hs : (stats && !only) = true
    · rw [if_pos hs]
      have e : analysisBlocks order quiet only stats path r = (firstPart quiet path :: methodPart order only r) ++
          statisticsBlock r :: lastPart order only r := by
        rw [analysisBlocks_parts]
        unfold statisticsPart
        rw [if_pos hs]
        simp
      have hsec := section_at (firstPart quiet path :: methodPart order only r) (lastPart order only r)
        (word "Archive Statistics") ((statisticsBlock r).drop 1) (by decide) (by rw [e] at hc; exact hc) (by
          intro l hl
          have := labels_cons l0 l1w l hl
          clear hl
          revert l
          decide) (by
          intro l hl
          have : l.1 ∈ labels2 := statisticsBlock_labels r ▸ List.mem_map.2 ⟨l, List.mem_cons_of_mem _ hl, rfl⟩
          revert this
          generalize l.1 = x
          revert x
          decide)
      have hsec : Spec.section (printLines (blockLines (analysisBlocks order quiet only stats path r))) (ascii "Archive Statistics") =
          joinedLines ((statisticsBlock r).drop 1) := by rw [e]; exact hsec
      refine ⟨⟨_, isNumber_decimal _, ?_⟩, ⟨_, isNumber_decimal _, ?_⟩, ⟨_, isNumber_decimal _, ?_⟩, ⟨_, isNumber_decimal _, ?_⟩⟩
      · unfold Spec.TextSays
        rw [hsec, List.append_nil]
        exact filter_one [singleRule] _ _ _ (by decide) (by dsimp only [List.map]; decide)
      · unfold Spec.TextSays
        rw [hsec]
        exact filter_one [singleRule, (word "Total files:           ", decimal r.totalFiles)] _ _ _
          (by dsimp only [List.map]; decide) (by dsimp only [List.map]; decide)
      · unfold Spec.TextSays
        rw [hsec]
        exact filter_one [singleRule, (word "Total files:           ", decimal r.totalFiles),
          (word "Total uncompressed:    ", decimal r.uncompressed ++ word " bytes")] _ _ _
          (by dsimp only [List.map]; decide) (by dsimp only [List.map]; decide)
      · unfold Spec.TextSays
        rw [hsec]
        exact filter_one [singleRule, (word "Total files:           ", decimal r.totalFiles),
          (word "Total uncompressed:    ", decimal r.uncompressed ++ word " bytes"),
          (word "Total compressed:      ", decimal r.compressed ++ word " bytes")] [] _ _
          (by dsimp only [List.map]; decide) (by decide)
    · rw [if_neg hs]
      refine section_none _ _ (by decide) hc fun l hl => ?_
      have := labels_cons l0 (labelsIn_append (labelsIn_append l1w (M := []) (fun l h => by
        have := l2 l h; rw [if_neg hs] at this; cases this)) l3w) l hl
      clear hl
      revert l
      decide
  · by_cases hr : r.unsupported = []
    · rw [if_pos hr]
      refine section_none _ _ (by decide) hc fun l hl => ?_
      have := labels_cons l0 (labelsIn_append (labelsIn_append l1w l2w) (fun l h => if_pos hr ▸ l3 l h)) l hl
      clear hl
      revert l
      decide
    · rw [if_neg hr]
      have e : analysisBlocks order quiet only stats path r =
          (firstPart quiet path :: (methodPart order only r ++ statisticsPart only stats r)) ++
          unsupportedBlock only r :: [breakdownBlock order r] := by
        rw [analysisBlocks_parts]
        unfold lastPart
        rw [if_neg hr]
        simp
      have hsec := section_at (firstPart quiet path :: (methodPart order only r ++ statisticsPart only stats r)) [breakdownBlock order r]
        (word "Unsupported Compression Methods") ((unsupportedBlock only r).drop 1) (by decide) (by rw [e] at hc; exact hc) (by
          intro l hl
          have := labels_cons l0 (labelsIn_append l1w l2w) l hl
          clear hl
          revert l
          decide) (by
          intro l hl
          have := unsupportedBlock_labels only r l.1 (List.mem_map.2 ⟨l, List.mem_cons_of_mem _ hl, rfl⟩)
          revert this
          generalize l.1 = x
          revert x
          decide)
      refine ⟨3 - (decimal (shownRatio r.unsupported.length r.totalFiles)).length, decimal r.unsupported.length,
        decimal (shownRatio r.unsupported.length r.totalFiles), isNumber_decimal _, isNumber_decimal _, ?_⟩
      rw [e]
      refine hsec.trans ?_
      unfold unsupportedBlock heading joinedLines padLeft
      simp only [List.cons_append, List.nil_append, List.drop_succ_cons, List.drop_zero, List.map_cons, doubleRule, List.append_nil,
        word_ascii, List.append_assoc]
      refine congrArg _ (congrArg _ ?_)
      cases only
      · rfl
      · simp only [if_true, List.map_map]
        refine List.map_congr_left fun x _ => ?_
        simp only [Function.comp, methodName_spec, failMark, List.append_assoc]
        rfl
  · by_cases hr : r.unsupported = []
    · rw [if_pos hr]
      refine section_none _ _ (by decide) hc fun l hl => ?_
      have := labels_cons l0 (labelsIn_append (labelsIn_append l1w l2w) (fun l h => if_pos hr ▸ l3 l h)) l hl
      clear hl
      revert l
      decide
    · rw [if_neg hr]
      have e : analysisBlocks order quiet only stats path r =
          (firstPart quiet path :: (methodPart order only r ++ statisticsPart only stats r ++ [unsupportedBlock only r])) ++
          breakdownBlock order r :: [] := by
        rw [analysisBlocks_parts]
        unfold lastPart
        rw [if_neg hr]
        simp
      have hsec := section_at (firstPart quiet path :: (methodPart order only r ++ statisticsPart only stats r ++ [unsupportedBlock only r]))
        [] (word "Unsupported method breakdown:") ((breakdownBlock order r).drop 1) (by decide) (by rw [e] at hc; exact hc) (by
          intro l hl
          have := labels_cons l0 (labelsIn_append (labelsIn_append l1w l2w)
            (labels_cons (unsupportedBlock_labels only r) (M := []) (fun l h => by cases h))) l hl
          clear hl
          revert l
          decide) (by
          intro l hl
          have := breakdownBlock_labels order r l.1 (List.mem_map.2 ⟨l, List.mem_cons_of_mem _ hl, rfl⟩)
          revert this
          generalize l.1 = x
          revert x
          decide)
      rw [e]
      exact Eq.symm hsec ▸ breakdown_block order ho r hu
  · rw [lines_blocks hc, List.mem_append, not_allSupported]
    exact ⟨fun h => h.elim id fun h => absurd (List.mem_singleton.1 h) (by decide), .inl⟩

/-- C93: for a path without line feeds, the text that `archive analyze` prints says the figures of the analysis (C63): a line for
every method that occurs, most files first, whether it is supported, how many files have it and how many percent that is; with
`--show-stats` the totals; if there are files with methods that are not supported, how many, which (with `--unsupported-only`) and
how many for each method; and that all methods are supported exactly if there are none, unless `--unsupported-only` is given. This
is so with and without `--quiet`. -/
theorem C93_analysis_text (e : Env) (order : List Method → List Method) (ho : ∀ l, (order l).Perm l) (quiet only stats : Bool)
    (path : List Byte) (hp : 0x0A#8 ∉ path) (a : Archive) (r : Analysis) (h : a.analyze e = .ok (some r)) :
    ∃ out, cliAnalyzeText e order quiet only stats path a = .ok out ∧ Spec.AnalysisTextSays out only stats r := by
  obtain ⟨hu, hn⟩ := unsupportedWith_count h
  refine ⟨_, ?_, analysisText_says order ho quiet only stats hp r hn hu⟩
  unfold cliAnalyzeText
  rw [h]
  rfl

/-- C93 is violated: an archive without extended tables whose block flags leave the lowest eight bits unused, as the format does, is
always reported to have supported methods only, whatever the methods its files are stored with. -/
theorem C93_verdict_always_good (e : Env) (order : List Method → List Method) (ho : ∀ l, (order l).Perm l) (quiet stats : Bool)
    (path : List Byte) (hp : 0x0A#8 ∉ path) (a : Archive) (hx : a.hetTable = none ∨ a.betTable = none)
    (hlow : ∀ bt, a.blockTable = some bt → ∀ block ∈ bt, block.flags.toNat % 256 = 0) (r : Analysis)
    (h : a.analyze e = .ok (some r)) :
    ∃ out, cliAnalyzeText e order quiet false stats path a = .ok out ∧ Spec.allSupported ∈ Spec.lines out := by
  obtain ⟨out, ho, hs⟩ := C93_analysis_text e order ho quiet false stats path hp a r h
  exact ⟨out, ho, hs.verdict.2 ⟨(C63_no_method_reported e a hx hlow r h).2, rfl⟩⟩

/-- C93 is violated: PKWARE is called not supported, and what is compressed with it is decompressed. -/
theorem C93_unsupported_yet_read (e : Codecs) (he : e.Lawful) (d body : List Byte) (hbig : d.length < 2 ^ 61)
    (h : compress e d 0x08#8 = .ok (0x08#8 :: body)) (hne : 0x08#8 :: body ≠ d) :
    decompress e body 0x08#8 d.length = .ok d ∧ Spec.methodMark (Method.fromFlags 0x08#8) = [0xE2, 0x9C, 0x97] := by
  refine ⟨?_, by decide⟩
  rcases C15_round_trip_partial e he d _ 0x08#8 (by decide) (by decide) (by decide)
    (fun h => by rcases h with h | h <;> exact absurd h (by decide)) hbig h with h' | ⟨b, h', hd⟩
  · exact absurd h' hne
  · cases h'
    exact hd

example : ∃ d body, compress toyCodecs d 0x08#8 = .ok (0x08#8 :: body) ∧ 0x08#8 :: body ≠ d :=
  ⟨List.replicate 9 7#8, [1#8, 7#8, 9#8], by decide +kernel, by decide +kernel⟩

/-- C93: nothing but the path and that there are no files is printed about an archive that lists none. -/
theorem C93_nothing (e : Env) (order : List Method → List Method) (quiet only stats : Bool) (path : List Byte) (hp : 0x0A#8 ∉ path)
    (a : Archive) (h : a.list e = .ok []) :
    ∃ out, cliAnalyzeText e order quiet only stats path a = .ok out ∧
      Spec.lines out = (if quiet then [] else [ascii "Analyzing compression methods: " ++ path]) ++
        [ascii "No files found in archive", []] := by
  refine ⟨_, by unfold cliAnalyzeText; rw [(C63_nothing_iff e a).2 h]; rfl, ?_⟩
  cases quiet
  · have := lines_flatMap [word "Analyzing compression methods: " ++ path, word "No files found in archive"] (by
      intro l hl
      simp only [List.mem_cons, List.not_mem_nil, or_false] at hl
      rcases hl with rfl | rfl
      · exact noLf_append (by decide) hp
      · decide) []
    rw [List.append_nil, List.flatMap_cons, List.flatMap_cons, List.flatMap_nil, List.append_nil] at this
    exact this
  · show Spec.lines ([] ++ outLine (word "No files found in archive")) = [] ++ [ascii "No files found in archive", []]
    decide +kernel

/-- Rows for two methods, one of them not supported. -/
example : [Method.pkware, .none].map (fun m => (methodRow ⟨fun m => if m = .none then 1 else 2, [], 0, 0, 3⟩ m).1 ++
      (methodRow ⟨fun m => if m = .none then 1 else 2, [], 0, 0, 3⟩ m).2) =
    [[0xE2, 0x9C, 0x97] ++ ascii " PKWare DCL                2 files ( 66%)",
      [0xE2, 0x9C, 0x93] ++ ascii " None                      1 files ( 33%)"] := by
  decide +kernel

/-- The sample archive has an analysis. -/
example : ∃ a r, Archive.analyze toyEnv a = .ok (some r) ∧ ∃ out, cliAnalyzeText toyEnv id false false true (ascii "a.mpq") a = .ok out ∧
    Spec.AnalysisTextSays out false true r := by
  obtain ⟨r, h, _⟩ := methodArchive_sample _ _ rfl rfl
  exact ⟨_, r, h, C93_analysis_text toyEnv id (fun _ => .refl _) false false true (ascii "a.mpq") (by decide) _ r h⟩

end Mopaq
