import Verif.Model.Extensions
import Verif.Props.Report
import Verif.Props.Analyze
import Verif.Props.CliFile

/-!
# C92: analysis by file extension
-/

namespace Mopaq

open _root_.Spec (JsonNumber JsonDigits)

/-- A byte that separates folders in the name of a file. -/
def Spec.IsSeparator (b : Byte) : Prop := b = 0x5C#8 ∨ b = 0x2F#8

/-- The extension of a file: what follows the last dot of the last part of its name, if there is something on both sides. -/
def Spec.HasExtension (name ext : List Byte) : Prop :=
  ∃ folder base, name = folder ++ base ++ [0x2E#8] ++ ext ∧ (folder = [] ∨ ∃ b, folder.getLast? = some b ∧ Spec.IsSeparator b) ∧
    base ≠ [] ∧ ext ≠ [] ∧ (∀ b ∈ base ++ ext, ¬ Spec.IsSeparator b) ∧ 0x2E#8 ∉ ext

theorem splitLastDot_dot (before after : List Byte) (h : 0x2E#8 ∉ after) :
    splitLastDot (before ++ [0x2E#8] ++ after) = some (before, after) := by
  have hr : (before ++ [0x2E#8] ++ after).reverse = after.reverse ++ 0x2E#8 :: before.reverse := by simp
  have hd : ∀ b ∈ after.reverse, (b != 0x2E#8) = true := by
    intro b hb
    simp only [bne_iff_ne, ne_eq]
    rintro rfl
    exact h (List.mem_reverse.1 hb)
  unfold splitLastDot
  rw [hr, List.dropWhile_append_of_pos hd, List.takeWhile_append_of_pos hd]
  simp

theorem splitLastDot_none (file : List Byte) (h : 0x2E#8 ∉ file) : splitLastDot file = none := by
  have hd : ∀ b ∈ file.reverse, (b != 0x2E#8) = true := by
    intro b hb
    simp only [bne_iff_ne, ne_eq]
    rintro rfl
    exact h (List.mem_reverse.1 hb)
  have := List.dropWhile_append_of_pos (l₂ := []) hd
  rw [List.append_nil, List.dropWhile_nil] at this
  unfold splitLastDot
  rw [this]

/-- What is behind the last slash. -/
theorem split_slash (l : List Byte) : ∃ pre rest, l = pre ++ rest ∧ (pre = [] ∨ pre.getLast? = some 0x2F#8) ∧ 0x2F#8 ∉ rest := by
  induction l with
  | nil => exact ⟨[], [], rfl, .inl rfl, by simp⟩
  | cons b l ih =>
    obtain ⟨pre, rest, rfl, hp, hr⟩ := ih
    by_cases hpre : pre = []
    · subst hpre
      by_cases hb : b = 0x2F#8
      · exact ⟨[b], rest, rfl, .inr (by rw [hb]; rfl), hr⟩
      · refine ⟨[], b :: rest, rfl, .inl rfl, ?_⟩
        intro h
        rcases List.mem_cons.1 h with h | h
        · exact hb h.symm
        · exact hr h
    · refine ⟨b :: pre, rest, rfl, .inr ?_, hr⟩
      rcases hp with hp | hp
      · exact absurd hp hpre
      · rw [List.getLast?_cons, hp]; rfl

theorem fileExtension_dot (lower : List Byte → List Byte) (pre before after : List Byte)
    (hpre : pre = [] ∨ pre.getLast? = some 0x2F#8) (hb : before ≠ []) (ha : after ≠ []) (h1 : 0x2F#8 ∉ before) (h2 : 0x2F#8 ∉ after)
    (h3 : 0x2E#8 ∉ after) : fileExtension lower (pre ++ (before ++ [0x2E#8] ++ after)) = lower after := by
  have hlen : 3 ≤ (before ++ [0x2E#8] ++ after).length := by
    have := List.length_pos_iff.2 hb
    have := List.length_pos_iff.2 ha
    simp only [List.length_append, List.length_singleton]
    omega
  have hname : fileName (pre ++ (before ++ [0x2E#8] ++ after)) = some (before ++ [0x2E#8] ++ after) := by
    rw [fileName_last pre _ hpre, if_neg]
    · intro h; rw [h] at hlen; simp at hlen
    · simp [h1, h2]
    · simp
    · intro h; rw [h] at hlen; simp at hlen
  unfold fileExtension pathExtension
  rw [hname]
  simp only [splitLastDot_dot before after h3, if_neg hb]

/-- C92: a file with an extension is counted under its extension, in lower case, whatever separates folders in its name. -/
theorem C92_extension (lower : List Byte → List Byte) (name ext : List Byte) (h : Spec.HasExtension name ext) :
    fileExtension lower name = lower ext := by
  obtain ⟨folder, base, rfl, _, hb, he, hsep, hdot⟩ := h
  obtain ⟨pre, rest, rfl, hp, hr⟩ := split_slash folder
  have hslash : ∀ l : List Byte, (∀ b ∈ l, b ∈ base ++ ext) → 0x2F#8 ∉ l := fun l hl hm => hsep _ (hl _ hm) (.inr rfl)
  have := fileExtension_dot lower pre (rest ++ base) ext hp (by simp [hb]) he
    (by
      intro h
      rcases List.mem_append.1 h with h | h
      · exact hr h
      · exact hslash base (fun b hb => List.mem_append_left _ hb) h)
    (hslash ext fun b hb => List.mem_append_right _ hb) hdot
  simpa [List.append_assoc] using this

example : Spec.HasExtension (ascii "units.v2\\human/grunt.old.MDX") (ascii "MDX") :=
  ⟨ascii "units.v2\\human/", ascii "grunt.old", by decide, .inr ⟨0x2F#8, by decide, .inr rfl⟩, by decide, by decide,
    by unfold Spec.IsSeparator; decide, by decide⟩

/-- C92: a file without a dot behind the last slash of its name is counted with those that have no extension. Missing for the full
claim: names with a dot in a folder that is followed by a backslash only (`C92_folder_taken_for_extension`), and names that end in
a dot. -/
theorem C92_no_extension_partial (lower : List Byte → List Byte) (pre last : List Byte)
    (hpre : pre = [] ∨ pre.getLast? = some 0x2F#8) (hl : last ≠ []) (h1 : 0x2F#8 ∉ last) (h2 : 0x2E#8 ∉ last) :
    fileExtension lower (pre ++ last) = ascii "(no extension)" := by
  have hname : fileName (pre ++ last) = some last := by
    rw [fileName_last pre last hpre h1 hl, if_neg]
    · rintro rfl; simp at h2
    · rintro rfl; simp at h2
  unfold fileExtension pathExtension
  rw [hname]
  simp only [splitLastDot_none last h2]
  rfl

example : fileExtension id (ascii "maps.v2/scripts\\readme") = ascii "(no extension)" :=
  C92_no_extension_partial id (ascii "maps.v2/") (ascii "scripts\\readme") (.inr (by decide)) (by decide) (by decide) (by decide)

/-- C92 is violated: for a file without a dot, in a folder with one, where folders are separated by a backslash as in the format,
the end of the name of the folder and the name of the file are taken for the extension. -/
theorem C92_folder_taken_for_extension (lower : List Byte → List Byte) (folder tail last : List Byte) (hf : folder ≠ [])
    (h1 : 0x2F#8 ∉ folder ++ tail ++ last) (h2 : 0x2E#8 ∉ tail ++ last) :
    fileExtension lower (folder ++ [0x2E#8] ++ tail ++ [0x5C#8] ++ last) = lower (tail ++ [0x5C#8] ++ last) ∧
      ¬ ∃ ext, Spec.HasExtension (folder ++ [0x2E#8] ++ tail ++ [0x5C#8] ++ last) ext := by
  refine ⟨?_, ?_⟩
  · have := fileExtension_dot lower [] folder (tail ++ [0x5C#8] ++ last) (.inl rfl) hf (by simp)
      (fun h => h1 (by simp [h])) (fun h => h1 (by
        have : 0x2F#8 ∈ tail ∨ 0x2F#8 ∈ last := by simpa using h
        rcases this with h | h <;> simp [h])) (by simpa using h2)
    simpa [List.append_assoc] using this
  · rintro ⟨ext, fo, base, he, _, _, _, hsep, hd⟩
    -- behind the last dot there is a backslash
    have hs := congrArg splitLastDot he
    have e1 : folder ++ [0x2E#8] ++ tail ++ [0x5C#8] ++ last = folder ++ [0x2E#8] ++ (tail ++ [0x5C#8] ++ last) := by simp
    rw [e1, splitLastDot_dot _ _ (by simpa using h2), splitLastDot_dot _ _ hd] at hs
    have hx := (Prod.mk.inj (Option.some.inj hs)).2
    exact hsep 0x5C#8 (List.mem_append_right _ (by rw [← hx]; simp)) (.inl rfl)

example : fileExtension id (ascii "maps.v2\\readme") = ascii "v2\\readme" :=
  (C92_folder_taken_for_extension id (ascii "maps") (ascii "v2") (ascii "readme") (by decide) (by decide) (by decide)).1

/-- The files among those found that have an extension and a method. -/
def Spec.withExtension (lower : List Byte → List Byte) (found : List (FileEntry × FileInfo)) (ext : List Byte) (m : Method) :
    List (FileEntry × FileInfo) := found.filter fun x => fileExtension lower x.1.name = ext ∧ Spec.methodOf x.2 = m

theorem extensionLoop_figures (a : Archive) (lower : List Byte → List Byte) : ∀ (entries : List FileEntry) (r r' : Analysis)
    (s : ExtensionStats), a.analyzeLoop entries r = .ok r' → s.extensions.Nodup → ∃ (s' : ExtensionStats)
      (found : List (FileEntry × FileInfo)), a.extensionLoop lower entries s = .ok s' ∧
      (∀ x ∈ found, a.findFile x.1.name = .ok (some x.2)) ∧ (found.map (·.1)).Sublist entries ∧
      (∀ x ∈ entries, x ∈ found.map (·.1) ∨ a.findFile x.name = .ok none) ∧
      (∀ m, r'.count m = r.count m + (found.filter fun x => Spec.methodOf x.2 = m).length) ∧
      (∀ x m, s'.count x m = s.count x m + (Spec.withExtension lower found x m).length) ∧ s'.extensions.Nodup ∧
      (∀ x, x ∈ s'.extensions ↔ x ∈ s.extensions ∨ ∃ y ∈ found, fileExtension lower y.1.name = x)
  | [], r, r', s, h, hn => by
    rw [Archive.analyzeLoop] at h
    cases h
    exact ⟨s, [], rfl, by simp, by simp, by simp, by simp, by simp [Spec.withExtension], hn, by simp⟩
  | x :: rest, r, r', s, h, hn => by
    rw [Archive.analyzeLoop] at h
    obtain ⟨o, ho, h⟩ := bind_eq_ok.1 h
    cases o with
    | none =>
      obtain ⟨s', found, h0, h1, h2, h3, h4⟩ := extensionLoop_figures a lower rest r r' s h hn
      refine ⟨s', found, ?_, h1, h2.cons _, fun y hy => ?_, h4⟩
      · rw [Archive.extensionLoop, ho]
        exact h0
      · rcases List.mem_cons.1 hy with rfl | hy
        · exact .inr ho
        · exact h3 y hy
    | some info =>
      dsimp only at h
      obtain ⟨c, _, h⟩ := bind_eq_ok.1 h
      obtain ⟨u, _, h⟩ := bind_eq_ok.1 h
      have hn' : (s.add (fileExtension lower x.name) (Method.fromFlags (info.flags.setWidth 8))).extensions.Nodup := by
        unfold ExtensionStats.add
        dsimp only
        split
        · exact hn
        · rename_i hx
          rw [List.nodup_append]
          exact ⟨hn, by simp, fun y hy z hz => by rw [List.mem_singleton.1 hz]; rintro rfl; exact hx hy⟩
      obtain ⟨s', found, h0, h1, h2, h3, h4, h5, h6, h7⟩ := extensionLoop_figures a lower rest _ r' _ h hn'
      refine ⟨s', (x, info) :: found, ?_, ?_, ?_, ?_, ?_, ?_, h6, ?_⟩
      · rw [Archive.extensionLoop, ho]
        exact h0
      · intro y hy
        rcases List.mem_cons.1 hy with rfl | hy
        · exact ho
        · exact h1 y hy
      · rw [List.map_cons]; exact h2.cons_cons _
      · intro y hy
        rcases List.mem_cons.1 hy with rfl | hy
        · exact .inl List.mem_cons_self
        · rcases h3 y hy with h | h
          · exact .inl (List.mem_cons_of_mem _ h)
          · exact .inr h
      · intro m
        rw [h4 m, List.filter_cons]
        show (if m = Spec.methodOf info then r.count m + 1 else r.count m) + _ = _
        by_cases hm : m = Spec.methodOf info
        · rw [if_pos hm, if_pos (by simp [hm]), List.length_cons]; omega
        · rw [if_neg hm, if_neg (by simpa using fun h => hm h.symm)]
      · intro y m
        rw [h5 y m]
        unfold Spec.withExtension
        rw [List.filter_cons]
        show (if y = fileExtension lower x.name ∧ m = Spec.methodOf info then s.count y m + 1 else s.count y m) + _ = _
        by_cases hm : y = fileExtension lower x.name ∧ m = Spec.methodOf info
        · rw [if_pos hm, if_pos (by simp [hm]), List.length_cons]; omega
        · rw [if_neg hm, if_neg (by simpa using fun h h' => hm ⟨h.symm, h'.symm⟩)]
      · intro y
        rw [h7 y]
        have : y ∈ (s.add (fileExtension lower x.name) (Method.fromFlags (info.flags.setWidth 8))).extensions ↔
            y ∈ s.extensions ∨ fileExtension lower x.name = y := by
          unfold ExtensionStats.add
          dsimp only
          split
          · rename_i hx
            exact ⟨.inl, fun h => h.elim id fun h => h ▸ hx⟩
          · rw [List.mem_append, List.mem_singleton]
            exact ⟨fun h => h.imp id Eq.symm, fun h => h.imp id Eq.symm⟩
        rw [this]
        constructor
        · rintro ((h | h) | ⟨z, hz, h⟩)
          · exact .inl h
          · exact .inr ⟨_, List.mem_cons_self, h⟩
          · exact .inr ⟨z, List.mem_cons_of_mem _ hz, h⟩
        · rintro (h | ⟨z, hz, h⟩)
          · exact .inl (.inl h)
          · rcases List.mem_cons.1 hz with rfl | hz
            · exact .inl (.inr h)
            · exact .inr ⟨z, hz, h⟩

/-- Counting by the values of a function. -/
theorem sum_filter_values {α β : Type} [DecidableEq β] (f : α → β) (p : α → Bool) : ∀ (l : List α) (vs : List β), vs.Nodup →
    (∀ x ∈ l, p x = true → f x ∈ vs) → (vs.map fun v => (l.filter fun x => p x && decide (f x = v)).length).sum = (l.filter p).length
  | [], vs, _, _ => by
    have : ∀ vs : List β, (vs.map fun _ => 0).sum = 0 := by
      intro vs; induction vs with
      | nil => rfl
      | cons v vs ih => rw [List.map_cons, List.sum_cons, ih]
    exact this vs
  | x :: l, vs, hn, h => by
    have ih := sum_filter_values f p l vs hn fun y hy => h y (List.mem_cons_of_mem _ hy)
    have key : ∀ vs : List β, vs.Nodup →
        (vs.map fun v => ((x :: l).filter fun y => p y && decide (f y = v)).length).sum =
          (vs.map fun v => (l.filter fun y => p y && decide (f y = v)).length).sum + if p x = true ∧ f x ∈ vs then 1 else 0 := by
      intro vs hn
      induction vs with
      | nil => simp
      | cons v vs ihv =>
        rw [List.nodup_cons] at hn
        rw [List.map_cons, List.sum_cons, List.map_cons, List.sum_cons, ihv hn.2, List.filter_cons]
        by_cases hp : p x = true
        · by_cases hv : f x = v
          · have hnot : ¬ (p x = true ∧ f x ∈ vs) := fun h => hn.1 (hv ▸ h.2)
            rw [if_pos (by simp [hp, hv]), if_neg hnot, if_pos ⟨hp, by rw [hv]; exact List.mem_cons_self⟩, List.length_cons]
            omega
          · rw [if_neg (by simp [hv])]
            have : (p x = true ∧ f x ∈ v :: vs) ↔ (p x = true ∧ f x ∈ vs) := by simp [hv]
            simp only [this]
            omega
        · rw [if_neg (by simp [hp]), if_neg (fun h => hp h.1), if_neg (fun h => hp h.1)]
          omega
    rw [key vs hn, ih, List.filter_cons]
    by_cases hp : p x = true
    · rw [if_pos ⟨hp, h x List.mem_cons_self hp⟩, if_pos hp, List.length_cons]
    · rw [if_neg (fun h => hp h.1), if_neg hp, Nat.add_zero]

/-- C92: the analysis by extension is made exactly if the analysis is, with the same figures. For each extension and method it
counts the files found that have both; the extensions counted are those of the files found; the counts of an extension add up to its
files and those of a method to the files with that method, over all extensions. -/
theorem C92_figures (e : Env) (lower : List Byte → List Byte) (a : Archive) (r : Analysis) (h : a.analyze e = .ok (some r)) :
    ∃ (s : ExtensionStats) (entries : List FileEntry) (found : List (FileEntry × FileInfo)), a.list e = .ok entries ∧
      a.analyzeByExtension e lower = .ok (some (r, s)) ∧
      (∀ x ∈ found, a.findFile x.1.name = .ok (some x.2)) ∧ (found.map (·.1)).Sublist entries ∧
      (∀ x ∈ entries, x ∈ found.map (·.1) ∨ a.findFile x.name = .ok none) ∧
      (∀ x m, s.count x m = (Spec.withExtension lower found x m).length) ∧
      s.extensions.Nodup ∧ (∀ x, x ∈ s.extensions ↔ ∃ y ∈ found, fileExtension lower y.1.name = x) ∧
      (∀ x, s.total x = (found.filter fun y => fileExtension lower y.1.name = x).length) ∧
      (∀ m, (s.extensions.map fun x => s.count x m).sum = r.count m) := by
  unfold Archive.analyze at h
  obtain ⟨entries, hl, h⟩ := bind_eq_ok.1 h
  split at h
  · cases h
  rename_i hne
  obtain ⟨r', hr, h⟩ := bind_eq_ok.1 h
  cases Option.some.inj (Except.ok.inj h)
  have hl0 := hl
  unfold Archive.listWithHashes at hl
  obtain ⟨es, hes, hl⟩ := bind_eq_ok.1 hl
  have hmap : entries.map (·.1) = es := by
    cases hl
    rw [List.map_map]
    exact (List.map_congr_left fun _ _ => rfl).trans (List.map_id _)
  obtain ⟨s, found, h0, h1, h2, h3, h4, h5, h6, h7⟩ := extensionLoop_figures a lower _ _ _
    { extensions := [], count := fun _ _ => 0 } hr List.nodup_nil
  have hc : ∀ x m, s.count x m = (Spec.withExtension lower found x m).length := fun x m => by rw [h5]; exact Nat.zero_add _
  have hx : ∀ x, x ∈ s.extensions ↔ ∃ y ∈ found, fileExtension lower y.1.name = x := fun x => by rw [h7]; simp
  refine ⟨s, es, found, hes, ?_, h1, hmap ▸ h2, hmap ▸ h3, hc, h6, hx, ?_, ?_⟩
  · unfold Archive.analyzeByExtension
    rw [hl0]
    simp only [bind, Except.bind, if_neg hne]
    rw [hr]
    simp only
    rw [h0]
    rfl
  · intro x
    unfold ExtensionStats.total
    have := sum_filter_values (fun y : FileEntry × FileInfo => Spec.methodOf y.2)
      (fun y => decide (fileExtension lower y.1.name = x)) found allMethods allMethods_nodup fun y _ _ => mem_allMethods _
    refine Eq.trans (congrArg List.sum (List.map_congr_left fun m _ => ?_)) this
    rw [hc]
    unfold Spec.withExtension
    simp only [Bool.decide_and]
  · intro m
    have := sum_filter_values (fun y : FileEntry × FileInfo => fileExtension lower y.1.name)
      (fun y => decide (Spec.methodOf y.2 = m)) found s.extensions h6 fun y hy _ => (hx _).2 ⟨y, hy, rfl⟩
    rw [h4 m]
    refine Eq.trans ?_ (this.trans (Nat.zero_add _).symm)
    refine congrArg List.sum (List.map_congr_left fun x _ => ?_)
    rw [hc]
    unfold Spec.withExtension
    simp only [Bool.decide_and, Bool.and_comm]

/-- An archive with a file that is found, counted once. -/
example : ∃ a r s, Archive.analyzeByExtension toyEnv id a = .ok (some (r, s)) ∧
    (s.extensions.map fun x => s.count x .none).sum = 1 := by
  obtain ⟨r, h, _, h1, _⟩ := methodArchive_sample _ _ rfl rfl
  obtain ⟨s, _, _, _, hs, _, _, _, _, _, _, _, hm⟩ := C92_figures toyEnv id _ r h
  exact ⟨_, r, s, hs, (hm .none).trans h1⟩

/-- What is said about extensions: a count for each extension and method that occur together, and nothing else. -/
def Spec.SaysExtensions (o : Spec.Json) (extensions : List (List Byte)) (count : List Byte → Method → Nat) : Prop :=
  ∀ x, if x ∈ extensions then ∃ methods, o.member x = some methods ∧
      ∀ m, if count x m = 0 then methods.member (Spec.methodWord m) = none
        else Spec.SaysNumber (methods.member (Spec.methodWord m)) (count x m)
    else o.member x = none

theorem names_nodup (ms : List Method) (h : ms.Nodup) : (ms.map Method.name).Nodup := by
  unfold List.Nodup
  rw [List.pairwise_map]
  refine List.Pairwise.imp (R := (· ≠ ·)) ?_ h
  intro a b hne h
  rw [methodName_spec, methodName_spec] at h
  exact hne ((C73_method_words a b).1.1 h)

theorem extensionStats_json (s : ExtensionStats) (h : s.extensions.Nodup) : Spec.SaysExtensions s.json s.extensions s.count := by
  intro x
  unfold ExtensionStats.json
  split
  · rename_i hx
    refine ⟨_, jsonObject_member ?_ (List.mem_map.2 ⟨x, hx, rfl⟩), fun m => ?_⟩
    · rw [List.map_map]
      exact (List.map_congr_left fun _ _ => rfl).trans (List.map_id _) ▸ h
    · split
      · rename_i h0
        refine jsonObject_none fun y hy => ?_
        obtain ⟨n, hn, rfl⟩ := List.mem_map.1 hy
        intro he
        have he : n.name = Spec.methodWord m := he
        rw [methodName_spec] at he
        rw [(C73_method_words n m).1.1 he] at hn
        have := (List.mem_filter.1 hn).2
        simp [h0] at this
      · rename_i h0
        rw [← methodName_spec]
        refine number_at ?_ (List.mem_map.2 ⟨m, List.mem_filter.2 ⟨mem_allMethods m, by simpa using h0⟩, rfl⟩)
        rw [List.map_map]
        exact names_nodup _ (allMethods_nodup.filter _)
  · rename_i hx
    refine jsonObject_none fun y hy => ?_
    obtain ⟨n, hn, rfl⟩ := List.mem_map.1 hy
    rintro rfl
    exact hx hn

theorem extensionStats_numbers (s : ExtensionStats) : jsonNumbers s.json := by
  refine jsonObject_numbers fun m hm => ?_
  obtain ⟨x, _, rfl⟩ := List.mem_map.1 hm
  refine jsonObject_numbers fun m hm => ?_
  obtain ⟨y, _, rfl⟩ := List.mem_map.1 hm
  exact jsonNat_numbers _

/-- The value printed, with what is said about extensions left open. -/
def analysisObject (percent : Nat → Nat → List Byte) (r : Analysis) (exts : Spec.Json) : Spec.Json :=
  jsonObject [(word "total_files", jsonNat r.totalFiles), (word "total_compressed_size", jsonNat r.compressed),
    (word "total_uncompressed_size", jsonNat r.uncompressed),
    (word "overall_compression_ratio",
      .num (if 0 < r.uncompressed then percent r.compressed r.uncompressed else word "100.0")),
    (word "compression_methods", jsonObject (r.methods.map fun m => (m.name,
      jsonObject [(word "count", jsonNat (r.count m)), (word "percentage", .num (percent (r.count m) r.totalFiles)),
        (word "supported", .bool (methodNameSupported m.name))]))),
    (word "by_extension", exts),
    (word "unsupported_files", .arr (r.unsupported.map fun x =>
      jsonObject [(word "filename", .str x.1), (word "compression_method", .str x.2.name)])),
    (word "unsupported_count", jsonNat r.unsupported.length)]

theorem analysisObject_numbers (percent : Nat → Nat → List Byte) (hp : ∀ a b, 0 < b → JsonNumber (percent a b)) (r : Analysis)
    (htot : 0 < r.totalFiles) (exts : Spec.Json) (he : jsonNumbers exts) : jsonNumbers (analysisObject percent r exts) := by
  refine jsonObject_numbers fun m hm => ?_
  simp only [List.mem_cons, List.not_mem_nil, or_false] at hm
  rcases hm with rfl | rfl | rfl | rfl | rfl | rfl | rfl | rfl
  · exact jsonNat_numbers _
  · exact jsonNat_numbers _
  · exact jsonNat_numbers _
  · show jsonNumbers (.num _)
    rw [jsonNumbers]
    split
    · rename_i hu; exact hp _ _ hu
    · exact ⟨[], ascii "100", ascii ".0", [], rfl, .inl rfl, .inr ⟨by unfold JsonDigits; decide, by decide⟩,
        .inr ⟨ascii "0", by unfold JsonDigits; decide, rfl⟩, .inl rfl⟩
  · refine jsonObject_numbers fun m hm => ?_
    obtain ⟨x, _, rfl⟩ := List.mem_map.1 hm
    refine jsonObject_numbers fun m hm => ?_
    simp only [List.mem_cons, List.not_mem_nil, or_false] at hm
    rcases hm with rfl | rfl | rfl
    · exact jsonNat_numbers _
    · show jsonNumbers (.num _)
      rw [jsonNumbers]
      exact hp _ _ htot
    · exact jsonBool_numbers _
  · exact he
  · refine jsonArr_numbers fun v hv => ?_
    obtain ⟨x, _, rfl⟩ := List.mem_map.1 hv
    refine jsonObject_numbers fun m hm => ?_
    simp only [List.mem_cons, List.not_mem_nil, or_false] at hm
    rcases hm with rfl | rfl <;> exact jsonStr_numbers _
  · exact jsonNat_numbers _

theorem analysisObject_member (percent : Nat → Nat → List Byte) (r : Analysis) (v w : Spec.Json) (key : List Byte)
    (hk : key ≠ word "by_extension") :
    (analysisObject percent r v).member key = (analysisObject percent r w).member key := by
  by_cases hm : key ∈ [word "total_files", word "total_compressed_size", word "total_uncompressed_size",
    word "overall_compression_ratio", word "compression_methods", word "unsupported_files", word "unsupported_count"]
  · simp only [List.mem_cons, List.not_mem_nil, or_false] at hm
    unfold analysisObject
    rcases hm with rfl | rfl | rfl | rfl | rfl | rfl | rfl
    · exact (jsonObject_member (by exact analysisKeys) (.head _)).trans (jsonObject_member (by exact analysisKeys) (.head _)).symm
    · exact (jsonObject_member (by exact analysisKeys) (.tail _ (.head _))).trans (jsonObject_member (by exact analysisKeys) (.tail _ (.head _))).symm
    · exact (jsonObject_member (by exact analysisKeys) (.tail _ (.tail _ (.head _)))).trans (jsonObject_member (by exact analysisKeys) (.tail _ (.tail _ (.head _)))).symm
    · exact (jsonObject_member (by exact analysisKeys) (.tail _ (.tail _ (.tail _ (.head _))))).trans (jsonObject_member (by exact analysisKeys) (.tail _ (.tail _ (.tail _ (.head _))))).symm
    · exact (jsonObject_member (by exact analysisKeys) (.tail _ (.tail _ (.tail _ (.tail _ (.head _)))))).trans (jsonObject_member (by exact analysisKeys) (.tail _ (.tail _ (.tail _ (.tail _ (.head _)))))).symm
    · exact (jsonObject_member (by exact analysisKeys) (.tail _ (.tail _ (.tail _ (.tail _ (.tail _ (.tail _ (.head _)))))))).trans (jsonObject_member (by exact analysisKeys) (.tail _ (.tail _ (.tail _ (.tail _ (.tail _ (.tail _ (.head _)))))))).symm
    · exact (jsonObject_member (by exact analysisKeys) (.tail _ (.tail _ (.tail _ (.tail _ (.tail _ (.tail _ (.tail _ (.head _))))))))).trans (jsonObject_member (by exact analysisKeys) (.tail _ (.tail _ (.tail _ (.tail _ (.tail _ (.tail _ (.tail _ (.head _))))))))).symm
  · simp only [List.mem_cons, List.not_mem_nil, or_false, not_or] at hm
    have key' : ∀ u, (analysisObject percent r u).member key = none := by
      intro u
      refine jsonObject_none fun m hx => ?_
      simp only [List.mem_cons, List.not_mem_nil, or_false] at hx
      rintro rfl
      rcases hx with rfl | rfl | rfl | rfl | rfl | rfl | rfl | rfl
      · exact hm.1 rfl
      · exact hm.2.1 rfl
      · exact hm.2.2.1 rfl
      · exact hm.2.2.2.1 rfl
      · exact hm.2.2.2.2.1 rfl
      · exact hk rfl
      · exact hm.2.2.2.2.2.1 rfl
      · exact hm.2.2.2.2.2.2 rfl
    rw [key', key']

/-- C92: `archive analyze --by-extension` in JSON is an object that says these figures, and what it says besides is what is said
without `--by-extension` (C73). -/
theorem C92_json (e : Env) (lower : List Byte → List Byte) (percent : Nat → Nat → List Byte)
    (hp : ∀ a b, 0 < b → JsonNumber (percent a b)) (a : Archive) (r : Analysis) (s : ExtensionStats)
    (h : a.analyzeByExtension e lower = .ok (some (r, s))) :
    ∃ out doc exts plain plainDoc, cliAnalyzeByExtension e lower percent a = .ok out ∧ Spec.JsonIs out doc ∧
      doc.member (ascii "by_extension") = some exts ∧ Spec.SaysExtensions exts s.extensions s.count ∧
      cliAnalyze e percent false a = .ok plain ∧ Spec.JsonIs plain plainDoc ∧
      ∀ key, key ≠ ascii "by_extension" → doc.member key = plainDoc.member key := by
  have ha : a.analyze e = .ok (some r) := by
    unfold Archive.analyzeByExtension at h
    unfold Archive.analyze
    obtain ⟨entries, hl, h⟩ := bind_eq_ok.1 h
    split at h
    · cases h
    rename_i hne
    obtain ⟨r', hr, h⟩ := bind_eq_ok.1 h
    obtain ⟨s', _, h⟩ := bind_eq_ok.1 h
    cases Option.some.inj (Except.ok.inj h)
    rw [hl]
    simp only [bind, Except.bind, if_neg hne]
    rw [hr]
    rfl
  have htot : 0 < r.totalFiles := by
    obtain ⟨entries, _, _, hne, _, _, _, ht, _⟩ := C63_figures e a r ha
    rw [ht]
    exact List.length_pos_iff.2 hne
  have hn : s.extensions.Nodup := by
    obtain ⟨s', _, _, _, hs, _, _, _, _, hn, _⟩ := C92_figures e lower a r ha
    rw [h] at hs
    rw [(Prod.mk.inj (Option.some.inj (Except.ok.inj hs))).2]
    exact hn
  refine ⟨_, analysisObject percent r s.json, s.json, _, analysisObject percent r (jsonObject []), ?_,
    C73_printed _ (analysisObject_numbers percent hp r htot _ (extensionStats_numbers s)), ?_, extensionStats_json s hn, ?_,
    C73_printed _ (analysisObject_numbers percent hp r htot _ (jsonObject_numbers fun m hm => absurd hm List.not_mem_nil)), ?_⟩
  · unfold cliAnalyzeByExtension
    rw [h]
    rfl
  · unfold analysisObject; lookup jsonObject_member, analysisKeys
  · unfold cliAnalyze
    rw [ha]
    rfl
  · intro key hk
    exact analysisObject_member percent r _ _ key hk

end Mopaq
