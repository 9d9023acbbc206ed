import Verif.Lemmas.Listfile

/-! # Property C28: the text of a listfile -/

namespace Mopaq

theorem encode_flatten (n : List Nat) : Spec.encode n = (n.map Spec.utf8).flatten := by
  unfold Spec.encode; rw [List.flatMap_def]

theorem valid_of_scalars {n : List Nat} (h : ∀ c ∈ n, Spec.scalar c) : ∀ x ∈ n.map Spec.utf8, ValidChr x := by
  intro x hx
  obtain ⟨c, hc, rfl⟩ := List.mem_map.1 hx
  exact utf8_valid (h c hc)

theorem mem_utf8 {n : List Nat} {k : Nat} (hk : k < 0x80) : [BitVec.ofNat 8 k] ∈ n.map Spec.utf8 ↔ k ∈ n := by
  rw [List.mem_map]
  constructor
  · rintro ⟨c, hc, h⟩; rw [utf8_ascii hk] at h; rwa [← h]
  · intro h; exact ⟨k, h, (utf8_ascii hk).2 rfl⟩

theorem listed_iff (n : List Nat) : Listed (n.map Spec.utf8) ↔ Spec.listable n := by
  have hspace : ∀ c, isSpaceChr (Spec.utf8 c) = false ↔ ¬ Spec.space c := by
    intro c; rw [← utf8_space]; simp
  have h1 : [0x0A] ∈ n.map Spec.utf8 ↔ 0x0A ∈ n := mem_utf8 (by decide)
  have h2 : [0x3B] ∈ n.map Spec.utf8 ↔ 0x3B ∈ n := mem_utf8 (by decide)
  have h3 : (n.map Spec.utf8).head? = some [0x23] ↔ n.head? = some 0x23 := by
    rw [List.head?_map, Option.map_eq_some_iff]
    constructor
    · rintro ⟨c, hc, h⟩
      have : Spec.utf8 c = [BitVec.ofNat 8 0x23] := h
      rw [utf8_ascii (by decide)] at this; rwa [← this]
    · intro h; exact ⟨0x23, h, (utf8_ascii (k := 0x23) (by decide)).2 rfl⟩
  constructor
  · rintro ⟨a, b, c, d, e, f⟩
    refine ⟨fun h => a (by rw [h]; rfl), fun h => b (h1.2 h), fun h => c (h2.2 h), fun h => d (h3.2 h), ?_, ?_⟩
    · intro x hx; rw [← hspace]; exact e _ (by rw [List.head?_map, hx]; rfl)
    · intro x hx; rw [← hspace]; exact f _ (by rw [List.getLast?_map, hx]; rfl)
  · rintro ⟨a, b, c, d, e, f⟩
    refine ⟨fun h => a (List.map_eq_nil_iff.1 h), fun h => b (h1.1 h), fun h => c (h2.1 h), fun h => d (h3.1 h), ?_, ?_⟩
    · intro x hx
      rw [List.head?_map, Option.map_eq_some_iff] at hx
      obtain ⟨y, hy, rfl⟩ := hx
      rw [hspace]; exact e y hy
    · intro x hx
      rw [List.getLast?_map, Option.map_eq_some_iff] at hx
      obtain ⟨y, hy, rfl⟩ := hx
      rw [hspace]; exact f y hy

/-- The text `(listfile)`. -/
def listfileChars : List Nat := "(listfile)".toList.map Char.toNat

theorem listfileChars_encode : Spec.encode listfileChars = listfileName := by decide

theorem listable_listfile : Spec.listable listfileChars := by
  unfold Spec.listable Spec.space
  refine ⟨by decide, by decide, by decide, by decide, ?_, ?_⟩
  · intro c hc
    have : some (0x28 : Nat) = some c := hc
    injection this with this; omega
  · intro c hc
    have : some (0x29 : Nat) = some c := hc
    injection this with this; omega

theorem listfileChars_scalar : ∀ c ∈ listfileChars, Spec.scalar c := by
  have : ∀ c ∈ listfileChars, c < 0xD800 := by decide
  exact fun c hc => Or.inl (this c hc)

/-- The characters of a listfile text. -/
theorem chrs_listfileText (names : List (List Nat)) (hs : ∀ n ∈ names, ∀ c ∈ n, Spec.scalar c) :
    chrs (listfileText (names.map Spec.encode)) =
      (names ++ [listfileChars]).flatMap fun n => n.map Spec.utf8 ++ [[0x0D], [0x0A]] := by
  have hflat : listfileText (names.map Spec.encode) =
      ((names ++ [listfileChars]).flatMap fun n => n.map Spec.utf8 ++ [[0x0D], [0x0A]]).flatten := by
    unfold listfileText
    rw [List.flatMap_append, List.flatten_append]
    congr 1
    induction names with
    | nil => rfl
    | cons n names ih =>
      rw [List.map_cons, List.flatMap_cons, List.flatMap_cons, List.flatten_append, List.flatten_append,
        ih (fun m hm => hs m (by simp [hm])), ← encode_flatten]
      rfl
  rw [hflat]
  apply chrs_flatten
  intro c hc
  rw [List.mem_flatMap] at hc
  obtain ⟨n, hn, hc⟩ := hc
  rw [List.mem_append] at hc
  rcases hc with hc | hc
  · refine valid_of_scalars ?_ c hc
    rw [List.mem_append, List.mem_singleton] at hn
    rcases hn with hn | rfl
    · exact hs n hn
    · exact listfileChars_scalar
  · simp only [List.mem_cons, List.not_mem_nil, or_false] at hc
    rcases hc with rfl | rfl <;> exact validChr_one (by decide)

theorem parsed_listed (data : List Byte) : ∀ x ∈ parseListfile data, ∃ s, Listed s ∧ (∀ c ∈ s, ValidChr c) ∧ x = s.flatten := by
  intro x hx
  unfold parseListfile at hx
  rw [List.mem_map] at hx
  obtain ⟨s, hs, rfl⟩ := hx
  rw [List.mem_filterMap] at hs
  obtain ⟨l, hl, hp⟩ := hs
  rw [List.mem_map] at hl
  obtain ⟨l0, hl0, rfl⟩ := hl
  obtain ⟨hnf, hsub⟩ := splitLines_spec _ l0 hl0
  obtain ⟨h1, h2⟩ := parseLine_listed (fun h => hnf (stripCr_mem h)) hp
  refine ⟨s, h1, fun c hc => ?_, rfl⟩
  exact chrsFuel_valid _ _ c (hsub c (stripCr_mem (h2 c hc)))

theorem parse_lines (ns : List (List Nat)) (hl : ∀ n ∈ ns, Spec.listable n) :
    ((((splitLines (ns.flatMap fun n => n.map Spec.utf8 ++ [[0x0D], [0x0A]])).map stripCr).filterMap parseLine).map
      List.flatten) = ns.map Spec.encode := by
  induction ns with
  | nil => rfl
  | cons n ns ih =>
    have hn := (listed_iff n).2 (hl n (by simp))
    have hsplit : splitLines ((n :: ns).flatMap fun n => n.map Spec.utf8 ++ [[0x0D], [0x0A]]) =
        (n.map Spec.utf8 ++ [[0x0D]]) :: splitLines (ns.flatMap fun n => n.map Spec.utf8 ++ [[0x0D], [0x0A]]) := by
      rw [List.flatMap_cons]
      have : n.map Spec.utf8 ++ [[0x0D], [0x0A]] ++ (ns.flatMap fun n => n.map Spec.utf8 ++ [[0x0D], [0x0A]]) =
          (n.map Spec.utf8 ++ [[0x0D]]) ++ [0x0A] :: (ns.flatMap fun n => n.map Spec.utf8 ++ [[0x0D], [0x0A]]) := by
        simp
      rw [this]
      apply splitLines_line
      rw [List.mem_append, not_or]
      exact ⟨hn.noFeed, by decide⟩
    rw [hsplit, List.map_cons, List.filterMap_cons, stripCr_cr, parseLine_of_listed hn, List.map_cons, List.map_cons,
      ih (fun m hm => hl m (by simp [hm])), ← encode_flatten]

/-- C28: a generated listfile is parsed to exactly the names it was generated from, in order, followed by the
listfile's own name, **if and only if** every name can stand on a line: it is not empty, contains no line feed and no
semicolon, has no white space at either end and does not start with a number sign. For all lists of names, in any
script. -/
theorem C28_listfile_exact_partial (names : List (List Nat)) (hs : ∀ n ∈ names, ∀ c ∈ n, Spec.scalar c) :
    parseListfile (listfileText (names.map Spec.encode)) = names.map Spec.encode ++ [listfileName] ↔
      ∀ n ∈ names, Spec.listable n := by
  constructor
  · intro h n hn
    obtain ⟨s, hs1, hs2, hs3⟩ := parsed_listed _ (Spec.encode n) (by
      rw [h, List.mem_append]; exact Or.inl (List.mem_map.2 ⟨n, hn, rfl⟩))
    rw [encode_flatten] at hs3
    have := flatten_inj (valid_of_scalars (hs n hn)) hs2 hs3
    rw [← listed_iff, this]; exact hs1
  · intro h
    unfold parseListfile
    rw [chrs_listfileText names hs, parse_lines]
    · rw [List.map_append, List.map_singleton, listfileChars_encode]
    · intro n hn
      rw [List.mem_append, List.mem_singleton] at hn
      rcases hn with hn | rfl
      · exact h n hn
      · exact listable_listfile

/-- C28 (any input): whatever bytes the listfile consists of, valid UTF-8 or not, every name the parser returns can
stand on a line of a listfile again, and so survives another round. -/
theorem C28_parsed_names_are_clean (data : List Byte) (x : List Byte) (hx : x ∈ parseListfile data) :
    x ≠ [] ∧ 0x3B#8 ∉ x ∧ 0x0A#8 ∉ x ∧ x.head? ≠ some 0x23#8 ∧ parseListfile (x ++ [0x0D, 0x0A]) = [x] := by
  obtain ⟨s, hs, hv, rfl⟩ := parsed_listed data x hx
  have hbyte : ∀ (k : Byte), k.toNat < 0x80 → k ∈ s.flatten → [k] ∈ s := by
    intro k hk hmem
    rw [List.mem_flatten] at hmem
    obtain ⟨c, hc, hkc⟩ := hmem
    have := validChr_low (hv c hc) hk hkc
    rwa [← this]
  refine ⟨?_, fun h => hs.noSemi (hbyte _ (by decide) h), fun h => hs.noFeed (hbyte _ (by decide) h), ?_, ?_⟩
  · intro h
    rw [List.flatten_eq_nil_iff] at h
    cases hs' : s with
    | nil => exact hs.nonempty hs'
    | cons c t =>
      obtain ⟨a, t', hc, _⟩ := hv c (by rw [hs']; simp)
      have := h c (by rw [hs']; simp)
      rw [hc] at this; cases this
  · intro h
    cases hs' : s with
    | nil => exact hs.nonempty hs'
    | cons c t =>
      obtain ⟨a, t', hc, _⟩ := hv c (by rw [hs']; simp)
      rw [hs', List.flatten_cons, hc] at h
      simp only [List.cons_append, List.head?_cons, Option.some.injEq] at h
      have := validChr_low (hv c (by rw [hs']; simp)) (k := 0x23#8) (by decide) (by rw [hc, h]; simp)
      exact hs.noHash (by rw [hs', this]; rfl)
  · unfold parseListfile
    have : chrs (s.flatten ++ [0x0D, 0x0A]) = (s ++ [[0x0D]]) ++ [0x0A] :: [] := by
      have h1 : s.flatten ++ [0x0D, 0x0A] = (s ++ [[0x0D], [0x0A]]).flatten := by rw [List.flatten_append]; rfl
      rw [h1, chrs_flatten]
      · simp
      · intro c hc
        rw [List.mem_append] at hc
        rcases hc with hc | hc
        · exact hv c hc
        · simp only [List.mem_cons, List.not_mem_nil, or_false] at hc
          rcases hc with rfl | rfl <;> exact validChr_one (by decide)
    rw [this, splitLines_line]
    · simp only [splitLines, List.map_cons, List.map_nil, List.filterMap_cons, List.filterMap_nil, stripCr_cr,
        parseLine_of_listed hs]
    · rw [List.mem_append, not_or]; exact ⟨hs.noFeed, by decide⟩

/-- A name in several scripts, with spaces inside, that can be listed. -/
example : Spec.listable ("Größe und Maß\\日本 #1.txt".toList.map Char.toNat) ∧
    ∀ c ∈ "Größe und Maß\\日本 #1.txt".toList.map Char.toNat, Spec.scalar c := by
  constructor
  · unfold Spec.listable Spec.space
    refine ⟨by decide, by decide, by decide, by decide, ?_, ?_⟩
    · intro c hc
      have : some (0x47 : Nat) = some c := hc
      injection this with this; omega
    · intro c hc
      have : some (0x74 : Nat) = some c := hc
      injection this with this; omega
  · have : ∀ c ∈ "Größe und Maß\\日本 #1.txt".toList.map Char.toNat, c < 0xD800 := by decide
    exact fun c hc => Or.inl (this c hc)

/-- C28 fails for names with a semicolon: the name is cut. -/
theorem C28_semicolon_cut :
    parseListfile (listfileText [[0x61, 0x3B, 0x62]]) = [[0x61], listfileName] := by decide +kernel

/-- C28 fails for names starting with a number sign: the name is dropped. -/
theorem C28_number_sign_dropped : parseListfile (listfileText [[0x23, 0x61]]) = [listfileName] := by decide +kernel

/-- A comment, a cut line and bytes that are no UTF-8, which come out as U+FFFD. -/
example : parseListfile [0x3B, 0x61, 0x0A, 0x62, 0x3B, 0x63, 0x0D, 0x0A, 0x20, 0xFF, 0x64, 0x09, 0x0A] =
    [[0x62], [0xEF, 0xBF, 0xBD, 0x64]] := by decide +kernel

end Mopaq
