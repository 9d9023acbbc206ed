import Verif.Model.CliList
import Verif.Props.HashListing
import Verif.Props.Listing

/-! # Listing and finding files with the command line tool (C65) -/

namespace Mopaq

/-! ## Which entries are shown -/

theorem listedEntries_files (e : Env) (a : Archive) (all hashes : Bool) :
    (listedEntries e a all hashes).map (List.map Prod.fst) = if all then a.listAll else a.list e := by
  have hplain : ∀ r : Res (List FileEntry),
      (r.map (·.map fun x => ((x, none) : HashedEntry))).map (List.map Prod.fst) = r := by
    intro r
    cases r with
    | error err => rfl
    | ok l =>
      show Except.ok _ = _
      rw [List.map_map]
      exact congrArg Except.ok (List.map_id'' (fun _ => rfl) l)
  unfold listedEntries
  cases all <;> cases hashes
  · exact hplain _
  · exact (C61_listing_same e a).1
  · exact hplain _
  · exact C61_enumeration_same a

/-- C65: `list` shows the entries of the archive (those its listfile names, or with `--all` those of its tables) that match
the pattern, each as often as the archive lists it, sorted by the bytes of the name; asking for hashes changes neither. -/
theorem C65_list_shows (e : Env) (a : Archive) (all hashes : Bool) (matches_ : List Byte → Bool) (files : List FileEntry)
    (h : (if all then a.listAll else a.list e) = .ok files) :
    ∃ shown, cliList e a all hashes (some (.ok matches_)) = .ok shown ∧
      (shown.map Prod.fst).Perm (files.filter fun x => matches_ x.name) ∧
      shown.Pairwise (fun x y => x.1.name.map BitVec.toNat ≤ y.1.name.map BitVec.toNat) ∧
      ∃ plain, cliList e a all hashes none = .ok plain ∧ (plain.map Prod.fst).Perm files ∧
        plain.Pairwise (fun x y => x.1.name.map BitVec.toNat ≤ y.1.name.map BitVec.toNat) := by
  have hs : ∃ start : List HashedEntry, listedEntries e a all hashes = .ok start ∧ start.map Prod.fst = files := by
    have := (listedEntries_files e a all hashes).trans h
    cases hl : listedEntries e a all hashes with
    | error err => rw [hl] at this; exact absurd this (by simp [Except.map])
    | ok l => rw [hl] at this; exact ⟨l, rfl, Except.ok.inj this⟩
  obtain ⟨start, hs2, hs1⟩ := hs
  have hsorted : ∀ l : List HashedEntry, (l.mergeSort fun x y => nameLe x.1.name y.1.name).Pairwise
      (fun x y => x.1.name.map BitVec.toNat ≤ y.1.name.map BitVec.toNat) := by
    intro l
    exact (List.pairwise_mergeSort (le := fun x y : HashedEntry => nameLe x.1.name y.1.name)
      (fun x y z h1 h2 => nameLe_trans _ _ _ h1 h2) (fun x y => nameLe_total _ _) l).imp
      (fun h => (nameLe_iff _ _).1 h)
  refine ⟨_, by unfold cliList; rw [hs2]; rfl, ?_, hsorted _, _, by unfold cliList; rw [hs2]; rfl, ?_, hsorted _⟩
  · refine ((List.mergeSort_perm _ _).map Prod.fst).trans ?_
    rw [← hs1, List.filter_map]
    exact List.Perm.refl _
  · refine ((List.mergeSort_perm _ _).map Prod.fst).trans ?_
    rw [hs1]

/-- C65: `list` fails exactly as listing the archive fails, and otherwise only if the pattern cannot be compiled. -/
theorem C65_list_fails (e : Env) (a : Archive) (all hashes : Bool) (pattern : Option Matcher) :
    (∀ err, (if all then a.listAll else a.list e) = .error err → cliList e a all hashes pattern = .error err) ∧
    (∀ files err, (if all then a.listAll else a.list e) = .ok files → pattern = some (.error err) →
      cliList e a all hashes pattern = .error err) := by
  have hf := listedEntries_files e a all hashes
  refine ⟨fun err h => ?_, fun files err h hp => ?_⟩
  · rw [h] at hf
    unfold cliList
    cases hl : listedEntries e a all hashes with
    | error err' => rw [hl] at hf; cases hf; rfl
    | ok l => rw [hl] at hf; cases hf
  · rw [h] at hf
    subst hp
    unfold cliList
    cases hl : listedEntries e a all hashes with
    | error err' => rw [hl] at hf; cases hf
    | ok l => rfl

/-- C65: `find` prints the names that `list` prints for the same pattern, if case is not to be ignored, in the order in
which the archive lists them. -/
theorem C65_find_as_list (e : Env) (a : Archive) (matches_ : List Byte → Bool) (files : List FileEntry)
    (h : a.list e = .ok files) :
    ∃ found shown, cliFind e a (.ok matches_) id = .ok found ∧ cliList e a false false (some (.ok matches_)) = .ok shown ∧
      (shown.map (·.1.name)).Perm found ∧ found.Sublist (files.map (·.name)) := by
  obtain ⟨shown, h1, h2, _⟩ := C65_list_shows e a false false matches_ files h
  refine ⟨_, shown, by unfold cliFind; rw [h]; rfl, h1, ?_, List.filter_sublist⟩
  have := h2.map (·.name)
  rw [List.map_map] at this
  refine this.trans ?_
  rw [List.filter_map]
  exact List.Perm.refl _

/-- C65: when case is to be ignored, `find` compares names after folding them: it finds the names of the listing, as they
are spelt there, whose folded form matches; so of two names that differ in case only it finds both or none. A pattern that
cannot be compiled ends the command. -/
theorem C65_find_folded (e : Env) (a : Archive) (fold : List Byte → List Byte) (files : List FileEntry)
    (h : a.list e = .ok files) :
    (∀ matches_, ∃ found, cliFind e a (.ok matches_) fold = .ok found ∧ found.Sublist (files.map (·.name)) ∧
      (∀ name, name ∈ found ↔ (∃ x ∈ files, x.name = name) ∧ matches_ (fold name) = true) ∧
      ∀ x ∈ files, ∀ y ∈ files, fold x.name = fold y.name → (x.name ∈ found ↔ y.name ∈ found)) ∧
    ∀ err, cliFind e a (.error err) fold = .error err := by
  refine ⟨fun matches_ => ?_, fun err => by unfold cliFind; rw [h]; rfl⟩
  have hm : ∀ name, name ∈ (files.map (·.name)).filter (fun n => matches_ (fold n)) ↔
      (∃ x ∈ files, x.name = name) ∧ matches_ (fold name) = true := by
    intro name
    rw [List.mem_filter, List.mem_map]
  refine ⟨_, by unfold cliFind; rw [h]; rfl, List.filter_sublist, hm, fun x hx y hy hxy => ?_⟩
  rw [hm, hm, hxy]
  exact ⟨fun h => ⟨⟨y, hy, rfl⟩, h.2⟩, fun h => ⟨⟨x, hx, rfl⟩, h.2⟩⟩

/-! ## What is printed -/

/-- The lines of an output. -/
def Spec.lines (out : List Byte) : List (List Byte) := out.splitOn 0x0A#8

/-- The fields of a line of a CSV file without quotes. -/
def Spec.fields (line : List Byte) : List (List Byte) := line.splitOn 0x2C#8

theorem lines_flatMap (l : List (List Byte)) (h : ∀ n ∈ l, 0x0A#8 ∉ n) (rest : List Byte) :
    Spec.lines (l.flatMap outLine ++ rest) = l ++ Spec.lines rest := by
  induction l with
  | nil => rfl
  | cons n l ih =>
    rw [List.flatMap_cons, List.append_assoc]
    unfold outLine
    rw [List.append_assoc, List.singleton_append]
    unfold Spec.lines
    rw [List.splitOn_append_cons_self_of_not_mem (h n (List.mem_cons_self ..))]
    exact congrArg (n :: ·) (ih fun m hm => h m (List.mem_cons_of_mem _ hm))

theorem decimal_noLf (n : Nat) : 0x0A#8 ∉ decimal n := by
  intro h
  obtain ⟨c, hc, hx⟩ := List.mem_map.1 h
  have hd := Nat.isDigit_of_mem_toDigits (by decide) (by decide) hc
  have : 48 ≤ c.toNat ∧ c.toNat ≤ 57 := by
    unfold Char.isDigit at hd
    simp only [Bool.and_eq_true, decide_eq_true_eq] at hd
    exact ⟨hd.1, hd.2⟩
  have h2 := congrArg BitVec.toNat hx
  rw [BitVec.toNat_ofNat] at h2
  have : (0x0A#8).toNat = 10 := rfl
  omega

/-- C65: the names printed as text, one on a line, can be read back: the lines are the names, an empty line and one with the
number of names. In CSV they follow the heading. This needs that no name contains a line feed. -/
theorem C65_names_readable (names : List (List Byte)) (h : ∀ n ∈ names, 0x0A#8 ∉ n) :
    (∃ last, Spec.lines (listText names) = names ++ [[], last, []]) ∧
    Spec.lines (listCsv names) = ascii "filename" :: names ++ [[]] := by
  constructor
  · refine ⟨totalWord ++ decimal names.length ++ filesWord, ?_⟩
    unfold listText
    rw [List.append_assoc, lines_flatMap names h]
    refine congrArg (names ++ ·) ?_
    have h3 : 0x0A#8 ∉ totalWord ++ decimal names.length ++ filesWord := by
      rw [List.mem_append, List.mem_append]
      rintro ((h | h) | h)
      · exact absurd h (by decide)
      · exact decimal_noLf _ h
      · exact absurd h (by decide)
    have := lines_flatMap [[], totalWord ++ decimal names.length ++ filesWord] (by
      intro n hn
      simp only [List.mem_cons, List.not_mem_nil, or_false] at hn
      rcases hn with rfl | rfl
      · exact List.not_mem_nil
      · exact h3) []
    rw [List.append_nil, List.flatMap_cons, List.flatMap_cons, List.flatMap_nil, List.append_nil] at this
    rw [this]
    rfl
  · have := lines_flatMap (ascii "filename" :: names) (by
      intro n hn
      rcases List.mem_cons.1 hn with rfl | hn
      · decide
      · exact h n hn) []
    rw [List.append_nil, List.flatMap_cons] at this
    exact this

/-- Eight hexadecimal digits, the most significant first. -/
def Spec.hexWord (n : Nat) : List Byte :=
  [7, 6, 5, 4, 3, 2, 1, 0].map fun i => (ascii "0123456789ABCDEF").getD (n / 16 ^ i % 16) 0

theorem hexDigit_spec (n : Nat) (h : n < 16) : hexDigit n = (ascii "0123456789ABCDEF").getD n 0 := by
  have : ∀ n : Fin 16, hexDigit n.val = (ascii "0123456789ABCDEF").getD n.val 0 := by decide +kernel
  exact this ⟨n, h⟩

theorem hex8_spec (x : U32) : hex8 x = Spec.hexWord x.toNat := by
  unfold hex8 Spec.hexWord
  simp only [List.map_cons, List.map_nil]
  rw [hexDigit_spec _ (Nat.mod_lt _ (by decide)), hexDigit_spec _ (Nat.mod_lt _ (by decide)),
    hexDigit_spec _ (Nat.mod_lt _ (by decide)), hexDigit_spec _ (Nat.mod_lt _ (by decide)),
    hexDigit_spec _ (Nat.mod_lt _ (by decide)), hexDigit_spec _ (Nat.mod_lt _ (by decide)),
    hexDigit_spec _ (Nat.mod_lt _ (by decide)), hexDigit_spec _ (Nat.mod_lt _ (by decide))]
  simp only [Nat.reducePow, Nat.div_one]

theorem hexDigit_plain (n : Nat) (h : n < 16) : hexDigit n ≠ 0x2C#8 ∧ hexDigit n ≠ 0x0A#8 := by
  have : ∀ n : Fin 16, hexDigit n.val ≠ 0x2C#8 ∧ hexDigit n.val ≠ 0x0A#8 := by decide +kernel
  exact this ⟨n, h⟩

theorem hex8_plain (x : U32) : 0x2C#8 ∉ hex8 x ∧ 0x0A#8 ∉ hex8 x := by
  have h : ∀ b ∈ hex8 x, b ≠ 0x2C#8 ∧ b ≠ 0x0A#8 := by
    intro b hb
    obtain ⟨n, hn, rfl⟩ := List.mem_map.1 hb
    refine hexDigit_plain n ?_
    simp only [List.mem_cons, List.not_mem_nil, or_false] at hn
    rcases hn with rfl | rfl | rfl | rfl | rfl | rfl | rfl | rfl <;> exact Nat.mod_lt _ (by decide)
  exact ⟨fun hm => (h _ hm).1 rfl, fun hm => (h _ hm).2 rfl⟩

/-- The two fields behind a name. -/
def Spec.hashFields : Option (Nat × Nat) → List (List Byte)
  | some (h1, h2) => [Spec.hexWord h1, Spec.hexWord h2]
  | none => [ascii "NA", ascii "NA"]

theorem csvRow_fields (x : HashedEntry) : Spec.fields (csvRow x) = Spec.fields x.1.name ++ Spec.hashFields x.pair := by
  obtain ⟨f, o⟩ := x
  cases o with
  | none =>
    show (f.name ++ 0x2C#8 :: [0x4E, 0x41, 0x2C, 0x4E, 0x41]).splitOn 0x2C#8 = _
    rw [List.splitOn_append_cons_self]
    exact congrArg (f.name.splitOn 0x2C#8 ++ ·)
      (show List.splitOn 0x2C#8 [0x4E, 0x41, 0x2C, 0x4E, 0x41] = [ascii "NA", ascii "NA"] by decide)
  | some p =>
    obtain ⟨h1, h2⟩ := p
    show (f.name ++ [0x2C#8] ++ hex8 h1 ++ [0x2C#8] ++ hex8 h2).splitOn 0x2C#8 = Spec.fields f.name ++ [_, _]
    rw [List.append_assoc, List.append_assoc, List.append_assoc, List.singleton_append, List.singleton_append,
      List.splitOn_append_cons_self, List.splitOn_append_cons_self_of_not_mem (hex8_plain h1).1,
      List.splitOn_eq_singleton (hex8_plain h2).1, hex8_spec, hex8_spec]
    rfl

theorem splitOn_length (sep : Byte) (l : List Byte) : (l.splitOn sep).length = l.count sep + 1 := by
  induction l with
  | nil => rfl
  | cons b l ih =>
    rw [List.splitOn_cons_eq_if_modifyHead, List.count_cons]
    split
    · rw [List.length_cons, ih]
    · rw [List.length_modifyHead, ih]

/-- C65: with hashes, the CSV output has one line per entry behind the heading, and on each line the fields of the name
(which is not quoted) are followed by the two hashes in hexadecimal or twice by `NA`. -/
theorem C65_csv_rows (entries : List HashedEntry) (hany : ∃ x ∈ entries, x.pair ≠ none)
    (h : ∀ x ∈ entries, 0x0A#8 ∉ x.1.name) :
    ∃ rows, Spec.lines (hashesCsv entries) = ascii "filename,hash1,hash2" :: rows ++ [[]] ∧
      rows.map Spec.fields = entries.map fun x => Spec.fields x.1.name ++ Spec.hashFields x.pair := by
  refine ⟨entries.map csvRow, ?_, ?_⟩
  · have ha : entries.any (·.2.isSome) = true := by
      obtain ⟨x, hx, hp⟩ := hany
      refine List.any_eq_true.2 ⟨x, hx, ?_⟩
      unfold HashedEntry.pair at hp
      cases h2 : x.2 with
      | none => rw [h2] at hp; exact absurd rfl hp
      | some _ => rfl
    unfold hashesCsv
    rw [if_pos ha]
    have := lines_flatMap (ascii "filename,hash1,hash2" :: entries.map csvRow) (by
      intro n hn
      rcases List.mem_cons.1 hn with rfl | hn
      · decide
      · obtain ⟨x, hx, rfl⟩ := List.mem_map.1 hn
        have hn := h x hx
        obtain ⟨f, o⟩ := x
        cases o with
        | none =>
          show _ ∉ f.name ++ _
          rw [List.mem_append]
          rintro (h | h)
          · exact hn h
          · exact absurd h (by decide)
        | some p =>
          show _ ∉ f.name ++ [0x2C#8] ++ hex8 p.1 ++ [0x2C#8] ++ hex8 p.2
          simp only [List.mem_append, not_or]
          exact ⟨⟨⟨⟨hn, by decide⟩, (hex8_plain _).2⟩, by decide⟩, (hex8_plain _).2⟩) []
    rw [List.append_nil, List.flatMap_cons, List.flatMap_map] at this
    exact this
  · rw [List.map_map]
    exact List.map_congr_left fun x _ => csvRow_fields x

/-- C65: a row therefore has the three columns of the heading if and only if the name contains no comma. A name with a
comma, which archives may hold, shifts the columns. -/
theorem C65_csv_columns_partial (x : HashedEntry) :
    ((Spec.fields (csvRow x)).length = 3 ↔ 0x2C#8 ∉ x.1.name) ∧
    (0x2C#8 ∉ x.1.name → Spec.fields (csvRow x) = x.1.name :: Spec.hashFields x.pair) := by
  have hh : (Spec.hashFields x.pair).length = 2 := by
    cases x.pair with
    | none => rfl
    | some _ => rfl
  rw [csvRow_fields]
  refine ⟨?_, fun h => ?_⟩
  · rw [List.length_append, hh]
    unfold Spec.fields
    rw [splitOn_length, ← List.count_eq_zero]
    omega
  · unfold Spec.fields
    rw [List.splitOn_eq_singleton h]
    rfl

/-! ## The verbose table -/

theorem utf8_shape (c : Nat) : ∃ a t, Spec.utf8 c = a :: t ∧ (Spec.scalar c → isCont a = false ∧ ∀ b ∈ t, isCont b = true) := by
  have hb : ∀ n, isCont (BitVec.ofNat 8 (0x80 + n % 64)) = true := by
    intro n
    unfold isCont
    have : (BitVec.ofNat 8 (0x80 + n % 64)).toNat = 0x80 + n % 64 := by rw [BitVec.toNat_ofNat]; omega
    rw [this]
    simp only [Bool.and_eq_true, decide_eq_true_eq]
    omega
  have ha : ∀ n, n < 256 → (n < 0x80 ∨ 0xC0 ≤ n) → isCont (BitVec.ofNat 8 n) = false := by
    intro n h1 h2
    unfold isCont
    have : (BitVec.ofNat 8 n).toNat = n := by rw [BitVec.toNat_ofNat]; omega
    rw [this, Bool.and_eq_false_iff, decide_eq_false_iff_not, decide_eq_false_iff_not]
    omega
  unfold Spec.utf8 Spec.scalar
  split
  · exact ⟨_, _, rfl, fun _ => ⟨ha _ (by omega) (by omega), fun b h => absurd h List.not_mem_nil⟩⟩
  · split
    · refine ⟨_, _, rfl, fun _ => ⟨ha _ (by omega) (by omega), fun b h => ?_⟩⟩
      simp only [List.map_cons, List.map_nil, List.mem_cons, List.not_mem_nil, or_false] at h
      subst h
      exact hb _
    · split
      · refine ⟨_, _, rfl, fun _ => ⟨ha _ (by omega) (by omega), fun b h => ?_⟩⟩
        simp only [List.map_cons, List.map_nil, List.mem_cons, List.not_mem_nil, or_false] at h
        rcases h with rfl | rfl <;> exact hb _
      · refine ⟨_, _, rfl, fun _ => ⟨ha _ (by omega) (by omega), fun b h => ?_⟩⟩
        simp only [List.map_cons, List.map_nil, List.mem_cons, List.not_mem_nil, or_false] at h
        rcases h with rfl | rfl | rfl <;> exact hb _

/-- The text can be cut after `n` bytes: a number of its characters take exactly these. -/
def Spec.cuttable (text : List Nat) (n : Nat) : Prop := ∃ k, (Spec.encode (text.take k)).length = n

theorem isCharBoundary_iff (text : List Nat) (hsc : ∀ c ∈ text, Spec.scalar c) (i : Nat) :
    isCharBoundary (Spec.encode text) i = true ↔ Spec.cuttable text i := by
  induction text generalizing i with
  | nil =>
    unfold isCharBoundary Spec.cuttable
    simp [Spec.encode]
    exact eq_comm
  | cons c text ih =>
    obtain ⟨a, t, hu, hs⟩ := utf8_shape c
    obtain ⟨ha, ht⟩ := hs (hsc c (List.mem_cons_self ..))
    have ih := fun j => ih (fun d hd => hsc d (List.mem_cons_of_mem _ hd)) j
    have henc : Spec.encode (c :: text) = a :: t ++ Spec.encode text := by
      unfold Spec.encode
      rw [List.flatMap_cons, hu]
    have hcut : Spec.cuttable (c :: text) i ↔ i = 0 ∨ ∃ j, i = (a :: t).length + j ∧ Spec.cuttable text j := by
      constructor
      · rintro ⟨k, hk⟩
        cases k with
        | zero => exact .inl hk.symm
        | succ k =>
          refine .inr ⟨_, ?_, k, rfl⟩
          rw [← hk, List.take_succ_cons]
          unfold Spec.encode
          rw [List.flatMap_cons, hu, List.length_append]
      · rintro (rfl | ⟨j, rfl, k, hk⟩)
        · exact ⟨0, rfl⟩
        · refine ⟨k + 1, ?_⟩
          rw [List.take_succ_cons, ← hk]
          unfold Spec.encode
          rw [List.flatMap_cons, hu, List.length_append]
    rw [hcut]
    by_cases h0 : i = 0
    · subst h0
      exact ⟨fun _ => .inl rfl, fun _ => rfl⟩
    by_cases hlt : i < (a :: t).length
    · constructor
      · intro h
        exfalso
        unfold isCharBoundary at h
        rw [henc, List.getElem?_append_left hlt, beq_false_of_ne h0, Bool.false_or] at h
        obtain ⟨i', rfl⟩ : ∃ i', i = i' + 1 := ⟨i - 1, by omega⟩
        have hl : i' < t.length := by simpa using hlt
        rw [List.getElem?_cons_succ, List.getElem?_eq_getElem hl] at h
        simp only [ht _ (List.getElem_mem hl)] at h
        exact absurd h (by decide)
      · rintro (h | ⟨j, h, _⟩)
        · exact absurd h h0
        · omega
    · obtain ⟨j, rfl⟩ : ∃ j, i = (a :: t).length + j := ⟨i - (a :: t).length, by omega⟩
      have hb : isCharBoundary (Spec.encode (c :: text)) ((a :: t).length + j) = isCharBoundary (Spec.encode text) j := by
        unfold isCharBoundary
        rw [henc, List.getElem?_append_right (Nat.le_add_right _ _), Nat.add_sub_cancel_left, beq_false_of_ne h0,
          Bool.false_or, List.length_append]
        by_cases hj : j = 0
        · subst hj
          cases text with
          | nil => simp [Spec.encode]
          | cons d text =>
            obtain ⟨a', t', hu', hs'⟩ := utf8_shape d
            have := (hs' (hsc d (List.mem_cons_of_mem _ (List.mem_cons_self ..)))).1
            unfold Spec.encode
            rw [List.flatMap_cons, hu']
            simp [this]
        · rw [beq_false_of_ne hj, Bool.false_or]
          cases (Spec.encode text)[j]? with
          | some b => rfl
          | none =>
            show ((a :: t).length + j == _) = (j == _)
            rw [Bool.eq_iff_iff, beq_iff_eq, beq_iff_eq]
            omega
      rw [hb, ih]
      constructor
      · exact fun h => .inr ⟨j, rfl, h⟩
      · rintro (h | ⟨j', h, h'⟩)
        · exact absurd h h0
        · rwa [show j = j' by omega]

/-- What the table shows of a name: all of it, or its first 36 bytes and three dots if it is longer than 39 bytes. -/
def Spec.shownName (text : List Nat) (shown : List Byte) : Prop :=
  ((Spec.encode text).length ≤ 39 ∧ shown = Spec.encode text) ∨
  (39 < (Spec.encode text).length ∧ ∃ k, (Spec.encode (text.take k)).length = 36 ∧
    shown = Spec.encode (text.take k) ++ ascii "...")

theorem displayName_text (text : List Nat) (hsc : ∀ c ∈ text, Spec.scalar c) :
    (∃ shown, displayName (Spec.encode text) = .ok shown ∧ Spec.shownName text shown) ∨
    (displayName (Spec.encode text) = .error .panic ∧ 39 < (Spec.encode text).length ∧ ¬ Spec.cuttable text 36) := by
  unfold displayName
  by_cases hl : 39 < (Spec.encode text).length
  · rw [if_pos hl]
    by_cases hb : isCharBoundary (Spec.encode text) 36 = true
    · rw [if_pos hb]
      obtain ⟨k, hk⟩ := (isCharBoundary_iff text hsc 36).1 hb
      refine .inl ⟨_, rfl, .inr ⟨hl, k, hk, ?_⟩⟩
      have : Spec.encode text = Spec.encode (text.take k) ++ Spec.encode (text.drop k) := by
        unfold Spec.encode
        rw [← List.flatMap_append, List.take_append_drop]
      rw [this, List.take_append_of_le_length (Nat.le_of_eq hk.symm), List.take_of_length_le (Nat.le_of_eq hk)]
      rfl
    · rw [if_neg hb]
      exact .inr ⟨rfl, hl, fun h => hb ((isCharBoundary_iff text hsc 36).2 h)⟩
  · rw [if_neg hl]
    exact .inl ⟨_, rfl, .inl ⟨by omega, rfl⟩⟩

/-- A row of the table belongs to an entry: its sizes, and its flags by the bits of the format. -/
def Spec.rowOf (x : FileEntry) (row : VerboseRow) : Prop :=
  row.size = x.size ∧ row.compressedSize = x.compressedSize ∧
  row.flags = [9, 16, 24, 26, 17, 20, 25].map (fun i => x.flags.getLsbD i)

theorem flag_bit (flags : U32) (i : Nat) (hi : i < 32) : (flags &&& (1#32 <<< i) != 0#32) = flags.getLsbD i := by
  rw [Bool.eq_iff_iff, bne_iff_ne, ne_eq]
  constructor
  · intro h
    cases hb : flags.getLsbD i with
    | true => rfl
    | false =>
      refine absurd ?_ h
      apply BitVec.eq_of_getLsbD_eq
      intro j hj
      simp only [BitVec.getLsbD_and, BitVec.getLsbD_shiftLeft, BitVec.getLsbD_one, BitVec.getLsbD_zero]
      by_cases he : j = i
      · subst he; rw [hb]; rfl
      · have : decide (j - i = 0) = false ∨ decide (j < i) = true := by
          by_cases h2 : j < i
          · exact .inr (decide_eq_true h2)
          · exact .inl (decide_eq_false (by omega))
        rcases this with h | h <;> simp [h]
  · intro h hz
    have := congrArg (fun v => v.getLsbD i) hz
    rw [BitVec.getLsbD_and, h, BitVec.getLsbD_shiftLeft, BitVec.getLsbD_one] at this
    simp [hi] at this

theorem verbose_flags (flags : U32) :
    ([0x200#32, 0x10000#32, 0x1000000#32, 0x4000000#32, 0x20000#32, 0x100000#32, 0x2000000#32].map
      fun f => flags &&& f != 0#32) = [9, 16, 24, 26, 17, 20, 25].map (fun i => flags.getLsbD i) := by
  simp only [List.map_cons, List.map_nil]
  rw [← flag_bit flags 9 (by decide), ← flag_bit flags 16 (by decide), ← flag_bit flags 24 (by decide),
    ← flag_bit flags 26 (by decide), ← flag_bit flags 17 (by decide), ← flag_bit flags 20 (by decide),
    ← flag_bit flags 25 (by decide)]
  rfl

/-- What the verbose table needs. -/
def Spec.tableable (names : List (List Nat)) (sizes compressed : List Nat) : Prop :=
  (∀ text ∈ names, 39 < (Spec.encode text).length → Spec.cuttable text 36) ∧ sizes.sum < 2 ^ 64 ∧ compressed.sum < 2 ^ 64

theorem verboseRows_cons (x : HashedEntry) (rest : List HashedEntry) (t c : Nat) :
    verboseRows (x :: rest) t c =
      match displayName x.1.name with
      | .error err => .error err
      | .ok name =>
        if t + x.1.size < 2 ^ 64 then
          if c + x.1.compressedSize < 2 ^ 64 then
            match verboseRows rest (t + x.1.size) (c + x.1.compressedSize) with
            | .error err => .error err
            | .ok (rows, total, compressed) => .ok (verboseRow name x.1 :: rows, total, compressed)
          else .error .panic
        else .error .panic := by
  rw [verboseRows]
  cases displayName x.1.name with
  | error err => rfl
  | ok name =>
    simp only [bind, Except.bind]
    by_cases h1 : t + x.1.size < 2 ^ 64
    · rw [if_pos h1, if_pos h1]
      simp only [pure, Except.pure]
      by_cases h2 : c + x.1.compressedSize < 2 ^ 64
      · rw [if_pos h2, if_pos h2]
        cases verboseRows rest (t + x.1.size) (c + x.1.compressedSize) with
        | error err => rfl
        | ok r => rfl
      · rw [if_neg h2, if_neg h2]
        rfl
    · rw [if_neg h1, if_neg h1]
      rfl

theorem verboseRows_texts (texts : List (List Nat)) : ∀ (entries : List HashedEntry) (t c : Nat),
    entries.map (·.1.name) = texts.map Spec.encode → (∀ n ∈ texts, ∀ ch ∈ n, Spec.scalar ch) →
    t < 2 ^ 64 → c < 2 ^ 64 →
    (Spec.tableable texts (t :: entries.map (·.1.size)) (c :: entries.map (·.1.compressedSize)) ∧
      ∃ rows, verboseRows entries t c = .ok (rows, t + (entries.map (·.1.size)).sum, c + (entries.map (·.1.compressedSize)).sum) ∧
        rows.length = entries.length ∧ (∀ i (h : i < rows.length) x, entries[i]? = some x → Spec.rowOf x.1 rows[i]) ∧
        ∀ i (h : i < rows.length) text, texts[i]? = some text → Spec.shownName text rows[i].name) ∨
    (¬ Spec.tableable texts (t :: entries.map (·.1.size)) (c :: entries.map (·.1.compressedSize)) ∧
      verboseRows entries t c = .error .panic) := by
  induction texts with
  | nil =>
    intro entries t c hn _ ht hc
    cases entries with
    | cons x l => exact absurd hn (by simp)
    | nil =>
      refine .inl ⟨⟨fun _ h => absurd h List.not_mem_nil, ?_, ?_⟩, [], rfl, rfl, fun i h => absurd h (Nat.not_lt_zero _),
        fun i h => absurd h (Nat.not_lt_zero _)⟩
      · simpa using ht
      · simpa using hc
  | cons text texts ih =>
    intro entries t c hn hsc ht hc
    cases entries with
    | nil => exact absurd hn (by simp)
    | cons x entries =>
      rw [List.map_cons, List.map_cons, List.cons.injEq] at hn
      obtain ⟨hn0, hn⟩ := hn
      rw [verboseRows_cons, hn0]
      have hsum : ∀ l : List HashedEntry, ∀ g : HashedEntry → Nat, ∀ a : Nat,
          (a :: (x :: l).map g).sum = a + g x + (l.map g).sum := by
        intro l g a
        simp only [List.map_cons, List.sum_cons]
        omega
      rcases displayName_text text (hsc text (List.mem_cons_self ..)) with ⟨shown, hd, hshown⟩ | ⟨hd, h39, hcut⟩
      · rw [hd]
        dsimp only
        by_cases h1 : t + x.1.size < 2 ^ 64
        · rw [if_pos h1]
          by_cases h2 : c + x.1.compressedSize < 2 ^ 64
          · rw [if_pos h2]
            have hiff : Spec.tableable (text :: texts) (t :: (x :: entries).map (·.1.size))
                (c :: (x :: entries).map (·.1.compressedSize)) ↔
                Spec.tableable texts ((t + x.1.size) :: entries.map (·.1.size))
                  ((c + x.1.compressedSize) :: entries.map (·.1.compressedSize)) := by
              unfold Spec.tableable
              rw [hsum, hsum, List.sum_cons, List.sum_cons]
              constructor
              · exact fun ⟨a1, a2, a3⟩ => ⟨fun n hn => a1 n (List.mem_cons_of_mem _ hn), a2, a3⟩
              · refine fun ⟨a1, a2, a3⟩ => ⟨fun n hn => ?_, a2, a3⟩
                rcases List.mem_cons.1 hn with rfl | hn
                · intro hl
                  rcases hshown with ⟨h, _⟩ | ⟨_, k, hk, _⟩
                  · omega
                  · exact ⟨k, hk⟩
                · exact a1 n hn
            rw [hiff]
            rcases ih entries (t + x.1.size) (c + x.1.compressedSize) hn (fun n hn => hsc n (List.mem_cons_of_mem _ hn)) h1 h2
              with ⟨hok, rows, hr, hlen, hrow, hname⟩ | ⟨hbad, hr⟩
            · rw [hr]
              refine .inl ⟨hok, verboseRow shown x.1 :: rows, ?_, ?_, ?_, ?_⟩
              · dsimp only
                simp only [List.map_cons, List.sum_cons, Nat.add_assoc]
              · rw [List.length_cons, List.length_cons, hlen]
              · intro i hi y hy
                cases i with
                | zero =>
                  cases Option.some.inj hy
                  exact ⟨rfl, rfl, verbose_flags _⟩
                | succ i => exact hrow i (by simpa using hi) y hy
              · intro i hi n hn
                cases i with
                | zero =>
                  cases Option.some.inj hn
                  exact hshown
                | succ i => exact hname i (by simpa using hi) n hn
            · rw [hr]
              exact .inr ⟨hbad, rfl⟩
          · rw [if_neg h2]
            refine .inr ⟨fun h => ?_, rfl⟩
            have := h.2.2
            rw [hsum] at this
            omega
        · rw [if_neg h1]
          refine .inr ⟨fun h => ?_, rfl⟩
          have := h.2.1
          rw [hsum] at this
          omega
      · rw [hd]
        exact .inr ⟨fun h => hcut (h.1 text (List.mem_cons_self ..) h39), rfl⟩

/-- C65: the verbose table of files has a row for each, with its sizes, its flags and its name, shortened to 36 bytes and
three dots if it has more than 39 bytes, and adds up the sizes, provided that every name to be shortened can be cut after 36
bytes and the sums fit in 64 bits. Otherwise the tool panics: it cannot show a name in which a character that takes several
bytes begins before byte 36 and ends behind it. -/
theorem C65_verbose_partial (entries : List HashedEntry) (texts : List (List Nat))
    (hnames : entries.map (·.1.name) = texts.map Spec.encode) (hscalar : ∀ n ∈ texts, ∀ c ∈ n, Spec.scalar c) :
    (Spec.tableable texts (entries.map (·.1.size)) (entries.map (·.1.compressedSize)) →
      ∃ rows, verboseRows entries 0 0 =
          .ok (rows, (entries.map (·.1.size)).sum, (entries.map (·.1.compressedSize)).sum) ∧
        rows.length = entries.length ∧ (∀ i (h : i < rows.length) x, entries[i]? = some x → Spec.rowOf x.1 rows[i]) ∧
        ∀ i (h : i < rows.length) text, texts[i]? = some text → Spec.shownName text rows[i].name) ∧
    (¬ Spec.tableable texts (entries.map (·.1.size)) (entries.map (·.1.compressedSize)) →
      verboseRows entries 0 0 = .error .panic) := by
  have h := verboseRows_texts texts entries 0 0 hnames hscalar (by decide) (by decide)
  have hiff : Spec.tableable texts (0 :: entries.map (·.1.size)) (0 :: entries.map (·.1.compressedSize)) ↔
      Spec.tableable texts (entries.map (·.1.size)) (entries.map (·.1.compressedSize)) := by
    unfold Spec.tableable
    rw [List.sum_cons, List.sum_cons, Nat.zero_add, Nat.zero_add]
  rw [hiff, Nat.zero_add, Nat.zero_add] at h
  rcases h with ⟨h1, h2⟩ | ⟨h1, h2⟩
  · exact ⟨fun _ => h2, fun h => absurd h1 h⟩
  · exact ⟨fun h => absurd h h1, fun _ => h2⟩

theorem verboseRows_panic (entries : List HashedEntry) (h : ∃ x ∈ entries, displayName x.1.name = .error .panic) (t c : Nat) :
    verboseRows entries t c = .error .panic := by
  induction entries generalizing t c with
  | nil => obtain ⟨x, hx, _⟩ := h; exact absurd hx List.not_mem_nil
  | cons y entries ih =>
    rw [verboseRows_cons]
    obtain ⟨x, hx, hp⟩ := h
    have hdec : (∃ n, displayName y.1.name = .ok n) ∨ displayName y.1.name = .error .panic := by
      unfold displayName
      split
      · split
        · exact .inl ⟨_, rfl⟩
        · exact .inr rfl
      · exact .inl ⟨_, rfl⟩
    rcases hdec with ⟨n, hn⟩ | hn
    · rw [hn]
      dsimp only
      rcases List.mem_cons.1 hx with rfl | hx
      · rw [hn] at hp; cases hp
      · split
        · split
          · rw [ih ⟨x, hx, hp⟩]
          · rfl
        · rfl
    · rw [hn]

/-- C65: so the verbose listing panics on every archive with a generated listfile that holds such a name. -/
theorem C65_verbose_panics_on_built (e : Env) (he : e.codecs.Lawful) (md5 : Md5) (hmd : ∀ x, (md5 x).length = 16)
    (b : Builder) (f : List Byte) (hb : buildBytes e md5 b = .ok f) (hg : b.listfile = .generate) (texts : List (List Nat))
    (hnames : b.pending.map (·.name) = texts.map Spec.encode) (hscalar : ∀ n ∈ texts, ∀ c ∈ n, Spec.scalar c)
    (hlist : ∀ n ∈ texts, Spec.listable n) (pending : List PendingFile)
    (hp : prepareListfile b = .ok pending) (hdist : DistinctNames pending) (hext : ClassicLookup e.codecs b pending)
    (before after : List Byte) (hal : before.length % 512 = 0)
    (hclean : ∀ o < before.length, o % 512 = 0 → ¬ Spec.archiveMark (before ++ f ++ after) o ∧
      ¬ Spec.userDataMark (before ++ f ++ after) o)
    (hlen : f.length < addressable b.version) (hfit : before.length + f.length < 2 ^ 64)
    (hcount : pending.length < 0xFFFFFFFE)
    (hsize : ∀ p ∈ pending, ∀ data, p.source = some data → data.length + data.length / 64 + 12 < 2 ^ 32)
    (hna : ∀ p ∈ pending, ¬ Spec.sameName (attributesName.map BitVec.toNat) (p.name.map BitVec.toNat))
    (ss : Nat) (hss : sectorSizeOf b.blockSize = .ok ss)
    (hm : (listfileText (b.pending.map (·.name))).length ≤ ss ∨
      Spec.LosslessMethod b.defaultCompression (listfileText (b.pending.map (·.name))))
    (hrec : Recoverable e.codecs ss b.defaultCompression (listfileText (b.pending.map (·.name))))
    (hc : NoCollision (attributesName :: pending.map (·.name)))
    (text : List Nat) (ht : text ∈ texts) (h39 : 39 < (Spec.encode text).length) (hcut : ¬ Spec.cuttable text 36)
    (hashes : Bool) :
    ∃ a shown, openArchive e (before ++ f ++ after) = .ok a ∧ cliList e a false hashes none = .ok shown ∧
      shown.length = b.pending.length + 1 ∧ verboseRows shown 0 0 = .error .panic := by
  obtain ⟨a, entries, ho, hl, hmap, _⟩ := C27_generated_listing_partial e he md5 hmd b f hb hg texts hnames hscalar hlist
    pending hp hdist hext before after hal hclean hlen hfit hcount hsize hna ss hss hm hrec hc
  obtain ⟨_, _, _, _, shown, hs, hperm, _⟩ := C65_list_shows e a false hashes (fun _ => true) entries hl
  refine ⟨a, shown, ho, hs, ?_, verboseRows_panic shown ?_ 0 0⟩
  · have h1 := hperm.length_eq
    have h2 := congrArg List.length hmap
    simp only [List.length_map, List.length_append, List.length_cons, List.length_nil] at h1 h2
    omega
  · have hmem : Spec.encode text ∈ entries.map (·.name) := by
      have : entries.map (·.name) = (entries.map (fun x => (x.name, x.size))).map Prod.fst := by
        rw [List.map_map]; rfl
      rw [this, hmap, List.map_append, List.map_map]
      refine List.mem_append_left _ ?_
      show _ ∈ b.pending.map (·.name)
      rw [hnames]
      exact List.mem_map_of_mem ht
    obtain ⟨x, hx, hxn⟩ := List.mem_map.1 hmem
    obtain ⟨y, hy, rfl⟩ := List.mem_map.1 (hperm.mem_iff.2 hx)
    refine ⟨y, hy, ?_⟩
    rw [hxn]
    rcases displayName_text text (hscalar text ht) with ⟨_, _, h | ⟨_, k, hk, _⟩⟩ | ⟨h, _⟩
    · exact absurd h.1 (by omega)
    · exact absurd ⟨k, hk⟩ hcut
    · exact h

/-! ## Cases -/

/-- A name of 41 bytes: the letter `a` and twenty times `é`, whose two bytes lie across byte 36. -/
def wideName : List Nat := 0x61 :: List.replicate 20 0xE9

theorem wideName_uncuttable : ¬ Spec.cuttable wideName 36 := by
  rw [← isCharBoundary_iff wideName (by
    have : ∀ c ∈ wideName, c < 0xD800 := by decide
    exact fun c hc => .inl (this c hc))]
  decide

/-- One file with this name, in version 2. -/
def wideBuilder : Builder :=
  { sampleBuilder .v2 with
    pending := [
      { source := some [1, 2, 3], name := Spec.encode wideName, compression := 0, encrypt := false, useFixKey := false,
        locale := 0 }] }

def widePending : List PendingFile := (prepareListfile wideBuilder).toOption.getD []

theorem wide_buildable : Buildable toyEnv wideBuilder widePending where
  shift := by show (3#16).toNat < 55; decide
  prepared := rfl
  count := by decide
  readable := by
    intro p hp
    have hp : p ∈ [_, _] := hp
    simp only [List.mem_cons, List.not_mem_nil, or_false] at hp
    rcases hp with rfl | rfl
    · exact ⟨_, rfl, by decide, by unfold Compressible; rw [show wideBuilder.blockSize = 3#16 from rfl, if_pos (by decide +kernel)]; exact ⟨_, by rfl⟩⟩
    · exact ⟨_, rfl, by decide +kernel, by unfold Compressible; rw [show wideBuilder.blockSize = 3#16 from rfl, if_pos (by decide +kernel)]; exact ⟨_, by rfl⟩⟩
  names := noCollision_lit (by decide +kernel)
  distinct := by unfold DistinctFiles; decide +kernel

/-- The verbose listing of this archive panics. -/
example : ∃ f a shown, buildBytes toyEnv zeroMd5 wideBuilder = .ok f ∧ openArchive toyEnv f = .ok a ∧
    cliList toyEnv a false false none = .ok shown ∧ shown.length = 2 ∧ verboseRows shown 0 0 = .error .panic := by
  have e48 : (2 : Nat) ^ 48 = 281474976710656 := rfl
  have h47 : (2 : Nat) ^ 47 = 140737488355328 := rfl
  have e64 : (2 : Nat) ^ 64 = 18446744073709551616 := rfl
  obtain ⟨f, hf⟩ := C50_classic_build_succeeds toyEnv zeroMd5 wideBuilder widePending wide_buildable (.inr rfl)
  have hsum : (widePending.map storedBound).sum < 1000 := by decide +kernel
  have hsb : ∀ p ∈ widePending, storedBound p + (p.source.getD []).length < 1000 := by decide +kernel
  obtain ⟨L⟩ := layout_of_build (fun _ => List.length_replicate) hf
  have hpe : L.pending = widePending := (Except.ok.inj (L.prepared.symm.trans wide_buildable.prepared))
  have hlt : f.length < 2 ^ 48 := L.length_lt (fun _ => List.length_replicate) (by rw [hpe]; decide)
    (by rw [hpe]; intro p hp; have := hsb p hp; omega) (by rw [hpe]; omega)
  have hsizes : ∀ p ∈ widePending, ∀ data, p.source = some data → data.length + data.length / 64 + 12 < 2 ^ 32 := by
    intro p hp data hd
    have := hsb p hp
    rw [hd] at this
    have : storedBound p + data.length < 1000 := this
    omega
  have hlm : Spec.LosslessMethod 0x02#8 (listfileText [Spec.encode wideName]) :=
    ⟨by decide, by decide, by decide, fun h => by rcases h with h | h <;> exact absurd h (by decide), by decide +kernel⟩
  obtain ⟨a, shown, h1, h2, h3, h4⟩ := C65_verbose_panics_on_built toyEnv toyCodecs_lawful zeroMd5
    (fun _ => List.length_replicate) wideBuilder f hf rfl [wideName] rfl
    (by
      intro n hn c hc
      rw [List.mem_singleton] at hn
      subst hn
      have : ∀ c ∈ wideName, c < 0xD800 := by decide
      exact .inl (this c hc))
    (by
      intro n hn
      rw [List.mem_singleton] at hn
      subst hn
      unfold Spec.listable Spec.space
      refine ⟨by decide, by decide, by decide, by decide, ?_, ?_⟩
      · intro c hc
        have : some (0x61 : Nat) = some c := hc
        injection this with this; omega
      · intro c hc
        have : some (0xE9 : Nat) = some c := hc
        injection this with this; omega)
    widePending rfl (by unfold DistinctNames; decide +kernel)
    (fun _ => .inl ⟨rfl, by decide⟩) [] [] rfl (by intro o ho; cases ho)
    (by unfold addressable; rw [if_neg (show ¬ wideBuilder.version = .v1 by decide)]; exact hlt)
    (by simp only [List.length_nil]; omega) (by decide) hsizes (by decide +kernel) 4096
    (show sectorSizeOf 3#16 = .ok 4096 by decide) (Or.inr hlm)
    (recoverable_of_lossless toyCodecs_lawful
      (show (listfileText [Spec.encode wideName]).length ≤ 4096 by decide +kernel) hlm
      (c := (compress toyCodecs (listfileText [Spec.encode wideName]) 0x02#8).toOption.getD [])
      (show compress toyCodecs (listfileText [Spec.encode wideName]) 0x02#8 = _ by decide +kernel))
    (noCollision_lit (by decide +kernel)) wideName (List.mem_singleton.2 rfl) (by decide) wideName_uncuttable false
  rw [List.nil_append, List.append_nil] at h1
  exact ⟨f, a, shown, hf, h1, h2, h3, h4⟩

/-- The sample of version 2: `list` with a pattern that leaves out the listfile shows the two files in order, with the same
names as `find`. -/
example : ∃ f a shown, buildBytes toyEnv zeroMd5 (sampleBuilder .v2) = .ok f ∧ openArchive toyEnv f = .ok a ∧
    cliList toyEnv a false true (some (.ok fun n => n.head? != some 0x28)) = .ok shown ∧
    (shown.map (·.1.name)).Perm [ascii "Dir\\a.txt", ascii "b.bin"] := by
  obtain ⟨f, a, entries, hf, ha, hl, hmap⟩ := sample_lists .v2 (by decide)
  obtain ⟨shown, h1, h2, _⟩ := C65_list_shows toyEnv a false true (fun n => n.head? != some 0x28) entries hl
  refine ⟨f, a, shown, hf, ha, h1, ?_⟩
  have := h2.map (·.name)
  rw [List.map_map] at this
  refine this.trans ?_
  have hn : entries.map (·.name) = [ascii "Dir\\a.txt", ascii "b.bin", listfileName] := by
    have := congrArg (List.map Prod.fst) hmap
    rw [List.map_map] at this
    exact this
  have hf : (entries.filter fun x => x.name.head? != some 0x28).map (·.name) =
      (entries.map (·.name)).filter fun n => n.head? != some 0x28 := by
    rw [List.filter_map]; rfl
  rw [hf, hn]
  exact List.Perm.refl _

/-- Two names as text and as CSV; a row with hashes of a name with a comma has four columns. -/
example : listText [ascii "a", ascii "b"] = ascii "a\nb\n\nTotal: 2 files\n" ∧
    listCsv [ascii "a", ascii "b"] = ascii "filename\na\nb\n" ∧
    hashesCsv [(⟨ascii "a,b", 1, 1, 0⟩, some (0x1234ABCD, 0)), (⟨ascii "c", 1, 1, 0⟩, none)] =
      ascii "filename,hash1,hash2\na,b,1234ABCD,00000000\nc,NA,NA\n" ∧
    (Spec.fields (csvRow (⟨ascii "a,b", 1, 1, 0⟩, some (0x1234ABCD, 0)))).length = 4 := by decide +kernel

/-- A table of two rows, one with a name that is cut. -/
example : verboseRows [(⟨ascii "a", 3, 5, 0x81000200⟩, none),
      (⟨ascii "0123456789012345678901234567890123456789", 4, 6, 0x80010000⟩, none)] 0 0 =
    .ok ([⟨ascii "a", 3, 5, [true, false, true, false, false, false, false]⟩,
      ⟨ascii "012345678901234567890123456789012345...", 4, 6, [false, true, false, false, false, false, false]⟩], 7, 11) := by
  decide +kernel

end Mopaq
