import Verif.Model.CliCreate
import Verif.Props.Cli
import Verif.Props.Duplicates

/-! # Creating an archive of a directory and extracting it again (C58) -/

namespace Mopaq

/-! ## What is added -/

theorem joinPath_eq {dir rel : List Byte} (h : rel.head? ≠ some 0x2F#8) : joinPath dir rel = Spec.under dir rel := by
  unfold joinPath Spec.under
  have : isAbsolute rel = false := by simpa [isAbsolute] using h
  rw [this]
  simp

theorem containsText_iff (text pattern : List Byte) : containsText text pattern = true ↔ pattern <:+: text := by
  induction text with
  | nil =>
    rw [containsText, List.isPrefixOf_iff_prefix, List.prefix_nil, List.infix_nil]
  | cons c rest ih =>
    rw [containsText, Bool.or_eq_true, List.isPrefixOf_iff_prefix, ih, List.infix_cons_iff]

theorem splitOnP_infix (l : List Byte) : ∀ part ∈ l.splitOnP (· == 0x2F#8), part <:+: l ∧
    ((l.splitOnP (· == 0x2F#8)).head? = some part → part <+: l) := by
  induction l with
  | nil => intro part h; simp at h; subst h; simp
  | cons c cs ih =>
    intro part h
    rw [List.splitOnP_cons] at h ⊢
    split at h
    · rename_i hc
      simp only [hc, if_true]
      rcases List.mem_cons.1 h with h | h
      · subst h; exact ⟨List.nil_infix, fun _ => List.nil_prefix⟩
      · refine ⟨(ih part h).1.trans (List.suffix_cons c cs).isInfix, ?_⟩
        intro hh
        simp only [List.head?_cons, Option.some.injEq] at hh
        subst hh
        exact List.nil_prefix
    · rename_i hc
      simp only [hc, Bool.false_eq_true, if_false]
      cases hs : List.splitOnP (· == 0x2F#8) cs with
      | nil => rw [hs] at h; cases h
      | cons a as =>
        rw [hs, List.modifyHead_cons] at h
        rw [hs] at ih
        simp only [List.modifyHead_cons, List.head?_cons, Option.some.injEq]
        have ha := (ih a List.mem_cons_self).2 rfl
        rcases List.mem_cons.1 h with h | h
        · subst h
          have : c :: a <+: c :: cs := (List.prefix_cons_inj c).2 ha
          exact ⟨this.isInfix, fun _ => this⟩
        · refine ⟨(ih part (List.mem_cons_of_mem _ h)).1.trans (List.suffix_cons c cs).isInfix, ?_⟩
          intro hh
          subst hh
          exact (List.prefix_cons_inj c).2 ha

theorem fileName_infix {p last : List Byte} (h : fileName p = some last) : last <:+: p := by
  unfold fileName at h
  split at h
  · rename_i part hp
    split at h
    · cases h
    · cases h
      have hm := List.mem_of_getLast? hp
      unfold pathParts at hm
      rw [List.mem_filter] at hm
      exact (splitOnP_infix p _ hm.1).1
  · cases h

theorem shouldIgnore_iff (patterns : List (List Byte)) (path : List Byte) :
    shouldIgnore patterns path = true ↔ ∃ text ∈ patterns, text <:+: path := by
  unfold shouldIgnore
  rw [List.any_eq_true]
  constructor
  · rintro ⟨t, ht, h⟩
    refine ⟨t, ht, ?_⟩
    rw [Bool.or_eq_true, containsText_iff] at h
    rcases h with h | h
    · exact h
    · split at h
      · rename_i last hl
        rw [containsText_iff] at h
        exact h.trans (fileName_infix hl)
      · cases h
  · rintro ⟨t, ht, h⟩
    exact ⟨t, ht, by rw [Bool.or_eq_true, containsText_iff]; exact Or.inl h⟩

theorem directoryFiles_eq (o : CreateOptions) (m : Byte) (dir : List Byte) : ∀ (files : List (List Byte × Option (List Byte))),
    (∀ x ∈ files, x.1.head? ≠ some 0x2F#8) → directoryFiles o m dir files =
      (files.filter fun x => Spec.chosen o.recursive o.ignorePatterns dir x.1).map fun x =>
        addedFile m x.2 (Spec.slashed x.1)
  | [], _ => rfl
  | (rel, content) :: rest, h => by
    have ih := directoryFiles_eq o m dir rest fun x hx => h x (List.mem_cons_of_mem _ hx)
    have hrel := h _ List.mem_cons_self
    rw [directoryFiles, joinPath_eq hrel, List.filter_cons, ih]
    by_cases h1 : (!o.recursive && rel.contains 0x2F#8) = true
    · rw [if_pos h1, if_neg]
      simp only [Bool.and_eq_true, Bool.not_eq_true', List.contains_iff_mem] at h1
      simp [Spec.chosen, h1.1, h1.2]
    · rw [if_neg h1]
      by_cases h2 : shouldIgnore o.ignorePatterns (Spec.under dir rel) = true
      · rw [if_pos h2, if_neg]
        obtain ⟨t, ht, hi⟩ := (shouldIgnore_iff _ _).1 h2
        unfold Spec.chosen
        rw [decide_eq_true_eq]
        exact fun hc => hc.2 t ht hi
      · rw [if_neg h2, if_pos]
        · rfl
        · unfold Spec.chosen
          rw [decide_eq_true_eq]
          refine ⟨?_, fun t ht hi => h2 ((shouldIgnore_iff _ _).2 ⟨t, ht, hi⟩)⟩
          cases hr : o.recursive with
          | true => exact Or.inl rfl
          | false =>
            refine Or.inr fun hm => h1 ?_
            simp [hr, hm]

/-- C58: the archive made of a directory is the one an archive builder makes of exactly the files asked for, in the order of
enumeration: those at any depth (or, without recursion, directly in the directory) whose path contains none of the texts to
ignore; each under its path relative to the directory with backslashes turned into slashes, unencrypted, neutral locale. -/
theorem C58_files_added (e : Env) (md5 : Md5) (o : CreateOptions) (path : List Byte)
    (files : List (List Byte × Option (List Byte))) (hrel : ∀ x ∈ files, x.1.head? ≠ some 0x2F#8) :
    cliCreate e md5 o path (.dir files) = buildBytes e md5
      { version := o.version, blockSize := o.blockSize, listfile := o.listfile,
        defaultCompression := BitVec.ofNat 8 o.compression.toNat, generateCrcs := false,
        tables := { compressTables := false, tableCompression := 0x02 },
        pending := (files.filter fun x => Spec.chosen o.recursive o.ignorePatterns path x.1).map fun x =>
          { source := x.2, name := Spec.slashed x.1, compression := BitVec.ofNat 8 o.compression.toNat, encrypt := false,
            useFixKey := false, locale := 0 } } := by
  unfold cliCreate createBuilder
  simp only [pure_bind]
  rw [directoryFiles_eq _ _ _ _ hrel]
  rfl

/-! ## Getting it back -/

theorem extractNames_readable (e : Env) (a : Archive) (out : List Byte) : ∀ (xs : List (List Byte × List Byte)),
    (∀ x ∈ xs, a.readFile e x.1 = .ok x.2) →
    extractNames e a out true (xs.map (·.1)) = (xs.map fun x => (joinPath out x.1, x.2), .ok ())
  | [], _ => rfl
  | x :: xs, h => by
    rw [List.map_cons, extractNames, h x List.mem_cons_self,
      extractNames_readable e a out xs fun y hy => h y (List.mem_cons_of_mem _ hy)]
    rfl

/-- What is known of the archive made of a directory, whatever becomes of the contents. -/
theorem create_opened (e : Env) (he : e.codecs.Lawful) (md5 : Md5) (hmd : ∀ x, (md5 x).length = 16)
    (o : CreateOptions) (hg : o.listfile = .generate) (path : List Byte) (files : List (List Byte × Option (List Byte)))
    (hrel : ∀ x ∈ files, x.1.head? ≠ some 0x2F#8) (f : List Byte) (hb : cliCreate e md5 o path (.dir files) = .ok f)
    (kept : List (List Byte × List Byte))
    (hkept : (files.filter fun x => Spec.chosen o.recursive o.ignorePatterns path x.1) = kept.map fun x => (x.1, some x.2))
    (texts : List (List Nat)) (hnames : kept.map (fun x => Spec.slashed x.1) = texts.map Spec.encode)
    (hscalar : ∀ n ∈ texts, ∀ c ∈ n, Spec.scalar c) (hlist : ∀ n ∈ texts, Spec.listable n)
    (hver : o.version = .v1 ∨ o.version = .v2 ∨ kept.length ≤ 3)
    (hlen : f.length < addressable o.version) (hcount : kept.length + 1 < 0xFFFFFFFE)
    (hna : ∀ x ∈ kept, ¬ Spec.sameName (attributesName.map BitVec.toNat) ((Spec.slashed x.1).map BitVec.toNat))
    (hc : NoCollision (attributesName :: listfileName :: kept.map fun x => Spec.slashed x.1))
    (ss : Nat) (hss : sectorSizeOf o.blockSize = .ok ss)
    (hlf : ∀ data, data = listfileText (kept.map fun x => Spec.slashed x.1) → data.length + data.length / 64 + 12 < 2 ^ 32 ∧
      (data.length ≤ ss ∨ Spec.LosslessMethod (BitVec.ofNat 8 o.compression.toNat) data) ∧
      Recoverable e.codecs ss (BitVec.ofNat 8 o.compression.toNat) data)
    (hsz : ∀ x ∈ kept, x.2.length + x.2.length / 64 + 12 < 2 ^ 32) :
    ∃ a entries, openArchive e f = .ok a ∧ a.list e = .ok entries ∧
      entries.map (·.name) = (kept.map fun x => Spec.slashed x.1) ++ [listfileName] ∧
      (∀ x ∈ kept, x.2.length ≤ ss ∨ Spec.LosslessMethod (BitVec.ofNat 8 o.compression.toNat) x.2 →
        (a.readFile e (Spec.slashed x.1) = .ok x.2 ↔ Recoverable e.codecs ss (BitVec.ofNat 8 o.compression.toNat) x.2)) ∧
      a.readFile e listfileName = .ok (listfileText (kept.map fun x => Spec.slashed x.1)) ∧
      ((kept.map fun x => Spec.slashed x.1) ++ [listfileName]).Pairwise (· ≠ ·) := by
  replace hlf := hlf _ rfl
  rw [C58_files_added e md5 o path files hrel, hkept, List.map_map] at hb
  let m : Byte := BitVec.ofNat 8 o.compression.toNat
  let lf : PendingFile := ⟨some (listfileText (kept.map fun x => Spec.slashed x.1)), listfileName, m, false, false, 0⟩
  let mk : List Byte × List Byte → PendingFile := fun x => ⟨some x.2, Spec.slashed x.1, m, false, false, 0⟩
  let b : Builder := ⟨o.version, o.blockSize, kept.map mk, o.listfile, m, false, ⟨false, 0x02⟩⟩
  let pending := kept.map mk ++ [lf]
  have hb : buildBytes e md5 b = .ok f := hb
  have hmn : (kept.map mk).map (·.name) = kept.map fun x => Spec.slashed x.1 := by rw [List.map_map]; rfl
  have hp : prepareListfile b = .ok pending := by
    show prepareListfile ⟨o.version, o.blockSize, kept.map mk, o.listfile, m, false, ⟨false, 0x02⟩⟩ = _
    unfold prepareListfile
    rw [hg]
    simp only [hmn]
    rfl
  have hpn : pending.map (·.name) = (kept.map fun x => Spec.slashed x.1) ++ [listfileName] := by
    show (kept.map mk ++ [lf]).map (·.name) = _
    rw [List.map_append, hmn]
    rfl
  have hplen : pending.length = kept.length + 1 := by
    show (kept.map mk ++ [lf]).length = _
    rw [List.length_append, List.length_map]
    rfl
  have hpm : ∀ p ∈ pending, p = lf ∨ ∃ x ∈ kept, p = mk x := by
    intro p hp
    rcases List.mem_append.1 hp with h | h
    · obtain ⟨x, hx, rfl⟩ := List.mem_map.1 h
      exact Or.inr ⟨x, hx, rfl⟩
    · exact Or.inl (List.mem_singleton.1 h)
  have hdist : DistinctNames pending := by
    obtain ⟨L⟩ := layout_of_build hmd hb
    have hpe : L.pending = pending := by
      have := L.prepared
      rw [hp] at this
      exact (Except.ok.inj this).symm
    have hd := L.distinct (by rw [hpe, hplen]; exact hcount)
    rw [hpe] at hd
    refine hd.imp_of_mem ?_
    intro p q hp hq h hs
    refine h ⟨hs, ?_⟩
    have hl : ∀ p ∈ pending, p.locale = 0 := by
      intro p hp
      rcases hpm p hp with rfl | ⟨x, _, rfl⟩ <;> rfl
    rw [hl p hp, hl q hq]
  have hcoll : NoCollision (attributesName :: pending.map (·.name)) := by
    rw [hpn]
    have key : ∀ n ∈ attributesName :: ((kept.map fun x => Spec.slashed x.1) ++ [listfileName]),
        n ∈ attributesName :: listfileName :: kept.map fun x => Spec.slashed x.1 := by
      intro n hn
      simp only [List.mem_cons, List.mem_append, List.not_mem_nil, or_false] at hn ⊢
      rcases hn with h | h | h
      · exact Or.inl h
      · exact Or.inr (Or.inr h)
      · exact Or.inr (Or.inl h)
    exact fun x hx y hy => hc x (key x hx) y (key y hy)
  have hsize : ∀ p ∈ pending, ∀ data, p.source = some data → data.length + data.length / 64 + 12 < 2 ^ 32 := by
    intro p hp data hd
    rcases hpm p hp with rfl | ⟨x, hx, rfl⟩
    · have : listfileText (kept.map fun x => Spec.slashed x.1) = data := Option.some.inj hd
      rw [← this]; exact hlf.1
    · have : x.2 = data := Option.some.inj hd
      rw [← this]; exact hsz x hx
  have hnap : ∀ p ∈ pending, ¬ Spec.sameName (attributesName.map BitVec.toNat) (p.name.map BitVec.toNat) := by
    intro p hp
    rcases hpm p hp with rfl | ⟨x, hx, rfl⟩
    · show ¬ Spec.sameName (attributesName.map BitVec.toNat) (listfileName.map BitVec.toNat)
      decide +kernel
    · exact hna x hx
  have hext : ClassicLookup e.codecs b pending := by
    intro hge
    refine Or.inl ⟨rfl, ?_⟩
    rw [hplen]
    have hge : o.version.ge .v3 = true := hge
    rcases hver with h | h | h
    · rw [h] at hge; cases hge
    · rw [h] at hge; cases hge
    · omega
  have h48 := addressable_le o.version
  have e48 : (2 : Nat) ^ 48 = 281474976710656 := rfl
  have e64 : (2 : Nat) ^ 64 = 18446744073709551616 := rfl
  obtain ⟨a, ss', ho, hss', hr, _⟩ := C26_read_back_partial e he md5 hmd b f hb pending hp hext [] [] rfl
    (by intro o ho; cases ho) hlen (by simp only [List.length_nil]; omega) (by rw [hplen]; exact hcount) hsize hnap hcoll
  have hbn : b.pending.map (·.name) = kept.map fun x => Spec.slashed x.1 := hmn
  obtain ⟨a', entries, h1, h2, h3, _⟩ := C27_generated_listing_partial e he md5 hmd b f hb hg texts (by rw [hbn]; exact hnames)
    hscalar hlist pending hp hdist hext [] [] rfl (by intro o ho; cases ho) hlen (by simp only [List.length_nil]; omega)
    (by rw [hplen]; exact hcount) hsize hnap ss hss (by rw [hbn]; exact hlf.2.1) (by rw [hbn]; exact hlf.2.2) hcoll
  rw [ho] at h1
  cases h1
  rw [List.nil_append, List.append_nil] at ho
  have hss' : sectorSizeOf o.blockSize = .ok ss' := hss'
  rw [hss] at hss'
  cases hss'
  have read : ∀ p ∈ pending, ∀ data, p.source = some data → data.length ≤ ss ∨ Spec.LosslessMethod p.compression data →
      (a.readFile e p.name = .ok data ↔ Recoverable e.codecs ss p.compression data) := by
    intro p hp data hd
    obtain ⟨i, hi⟩ := List.mem_iff_getElem?.1 hp
    obtain ⟨data', hd', hiff, _⟩ := hr i p p.name hi (sameName_refl _) (by
      intro j hj q hq
      have := List.pairwise_iff_getElem.1 hdist j i (List.getElem?_eq_some_iff.1 hq).1 (List.getElem?_eq_some_iff.1 hi).1 hj
      rw [(List.getElem?_eq_some_iff.1 hq).2, (List.getElem?_eq_some_iff.1 hi).2] at this
      exact fun h => this (sameName_symm h))
    rw [hd] at hd'
    cases hd'
    exact hiff
  refine ⟨a, entries, ho, h2, ?_, ?_, ?_, ?_⟩
  · have := congrArg (List.map Prod.fst) h3
    rw [List.map_map, List.map_append, List.map_map] at this
    rw [← hbn]
    exact this
  · exact fun x hx => read (mk x) (List.mem_append_left _ (List.mem_map.2 ⟨x, hx, rfl⟩)) _ rfl
  · exact (read lf (List.mem_append_right _ (List.mem_singleton.2 rfl)) _ rfl hlf.2.1).2 hlf.2.2
  · have : (pending.map (·.name)).Pairwise (· ≠ ·) := by
      rw [List.pairwise_map]
      exact hdist.imp fun h h' => h (by rw [h']; exact sameName_refl _)
    rw [hpn] at this
    exact this

/-- C58 (partial): the archive that the command line tool makes of a directory with a generated listfile opens, and extracting
all of it with `--preserve-path` writes, in the order of enumeration, exactly the files asked for, each to its relative path
(backslashes turned into slashes) below the output directory and with its content, and last the listfile. The contents have to
be recoverable with the compression chosen (C21, C22), the names have to be texts that can stand on a line of a listfile (C28),
none may be "(attributes)", and their hashes must not collide. Missing: versions 3 and 4 with more than three files
(`C26_extended_wrong_content`), files near 4 GiB. -/
theorem C58_round_trip_partial (e : Env) (he : e.codecs.Lawful) (md5 : Md5) (hmd : ∀ x, (md5 x).length = 16)
    (o : CreateOptions) (hg : o.listfile = .generate) (path : List Byte) (files : List (List Byte × Option (List Byte)))
    (hrel : ∀ x ∈ files, x.1.head? ≠ some 0x2F#8) (f : List Byte) (hb : cliCreate e md5 o path (.dir files) = .ok f)
    (kept : List (List Byte × List Byte))
    (hkept : (files.filter fun x => Spec.chosen o.recursive o.ignorePatterns path x.1) = kept.map fun x => (x.1, some x.2))
    (texts : List (List Nat)) (hnames : kept.map (fun x => Spec.slashed x.1) = texts.map Spec.encode)
    (hscalar : ∀ n ∈ texts, ∀ c ∈ n, Spec.scalar c) (hlist : ∀ n ∈ texts, Spec.listable n)
    (hver : o.version = .v1 ∨ o.version = .v2 ∨ kept.length ≤ 3)
    (hlen : f.length < addressable o.version) (hcount : kept.length + 1 < 0xFFFFFFFE)
    (hna : ∀ x ∈ kept, ¬ Spec.sameName (attributesName.map BitVec.toNat) ((Spec.slashed x.1).map BitVec.toNat))
    (hc : NoCollision (attributesName :: listfileName :: kept.map fun x => Spec.slashed x.1))
    (ss : Nat) (hss : sectorSizeOf o.blockSize = .ok ss)
    (hcontent : ∀ data, data = listfileText (kept.map fun x => Spec.slashed x.1) ∨ (∃ x ∈ kept, data = x.2) →
      data.length + data.length / 64 + 12 < 2 ^ 32 ∧
      (data.length ≤ ss ∨ Spec.LosslessMethod (BitVec.ofNat 8 o.compression.toNat) data) ∧
      Recoverable e.codecs ss (BitVec.ofNat 8 o.compression.toNat) data) :
    ∃ a, openArchive e f = .ok a ∧ ∀ out, extractAll e a (some out) true =
      (kept.map (fun x => (joinPath out (Spec.slashed x.1), x.2)) ++
        [(joinPath out listfileName, listfileText (kept.map fun x => Spec.slashed x.1))], .ok ()) := by
  obtain ⟨a, entries, ho, hl, hn, hr, hrl, _⟩ := create_opened e he md5 hmd o hg path files hrel f hb kept hkept texts hnames
    hscalar hlist hver hlen hcount hna hc ss hss (fun d hd => hcontent d (Or.inl hd))
    (fun x hx => (hcontent _ (Or.inr ⟨x, hx, rfl⟩)).1)
  refine ⟨a, ho, fun out => ?_⟩
  have hx := extractNames_readable e a out (kept.map (fun x => (Spec.slashed x.1, x.2)) ++
    [(listfileName, listfileText (kept.map fun x => Spec.slashed x.1))]) (by
      intro y hy
      rcases List.mem_append.1 hy with h | h
      · obtain ⟨x, hx, rfl⟩ := List.mem_map.1 h
        have := hcontent _ (Or.inr ⟨x, hx, rfl⟩)
        exact (hr x hx this.2.1).2 this.2.2
      · rw [List.mem_singleton.1 h]
        exact hrl)
  unfold extractAll
  rw [hl]
  simp only [Option.getD_some]
  rw [hn]
  rw [List.map_append, List.map_map, List.map_append, List.map_map] at hx
  exact hx

theorem under_inj {dir x y : List Byte} (h : Spec.under dir x = Spec.under dir y) : x = y := by
  unfold Spec.under at h
  split at h
  · exact List.append_cancel_left h
  · have := List.append_cancel_left h
    injection this

theorem slashed_id {x : List Byte} (h : 0x5C#8 ∉ x) : Spec.slashed x = x := by
  unfold Spec.slashed
  conv => rhs; rw [← List.map_id x]
  refine List.map_congr_left fun c hc => ?_
  have : c ≠ 0x5C#8 := by
    intro e
    subst e
    exact h hc
  rw [if_neg this]
  rfl

/-- C58 (partial): under the conditions of `C58_round_trip_partial` and if no name has a backslash, the directory is restored:
afterwards every file asked for is below the output directory under its relative path and with its content, and nothing else
on the disk has changed but `(listfile)` in the output directory. -/
theorem C58_directory_restored_partial (e : Env) (he : e.codecs.Lawful) (md5 : Md5) (hmd : ∀ x, (md5 x).length = 16)
    (o : CreateOptions) (hg : o.listfile = .generate) (path : List Byte) (files : List (List Byte × Option (List Byte)))
    (hrel : ∀ x ∈ files, x.1.head? ≠ some 0x2F#8) (f : List Byte) (hb : cliCreate e md5 o path (.dir files) = .ok f)
    (kept : List (List Byte × List Byte))
    (hkept : (files.filter fun x => Spec.chosen o.recursive o.ignorePatterns path x.1) = kept.map fun x => (x.1, some x.2))
    (texts : List (List Nat)) (hnames : kept.map (fun x => Spec.slashed x.1) = texts.map Spec.encode)
    (hscalar : ∀ n ∈ texts, ∀ c ∈ n, Spec.scalar c) (hlist : ∀ n ∈ texts, Spec.listable n)
    (hver : o.version = .v1 ∨ o.version = .v2 ∨ kept.length ≤ 3)
    (hlen : f.length < addressable o.version) (hcount : kept.length + 1 < 0xFFFFFFFE)
    (hna : ∀ x ∈ kept, ¬ Spec.sameName (attributesName.map BitVec.toNat) ((Spec.slashed x.1).map BitVec.toNat))
    (hc : NoCollision (attributesName :: listfileName :: kept.map fun x => Spec.slashed x.1))
    (ss : Nat) (hss : sectorSizeOf o.blockSize = .ok ss)
    (hcontent : ∀ data, data = listfileText (kept.map fun x => Spec.slashed x.1) ∨ (∃ x ∈ kept, data = x.2) →
      data.length + data.length / 64 + 12 < 2 ^ 32 ∧
      (data.length ≤ ss ∨ Spec.LosslessMethod (BitVec.ofNat 8 o.compression.toNat) data) ∧
      Recoverable e.codecs ss (BitVec.ofNat 8 o.compression.toNat) data)
    (hbs : ∀ x ∈ kept, 0x5C#8 ∉ x.1) :
    ∃ a, openArchive e f = .ok a ∧ ∀ (out : List Byte) (disk : Spec.Disk), ∃ writes,
      extractAll e a (some out) true = (writes, .ok ()) ∧
      (∀ rel data, (rel, data) ∈ kept → disk.writeAll writes (Spec.under out rel) = some data) ∧
      (∀ p, (∀ rel data, (rel, data) ∈ kept → p ≠ Spec.under out rel) → p ≠ Spec.under out (ascii "(listfile)") →
        disk.writeAll writes p = disk p) := by
  obtain ⟨a, ho, hx⟩ := C58_round_trip_partial e he md5 hmd o hg path files hrel f hb kept hkept texts hnames
    hscalar hlist hver hlen hcount hna hc ss hss hcontent
  obtain ⟨_, _, _, _, _, _, _, hpw⟩ := create_opened e he md5 hmd o hg path files hrel f hb kept hkept texts hnames
    hscalar hlist hver hlen hcount hna hc ss hss (fun d hd => hcontent d (Or.inl hd))
    (fun x hx => (hcontent _ (Or.inr ⟨x, hx, rfl⟩)).1)
  refine ⟨a, ho, fun out disk => ⟨_, hx out, ?_, ?_⟩⟩
  all_goals
    have hkrel : ∀ x ∈ kept, x.1.head? ≠ some 0x2F#8 := by
      intro x hx
      have : (x.1, some x.2) ∈ kept.map fun x => (x.1, some x.2) := List.mem_map.2 ⟨x, hx, rfl⟩
      rw [← hkept] at this
      exact hrel _ (List.mem_filter.1 this).1
    have hmap : kept.map (fun x => Spec.slashed x.1) = kept.map (·.1) :=
      List.map_congr_left fun x hx => slashed_id (hbs x hx)
    have hmapj : kept.map (fun x => (joinPath out (Spec.slashed x.1), x.2)) = kept.map fun x => (Spec.under out x.1, x.2) :=
      List.map_congr_left fun x hx => by rw [slashed_id (hbs x hx), joinPath_eq (hkrel x hx)]
    rw [joinPath_eq (show listfileName.head? ≠ some 0x2F#8 by decide), hmapj]
    rw [hmap, List.pairwise_append] at hpw
  · intro rel data hm
    apply writeAll_same
    · intro d hd
      rcases List.mem_append.1 hd with h | h
      · obtain ⟨y, hy, hyeq⟩ := List.mem_map.1 h
        have h1 : Spec.under out y.1 = Spec.under out rel := congrArg Prod.fst hyeq
        have h2 : y.2 = d := congrArg Prod.snd hyeq
        have h1 := under_inj h1
        have hinj : ∀ l : List (List Byte × List Byte), (l.map (·.1)).Pairwise (· ≠ ·) → y ∈ l → (rel, data) ∈ l →
            y = (rel, data) := by
          intro l
          induction l with
          | nil => intro _ h; cases h
          | cons z zs ih =>
            intro hp h3 h4
            rw [List.map_cons, List.pairwise_cons] at hp
            rcases List.mem_cons.1 h3 with h3 | h3 <;> rcases List.mem_cons.1 h4 with h4 | h4
            · rw [h3, h4]
            · exact absurd (h3 ▸ h1) (hp.1 _ (List.mem_map.2 ⟨_, h4, rfl⟩))
            · exact absurd (show z.1 = y.1 by rw [← h4]; exact h1.symm) (hp.1 _ (List.mem_map.2 ⟨_, h3, rfl⟩))
            · exact ih hp.2 h3 h4
        rw [← h2, hinj kept hpw.1 hy hm]
      · have h1 : Spec.under out rel = Spec.under out listfileName := congrArg Prod.fst (List.mem_singleton.1 h)
        exact absurd (under_inj h1) (hpw.2.2 rel (List.mem_map.2 ⟨_, hm, rfl⟩) listfileName (List.mem_singleton.2 rfl))
    · exact List.mem_append_left _ (List.mem_map.2 ⟨_, hm, rfl⟩)
  · intro p h1 h2
    apply writeAll_untouched
    intro data hd
    rcases List.mem_append.1 hd with h | h
    · obtain ⟨y, hy, hyeq⟩ := List.mem_map.1 h
      exact h1 y.1 y.2 hy (congrArg Prod.fst hyeq).symm
    · exact h2 (congrArg Prod.fst (List.mem_singleton.1 h))

/-! ## What goes wrong -/

/-- C58 fails: with `--compression none` (or any method under which the content is not recoverable, C21 and C22: for none, any
content of more than one sector) the file is not restored, although creating and extracting both succeed. -/
theorem C58_stored_large_file_not_restored (e : Env) (he : e.codecs.Lawful) (md5 : Md5) (hmd : ∀ x, (md5 x).length = 16)
    (o : CreateOptions) (hm : BitVec.ofNat 8 o.compression.toNat = 0#8) (hg : o.listfile = .generate) (path : List Byte) (files : List (List Byte × Option (List Byte)))
    (hrel : ∀ x ∈ files, x.1.head? ≠ some 0x2F#8) (f : List Byte) (hb : cliCreate e md5 o path (.dir files) = .ok f)
    (kept : List (List Byte × List Byte))
    (hkept : (files.filter fun x => Spec.chosen o.recursive o.ignorePatterns path x.1) = kept.map fun x => (x.1, some x.2))
    (texts : List (List Nat)) (hnames : kept.map (fun x => Spec.slashed x.1) = texts.map Spec.encode)
    (hscalar : ∀ n ∈ texts, ∀ c ∈ n, Spec.scalar c) (hlist : ∀ n ∈ texts, Spec.listable n)
    (hver : o.version = .v1 ∨ o.version = .v2 ∨ kept.length ≤ 3)
    (hlen : f.length < addressable o.version) (hcount : kept.length + 1 < 0xFFFFFFFE)
    (hna : ∀ x ∈ kept, ¬ Spec.sameName (attributesName.map BitVec.toNat) ((Spec.slashed x.1).map BitVec.toNat))
    (hc : NoCollision (attributesName :: listfileName :: kept.map fun x => Spec.slashed x.1))
    (ss : Nat) (hss : sectorSizeOf o.blockSize = .ok ss)
    (hlf : (listfileText (kept.map fun x => Spec.slashed x.1)).length ≤ ss)
    (hsz : ∀ x ∈ kept, x.2.length + x.2.length / 64 + 12 < 2 ^ 32)
    (hbs : ∀ x ∈ kept, 0x5C#8 ∉ x.1) (rel data : List Byte) (hx : (rel, data) ∈ kept) (hbig : ss < data.length) :
    ∃ a, openArchive e f = .ok a ∧ ∀ out, (Spec.under out rel, data) ∉ (extractAll e a (some out) true).1 := by
  have hlm : ∀ data : List Byte, data.length < 2 ^ 61 → Spec.LosslessMethod (BitVec.ofNat 8 o.compression.toNat) data := by
    intro data h61
    rw [hm]
    exact ⟨by decide, by decide, by decide, fun h => by rcases h with h | h <;> exact absurd h (by decide), by omega⟩
  have hszx := hsz _ hx
  obtain ⟨a, entries, ho, hl, hn, hr, _, _⟩ := create_opened e he md5 hmd o hg path files hrel f hb kept hkept texts hnames
    hscalar hlist hver hlen hcount hna hc ss hss (by
      rintro _ rfl
      refine ⟨by dsimp only at hszx; omega, Or.inl hlf, ?_⟩
      unfold Recoverable
      rw [if_pos hlf]
      exact Or.inl hm) hsz
  refine ⟨a, ho, fun out hmem => ?_⟩
  unfold extractAll at hmem
  rw [hl] at hmem
  simp only [Option.getD_some] at hmem
  rw [hn] at hmem
  obtain ⟨name, hname, ht, hread⟩ := extractNames_targets _ _ _ _ _ _ _ hmem
  have hkrel : ∀ x ∈ kept, x.1.head? ≠ some 0x2F#8 := by
    intro x hx
    have : (x.1, some x.2) ∈ kept.map fun x => (x.1, some x.2) := List.mem_map.2 ⟨x, hx, rfl⟩
    rw [← hkept] at this
    exact hrel _ (List.mem_filter.1 this).1
  have hnrel : name.head? ≠ some 0x2F#8 := by
    rcases List.mem_append.1 hname with h | h
    · obtain ⟨y, hy, rfl⟩ := List.mem_map.1 h
      rw [slashed_id (hbs y hy)]
      exact hkrel y hy
    · rw [List.mem_singleton.1 h]; decide
  unfold extractTarget at ht
  simp only [if_true, Option.some.injEq] at ht
  rw [joinPath_eq hnrel] at ht
  have ht := under_inj ht
  subst ht
  have hiff := hr _ hx (Or.inr (hlm _ (by omega)))
  rw [slashed_id (hbs _ hx)] at hiff
  have hrec := hiff.1 hread
  unfold Recoverable at hrec
  rw [if_neg (show ¬ data.length ≤ ss by omega)] at hrec
  obtain ⟨⟨x, c, _, hcs, hne⟩, _⟩ := hrec
  rw [hm, compress_zero] at hcs
  exact hne (Except.ok.inj hcs).symm

theorem prepared_prefix {b : Builder} {pending : List PendingFile} (h : prepareListfile b = .ok pending) :
    ∃ rest, pending = b.pending ++ rest ∧ rest.length ≤ 1 := by
  unfold prepareListfile at h
  split at h
  · exact ⟨_, (Except.ok.inj h).symm, Nat.le_refl _⟩
  · cases h
  · exact ⟨_, (Except.ok.inj h).symm, Nat.le_refl _⟩
  · exact ⟨[], by rw [List.append_nil]; exact (Except.ok.inj h).symm, Nat.zero_le _⟩

/-- C58 fails: a directory cannot be made an archive if two files asked for differ only in upper and lower case, or in slash
and backslash. -/
theorem C58_same_names_fail (e : Env) (md5 : Md5) (hmd : ∀ x, (md5 x).length = 16) (o : CreateOptions) (path : List Byte)
    (files : List (List Byte × Option (List Byte))) (hrel : ∀ x ∈ files, x.1.head? ≠ some 0x2F#8)
    (hcount : files.length + 1 < 0xFFFFFFFE) (i j : Nat) (hij : i < j) (x y : List Byte × Option (List Byte))
    (hi : files[i]? = some x) (hj : files[j]? = some y) (hx : Spec.chosen o.recursive o.ignorePatterns path x.1 = true)
    (hy : Spec.chosen o.recursive o.ignorePatterns path y.1 = true)
    (hsame : Spec.sameName ((Spec.slashed x.1).map BitVec.toNat) ((Spec.slashed y.1).map BitVec.toNat)) (f : List Byte) :
    cliCreate e md5 o path (.dir files) ≠ .ok f := by
  intro hb
  rw [C58_files_added e md5 o path files hrel] at hb
  obtain ⟨L⟩ := layout_of_build hmd hb
  obtain ⟨rest, hrest, hrlen⟩ := prepared_prefix L.prepared
  dsimp only at hrest
  have hflen := List.length_filter_le (fun x => Spec.chosen o.recursive o.ignorePatterns path x.1) files
  have hd := L.distinct (by rw [hrest, List.length_append, List.length_map]; omega)
  unfold DistinctFiles at hd
  rw [hrest, List.pairwise_append, List.pairwise_map, List.pairwise_filter] at hd
  have := List.pairwise_iff_getElem.1 hd.1 i j (List.getElem?_eq_some_iff.1 hi).1 (List.getElem?_eq_some_iff.1 hj).1 hij
  rw [(List.getElem?_eq_some_iff.1 hi).2, (List.getElem?_eq_some_iff.1 hj).2] at this
  exact this hx hy ⟨hsame, rfl⟩

/-- C58 fails: a directory with a file `(listfile)` cannot be made an archive with a generated listfile. So what an extraction
wrote can not be made an archive again as it is. -/
theorem C58_listfile_in_directory_fails (e : Env) (md5 : Md5) (hmd : ∀ x, (md5 x).length = 16) (o : CreateOptions)
    (hg : o.listfile = .generate) (path : List Byte) (files : List (List Byte × Option (List Byte)))
    (hrel : ∀ x ∈ files, x.1.head? ≠ some 0x2F#8) (hcount : files.length + 1 < 0xFFFFFFFE) (content : Option (List Byte))
    (hx : (ascii "(listfile)", content) ∈ files) (hch : Spec.chosen o.recursive o.ignorePatterns path (ascii "(listfile)") = true)
    (f : List Byte) : cliCreate e md5 o path (.dir files) ≠ .ok f := by
  intro hb
  rw [C58_files_added e md5 o path files hrel] at hb
  obtain ⟨L⟩ := layout_of_build hmd hb
  have hp := L.prepared
  unfold prepareListfile at hp
  simp only [hg] at hp
  have hpe := (Except.ok.inj hp).symm
  have hflen := List.length_filter_le (fun x => Spec.chosen o.recursive o.ignorePatterns path x.1) files
  have hd := L.distinct (by rw [hpe, List.length_append, List.length_map, List.length_singleton]; omega)
  unfold DistinctFiles at hd
  rw [hpe, List.pairwise_append] at hd
  refine hd.2.2 _ (List.mem_map.2 ⟨_, List.mem_filter.2 ⟨hx, hch⟩, rfl⟩) _ (List.mem_singleton.2 rfl) ⟨?_, rfl⟩
  show Spec.sameName ((Spec.slashed (ascii "(listfile)")).map BitVec.toNat) (listfileName.map BitVec.toNat)
  decide +kernel

/-- C58: a file asked for that cannot be read makes creation fail; it is not left out silently. -/
theorem C58_unreadable_file_fails (e : Env) (md5 : Md5) (hmd : ∀ x, (md5 x).length = 16) (o : CreateOptions)
    (path : List Byte) (files : List (List Byte × Option (List Byte))) (hrel : ∀ x ∈ files, x.1.head? ≠ some 0x2F#8)
    (rel : List Byte) (hx : (rel, none) ∈ files) (hch : Spec.chosen o.recursive o.ignorePatterns path rel = true)
    (f : List Byte) : cliCreate e md5 o path (.dir files) ≠ .ok f := by
  intro hb
  rw [C58_files_added e md5 o path files hrel] at hb
  obtain ⟨L⟩ := layout_of_build hmd hb
  obtain ⟨rest, hrest, _⟩ := prepared_prefix L.prepared
  dsimp only at hrest
  obtain ⟨p, hp, hps⟩ : ∃ p ∈ L.pending, p.source = none := by
    rw [hrest]
    exact ⟨_, List.mem_append_left _ (List.mem_map.2 ⟨_, List.mem_filter.2 ⟨hx, hch⟩, rfl⟩), rfl⟩
  obtain ⟨i, hi⟩ := List.mem_iff_getElem?.1 hp
  obtain ⟨s, before, after, _, _, _, hs⟩ := L.placed.get hi
  unfold storeFile at hs
  rw [hps] at hs
  cases hs

/-- C58 fails: texts to ignore are also looked for in the path of the directory itself. If it contains one, the archive
succeeds without any of its files. -/
theorem C58_ignore_matches_directory (e : Env) (md5 : Md5) (o : CreateOptions) (path : List Byte)
    (files : List (List Byte × Option (List Byte))) (hrel : ∀ x ∈ files, x.1.head? ≠ some 0x2F#8) (text : List Byte)
    (ht : text ∈ o.ignorePatterns) (hin : text <:+: path) :
    cliCreate e md5 o path (.dir files) = cliCreate e md5 o path (.dir []) := by
  rw [C58_files_added e md5 o path files hrel, C58_files_added e md5 o path [] (by intro x hx; cases hx)]
  have : (files.filter fun x => Spec.chosen o.recursive o.ignorePatterns path x.1) = [] := by
    rw [List.filter_eq_nil_iff]
    intro x _ hc
    unfold Spec.chosen at hc
    rw [decide_eq_true_eq] at hc
    refine hc.2 text ht (hin.trans ?_)
    unfold Spec.under
    split
    · exact (List.prefix_append path x.1).isInfix
    · exact (List.prefix_append path _).isInfix
  rw [this, List.filter_nil]

/-- C58 fails: a file whose name begins with a backslash (an ordinary character in Unix names) is written outside the output
directory, from the root directory. -/
theorem C58_leading_backslash_escapes (e : Env) (he : e.codecs.Lawful) (md5 : Md5) (hmd : ∀ x, (md5 x).length = 16)
    (o : CreateOptions) (hg : o.listfile = .generate) (path : List Byte) (files : List (List Byte × Option (List Byte)))
    (hrel : ∀ x ∈ files, x.1.head? ≠ some 0x2F#8) (f : List Byte) (hb : cliCreate e md5 o path (.dir files) = .ok f)
    (kept : List (List Byte × List Byte))
    (hkept : (files.filter fun x => Spec.chosen o.recursive o.ignorePatterns path x.1) = kept.map fun x => (x.1, some x.2))
    (texts : List (List Nat)) (hnames : kept.map (fun x => Spec.slashed x.1) = texts.map Spec.encode)
    (hscalar : ∀ n ∈ texts, ∀ c ∈ n, Spec.scalar c) (hlist : ∀ n ∈ texts, Spec.listable n)
    (hver : o.version = .v1 ∨ o.version = .v2 ∨ kept.length ≤ 3)
    (hlen : f.length < addressable o.version) (hcount : kept.length + 1 < 0xFFFFFFFE)
    (hna : ∀ x ∈ kept, ¬ Spec.sameName (attributesName.map BitVec.toNat) ((Spec.slashed x.1).map BitVec.toNat))
    (hc : NoCollision (attributesName :: listfileName :: kept.map fun x => Spec.slashed x.1))
    (ss : Nat) (hss : sectorSizeOf o.blockSize = .ok ss)
    (hcontent : ∀ data, data = listfileText (kept.map fun x => Spec.slashed x.1) ∨ (∃ x ∈ kept, data = x.2) →
      data.length + data.length / 64 + 12 < 2 ^ 32 ∧
      (data.length ≤ ss ∨ Spec.LosslessMethod (BitVec.ofNat 8 o.compression.toNat) data) ∧
      Recoverable e.codecs ss (BitVec.ofNat 8 o.compression.toNat) data)
    (x data : List Byte) (hx : (0x5C#8 :: x, data) ∈ kept) :
    ∃ a, openArchive e f = .ok a ∧ ∀ out, (0x2F#8 :: Spec.slashed x, data) ∈ (extractAll e a (some out) true).1 := by
  obtain ⟨a, ho, hw⟩ := C58_round_trip_partial e he md5 hmd o hg path files hrel f hb kept hkept texts hnames
    hscalar hlist hver hlen hcount hna hc ss hss hcontent
  refine ⟨a, ho, fun out => ?_⟩
  rw [hw out]
  exact List.mem_append_left _ (List.mem_map.2 ⟨_, hx, rfl⟩)

/-! ## A directory -/

/-- A directory with a file, a file in a subdirectory, a file to be ignored and one more. -/
def treeFiles (last : List Byte) : List (List Byte × Option (List Byte)) :=
  [(ascii "a.txt", some [1, 2, 3]), (ascii ".git/c", some [9]), (ascii "sub/b.bin", some (List.replicate 40 0x41#8)),
    (last, some [4])]

def treeKept (last : List Byte) : List (List Byte × List Byte) :=
  [(ascii "a.txt", [1, 2, 3]), (ascii "sub/b.bin", List.replicate 40 0x41#8), (last, [4])]

def treeOptions : CreateOptions := { CreateOptions.default with version := .v2, ignorePatterns := [ascii ".git"] }

/-- The last file is an ordinary one or has backslashes in its name. -/
def treeLasts : List (List Byte) := [ascii "plain", ascii "\\tmp\\x"]

def treeBuilder (last : List Byte) : Builder where
  version := .v2
  blockSize := 3
  pending := (treeKept last).map fun x => ⟨some x.2, Spec.slashed x.1, 0x02#8, false, false, 0⟩
  listfile := .generate
  defaultCompression := 0x02#8
  generateCrcs := false
  tables := { compressTables := false, tableCompression := 0x02 }

def treePending (last : List Byte) : List PendingFile :=
  (treeBuilder last).pending ++ [⟨some (listfileText ((treeBuilder last).pending.map (·.name))), listfileName, 0x02#8, false, false, 0⟩]

theorem tree_kept : ∀ last ∈ treeLasts, ((treeFiles last).filter fun x =>
    Spec.chosen treeOptions.recursive treeOptions.ignorePatterns (ascii "dir") x.1) = (treeKept last).map fun x => (x.1, some x.2) := by
  decide +kernel

theorem tree_relative : ∀ last ∈ treeLasts, ∀ x ∈ treeFiles last, x.1.head? ≠ some 0x2F#8 := by decide +kernel

theorem tree_create {last : List Byte} (h : last ∈ treeLasts) :
    cliCreate toyEnv zeroMd5 treeOptions (ascii "dir") (.dir (treeFiles last)) = buildBytes toyEnv zeroMd5 (treeBuilder last) := by
  rw [C58_files_added _ _ _ _ _ (tree_relative last h), tree_kept last h, List.map_map]
  rfl

theorem tree_buildable {last : List Byte} (h : last ∈ treeLasts) : Buildable toyEnv (treeBuilder last) (treePending last) where
  shift := by show (3#16).toNat < 55; decide
  prepared := rfl
  count := by
    show (4 + 1) * 2 ≤ _
    decide
  readable := by
    have key : ∀ last ∈ treeLasts, ∀ p ∈ treePending last, p.source.isSome = true ∧ (p.source.getD []).length < 1000 ∧
        (compress toyCodecs (p.source.getD []) p.compression).toOption.isSome = true := by decide +kernel
    intro p hp
    obtain ⟨h1, h2, h3⟩ := key last h p hp
    obtain ⟨data, hd⟩ := Option.isSome_iff_exists.1 h1
    rw [hd] at h2 h3
    simp only [Option.getD_some] at h2 h3
    have h32 : (2 : Nat) ^ 32 = 4294967296 := rfl
    refine ⟨data, hd, by omega, ?_⟩
    unfold Compressible
    rw [if_pos (by show data.length ≤ 512 * 2 ^ (3#16).toNat; have : 512 * 2 ^ (3#16).toNat = 4096 := by decide
                   omega)]
    cases hc : compress toyCodecs data p.compression with
    | error err => rw [hc] at h3; cases h3
    | ok c => exact ⟨c, hc⟩
  names := by
    unfold treeLasts at h
    simp only [List.mem_cons, List.not_mem_nil, or_false] at h
    rcases h with rfl | rfl <;> exact noCollision_lit (by decide +kernel)
  distinct := by
    have key : ∀ last ∈ treeLasts, DistinctFiles (treePending last) := by unfold DistinctFiles; decide +kernel
    exact key last h

theorem tree_archive {last : List Byte} (h : last ∈ treeLasts) : ∃ f,
    cliCreate toyEnv zeroMd5 treeOptions (ascii "dir") (.dir (treeFiles last)) = .ok f ∧ f.length < 2 ^ 48 := by
  have h21 : (2 : Nat) ^ 21 = 2097152 := rfl
  have h47 : (2 : Nat) ^ 47 = 140737488355328 := rfl
  obtain ⟨f, hf⟩ := C50_classic_build_succeeds toyEnv zeroMd5 (treeBuilder last) (treePending last) (tree_buildable h) (Or.inr rfl)
  obtain ⟨L⟩ := layout_of_build (fun _ => List.length_replicate) hf
  have hpe : L.pending = treePending last := (Except.ok.inj L.prepared).symm
  have hsb : ∀ last ∈ treeLasts, (treePending last).length < 10 ∧ ((treePending last).map storedBound).sum < 1000 ∧
      ∀ p ∈ treePending last, storedBound p + (p.source.getD []).length < 1000 := by decide +kernel
  obtain ⟨h1, h2, h3⟩ := hsb last h
  refine ⟨f, by rw [tree_create h]; exact hf, ?_⟩
  exact L.length_lt (fun _ => List.length_replicate) (by rw [hpe]; omega)
    (by rw [hpe]; intro p hp; have := h3 p hp; omega) (by rw [hpe]; omega)

/-- The hypotheses of `C58_round_trip_partial` are met by the sample directory. -/
theorem tree_extracted {last : List Byte} (h : last ∈ treeLasts) : ∃ f a,
    cliCreate toyEnv zeroMd5 treeOptions (ascii "dir") (.dir (treeFiles last)) = .ok f ∧ openArchive toyEnv f = .ok a ∧
    ∀ out, extractAll toyEnv a (some out) true =
      ((treeKept last).map (fun x => (joinPath out (Spec.slashed x.1), x.2)) ++
        [(joinPath out listfileName, listfileText ((treeKept last).map fun x => Spec.slashed x.1))], .ok ()) := by
  obtain ⟨f, hf, hlt⟩ := tree_archive h
  have htext : ∀ last ∈ treeLasts, (treeKept last).map (fun x => Spec.slashed x.1) =
      ((treeKept last).map fun x => (Spec.slashed x.1).map BitVec.toNat).map Spec.encode := by decide +kernel
  have hchars : ∀ last ∈ treeLasts, ∀ n ∈ (treeKept last).map fun x => (Spec.slashed x.1).map BitVec.toNat,
      n ≠ [] ∧ ∀ c ∈ n, 0x2E ≤ c ∧ c < 0x7B ∧ c ≠ 0x3B := by decide +kernel
  have key : ∀ n : List Nat, n ≠ [] → (∀ c ∈ n, 0x2E ≤ c ∧ c < 0x7B ∧ c ≠ 0x3B) → Spec.listable n := by
    intro n hn h
    have hs : ∀ c ∈ n, ¬ Spec.space c := by
      intro c hc; have := h c hc; unfold Spec.space; omega
    refine ⟨hn, fun hc => ?_, fun hc => ?_, fun hc => ?_, fun c hc => hs c (List.mem_of_mem_head? hc),
      fun c hc => hs c (List.mem_of_getLast? hc)⟩
    · have := h _ hc; omega
    · have := h _ hc; omega
    · have := h _ (List.mem_of_mem_head? hc); omega
  have hna : ∀ last ∈ treeLasts, ∀ x ∈ treeKept last,
      ¬ Spec.sameName (attributesName.map BitVec.toNat) ((Spec.slashed x.1).map BitVec.toNat) := by decide +kernel
  have hcont : ∀ last ∈ treeLasts, ∀ data ∈ listfileText ((treeKept last).map fun x => Spec.slashed x.1) ::
      (treeKept last).map (·.2), data.length < 1000 ∧ (compress toyCodecs data 0x02#8).toOption.isSome = true := by
    decide +kernel
  obtain ⟨a, ho, hx⟩ := C58_round_trip_partial toyEnv toyCodecs_lawful zeroMd5 (fun _ => List.length_replicate) treeOptions rfl
    (ascii "dir") (treeFiles last) (tree_relative last h) f hf (treeKept last) (tree_kept last h) _ (htext last h)
    (fun n hn c hc => Or.inl (by have := (hchars last h n hn).2 c hc; omega))
    (fun n hn => key n (hchars last h n hn).1 (hchars last h n hn).2) (Or.inr (Or.inl rfl)) hlt (by show 3 + 1 < _; decide)
    (hna last h)
    (by
      unfold treeLasts at h
      simp only [List.mem_cons, List.not_mem_nil, or_false] at h
      rcases h with rfl | rfl <;> exact noCollision_lit (by decide +kernel))
    4096 (by decide) (by
      intro data hd
      have hm : data ∈ listfileText ((treeKept last).map fun x => Spec.slashed x.1) :: (treeKept last).map (·.2) := by
        rcases hd with rfl | ⟨x, hx, rfl⟩
        · exact List.mem_cons_self
        · exact List.mem_cons_of_mem _ (List.mem_map.2 ⟨x, hx, rfl⟩)
      obtain ⟨h1, h2⟩ := hcont last h data hm
      have h32 : (2 : Nat) ^ 32 = 4294967296 := rfl
      have hlm : Spec.LosslessMethod 0x02#8 data :=
        ⟨by decide, by decide, by decide, fun h => by rcases h with h | h <;> exact absurd h (by decide), by omega⟩
      refine ⟨by omega, Or.inl (by omega), ?_⟩
      cases hc : compress toyCodecs data 0x02#8 with
      | error err => rw [hc] at h2; cases h2
      | ok c => exact recoverable_of_lossless toyCodecs_lawful (by omega) hlm hc)
  exact ⟨f, a, hf, ho, hx⟩

/-- The sample directory is restored, and with the other name a file leaves the output directory. -/
example : (∃ f a, cliCreate toyEnv zeroMd5 treeOptions (ascii "dir") (.dir (treeFiles (ascii "plain"))) = .ok f ∧
      openArchive toyEnv f = .ok a ∧
      ((extractAll toyEnv a (some (ascii "out")) true).1.map (·.1)) =
        [ascii "out/a.txt", ascii "out/sub/b.bin", ascii "out/plain", ascii "out/(listfile)"]) ∧
    (∃ f a, cliCreate toyEnv zeroMd5 treeOptions (ascii "dir") (.dir (treeFiles (ascii "\\tmp\\x"))) = .ok f ∧
      openArchive toyEnv f = .ok a ∧ (ascii "/tmp/x", [4]) ∈ (extractAll toyEnv a (some (ascii "out")) true).1) := by
  constructor
  · obtain ⟨f, a, hf, ho, hx⟩ := tree_extracted (last := ascii "plain") (by decide)
    exact ⟨f, a, hf, ho, by rw [hx]; decide +kernel⟩
  · obtain ⟨f, a, hf, ho, hx⟩ := tree_extracted (last := ascii "\\tmp\\x") (by decide)
    exact ⟨f, a, hf, ho, by rw [hx]; decide +kernel⟩

/-- No name of the sample directory has a backslash (`C58_directory_restored_partial`). -/
example : ∀ x ∈ treeKept (ascii "plain"), 0x5C#8 ∉ x.1 := by decide +kernel

/-- Names that agree up to case, a `(listfile)`, and a directory whose own path contains a text to ignore. -/
example (f : List Byte) :
    cliCreate toyEnv zeroMd5 .default (ascii "dir") (.dir [(ascii "README", some [1]), (ascii "b", some []), (ascii "ReadMe", some [2])]) ≠ .ok f ∧
    cliCreate toyEnv zeroMd5 .default (ascii "out") (.dir [(ascii "a.txt", some [1]), (ascii "(listfile)", some [])]) ≠ .ok f ∧
    cliCreate toyEnv zeroMd5 .default (ascii "dir") (.dir [(ascii "a.txt", some [1]), (ascii "locked", none)]) ≠ .ok f ∧
    cliCreate toyEnv zeroMd5 { CreateOptions.default with ignorePatterns := [ascii "tmp"] } (ascii "/tmp/work")
      (.dir [(ascii "a.txt", some [1])]) =
    cliCreate toyEnv zeroMd5 { CreateOptions.default with ignorePatterns := [ascii "tmp"] } (ascii "/tmp/work") (.dir []) :=
  ⟨C58_same_names_fail _ _ (fun _ => List.length_replicate) _ _ _ (by decide +kernel) (by decide +kernel) 0 2 (by decide) _ _ rfl rfl
      (by decide +kernel) (by decide +kernel) (by decide +kernel) f,
    C58_listfile_in_directory_fails _ _ (fun _ => List.length_replicate) _ rfl _ _ (by decide +kernel) (by decide +kernel) _
      (List.mem_cons_of_mem _ List.mem_cons_self) (by decide +kernel) f,
    C58_unreadable_file_fails _ _ (fun _ => List.length_replicate) _ _ _ (by decide +kernel) (ascii "locked")
      (List.mem_cons_of_mem _ List.mem_cons_self) (by decide +kernel) f,
    C58_ignore_matches_directory _ _ _ _ _ (by decide +kernel) (ascii "tmp") List.mem_cons_self (by decide +kernel)⟩

/-! ## A stored file of two sectors -/

def bigOptions : CreateOptions := { CreateOptions.default with version := .v2, compression := 0, blockSize := 0 }

@[irreducible] def bigFile : List Byte := List.replicate 600 0x41#8

theorem bigFile_length : bigFile.length = 600 := by unfold bigFile; exact List.length_replicate

def bigBuilder : Builder where
  version := .v2
  blockSize := 0
  pending := [⟨some bigFile, ascii "big", 0#8, false, false, 0⟩]
  listfile := .generate
  defaultCompression := 0#8
  generateCrcs := false
  tables := { compressTables := false, tableCompression := 0x02 }

def bigPending : List PendingFile := bigBuilder.pending ++ [⟨some (listfileText [ascii "big"]), listfileName, 0#8, false, false, 0⟩]

theorem big_create : cliCreate toyEnv zeroMd5 bigOptions (ascii "dir") (.dir [(ascii "big", some bigFile)]) =
    buildBytes toyEnv zeroMd5 bigBuilder := by
  rw [C58_files_added _ _ _ _ _ (by intro x hx; rw [List.mem_singleton.1 hx]; decide)]
  rfl

theorem big_buildable : Buildable toyEnv bigBuilder bigPending where
  shift := by show (0#16).toNat < 55; decide
  prepared := rfl
  count := by
    show (2 + 1) * 2 ≤ _
    decide
  readable := by
    have hl : (listfileText [ascii "big"]).length < 100 := by decide +kernel
    have h32 : (2 : Nat) ^ 32 = 4294967296 := rfl
    have hb := bigFile_length
    have hc : ∀ data, Compressible toyCodecs (512 * 2 ^ (0#16).toNat) 0#8 data := by
      intro data
      unfold Compressible
      split
      · exact ⟨_, compress_zero ..⟩
      · exact fun x _ => ⟨_, compress_zero ..⟩
    intro p hp
    rcases List.mem_cons.1 hp with rfl | hp
    · exact ⟨_, rfl, by omega, hc _⟩
    · rw [List.mem_singleton.1 hp]
      exact ⟨_, rfl, by omega, hc _⟩
  names := noCollision_lit (by decide +kernel)
  distinct := by unfold DistinctFiles; decide +kernel

/-- The hypotheses of `C58_stored_large_file_not_restored` are met by a directory with a file of 600 bytes and sectors of 512. -/
example : ∃ f a, cliCreate toyEnv zeroMd5 bigOptions (ascii "dir") (.dir [(ascii "big", some bigFile)]) = .ok f ∧
    openArchive toyEnv f = .ok a ∧ (ascii "out/big", bigFile) ∉ (extractAll toyEnv a (some (ascii "out")) true).1 := by
  have h21 : (2 : Nat) ^ 21 = 2097152 := rfl
  have h47 : (2 : Nat) ^ 47 = 140737488355328 := rfl
  have h32 : (2 : Nat) ^ 32 = 4294967296 := rfl
  obtain ⟨f, hf⟩ := C50_classic_build_succeeds toyEnv zeroMd5 bigBuilder bigPending big_buildable (Or.inr rfl)
  obtain ⟨L⟩ := layout_of_build (fun _ => List.length_replicate) hf
  have hpe : L.pending = bigPending := (Except.ok.inj L.prepared).symm
  have hsb : (bigPending.map storedBound).sum < 2000 ∧ ∀ p ∈ bigPending, storedBound p + (p.source.getD []).length < 2000 := by
    decide +kernel
  have hlt : f.length < 2 ^ 48 := L.length_lt (fun _ => List.length_replicate) (by rw [hpe]; show 2 < _; omega)
    (by rw [hpe]; intro p hp; have := hsb.2 p hp; omega) (by rw [hpe]; omega)
  have hb := bigFile_length
  obtain ⟨a, ho, hx⟩ := C58_stored_large_file_not_restored toyEnv toyCodecs_lawful zeroMd5 (fun _ => List.length_replicate)
    bigOptions (by decide) rfl (ascii "dir") [(ascii "big", some bigFile)] (by intro x hx; rw [List.mem_singleton.1 hx]; decide)
    f (by rw [big_create]; exact hf) [(ascii "big", bigFile)] (by rfl) ["big".toList.map Char.toNat] (by decide +kernel)
    (by
      have : ∀ n ∈ ["big".toList.map Char.toNat], ∀ c ∈ n, c < 0xD800 := by decide
      exact fun n hn c hc => Or.inl (this n hn c hc))
    (by
      intro n hn
      rw [List.mem_singleton.1 hn]
      unfold Spec.listable Spec.space
      refine ⟨by decide, by decide, by decide, by decide, ?_, ?_⟩
      · intro c hc
        have : some (0x62 : Nat) = some c := hc
        injection this with this; omega
      · intro c hc
        have : some (0x67 : Nat) = some c := hc
        injection this with this; omega)
    (Or.inr (Or.inl rfl)) hlt (by show 1 + 1 < _; decide) (by decide +kernel) (noCollision_lit (by decide +kernel)) 512
    (by decide) (by decide +kernel) (by intro x hx; rw [List.mem_singleton.1 hx]; dsimp only; omega)
    (by decide +kernel) (ascii "big") bigFile List.mem_cons_self (by omega)
  exact ⟨f, a, by rw [big_create]; exact hf, ho, hx (ascii "out")⟩

end Mopaq
