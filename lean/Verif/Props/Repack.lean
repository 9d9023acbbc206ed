import Verif.Spec.Repack
import Verif.Props.CliCreate
import Verif.Props.Spelling

/-!
# Extracting an archive and packing the files again (C87)
-/

namespace Mopaq

theorem plain_relative {rel : List Byte} (h : Spec.plain rel) : rel.head? ≠ some 0x2F#8 := by
  intro hh
  cases rel with
  | nil => cases hh
  | cons c rest =>
    injection hh with hh
    subst hh
    refine (h [] ?_).1 rfl
    show [] ∈ (0x2F#8 :: rest).splitOnP (· == 0x2F#8)
    rw [List.splitOnP_cons_eq_if_modifyHead]
    exact List.mem_cons_self

theorem slashed_sameName (x : List Byte) : Spec.sameName (x.map BitVec.toNat) ((Spec.slashed x).map BitVec.toNat) := by
  apply sameName_of_normalise
  unfold Spec.normalise Spec.slashed
  rw [List.map_map, List.map_map, List.map_map]
  refine List.map_congr_left fun c _ => ?_
  show Spec.upper c.toNat = Spec.upper (if c = 0x5C#8 then 0x2F#8 else c).toNat
  split
  · rename_i h; subst h; decide
  · rfl

theorem sameName_trans' {x y z : List Nat} (h : Spec.sameName x y) (h' : Spec.sameName y z) : Spec.sameName x z :=
  sameName_of_normalise ((normalise_of_sameName h).trans (normalise_of_sameName h'))

theorem listfileText_sublist {xs ys : List (List Byte)} (h : xs.Sublist ys) : (listfileText xs).length ≤ (listfileText ys).length := by
  unfold listfileText
  rw [List.length_append, List.length_append (as := ys.flatMap _)]
  refine Nat.add_le_add_right ?_ _
  induction h with
  | slnil => exact Nat.le_refl _
  | cons x _ ih => rw [List.flatMap_cons, List.length_append]; omega
  | cons_cons x _ ih =>
    rw [List.flatMap_cons, List.flatMap_cons, List.length_append, List.length_append (as := x ++ _)]
    omega

/-- What extraction leaves in a directory that was empty. -/
theorem extracted_files {e : Env} {a : Archive} {entries : List FileEntry} {files : List (List Byte × List Byte)}
    (hl : a.list e = .ok entries) (hn : entries.map (·.name) = files.map (·.1))
    (hr : ∀ x ∈ files, a.readFile e x.1 = .ok x.2) (hplain : ∀ x ∈ files, Spec.plain x.1) (out : List Byte) (disk : Spec.Disk)
    (hempty : ∀ rel, Spec.plain rel → disk (Spec.under out rel) = none) :
    ∃ writes, extractAll e a (some out) true = (writes, .ok ()) ∧
      ∀ rel, Spec.plain rel → ∀ data, disk.writeAll writes (Spec.under out rel) = some data ↔ (rel, data) ∈ files := by
  refine ⟨files.map fun x => (joinPath out x.1, x.2), ?_, ?_⟩
  · unfold extractAll
    rw [hl]
    simp only [Option.getD_some]
    rw [hn]
    exact extractNames_readable e a out files hr
  · intro rel hrel data
    have hm : ∀ d, (Spec.under out rel, d) ∈ files.map (fun x => (joinPath out x.1, x.2)) ↔ (rel, d) ∈ files := by
      intro d
      rw [List.mem_map]
      constructor
      · rintro ⟨x, hx, h⟩
        have h1 : joinPath out x.1 = Spec.under out rel := congrArg Prod.fst h
        have h2 : x.2 = d := congrArg Prod.snd h
        rw [joinPath_eq (plain_relative (hplain x hx))] at h1
        have h1 := under_inj h1
        rw [← h1, ← h2]
        exact hx
      · intro h
        exact ⟨_, h, by rw [joinPath_eq (plain_relative hrel)]⟩
    have hone : ∀ d d', (rel, d) ∈ files → (rel, d') ∈ files → d = d' := by
      intro d d' h h'
      have h1 : a.readFile e rel = .ok d := hr _ h
      have h2 : a.readFile e rel = .ok d' := hr _ h'
      rw [h1] at h2
      injection h2
    by_cases hx : ∃ d, (rel, d) ∈ files
    · obtain ⟨d, hd⟩ := hx
      rw [writeAll_same _ _ (fun d' h => hone d' d ((hm d').1 h) hd) ((hm d).2 hd)]
      constructor
      · intro h
        injection h with h
        rw [← h]
        exact hd
      · intro h
        rw [hone d data hd h]
    · rw [writeAll_untouched _ _ (fun d h => hx ⟨d, (hm d).1 h⟩), hempty rel hrel]
      constructor
      · intro h; cases h
      · intro h; exact absurd ⟨data, h⟩ hx

/-- What is packed again: the files that were extracted and are not ignored, and the listfile. -/
theorem repacked (e : Env) (md5 : Md5) (hmd : ∀ x, (md5 x).length = 16) (files : List (List Byte × List Byte))
    (hplain : ∀ x ∈ files, Spec.plain x.1) (out : List Byte) (disk : Spec.Disk)
    (hd : ∀ rel, Spec.plain rel → ∀ data, disk (Spec.under out rel) = some data ↔ (rel, data) ∈ files)
    (o : CreateOptions) (hrec : o.recursive = true) (ho : o.listfile = .none ∨ o.listfile = .generate)
    (hver : o.version = .v1 ∨ o.version = .v2 ∨ files.length ≤ 3) (hcount : files.length + 1 < 0xFFFFFFFE)
    (hna : ∀ x ∈ files, ¬ Spec.sameName (attributesName.map BitVec.toNat) (x.1.map BitVec.toNat))
    (hc : NoCollision (attributesName :: listfileName :: files.map fun x => Spec.slashed x.1))
    (hsz : ∀ x ∈ files, x.2.length + x.2.length / 64 + 12 < 2 ^ 32)
    (found : List (List Byte × List Byte)) (hfound : Spec.FilesBelow disk out found) (f : List Byte)
    (hb : cliCreate e md5 o out (.dir (found.map fun x => (x.1, some x.2))) = .ok f)
    (hlf : (listfileText (found.map fun x => Spec.slashed x.1)).length < 2 ^ 31) :
    ∃ (b : Builder) (pending : List PendingFile), b.version = o.version ∧ b.blockSize = o.blockSize ∧ buildBytes e md5 b = .ok f ∧
      prepareListfile b = .ok pending ∧ pending.length ≤ files.length + 1 ∧
      (∀ p ∈ pending, (p.name = listfileName ∧ o.listfile = .generate) ∨
        ∃ x ∈ files, (∀ text ∈ o.ignorePatterns, ¬ text <:+: Spec.under out x.1) ∧
          p = ⟨some x.2, Spec.slashed x.1, BitVec.ofNat 8 o.compression.toNat, false, false, 0⟩) ∧
      (∀ x ∈ files, (∀ text ∈ o.ignorePatterns, ¬ text <:+: Spec.under out x.1) →
        (⟨some x.2, Spec.slashed x.1, BitVec.ofNat 8 o.compression.toNat, false, false, 0⟩ : PendingFile) ∈ pending) ∧
      DistinctNames pending ∧ NoCollision (attributesName :: pending.map (·.name)) ∧
      (∀ n ∈ pending.map (·.name), n ∈ listfileName :: files.map fun x => Spec.slashed x.1) ∧
      (∀ p ∈ pending, ∀ data, p.source = some data → data.length + data.length / 64 + 12 < 2 ^ 32) ∧
      (∀ p ∈ pending, ¬ Spec.sameName (attributesName.map BitVec.toNat) (p.name.map BitVec.toNat)) ∧
      ClassicLookup e.codecs b pending := by
  have hmem : ∀ rel data, (rel, data) ∈ found ↔ (rel, data) ∈ files := by
    intro rel data
    constructor
    · intro h
      have hp := hfound.plain _ h
      exact (hd rel hp data).1 ((hfound.all rel hp data).1 h)
    · intro h
      have hp := hplain _ h
      exact (hfound.all rel hp data).2 ((hd rel hp data).2 h)
  have hfl : found.length ≤ files.length := by
    have hnd : found.Nodup := by
      have := hfound.once
      rw [List.pairwise_map] at this
      exact this.imp fun h h' => h (by rw [h'])
    exact hnd.length_le_of_subset fun x hx => (hmem x.1 x.2).1 hx
  let m : Byte := BitVec.ofNat 8 o.compression.toNat
  let mk : List Byte × List Byte → PendingFile := fun x => ⟨some x.2, Spec.slashed x.1, m, false, false, 0⟩
  let kept := found.filter fun x => Spec.chosen o.recursive o.ignorePatterns out x.1
  have hkm : ∀ x, x ∈ kept ↔ x ∈ files ∧ ∀ text ∈ o.ignorePatterns, ¬ text <:+: Spec.under out x.1 := by
    intro x
    show x ∈ found.filter _ ↔ _
    rw [List.mem_filter, hmem x.1 x.2]
    unfold Spec.chosen
    rw [decide_eq_true_iff]
    exact ⟨fun h => ⟨h.1, h.2.2⟩, fun h => ⟨h.1, Or.inl hrec, h.2⟩⟩
  have hkl : kept.length ≤ files.length := Nat.le_trans (List.length_filter_le _ _) hfl
  rw [C58_files_added e md5 o out _ (by
    intro x hx
    obtain ⟨y, hy, rfl⟩ := List.mem_map.1 hx
    exact plain_relative (hfound.plain y hy))] at hb
  let b : Builder := ⟨o.version, o.blockSize, kept.map mk, o.listfile, m, false, ⟨false, 0x02⟩⟩
  have hb : buildBytes e md5 b = .ok f := by
    rw [List.filter_map, List.map_map] at hb
    exact hb
  let lf : PendingFile := ⟨some (listfileText (kept.map fun x => Spec.slashed x.1)), listfileName, m, false, false, 0⟩
  obtain ⟨extra, hp, hex, hexg⟩ : ∃ extra, prepareListfile b = .ok (kept.map mk ++ extra) ∧ (extra = [] ∨ extra = [lf]) ∧
      (extra ≠ [] → o.listfile = .generate) := by
    rcases ho with h | h
    · refine ⟨[], ?_, Or.inl rfl, fun h => absurd rfl h⟩
      show prepareListfile ⟨o.version, o.blockSize, kept.map mk, o.listfile, m, false, ⟨false, 0x02⟩⟩ = _
      unfold prepareListfile
      rw [h, List.append_nil]
    · refine ⟨[lf], ?_, Or.inr rfl, fun _ => h⟩
      show prepareListfile ⟨o.version, o.blockSize, kept.map mk, o.listfile, m, false, ⟨false, 0x02⟩⟩ = _
      unfold prepareListfile
      rw [h]
      have : (kept.map mk).map (·.name) = kept.map fun x => Spec.slashed x.1 := by rw [List.map_map]; rfl
      simp only [this]
      rfl
  have hpm : ∀ p ∈ kept.map mk ++ extra, p = lf ∧ o.listfile = .generate ∨ ∃ x ∈ kept, p = mk x := by
    intro p hp
    rcases List.mem_append.1 hp with h | h
    · obtain ⟨x, hx, rfl⟩ := List.mem_map.1 h
      exact Or.inr ⟨x, hx, rfl⟩
    · refine Or.inl ⟨?_, hexg (List.ne_nil_of_mem h)⟩
      rcases hex with h' | h'
      · rw [h'] at h; cases h
      · rw [h'] at h; exact List.mem_singleton.1 h
  have hplen : (kept.map mk ++ extra).length ≤ files.length + 1 := by
    rw [List.length_append, List.length_map]
    rcases hex with h | h
    · rw [h]; simp only [List.length_nil]; omega
    · rw [h]; simp only [List.length_singleton]; omega
  have hpn : ∀ n ∈ (kept.map mk ++ extra).map (·.name), n ∈ listfileName :: files.map fun x => Spec.slashed x.1 := by
    intro n hn
    obtain ⟨p, hp, rfl⟩ := List.mem_map.1 hn
    rcases hpm p hp with ⟨rfl, _⟩ | ⟨x, hx, rfl⟩
    · exact List.mem_cons_self
    · exact List.mem_cons_of_mem _ (List.mem_map.2 ⟨x, ((hkm x).1 hx).1, rfl⟩)
  generalize hpend : kept.map mk ++ extra = pending at hp hpm hplen hpn
  have hdist : DistinctNames pending := by
    unfold DistinctNames
    rw [List.pairwise_iff_getElem]
    intro i j hi hj hij hs
    refine C08_built_files_distinct e md5 hmd b f hb pending hp (by omega) i j _ _ hij (List.getElem?_eq_getElem hi)
      (List.getElem?_eq_getElem hj) ⟨hs, ?_⟩
    have hl : ∀ p ∈ pending, p.locale = 0 := by
      intro p hp
      rcases hpm p hp with ⟨rfl, _⟩ | ⟨x, _, rfl⟩ <;> rfl
    rw [hl _ (List.getElem_mem hi), hl _ (List.getElem_mem hj)]
  have hcoll : NoCollision (attributesName :: pending.map (·.name)) := by
    intro x hx y hy
    refine hc x ?_ y ?_
    · rcases List.mem_cons.1 hx with h | h
      · exact h ▸ List.mem_cons_self
      · exact List.mem_cons_of_mem _ (hpn x h)
    · rcases List.mem_cons.1 hy with h | h
      · exact h ▸ List.mem_cons_self
      · exact List.mem_cons_of_mem _ (hpn y h)
  have hsize : ∀ p ∈ pending, ∀ data, p.source = some data → data.length + data.length / 64 + 12 < 2 ^ 32 := by
    intro p hp data hdata
    rcases hpm p hp with ⟨rfl, _⟩ | ⟨x, hx, rfl⟩
    · have : listfileText (kept.map fun x => Spec.slashed x.1) = data := Option.some.inj hdata
      rw [← this]
      have : (listfileText (kept.map fun x => Spec.slashed x.1)).length ≤ (listfileText (found.map fun x => Spec.slashed x.1)).length :=
        listfileText_sublist (List.filter_sublist.map _)
      omega
    · have : x.2 = data := Option.some.inj hdata
      rw [← this]; exact hsz x ((hkm x).1 hx).1
  have hnap : ∀ p ∈ pending, ¬ Spec.sameName (attributesName.map BitVec.toNat) (p.name.map BitVec.toNat) := by
    intro p hp
    rcases hpm p hp with ⟨rfl, _⟩ | ⟨x, hx, rfl⟩
    · show ¬ Spec.sameName (attributesName.map BitVec.toNat) (listfileName.map BitVec.toNat)
      decide +kernel
    · exact fun h => hna x ((hkm x).1 hx).1 (sameName_trans' h (sameName_symm (slashed_sameName x.1)))
  have hext : ClassicLookup e.codecs b pending := by
    intro hge
    refine Or.inl ⟨rfl, ?_⟩
    have hge : o.version.ge .v3 = true := hge
    rcases hver with h | h | h
    · rw [h] at hge; cases hge
    · rw [h] at hge; cases hge
    · omega
  refine ⟨b, pending, rfl, rfl, hb, hp, hplen, ?_, ?_, hdist, hcoll, hpn, hsize, hnap, hext⟩
  · intro p hp
    rcases hpm p hp with ⟨rfl, hg⟩ | ⟨x, hx, rfl⟩
    · exact Or.inl ⟨rfl, hg⟩
    · exact Or.inr ⟨x, ((hkm x).1 hx).1, ((hkm x).1 hx).2, rfl⟩
  · intro x hx hig
    rw [← hpend]
    exact List.mem_append_left _ (List.mem_map.2 ⟨x, (hkm x).2 ⟨hx, hig⟩, rfl⟩)

/-- Opening what was packed. -/
theorem repacked_reads (e : Env) (he : e.codecs.Lawful) (md5 : Md5) (hmd : ∀ x, (md5 x).length = 16) (b : Builder) (f : List Byte)
    (hb : buildBytes e md5 b = .ok f) (pending : List PendingFile) (hp : prepareListfile b = .ok pending)
    (hext : ClassicLookup e.codecs b pending) (hlen : f.length < addressable b.version) (hcount : pending.length < 0xFFFFFFFE)
    (hsize : ∀ p ∈ pending, ∀ data, p.source = some data → data.length + data.length / 64 + 12 < 2 ^ 32)
    (hna : ∀ p ∈ pending, ¬ Spec.sameName (attributesName.map BitVec.toNat) (p.name.map BitVec.toNat))
    (hc : NoCollision (attributesName :: pending.map (·.name))) (hdist : DistinctNames pending) (ss : Nat)
    (hss : sectorSizeOf b.blockSize = .ok ss) :
    ∃ a, openArchive e f = .ok a ∧
      (∀ p ∈ pending, ∀ data, p.source = some data → data.length ≤ ss ∨ Spec.LosslessMethod p.compression data →
        ∀ name, Spec.sameName (name.map BitVec.toNat) (p.name.map BitVec.toNat) →
          (a.readFile e name = .ok data ↔ Recoverable e.codecs ss p.compression data)) ∧
      (∀ name, (∀ p ∈ pending, ¬ Spec.sameName (name.map BitVec.toNat) (p.name.map BitVec.toNat)) →
        NoCollision (name :: pending.map (·.name)) → a.readFile e name = .error .fileNotFound) := by
  have h48 := addressable_le b.version
  have e48 : (2 : Nat) ^ 48 = 281474976710656 := rfl
  have e64 : (2 : Nat) ^ 64 = 18446744073709551616 := rfl
  obtain ⟨a, ss', hopen, hss', hread, hnone⟩ := C26_read_back_partial e he md5 hmd b f hb pending hp hext [] [] rfl
    (by intro o ho; cases ho) hlen (by simp only [List.length_nil]; omega) hcount hsize hna hc
  rw [hss] at hss'
  cases hss'
  rw [List.nil_append, List.append_nil] at hopen
  refine ⟨a, hopen, ?_, hnone⟩
  intro p hpm data hdata hm name hname
  obtain ⟨i, hi⟩ := List.mem_iff_getElem?.1 hpm
  obtain ⟨data', hdata', hiff, _⟩ := hread i p name hi hname (by
    intro j hj q hq h
    have := List.pairwise_iff_getElem.1 hdist j i (List.getElem?_eq_some_iff.1 hq).1 (List.getElem?_eq_some_iff.1 hi).1 hj
    rw [(List.getElem?_eq_some_iff.1 hq).2, (List.getElem?_eq_some_iff.1 hi).2] at this
    exact this (sameName_trans' (sameName_symm h) hname))
  rw [hdata] at hdata'
  cases hdata'
  exact hiff hm

/-- C87: an archive, whoever made it, whose listed files can all be read (each under its own plain path) is extracted into an
empty directory, and the files found there are packed again, with a generated listfile or none. The new archive opens; every file
that no text to ignore hits is read from it under every spelling of its name and with the content it had in the old one (if the
chosen compression can recover it, C21 and C22); any other name is missing. Missing: versions 3 and 4 with more than three
files (`C26_extended_wrong_content`), files near 4 GiB, colliding hashes, a file "(attributes)". -/
theorem C87_repack_partial (e : Env) (he : e.codecs.Lawful) (md5 : Md5) (hmd : ∀ x, (md5 x).length = 16)
    (a : Archive) (entries : List FileEntry) (files : List (List Byte × List Byte)) (hl : a.list e = .ok entries)
    (hn : entries.map (·.name) = files.map (·.1)) (hr : ∀ x ∈ files, a.readFile e x.1 = .ok x.2)
    (hplain : ∀ x ∈ files, Spec.plain x.1) (out : List Byte) (disk : Spec.Disk)
    (hempty : ∀ rel, Spec.plain rel → disk (Spec.under out rel) = none)
    (o : CreateOptions) (hrec : o.recursive = true) (ho : o.listfile = .none ∨ o.listfile = .generate)
    (hver : o.version = .v1 ∨ o.version = .v2 ∨ files.length ≤ 3) (hcount : files.length + 1 < 0xFFFFFFFE)
    (hna : ∀ x ∈ files, ¬ Spec.sameName (attributesName.map BitVec.toNat) (x.1.map BitVec.toNat))
    (hc : NoCollision (attributesName :: listfileName :: files.map fun x => Spec.slashed x.1))
    (ss : Nat) (hss : sectorSizeOf o.blockSize = .ok ss)
    (hsz : ∀ x ∈ files, x.2.length + x.2.length / 64 + 12 < 2 ^ 32) :
    ∃ writes, extractAll e a (some out) true = (writes, .ok ()) ∧
      ∀ found, Spec.FilesBelow (disk.writeAll writes) out found →
        ∀ f, cliCreate e md5 o out (.dir (found.map fun x => (x.1, some x.2))) = .ok f → f.length < addressable o.version →
          (listfileText (found.map fun x => Spec.slashed x.1)).length < 2 ^ 31 →
          ∃ a', openArchive e f = .ok a' ∧
            (∀ x ∈ files, (∀ text ∈ o.ignorePatterns, ¬ text <:+: Spec.under out x.1) →
              x.2.length ≤ ss ∨ Spec.LosslessMethod (BitVec.ofNat 8 o.compression.toNat) x.2 →
              Recoverable e.codecs ss (BitVec.ofNat 8 o.compression.toNat) x.2 →
              ∀ name, Spec.sameName (name.map BitVec.toNat) (x.1.map BitVec.toNat) →
                a'.readFile e name = .ok x.2 ∧ a.readFile e name = .ok x.2) ∧
            ∀ name, (∀ x ∈ files, (∀ text ∈ o.ignorePatterns, ¬ text <:+: Spec.under out x.1) →
                ¬ Spec.sameName (name.map BitVec.toNat) (x.1.map BitVec.toNat)) →
              (o.listfile = .generate → ¬ Spec.sameName (name.map BitVec.toNat) (listfileName.map BitVec.toNat)) →
              NoCollision (name :: listfileName :: files.map fun x => Spec.slashed x.1) →
              a'.readFile e name = .error .fileNotFound := by
  obtain ⟨writes, hw, hd⟩ := extracted_files hl hn hr hplain out disk hempty
  refine ⟨writes, hw, ?_⟩
  intro found hfound f hb hlen hlf
  obtain ⟨b, pending, hv, hbs, hb, hp, hplen, hfrom, hto, hdist, hcoll, hpn, hsize, hnap, hext⟩ := repacked e md5 hmd files hplain out
    _ hd o hrec ho hver hcount hna hc hsz found hfound f hb hlf
  obtain ⟨a', hopen, hread, hnone⟩ := repacked_reads e he md5 hmd b f hb pending hp hext (by rw [hv]; exact hlen) (by omega) hsize hnap
    hcoll hdist ss (by rw [hbs]; exact hss)
  refine ⟨a', hopen, ?_, ?_⟩
  · intro x hx hig hm hrecov name hname
    refine ⟨(hread _ (hto x hx hig) x.2 rfl hm name (sameName_trans' hname (slashed_sameName x.1))).2 hrecov, ?_⟩
    rw [(C66_same_file e a name x.1 hname).2]
    exact hr x hx
  · intro name h1 h2 hcn
    refine hnone name ?_ ?_
    · intro p hp h
      rcases hfrom p hp with ⟨h', hg⟩ | ⟨x, hx, hig, rfl⟩
      · rw [h'] at h; exact h2 hg h
      · exact h1 x hx hig (sameName_trans' h (sameName_symm (slashed_sameName x.1)))
    · intro x hx y hy
      refine hcn x ?_ y ?_
      · rcases List.mem_cons.1 hx with h | h
        · exact h ▸ List.mem_cons_self
        · exact List.mem_cons_of_mem _ (hpn x h)
      · rcases List.mem_cons.1 hy with h | h
        · exact h ▸ List.mem_cons_self
        · exact List.mem_cons_of_mem _ (hpn y h)

theorem lookupAll_names {a : Archive} : ∀ {names : List (List Byte)} {entries : List FileEntry}, a.lookupAll names = .ok entries →
    entries.map (·.name) = names.filter fun n => (a.findFile n).toOption.join.isSome
  | [], entries, h => by
    injection h with h
    rw [← h]
    rfl
  | n :: names, entries, h => by
    rw [Archive.lookupAll] at h
    obtain ⟨info, h1, h⟩ := bind_eq_ok.1 h
    obtain ⟨more, h2, h⟩ := bind_eq_ok.1 h
    have ih := lookupAll_names h2
    rw [List.filter_cons, h1]
    cases info with
    | none =>
      injection h with h
      rw [← h, ih]
      rfl
    | some info =>
      injection h with h
      rw [← h, List.map_cons, ih]
      rfl

theorem found_of_read {e : Env} {a : Archive} {name data : List Byte} (h : a.readFile e name = .ok data) :
    ∃ info, a.findFile name = .ok (some info) := by
  unfold Archive.readFile at h
  obtain ⟨r, h1, h⟩ := bind_eq_ok.1 h
  cases r with
  | none => cases h
  | some info => exact ⟨info, h1⟩

/-- C87: packed again without generating a listfile and ignoring nothing, the archive keeps its listfile, and it lists the same
names in the same order. -/
theorem C87_listing_kept (e : Env) (he : e.codecs.Lawful) (md5 : Md5) (hmd : ∀ x, (md5 x).length = 16)
    (a : Archive) (entries : List FileEntry) (files : List (List Byte × List Byte)) (hl : a.list e = .ok entries)
    (hn : entries.map (·.name) = files.map (·.1)) (hr : ∀ x ∈ files, a.readFile e x.1 = .ok x.2)
    (hplain : ∀ x ∈ files, Spec.plain x.1) (out : List Byte) (disk : Spec.Disk)
    (hempty : ∀ rel, Spec.plain rel → disk (Spec.under out rel) = none)
    (o : CreateOptions) (hrec : o.recursive = true) (ho : o.listfile = .none) (hig : o.ignorePatterns = [])
    (hver : o.version = .v1 ∨ o.version = .v2 ∨ files.length ≤ 3) (hcount : files.length + 1 < 0xFFFFFFFE)
    (hna : ∀ x ∈ files, ¬ Spec.sameName (attributesName.map BitVec.toNat) (x.1.map BitVec.toNat))
    (content : List Byte) (hcontent : (listfileName, content) ∈ files)
    (hc : NoCollision (attributesName :: (parseListfile content ++ files.map fun x => Spec.slashed x.1)))
    (ss : Nat) (hss : sectorSizeOf o.blockSize = .ok ss)
    (hsz : ∀ x ∈ files, x.2.length + x.2.length / 64 + 12 < 2 ^ 32)
    (hm : content.length ≤ ss ∨ Spec.LosslessMethod (BitVec.ofNat 8 o.compression.toNat) content)
    (hcr : Recoverable e.codecs ss (BitVec.ofNat 8 o.compression.toNat) content) :
    ∃ writes, extractAll e a (some out) true = (writes, .ok ()) ∧
      ∀ found, Spec.FilesBelow (disk.writeAll writes) out found →
        ∀ f, cliCreate e md5 o out (.dir (found.map fun x => (x.1, some x.2))) = .ok f → f.length < addressable o.version →
          (listfileText (found.map fun x => Spec.slashed x.1)).length < 2 ^ 31 →
          ∃ a' entries', openArchive e f = .ok a' ∧ a'.list e = .ok entries' ∧
            entries'.map (·.name) = entries.map (·.name) := by
  obtain ⟨writes, hw, hd⟩ := extracted_files hl hn hr hplain out disk hempty
  refine ⟨writes, hw, ?_⟩
  intro found hfound f hb hlen hlf
  have hslf : Spec.slashed listfileName = listfileName := by decide
  have hlm : listfileName ∈ files.map fun x => Spec.slashed x.1 := List.mem_map.2 ⟨_, hcontent, hslf⟩
  obtain ⟨b, pending, hv, hbs, hb, hp, hplen, hfrom, hto, hdist, hcoll, hpn, hsize, hnap, hext⟩ := repacked e md5 hmd files hplain out
    _ hd o hrec (Or.inl ho) hver hcount hna (by
      intro x hx y hy
      have key : ∀ x ∈ attributesName :: listfileName :: files.map fun x => Spec.slashed x.1,
          x ∈ attributesName :: (parseListfile content ++ files.map fun x => Spec.slashed x.1) := by
        intro x hx
        rcases List.mem_cons.1 hx with h | h
        · exact h ▸ List.mem_cons_self
        · refine List.mem_cons_of_mem _ (List.mem_append_right _ ?_)
          rcases List.mem_cons.1 h with h | h
          · rw [h]; exact hlm
          · exact h
      exact hc x (key x hx) y (key y hy)) hsz found hfound f hb hlf
  have hig' : ∀ x : List Byte, ∀ text ∈ o.ignorePatterns, ¬ text <:+: Spec.under out x := by
    intro x text h
    rw [hig] at h
    cases h
  have hto' := fun x hx => hto x hx (hig' x.1)
  have hfrom' : ∀ p ∈ pending, ∃ x ∈ files,
      p = ⟨some x.2, Spec.slashed x.1, BitVec.ofNat 8 o.compression.toNat, false, false, 0⟩ := by
    intro p hp
    rcases hfrom p hp with ⟨_, h⟩ | ⟨x, hx, _, h⟩
    · rw [ho] at h; cases h
    · exact ⟨x, hx, h⟩
  let lf : PendingFile := ⟨some content, listfileName, BitVec.ofNat 8 o.compression.toNat, false, false, 0⟩
  have hlf' : lf ∈ pending := by
    have := hto' _ hcontent
    dsimp only at this
    rw [hslf] at this
    exact this
  have h48 := addressable_le b.version
  have e48 : (2 : Nat) ^ 48 = 281474976710656 := rfl
  have e64 : (2 : Nat) ^ 64 = 18446744073709551616 := rfl
  rw [← hv] at hlen
  obtain ⟨a', entries', h1, h2, h3, _⟩ := C27_listing_follows_listfile e he md5 hmd b f hb pending hp hext [] [] rfl
    (by intro o ho; cases ho) hlen (by simp only [List.length_nil]; omega) (by omega) hsize hnap lf
    (firstNamed_self hdist lf hlf') content rfl ss (by rw [hbs]; exact hss) hm hcr (by
      intro x hx y hy
      have key : ∀ x ∈ attributesName :: (parseListfile content ++ pending.map (·.name)),
          x ∈ attributesName :: (parseListfile content ++ files.map fun x => Spec.slashed x.1) := by
        intro x hx
        rcases List.mem_cons.1 hx with h | h
        · exact h ▸ List.mem_cons_self
        · refine List.mem_cons_of_mem _ ?_
          rcases List.mem_append.1 h with h | h
          · exact List.mem_append_left _ h
          · refine List.mem_append_right _ ?_
            rcases List.mem_cons.1 (hpn x h) with h | h
            · rw [h]; exact hlm
            · exact h
      exact hc x (key x hx) y (key y hy))
  rw [List.nil_append, List.append_nil] at h1
  refine ⟨a', entries', h1, h2, ?_⟩
  have hparse : entries.map (·.name) = (parseListfile content).filter fun n => (a.findFile n).toOption.join.isSome := by
    have hrl := hr _ hcontent
    obtain ⟨info, hi⟩ := found_of_read hrl
    unfold Archive.list at hl
    obtain ⟨r, h1, hl⟩ := bind_eq_ok.1 hl
    rw [hi] at h1
    cases h1
    dsimp only at hl hrl
    rw [hrl] at hl
    exact lookupAll_names hl
  have hn' : entries'.map (·.name) = (parseListfile content).filter fun n => (firstNamed pending n).isSome := by
    have := congrArg (List.map Prod.fst) h3
    rw [List.map_map] at this
    refine this.trans ?_
    clear this h3
    induction parseListfile content with
    | nil => rfl
    | cons n ns ih =>
      rw [List.filterMap_cons, List.filter_cons]
      cases firstNamed pending n with
      | none => exact ih
      | some p => exact congrArg (n :: ·) ih
  rw [hn', hparse]
  refine List.filter_congr fun n hnm => ?_
  rw [Bool.eq_iff_iff]
  constructor
  · intro h
    obtain ⟨p, hp⟩ := Option.isSome_iff_exists.1 h
    have hs := List.find?_some hp
    obtain ⟨x, hx, rfl⟩ := hfrom' p (List.mem_of_find?_eq_some hp)
    have hs : Spec.sameName (n.map BitVec.toNat) ((Spec.slashed x.1).map BitVec.toNat) := of_decide_eq_true hs
    obtain ⟨info, hi⟩ := found_of_read (hr x hx)
    rw [(C66_same_file e a n x.1 (sameName_trans' hs (sameName_symm (slashed_sameName x.1)))).1, hi]
    rfl
  · intro h
    have : n ∈ entries.map (·.name) := by
      rw [hparse, List.mem_filter]
      exact ⟨hnm, h⟩
    rw [hn] at this
    obtain ⟨x, hx, rfl⟩ := List.mem_map.1 this
    unfold firstNamed
    rw [List.find?_isSome]
    exact ⟨_, hto' x hx, decide_eq_true (slashed_sameName x.1)⟩

/-- C87 fails with the default options: an archive whose listfile is among the files it lists, as in every archive built with a
generated listfile, cannot be packed again from what was extracted, unless the listfile is ignored. -/
theorem C87_repack_refused (e : Env) (md5 : Md5) (hmd : ∀ x, (md5 x).length = 16)
    (a : Archive) (entries : List FileEntry) (files : List (List Byte × List Byte)) (hl : a.list e = .ok entries)
    (hn : entries.map (·.name) = files.map (·.1)) (hr : ∀ x ∈ files, a.readFile e x.1 = .ok x.2)
    (hplain : ∀ x ∈ files, Spec.plain x.1) (out : List Byte) (disk : Spec.Disk)
    (hempty : ∀ rel, Spec.plain rel → disk (Spec.under out rel) = none)
    (o : CreateOptions) (ho : o.listfile = .generate) (hcount : files.length + 1 < 0xFFFFFFFE)
    (content : List Byte) (hcontent : (ascii "(listfile)", content) ∈ files)
    (hig : ∀ text ∈ o.ignorePatterns, ¬ text <:+: Spec.under out (ascii "(listfile)")) :
    ∃ writes, extractAll e a (some out) true = (writes, .ok ()) ∧
      ∀ found, Spec.FilesBelow (disk.writeAll writes) out found →
        ∀ f, cliCreate e md5 o out (.dir (found.map fun x => (x.1, some x.2))) ≠ .ok f := by
  obtain ⟨writes, hw, hd⟩ := extracted_files hl hn hr hplain out disk hempty
  refine ⟨writes, hw, ?_⟩
  intro found hfound f
  have hmem : ∀ rel data, (rel, data) ∈ found ↔ (rel, data) ∈ files := by
    intro rel data
    constructor
    · intro h
      have hp := hfound.plain _ h
      exact (hd rel hp data).1 ((hfound.all rel hp data).1 h)
    · intro h
      have hp := hplain _ h
      exact (hfound.all rel hp data).2 ((hd rel hp data).2 h)
  have hfl : found.length ≤ files.length := by
    have hnd : found.Nodup := by
      have := hfound.once
      rw [List.pairwise_map] at this
      exact this.imp fun h h' => h (by rw [h'])
    exact hnd.length_le_of_subset fun x hx => (hmem x.1 x.2).1 hx
  refine C58_listfile_in_directory_fails e md5 hmd o ho out _ ?_ (by rw [List.length_map]; omega) (some content)
    (List.mem_map.2 ⟨_, (hmem _ _).2 hcontent, rfl⟩) ?_ f
  · intro x hx
    obtain ⟨y, hy, rfl⟩ := List.mem_map.1 hx
    exact plain_relative (hfound.plain y hy)
  · unfold Spec.chosen
    rw [decide_eq_true_iff]
    exact ⟨Or.inr (by decide), hig⟩

/-- C87: an archive written into the directory it is made of is a file of that directory when the command is run again. The
second archive contains the first one, so running the same command twice does not give the same archive. -/
theorem C87_second_run_packs_archive (e : Env) (he : e.codecs.Lawful) (md5 : Md5) (hmd : ∀ x, (md5 x).length = 16)
    (o : CreateOptions) (hrec : o.recursive = true) (ho : o.listfile = .none ∨ o.listfile = .generate) (dir target : List Byte)
    (disk : Spec.Disk) (first : List Byte) (ht : Spec.plain target)
    (hig : ∀ text ∈ o.ignorePatterns, ¬ text <:+: Spec.under dir target) (found : List (List Byte × List Byte))
    (hfound : Spec.FilesBelow (disk.writeAll [(Spec.under dir target, first)]) dir found) (second : List Byte)
    (hb : cliCreate e md5 o dir (.dir (found.map fun x => (x.1, some x.2))) = .ok second)
    (hver : o.version = .v1 ∨ o.version = .v2 ∨ found.length ≤ 3) (hcount : found.length + 1 < 0xFFFFFFFE)
    (hna : ∀ x ∈ found, ¬ Spec.sameName (attributesName.map BitVec.toNat) (x.1.map BitVec.toNat))
    (hc : NoCollision (attributesName :: listfileName :: found.map fun x => Spec.slashed x.1))
    (ss : Nat) (hss : sectorSizeOf o.blockSize = .ok ss)
    (hsz : ∀ x ∈ found, x.2.length + x.2.length / 64 + 12 < 2 ^ 32) (hlen : second.length < addressable o.version)
    (hlf : (listfileText (found.map fun x => Spec.slashed x.1)).length < 2 ^ 31)
    (hm : first.length ≤ ss ∨ Spec.LosslessMethod (BitVec.ofNat 8 o.compression.toNat) first)
    (hcr : Recoverable e.codecs ss (BitVec.ofNat 8 o.compression.toNat) first) :
    ∃ a, openArchive e second = .ok a ∧ a.readFile e target = .ok first := by
  obtain ⟨b, pending, hv, hbs, hb, hp, hplen, _, hto, hdist, hcoll, _, hsize, hnap, hext⟩ := repacked e md5 hmd found
    hfound.plain dir _ (fun rel hp data => (hfound.all rel hp data).symm) o hrec ho hver hcount hna hc hsz found hfound second hb hlf
  obtain ⟨a, hopen, hread, _⟩ := repacked_reads e he md5 hmd b second hb pending hp hext (by rw [hv]; exact hlen) (by omega) hsize
    hnap hcoll hdist ss (by rw [hbs]; exact hss)
  have hin : (target, first) ∈ found := (hfound.all target ht first).2 (by
    rw [Spec.Disk.writeAll, Spec.Disk.writeAll]
    exact if_pos rfl)
  exact ⟨a, hopen, (hread _ (hto _ hin hig) first rfl hm target (slashed_sameName target)).2 hcr⟩

/-! ## A case -/

/-- The archive made of the sample directory lists its files. -/
theorem tree_opened {last : List Byte} (h : last ∈ treeLasts) : ∃ f a entries,
    cliCreate toyEnv zeroMd5 treeOptions (ascii "dir") (.dir (treeFiles last)) = .ok f ∧ openArchive toyEnv f = .ok a ∧
    a.list toyEnv = .ok entries ∧ entries.map (·.name) = (treeKept last).map (fun x => Spec.slashed x.1) ++ [listfileName] ∧
    (∀ x ∈ treeKept last, a.readFile toyEnv (Spec.slashed x.1) = .ok x.2) ∧
    a.readFile toyEnv listfileName = .ok (listfileText ((treeKept last).map fun x => Spec.slashed x.1)) := by
  obtain ⟨f, hf, hlt⟩ := tree_archive h
  have htext : ∀ last ∈ treeLasts, (treeKept last).map (fun x => Spec.slashed x.1) =
      ((treeKept last).map fun x => (Spec.slashed x.1).map BitVec.toNat).map Spec.encode := by decide +kernel
  have hchars : ∀ last ∈ treeLasts, ∀ n ∈ (treeKept last).map fun x => (Spec.slashed x.1).map BitVec.toNat,
      n ≠ [] ∧ ∀ c ∈ n, 0x2E ≤ c ∧ c < 0x7B ∧ c ≠ 0x3B := by decide +kernel
  have key : ∀ n : List Nat, n ≠ [] → (∀ c ∈ n, 0x2E ≤ c ∧ c < 0x7B ∧ c ≠ 0x3B) → Spec.listable n := by
    intro n hn h
    have hs : ∀ c ∈ n, ¬ Spec.space c := by
      intro c hc; have := h c hc; unfold Spec.space; omega
    refine ⟨hn, fun hc => ?_, fun hc => ?_, fun hc => ?_, fun c hc => hs c (List.mem_of_mem_head? hc),
      fun c hc => hs c (List.mem_of_getLast? hc)⟩
    · have := h _ hc; omega
    · have := h _ hc; omega
    · have := h _ (List.mem_of_mem_head? hc); omega
  have hna : ∀ last ∈ treeLasts, ∀ x ∈ treeKept last,
      ¬ Spec.sameName (attributesName.map BitVec.toNat) ((Spec.slashed x.1).map BitVec.toNat) := by decide +kernel
  have hcont : ∀ last ∈ treeLasts, ∀ data ∈ listfileText ((treeKept last).map fun x => Spec.slashed x.1) ::
      (treeKept last).map (·.2), data.length < 1000 ∧ (compress toyCodecs data 0x02#8).toOption.isSome = true := by
    decide +kernel
  have hcon : ∀ data, data = listfileText ((treeKept last).map fun x => Spec.slashed x.1) ∨ (∃ x ∈ treeKept last, data = x.2) →
      data.length + data.length / 64 + 12 < 2 ^ 32 ∧ (data.length ≤ 4096 ∨ Spec.LosslessMethod 0x02#8 data) ∧
      Recoverable toyCodecs 4096 0x02#8 data := by
    intro data hd
    have hm : data ∈ listfileText ((treeKept last).map fun x => Spec.slashed x.1) :: (treeKept last).map (·.2) := by
      rcases hd with rfl | ⟨x, hx, rfl⟩
      · exact List.mem_cons_self
      · exact List.mem_cons_of_mem _ (List.mem_map.2 ⟨x, hx, rfl⟩)
    obtain ⟨h1, h2⟩ := hcont last h data hm
    have h32 : (2 : Nat) ^ 32 = 4294967296 := rfl
    have hlm : Spec.LosslessMethod 0x02#8 data :=
      ⟨by decide, by decide, by decide, fun h => by rcases h with h | h <;> exact absurd h (by decide), by omega⟩
    refine ⟨by omega, Or.inl (by omega), ?_⟩
    cases hc : compress toyCodecs data 0x02#8 with
    | error err => rw [hc] at h2; cases h2
    | ok c => exact recoverable_of_lossless toyCodecs_lawful (by omega) hlm hc
  obtain ⟨a, entries, ho, h1, h2, h3, h4, _⟩ := create_opened toyEnv toyCodecs_lawful zeroMd5 (fun _ => List.length_replicate) treeOptions rfl
    (ascii "dir") (treeFiles last) (tree_relative last h) f hf (treeKept last) (tree_kept last h) _ (htext last h)
    (fun n hn c hc => Or.inl (by have := (hchars last h n hn).2 c hc; omega))
    (fun n hn => key n (hchars last h n hn).1 (hchars last h n hn).2) (Or.inr (Or.inl rfl)) hlt (by show 3 + 1 < _; decide)
    (hna last h)
    (by
      unfold treeLasts at h
      simp only [List.mem_cons, List.not_mem_nil, or_false] at h
      rcases h with rfl | rfl <;> exact noCollision_lit (by decide +kernel))
    4096 (by decide) (fun data hd => hcon data (Or.inl hd)) (fun x hx => (hcon _ (Or.inr ⟨x, hx, rfl⟩)).1)
  exact ⟨f, a, entries, hf, ho, h1, h2, fun x hx => (h3 x hx (hcon _ (Or.inr ⟨x, hx, rfl⟩)).2.1).2 (hcon _ (Or.inr ⟨x, hx, rfl⟩)).2.2, h4⟩

/-- The files of the sample archive. -/
def againFiles : List (List Byte × List Byte) :=
  [(ascii "a.txt", [1, 2, 3]), (ascii "sub/b.bin", List.replicate 40 0x41#8), (ascii "plain", [4]),
    (ascii "(listfile)", ascii "a.txt\r\nsub/b.bin\r\nplain\r\n(listfile)\r\n")]

def againOptions : CreateOptions := { CreateOptions.default with version := .v2, listfile := .none }

def againBuilder : Builder where
  version := .v2
  blockSize := 3
  pending := againFiles.map fun x => ⟨some x.2, Spec.slashed x.1, 0x02#8, false, false, 0⟩
  listfile := .none
  defaultCompression := 0x02#8
  generateCrcs := false
  tables := { compressTables := false, tableCompression := 0x02 }

theorem again_plain : ∀ x ∈ againFiles, Spec.plain x.1 := by unfold Spec.plain; decide +kernel

theorem again_create : cliCreate toyEnv zeroMd5 againOptions (ascii "out") (.dir (againFiles.map fun x => (x.1, some x.2))) =
    buildBytes toyEnv zeroMd5 againBuilder := by
  rw [C58_files_added _ _ _ _ _ (by decide +kernel)]
  have : ((againFiles.map fun x => (x.1, some x.2)).filter fun x =>
      Spec.chosen againOptions.recursive againOptions.ignorePatterns (ascii "out") x.1) = againFiles.map fun x => (x.1, some x.2) := by
    decide +kernel
  rw [this, List.map_map]
  rfl

theorem again_buildable : Buildable toyEnv againBuilder againBuilder.pending where
  shift := by show (3#16).toNat < 55; decide
  prepared := rfl
  count := by
    show (4 + 1) * 2 ≤ _
    decide
  readable := by
    have key : ∀ p ∈ againBuilder.pending, p.source.isSome = true ∧ (p.source.getD []).length < 1000 ∧
        (compress toyCodecs (p.source.getD []) p.compression).toOption.isSome = true := by decide +kernel
    intro p hp
    obtain ⟨h1, h2, h3⟩ := key p hp
    obtain ⟨data, hd⟩ := Option.isSome_iff_exists.1 h1
    rw [hd] at h2 h3
    simp only [Option.getD_some] at h2 h3
    have h32 : (2 : Nat) ^ 32 = 4294967296 := rfl
    refine ⟨data, hd, by omega, ?_⟩
    unfold Compressible
    rw [if_pos (by show data.length ≤ 512 * 2 ^ (3#16).toNat; have : 512 * 2 ^ (3#16).toNat = 4096 := by decide
                   omega)]
    cases hc : compress toyCodecs data p.compression with
    | error err => rw [hc] at h3; cases h3
    | ok c => exact ⟨c, hc⟩
  names := noCollision_lit (by decide +kernel)
  distinct := by unfold DistinctFiles; decide +kernel

theorem again_archive : ∃ f, cliCreate toyEnv zeroMd5 againOptions (ascii "out")
    (.dir (againFiles.map fun x => (x.1, some x.2))) = .ok f ∧ f.length < 2 ^ 48 := by
  have h21 : (2 : Nat) ^ 21 = 2097152 := rfl
  have h47 : (2 : Nat) ^ 47 = 140737488355328 := rfl
  obtain ⟨f, hf⟩ := C50_classic_build_succeeds toyEnv zeroMd5 againBuilder againBuilder.pending again_buildable (Or.inr rfl)
  obtain ⟨L⟩ := layout_of_build (fun _ => List.length_replicate) hf
  have hpe : L.pending = againBuilder.pending := (Except.ok.inj L.prepared).symm
  have hsb : againBuilder.pending.length < 10 ∧ (againBuilder.pending.map storedBound).sum < 1000 ∧
      ∀ p ∈ againBuilder.pending, storedBound p + (p.source.getD []).length < 1000 := by decide +kernel
  obtain ⟨h1, h2, h3⟩ := hsb
  refine ⟨f, by rw [again_create]; exact hf, ?_⟩
  exact L.length_lt (fun _ => List.length_replicate) (by rw [hpe]; omega)
    (by rw [hpe]; intro p hp; have := h3 p hp; omega) (by rw [hpe]; omega)

/-- The sample directory is made an archive, extracted, and packed again: with the default options this is refused; without a
generated listfile everything is in the new archive, under any spelling, and listed as before. -/
example : ∃ first a, cliCreate toyEnv zeroMd5 treeOptions (ascii "dir") (.dir (treeFiles (ascii "plain"))) = .ok first ∧
    openArchive toyEnv first = .ok a ∧
    (∀ second, cliCreate toyEnv zeroMd5 .default (ascii "out") (.dir (againFiles.map fun x => (x.1, some x.2))) ≠ .ok second) ∧
    ∃ second a' entries entries', cliCreate toyEnv zeroMd5 againOptions (ascii "out") (.dir (againFiles.map fun x => (x.1, some x.2))) =
        .ok second ∧ openArchive toyEnv second = .ok a' ∧
      a'.readFile toyEnv (ascii "SUB\\B.BIN") = .ok (List.replicate 40 0x41#8) ∧
      a'.readFile toyEnv (ascii "b.bin") = .error .fileNotFound ∧
      a.list toyEnv = .ok entries ∧ a'.list toyEnv = .ok entries' ∧ entries'.map (·.name) = entries.map (·.name) := by
  obtain ⟨first, a, entries, hf, ho, hl, hn, hr, hrl⟩ := tree_opened (last := ascii "plain") (by decide)
  have hn : entries.map (·.name) = againFiles.map (·.1) := hn.trans (by decide +kernel)
  have hr : ∀ x ∈ againFiles, a.readFile toyEnv x.1 = .ok x.2 := by
    have e1 : againFiles = (treeKept (ascii "plain")).map (fun x => (Spec.slashed x.1, x.2)) ++
      [(listfileName, listfileText ((treeKept (ascii "plain")).map fun x => Spec.slashed x.1))] := by decide +kernel
    rw [e1]
    intro x hx
    rcases List.mem_append.1 hx with h | h
    · obtain ⟨y, hy, rfl⟩ := List.mem_map.1 h
      exact hr y hy
    · rw [List.mem_singleton.1 h]; exact hrl
  let disk : Spec.Disk := fun _ => none
  have hfound : ∀ writes, extractAll toyEnv a (some (ascii "out")) true = (writes, .ok ()) →
      Spec.FilesBelow (disk.writeAll writes) (ascii "out") againFiles := by
    intro writes hw
    obtain ⟨writes', hw', hd⟩ := extracted_files hl hn hr again_plain (ascii "out") disk fun _ _ => rfl
    rw [hw] at hw'
    cases hw'
    exact ⟨by decide +kernel, again_plain, fun rel hp data => (hd rel hp data).symm⟩
  obtain ⟨second, hs, hlt⟩ := again_archive
  have hsz : ∀ x ∈ againFiles, x.2.length + x.2.length / 64 + 12 < 1000 := by decide +kernel
  have h32 : (2 : Nat) ^ 32 = 4294967296 := rfl
  have hsz : ∀ x ∈ againFiles, x.2.length + x.2.length / 64 + 12 < 2 ^ 32 := fun x hx => by have := hsz x hx; omega
  have hrecov : ∀ x ∈ againFiles, x.2.length ≤ 4096 ∧ Recoverable toyCodecs 4096 0x02#8 x.2 := by
    have key : ∀ x ∈ againFiles, x.2.length < 1000 ∧ (compress toyCodecs x.2 0x02#8).toOption.isSome = true := by decide +kernel
    intro x hx
    obtain ⟨h1, h2⟩ := key x hx
    refine ⟨by omega, ?_⟩
    have hlm : Spec.LosslessMethod 0x02#8 x.2 :=
      ⟨by decide, by decide, by decide, fun h => by rcases h with h | h <;> exact absurd h (by decide), by omega⟩
    cases hc : compress toyCodecs x.2 0x02#8 with
    | error err => rw [hc] at h2; cases h2
    | ok c => exact recoverable_of_lossless toyCodecs_lawful (by omega) hlm hc
  refine ⟨first, a, hf, ho, ?_, ?_⟩
  · obtain ⟨writes, hw, h⟩ := C87_repack_refused toyEnv zeroMd5 (fun _ => List.length_replicate) a entries againFiles hl hn hr
      again_plain (ascii "out") disk (fun _ _ => rfl) .default rfl (by decide) _ (by exact List.mem_cons_of_mem _ (List.mem_cons_of_mem _
        (List.mem_cons_of_mem _ List.mem_cons_self))) (by intro t ht; cases ht)
    exact h againFiles (hfound writes hw)
  · obtain ⟨writes, hw, h⟩ := C87_repack_partial toyEnv toyCodecs_lawful zeroMd5 (fun _ => List.length_replicate) a entries againFiles hl
      hn hr again_plain (ascii "out") disk (fun _ _ => rfl) againOptions rfl (Or.inl rfl) (Or.inr (Or.inl rfl)) (by decide)
      (by decide +kernel) (noCollision_lit (by decide +kernel)) 4096 (by decide) hsz
    obtain ⟨a', ho', h1, h2⟩ := h againFiles (hfound writes hw) second hs hlt (by decide +kernel)
    obtain ⟨writes', hw', h'⟩ := C87_listing_kept toyEnv toyCodecs_lawful zeroMd5 (fun _ => List.length_replicate) a entries againFiles hl
      hn hr again_plain (ascii "out") disk (fun _ _ => rfl) againOptions rfl rfl rfl (Or.inr (Or.inl rfl)) (by decide)
      (by decide +kernel) (ascii "a.txt\r\nsub/b.bin\r\nplain\r\n(listfile)\r\n") (by exact List.mem_cons_of_mem _ (List.mem_cons_of_mem _
        (List.mem_cons_of_mem _ List.mem_cons_self))) (noCollision_lit (by decide +kernel)) 4096 (by decide) hsz
      (Or.inl (by decide +kernel)) (hrecov _ (List.mem_cons_of_mem _ (List.mem_cons_of_mem _ (List.mem_cons_of_mem _ List.mem_cons_self)))).2
    obtain ⟨a'', entries', ho'', h3, h4⟩ := h' againFiles (hfound writes' hw') second hs hlt (by decide +kernel)
    rw [ho'] at ho''
    cases ho''
    have hb : (ascii "sub/b.bin", List.replicate 40 0x41#8) ∈ againFiles := List.mem_cons_of_mem _ List.mem_cons_self
    refine ⟨second, a', entries, entries', hs, ho', ?_, ?_, hl, h3, h4⟩
    · exact (h1 _ hb (by intro t ht; cases ht) (Or.inl (hrecov _ hb).1) (hrecov _ hb).2 (ascii "SUB\\B.BIN") (by decide +kernel)).1
    · exact h2 (ascii "b.bin") (by
        have : ∀ x ∈ againFiles, ¬ Spec.sameName ((ascii "b.bin").map BitVec.toNat) (x.1.map BitVec.toNat) := by decide +kernel
        exact fun x hx _ => this x hx) (fun h => by cases h) (noCollision_lit (by decide +kernel))

end Mopaq
