import Verif.Model.Cli
import Verif.Spec.Paths
import Verif.Props.Listing

/-! # Extraction by the command line tool (C46) -/

namespace Mopaq

open Spec (Place)

/-- Following the parts one after the other. -/
def enterAll (p : Place) (parts : List (List Byte)) : Place := parts.foldl Place.enter p

theorem follow_eq (l : List Byte) : ∀ (p : Place) (part : List Byte),
    p.follow part l = enterAll p ((l.splitOnP (· == 0x2F#8)).modifyHead (part ++ ·)) := by
  induction l with
  | nil => intro p part; simp [Place.follow, enterAll]
  | cons c rest ih =>
    intro p part
    rw [Place.follow, List.splitOnP_cons]
    by_cases hc : c = 0x2F#8
    · rw [if_pos hc, ih]
      simp only [hc, beq_self_eq_true, if_true]
      simp only [List.modifyHead_cons, enterAll, List.foldl_cons, List.append_nil]
      congr 1
      cases h : List.splitOnP (fun x => x == 0x2F#8) rest <;> simp
    · rw [if_neg hc, ih]
      have : (c == 0x2F#8) = false := by simpa using hc
      rw [this]
      simp only [Bool.false_eq_true, if_false]
      cases h : List.splitOnP (fun x => x == 0x2F#8) rest <;> simp

theorem follow_append (l r : List Byte) : ∀ (p : Place) (part : List Byte),
    p.follow part (l ++ 0x2F#8 :: r) = (p.follow part l).follow [] r := by
  induction l with
  | nil => intro p part; simp [Place.follow]
  | cons c rest ih =>
    intro p part
    rw [List.cons_append, Place.follow, Place.follow]
    split
    · exact ih _ _
    · exact ih _ _

theorem follow_noslash (l : List Byte) : ∀ (p : Place) (part : List Byte), 0x2F#8 ∉ l →
    p.follow part l = p.enter (part ++ l) := by
  induction l with
  | nil => intro p part _; simp [Place.follow]
  | cons c rest ih =>
    intro p part h
    rw [Place.follow, if_neg (fun e => h (by simp [e])), ih _ _ (fun e => h (List.mem_cons_of_mem _ e))]
    simp

theorem enter_empty (p : Place) : p.enter [] = p := by simp [Place.enter]

/-- Joining a relative path leads where the path leads from the directory. -/
theorem place_join (base p : List Byte) (h : isAbsolute p = false) :
    Spec.place (joinPath base p) = (Spec.place base).follow [] p := by
  unfold joinPath
  rw [h]
  simp only [Bool.false_eq_true, if_false]
  split
  · rename_i hb
    rcases hb with hb | hb
    · subst hb
      have h' : ¬ p.head? = some 0x2F#8 := by simpa [isAbsolute] using h
      unfold Spec.place
      simp [h', Place.follow, enter_empty]
    · obtain ⟨b, rfl⟩ : ∃ b, base = b ++ [0x2F#8] := by
        rw [List.getLast?_eq_some_iff] at hb
        exact hb
      unfold Spec.place
      have e1 : (b ++ [0x2F#8] ++ p).head? = (b ++ [0x2F#8]).head? := by cases b <;> rfl
      rw [e1, List.append_assoc, List.singleton_append, follow_append, follow_append, Place.follow, enter_empty]
  · rename_i hb
    have e1 : (base ++ [0x2F#8] ++ p).head? = base.head? := by
      cases base with
      | nil => exact absurd (.inl rfl) hb
      | cons c cs => rfl
    unfold Spec.place
    rw [e1, List.append_assoc, List.singleton_append, follow_append]

theorem parts_noslash {p : List Byte} : ∀ part ∈ p.splitOn 0x2F#8, 0x2F#8 ∉ part := by
  unfold List.splitOn
  induction p with
  | nil => intro part h; simp at h; subst h; simp
  | cons c cs ih =>
    intro part h
    rw [List.splitOnP_cons] at h
    split at h
    · rcases List.mem_cons.1 h with h | h
      · subst h; simp
      · exact ih part h
    · rename_i hc
      have hc : c ≠ 0x2F#8 := by simpa using hc
      cases hs : List.splitOnP (· == 0x2F#8) cs with
      | nil => rw [hs] at h; cases h
      | cons a as =>
        rw [hs, List.modifyHead_cons] at h
        rw [hs] at ih
        rcases List.mem_cons.1 h with h | h
        · subst h
          intro hm
          rcases List.mem_cons.1 hm with hm | hm
          · exact hc hm.symm
          · exact ih a List.mem_cons_self hm
        · exact ih part (List.mem_cons_of_mem _ h)

/-- What `file_name` yields is an ordinary name. -/
theorem fileName_plain {p last : List Byte} (h : fileName p = some last) :
    0x2F#8 ∉ last ∧ last ≠ [] ∧ last ≠ [0x2E#8] ∧ last ≠ [0x2E#8, 0x2E#8] := by
  unfold fileName at h
  split at h
  · rename_i part hp
    split at h
    · cases h
    · rename_i hdd
      cases h
      have hm := List.mem_of_getLast? hp
      unfold pathParts at hm
      rw [List.mem_filter] at hm
      refine ⟨parts_noslash _ hm.1, ?_, ?_, ?_⟩
      · intro e; subst e; simp at hm
      · intro e; subst e; simp at hm
      · intro e; subst e; simp at hdd
  · cases h

theorem noslash_relative {l : List Byte} (h : 0x2F#8 ∉ l) : isAbsolute l = false := by
  cases l with
  | nil => rfl
  | cons c cs =>
    have : c ≠ 0x2F#8 := fun e => h (by simp [e])
    simp [isAbsolute, this]

theorem caught_ok {α : Type} {r : Res α} {v : α} (h : caught r = .ok (.ok v)) : r = .ok v := by
  unfold caught at h
  split at h <;> first | (cases h; done) | skip
  cases h
  rfl

theorem extractNames_targets (e : Env) (a : Archive) (out : List Byte) (preserve : Bool) (names : List (List Byte))
    (path data : List Byte) (h : (path, data) ∈ (extractNames e a out preserve names).1) :
    ∃ name ∈ names, extractTarget out preserve name = some path ∧ a.readFile e name = .ok data := by
  induction names with
  | nil => cases h
  | cons n ns ih =>
    rw [extractNames] at h
    split at h
    · cases h
    · obtain ⟨name, hm, h1⟩ := ih h
      exact ⟨name, List.mem_cons_of_mem _ hm, h1⟩
    · rename_i d hd
      split at h
      · cases h
      · rename_i p hp
        rcases List.mem_cons.1 h with h1 | h1
        · cases h1
          refine ⟨n, List.mem_cons_self, hp, ?_⟩
          exact caught_ok hd
        · obtain ⟨name, hm, h1⟩ := ih h1
          exact ⟨name, List.mem_cons_of_mem _ hm, h1⟩

/-- C46 (without `--preserve-path`): everything written when all files are extracted goes directly into the output
directory, whatever the names in the archive; and what is written under a path is the content of a listed file. -/
theorem C46_plain_extraction_inside (e : Env) (a : Archive) (output : Option (List Byte)) (path data : List Byte)
    (h : (path, data) ∈ (extractAll e a output false).1) :
    (Spec.place path).inside (Spec.place (output.getD (ascii "."))) ∧
      ∃ entries entry, a.list e = .ok entries ∧ entry ∈ entries ∧ a.readFile e entry.name = .ok data := by
  unfold extractAll at h
  split at h
  · cases h
  · rename_i entries hl
    obtain ⟨name, hm, ht, hr⟩ := extractNames_targets _ _ _ _ _ _ _ h
    obtain ⟨entry, hme, rfl⟩ := List.mem_map.1 hm
    refine ⟨?_, entries, entry, hl, hme, hr⟩
    unfold extractTarget at ht
    simp only [Bool.false_eq_true, if_false, Option.map_eq_some_iff] at ht
    obtain ⟨last, hlast, rfl⟩ := ht
    obtain ⟨h1, h2, h3, h4⟩ := fileName_plain hlast
    rw [show ascii "." = [0x2E#8] from rfl, place_join _ _ (noslash_relative h1), follow_noslash _ _ _ h1, List.nil_append]
    unfold Place.enter Place.inside
    rw [if_neg (by simp [h2, h3]), if_neg h4]
    exact ⟨rfl, rfl, [last], by simp, rfl⟩

/-- C46 (with `--preserve-path`, partial): the same holds for names that are relative, have no part `..` and at least one
part that is neither empty nor `.`. -/
theorem C46_preserved_paths_inside_partial (e : Env) (a : Archive) (output : Option (List Byte)) (path data : List Byte)
    (h : (path, data) ∈ (extractAll e a output true).1)
    (hnames : ∀ entries, a.list e = .ok entries → ∀ entry ∈ entries, entry.name.head? ≠ some 0x2F#8 ∧
      (∀ part ∈ entry.name.splitOn 0x2F#8, part ≠ [0x2E#8, 0x2E#8]) ∧
      ∃ part ∈ entry.name.splitOn 0x2F#8, part ≠ [] ∧ part ≠ [0x2E#8]) :
    (Spec.place path).inside (Spec.place (output.getD (ascii "."))) := by
  unfold extractAll at h
  split at h
  · cases h
  · rename_i entries hl
    obtain ⟨name, hm, ht, hr⟩ := extractNames_targets _ _ _ _ _ _ _ h
    obtain ⟨entry, hme, rfl⟩ := List.mem_map.1 hm
    obtain ⟨h1, h2, h3⟩ := hnames entries hl entry hme
    unfold extractTarget at ht
    simp only [if_true, Option.some.injEq] at ht
    subst ht
    rw [show ascii "." = [0x2E#8] from rfl, place_join _ _ (by simpa [isAbsolute] using h1), follow_eq]
    have hmod : ∀ l : List (List Byte), l.modifyHead (([] : List Byte) ++ ·) = l := by intro l; cases l <;> rfl
    rw [hmod]
    generalize Spec.place (output.getD [0x2E#8]) = dir
    change ∀ part ∈ entry.name.splitOnP (· == 0x2F#8), _ at h2
    change ∃ part ∈ entry.name.splitOnP (· == 0x2F#8), _ at h3
    generalize entry.name.splitOnP (· == 0x2F#8) = parts at h2 h3
    have key : ∀ (parts : List (List Byte)) (p : Place), (∀ part ∈ parts, part ≠ [0x2E#8, 0x2E#8]) →
        (enterAll p parts).rooted = p.rooted ∧ (enterAll p parts).up = p.up ∧
        (enterAll p parts).down = p.down ++ parts.filter (fun part => !(part == []) && !(part == [0x2E#8])) := by
      intro parts
      induction parts with
      | nil => intro p _; simp [enterAll]
      | cons part parts ih =>
        intro p hp
        obtain ⟨i1, i2, i3⟩ := ih (p.enter part) (fun q hq => hp q (List.mem_cons_of_mem _ hq))
        have hpart := hp part List.mem_cons_self
        rw [enterAll, List.foldl_cons]
        change (enterAll (p.enter part) parts).rooted = _ ∧ (enterAll (p.enter part) parts).up = _ ∧
          (enterAll (p.enter part) parts).down = _
        rw [i1, i2, i3]
        unfold Place.enter
        split
        · rename_i h
          refine ⟨rfl, rfl, ?_⟩
          rcases h with h | h <;> subst h <;> simp
        · rename_i h
          refine ⟨rfl, rfl, ?_⟩
          rw [not_or] at h
          simp [h.1, h.2]
    obtain ⟨k1, k2, k3⟩ := key parts dir h2
    refine ⟨k1, k2, _, ?_, k3⟩
    obtain ⟨part, hp, hne, hnd⟩ := h3
    intro hnil
    rw [List.filter_eq_nil_iff] at hnil
    have := hnil part hp
    simp [hne, hnd] at this

/-- If extraction ends well, every listed file that can be read was written. -/
theorem extractNames_complete (e : Env) (a : Archive) (out : List Byte) (preserve : Bool) (names : List (List Byte))
    (hok : (extractNames e a out preserve names).2 = .ok ()) (name data : List Byte) (hm : name ∈ names)
    (hr : a.readFile e name = .ok data) :
    ∃ path, extractTarget out preserve name = some path ∧ (path, data) ∈ (extractNames e a out preserve names).1 := by
  induction names with
  | nil => cases hm
  | cons n ns ih =>
    rw [extractNames] at hok ⊢
    split at hok
    · cases hok
    · rename_i err hcaught
      rcases List.mem_cons.1 hm with rfl | hm
      · rw [hr] at hcaught; cases hcaught
      · exact ih hok hm
    · rename_i d hcaught
      split at hok
      · cases hok
      · rename_i path hp
        rcases List.mem_cons.1 hm with rfl | hm
        · have := caught_ok hcaught
          rw [hr] at this
          cases this
          exact ⟨path, hp, List.mem_cons_self⟩
        · obtain ⟨path', h1, h2⟩ := ih hok hm
          exact ⟨path', h1, List.mem_cons_of_mem _ h2⟩

/-- C46 fails with `--preserve-path`: if all files of an archive that lists a file `../x` are extracted, it is written
outside the output directory, whatever that is unless it is the root directory. -/
theorem C46_parent_escapes (e : Env) (a : Archive) (output : Option (List Byte)) (entries : List FileEntry)
    (hl : a.list e = .ok entries) (hok : (extractAll e a output true).2 = .ok ()) (x : List Byte) (hx : 0x2F#8 ∉ x)
    (hx1 : x ≠ []) (hx2 : x ≠ [0x2E#8]) (hx3 : x ≠ [0x2E#8, 0x2E#8]) (entry : FileEntry) (hm : entry ∈ entries)
    (hname : entry.name = ascii "../" ++ x) (data : List Byte) (hr : a.readFile e (ascii "../" ++ x) = .ok data)
    (hroot : ¬ ((Spec.place (output.getD (ascii "."))).rooted = true ∧ (Spec.place (output.getD (ascii "."))).down = [])) :
    ∃ path, (path, data) ∈ (extractAll e a output true).1 ∧
      ¬ (Spec.place path).inside (Spec.place (output.getD (ascii "."))) := by
  unfold extractAll at hok ⊢
  rw [hl] at hok ⊢
  simp only at hok ⊢
  obtain ⟨path, h1, h2⟩ := extractNames_complete e a _ true _ hok (ascii "../" ++ x) data
    (hname ▸ List.mem_map.2 ⟨entry, hm, rfl⟩) hr
  refine ⟨path, h2, ?_⟩
  unfold extractTarget at h1
  simp only [if_true, Option.some.injEq] at h1
  subst h1
  have hd : ascii "." = [0x2E#8] := rfl
  have hdd : ascii "../" ++ x = [0x2E#8, 0x2E#8] ++ 0x2F#8 :: x := rfl
  rw [hd] at hroot
  rw [hd, hdd, place_join _ _ rfl, follow_append, follow_noslash _ _ _ hx, List.nil_append, follow_noslash _ _ _ (by decide),
    List.nil_append]
  generalize Spec.place (output.getD [0x2E#8]) = dir at hroot
  rintro ⟨i1, i2, rest, hrest, i3⟩
  have hx' : ∀ p : Place, p.enter x = { p with down := p.down ++ [x] } := by
    intro p
    unfold Place.enter
    rw [if_neg (by simp [hx1, hx2]), if_neg hx3]
  rw [hx'] at i2 i3
  unfold Place.enter at i2 i3
  rw [if_neg (by decide), if_pos rfl] at i2 i3
  by_cases hdn : dir.down = []
  · rw [if_pos hdn] at i2
    split at i2
    · rename_i hrt
      exact hroot ⟨hrt, hdn⟩
    · simp at i2
  · rw [if_neg hdn] at i3
    have := congrArg List.length i3
    simp only [List.length_append, List.length_dropLast, List.length_cons, List.length_nil] at this
    have h1 := List.length_pos_iff.2 hrest
    have h2 := List.length_pos_iff.2 hdn
    omega

/-- C46 fails with `--preserve-path`: a listed file whose name begins with a slash is written to that very path, whatever
the output directory. -/
theorem C46_absolute_escapes (e : Env) (a : Archive) (output : Option (List Byte)) (entries : List FileEntry)
    (hl : a.list e = .ok entries) (hok : (extractAll e a output true).2 = .ok ()) (x : List Byte) (entry : FileEntry)
    (hm : entry ∈ entries) (hname : entry.name = 0x2F#8 :: x) (data : List Byte) (hr : a.readFile e (0x2F#8 :: x) = .ok data) :
    (0x2F#8 :: x, data) ∈ (extractAll e a output true).1 := by
  unfold extractAll at hok ⊢
  rw [hl] at hok ⊢
  obtain ⟨path, h1, h2⟩ := extractNames_complete e a _ true _ hok (0x2F#8 :: x) data
    (hname ▸ List.mem_map.2 ⟨entry, hm, rfl⟩) hr
  unfold extractTarget joinPath at h1
  simp only [if_true, isAbsolute, List.head?_cons, beq_self_eq_true, Option.some.injEq] at h1
  rw [h1]
  exact h2

/-! ## An archive to extract -/

def plainFile (name : List Byte) (data : List Byte) : PendingFile where
  source := some data
  name := name
  compression := 0
  encrypt := false
  useFixKey := false
  locale := 0

/-- Files with a parent reference, an absolute name and two equal last parts. -/
def trickyBuilder : Builder where
  version := .v2
  blockSize := 3
  pending := [plainFile (ascii "../x") [1, 2, 3], plainFile (ascii "/y") [4], plainFile (ascii "a/f") [5],
    plainFile (ascii "b/f") [6, 7]]
  listfile := .generate
  defaultCompression := 0
  generateCrcs := false
  tables := { compressTables := false, tableCompression := 0x02 }

def trickyPending : List PendingFile :=
  trickyBuilder.pending ++ [plainFile listfileName (listfileText [ascii "../x", ascii "/y", ascii "a/f", ascii "b/f"])]

theorem trickyPending_eq : prepareListfile trickyBuilder = .ok trickyPending := rfl

theorem tricky_buildable : Buildable toyEnv trickyBuilder trickyPending where
  shift := by show (3#16).toNat < 55; decide
  prepared := trickyPending_eq
  count := by decide
  readable := by
    intro p hp
    simp only [trickyPending, trickyBuilder, List.cons_append, List.nil_append, List.mem_cons, List.not_mem_nil,
      or_false] at hp
    rcases hp with rfl | rfl | rfl | rfl | rfl <;>
    exact ⟨_, rfl, by decide +kernel, by
      unfold Compressible; rw [show trickyBuilder.blockSize = 3#16 from rfl, if_pos (by decide +kernel)]; exact ⟨_, by rfl⟩⟩
  names := noCollision_lit (by decide +kernel)
  distinct := by
    unfold DistinctFiles
    decide +kernel

theorem tricky_sizes : ∀ p ∈ trickyPending, ∀ data, p.source = some data → data.length + data.length / 64 + 12 < 2 ^ 32 := by
  have hsb : ∀ p ∈ trickyPending, (p.source.getD []).length < 1000 := by decide +kernel
  intro p hp data hd
  have := hsb p hp
  rw [hd] at this
  have : data.length < 1000 := this
  omega

theorem tricky_archive : ∃ f a entries, buildBytes toyEnv zeroMd5 trickyBuilder = .ok f ∧ openArchive toyEnv f = .ok a ∧
    a.list toyEnv = .ok entries ∧
    entries.map (·.name) = [ascii "../x", ascii "/y", ascii "a/f", ascii "b/f", listfileName] ∧
    a.readFile toyEnv (ascii "../x") = .ok [1, 2, 3] ∧ a.readFile toyEnv (ascii "/y") = .ok [4] ∧
    a.readFile toyEnv (ascii "a/f") = .ok [5] ∧ a.readFile toyEnv (ascii "b/f") = .ok [6, 7] ∧
    a.readFile toyEnv listfileName = .ok (listfileText [ascii "../x", ascii "/y", ascii "a/f", ascii "b/f"]) := by
  have hsum : (trickyPending.map storedBound).sum < 1000 := by decide +kernel
  have h21 : (2 : Nat) ^ 21 = 2097152 := rfl
  have h47 : (2 : Nat) ^ 47 = 140737488355328 := rfl
  have e48 : (2 : Nat) ^ 48 = 281474976710656 := rfl
  have e64 : (2 : Nat) ^ 64 = 18446744073709551616 := rfl
  obtain ⟨f, hf⟩ := C50_classic_build_succeeds toyEnv zeroMd5 trickyBuilder trickyPending tricky_buildable (Or.inr rfl)
  obtain ⟨L⟩ := layout_of_build (fun _ => List.length_replicate) hf
  have hpe : L.pending = trickyPending := by
    have := L.prepared
    rw [trickyPending_eq] at this
    injection this with this
    exact this.symm
  have hsb : ∀ p ∈ trickyPending, storedBound p + (p.source.getD []).length < 1000 := by decide +kernel
  have hlt : f.length < 2 ^ 48 := L.length_lt (fun _ => List.length_replicate) (by rw [hpe]; decide)
    (by rw [hpe]; intro p hp; have := hsb p hp; omega) (by rw [hpe]; omega)
  obtain ⟨a, ss, ho, hss, hr, _⟩ := C26_read_back_partial toyEnv toyCodecs_lawful zeroMd5 (fun _ => List.length_replicate)
    trickyBuilder f hf trickyPending trickyPending_eq (fun h => absurd h (by decide)) [] [] rfl
    (by intro o ho; cases ho) hlt
    (by simp only [List.length_nil]; omega)
    (by decide) tricky_sizes (by decide +kernel)
    (noCollision_lit (by decide +kernel))
  have h4096 : sectorSizeOf 3#16 = .ok 4096 := by decide
  have hss' : sectorSizeOf 3#16 = .ok ss := hss
  rw [h4096] at hss'
  injection hss' with hss'
  obtain ⟨a', entries, h1, h2, h3, _⟩ := C27_generated_listing_partial toyEnv toyCodecs_lawful zeroMd5
    (fun _ => List.length_replicate) trickyBuilder f hf rfl
    (["../x", "/y", "a/f", "b/f"].map fun s => s.toList.map Char.toNat)
    (show trickyBuilder.pending.map (·.name) = _ by decide +kernel)
    (by
      have : ∀ n ∈ ["../x", "/y", "a/f", "b/f"].map fun s => s.toList.map Char.toNat, ∀ c ∈ n, c < 0xD800 := by decide
      exact fun n hn c hc => Or.inl (this n hn c hc))
    (by
      have key : ∀ n : List Nat, n ≠ [] → (∀ c ∈ n, 0x2E ≤ c ∧ c < 0x7B ∧ c ≠ 0x3B) → Spec.listable n := by
        intro n hn h
        have hs : ∀ c ∈ n, ¬ Spec.space c := by
          intro c hc; have := h c hc; unfold Spec.space; omega
        refine ⟨hn, fun hc => ?_, fun hc => ?_, fun hc => ?_, fun c hc => hs c (List.mem_of_mem_head? hc),
          fun c hc => hs c (List.mem_of_getLast? hc)⟩
        · have := h _ hc; omega
        · have := h _ hc; omega
        · have := h _ (List.mem_of_mem_head? hc); omega
      have h : ∀ n ∈ ["../x", "/y", "a/f", "b/f"].map fun s => s.toList.map Char.toNat,
          n ≠ [] ∧ ∀ c ∈ n, 0x2E ≤ c ∧ c < 0x7B ∧ c ≠ 0x3B := by decide
      exact fun n hn => key n (h n hn).1 (h n hn).2)
    trickyPending trickyPending_eq
    (by unfold DistinctNames; decide +kernel)
    (fun h => absurd h (by decide)) [] [] rfl (by intro o ho; cases ho) hlt
    (by simp only [List.length_nil]; omega) (by decide) tricky_sizes (by decide +kernel) 4096
    (show sectorSizeOf 3#16 = .ok 4096 by decide) (Or.inl (by decide +kernel))
    (recoverable_of_lossless toyCodecs_lawful
      (show (listfileText (trickyBuilder.pending.map (·.name))).length ≤ 4096 by decide +kernel)
      ⟨by decide, by decide, by decide, fun h => by rcases h with h | h <;> exact absurd h (by decide), by decide +kernel⟩
      (c := (listfileText (trickyBuilder.pending.map (·.name))))
      (show compress toyCodecs (listfileText (trickyBuilder.pending.map (·.name))) 0x0#8 = _ by decide +kernel))
    (noCollision_lit (by decide +kernel))
  rw [List.nil_append, List.append_nil] at ho h1
  rw [ho] at h1
  cases h1
  have hdn : DistinctNames trickyPending := by unfold DistinctNames; decide +kernel
  have read : ∀ (i : Nat) (p : PendingFile), trickyPending[i]? = some p → ∀ data, p.source = some data → p.compression = 0 → data.length ≤ 4096 →
      a.readFile toyEnv p.name = .ok data := by
    intro i p hp data hd hcomp hlen
    obtain ⟨data', hd', _, hok⟩ := hr i p p.name hp (sameName_refl _) (by
      intro j hj q hq
      have := List.pairwise_iff_getElem.1 hdn j i (List.getElem?_eq_some_iff.1 hq).1 (List.getElem?_eq_some_iff.1 hp).1 hj
      rw [(List.getElem?_eq_some_iff.1 hq).2, (List.getElem?_eq_some_iff.1 hp).2] at this
      exact fun h => this (sameName_symm h))
    rw [hd] at hd'
    cases hd'
    refine hok (by omega) ?_
    rw [hcomp]
    exact ⟨by decide, by decide, by decide, fun h => by rcases h with h | h <;> exact absurd h (by decide), by omega⟩
  refine ⟨f, a, entries, hf, ho, h2, ?_, read 0 _ rfl _ rfl rfl (by decide), read 1 _ rfl _ rfl rfl (by decide),
    read 2 _ rfl _ rfl rfl (by decide), read 3 _ rfl _ rfl rfl (by decide), read 4 _ rfl _ rfl rfl (by decide +kernel)⟩
  have := congrArg (List.map Prod.fst) h3
  rw [List.map_map] at this
  exact this.trans (by decide +kernel)

/-- The sample is extracted in full when paths are preserved. -/
theorem tricky_extracted : ∃ f a, buildBytes toyEnv zeroMd5 trickyBuilder = .ok f ∧ openArchive toyEnv f = .ok a ∧
    ∀ out : List Byte, extractAll toyEnv a (some out) true =
      ([(joinPath out (ascii "../x"), [1, 2, 3]), (ascii "/y", [4]), (joinPath out (ascii "a/f"), [5]),
        (joinPath out (ascii "b/f"), [6, 7]),
        (joinPath out listfileName, listfileText [ascii "../x", ascii "/y", ascii "a/f", ascii "b/f"])], .ok ()) ∧
      extractAll toyEnv a (some out) false =
      ([(joinPath out (ascii "x"), [1, 2, 3]), (joinPath out (ascii "y"), [4]), (joinPath out (ascii "f"), [5]),
        (joinPath out (ascii "f"), [6, 7]),
        (joinPath out listfileName, listfileText [ascii "../x", ascii "/y", ascii "a/f", ascii "b/f"])], .ok ()) := by
  obtain ⟨f, a, entries, hf, ho, hl, hn, r0, r1, r2, r3, r4⟩ := tricky_archive
  refine ⟨f, a, hf, ho, fun out => ⟨?_, ?_⟩⟩
  · unfold extractAll
    rw [hl]
    simp only [hn, Option.getD_some, extractNames, r0, r1, r2, r3, r4, caught, extractTarget, if_true]
    rfl
  · unfold extractAll
    rw [hl]
    have e0 : fileName (ascii "../x") = some (ascii "x") := by decide
    have e1 : fileName (ascii "/y") = some (ascii "y") := by decide
    have e2 : fileName (ascii "a/f") = some (ascii "f") := by decide
    have e3 : fileName (ascii "b/f") = some (ascii "f") := by decide
    have e4 : fileName listfileName = some listfileName := by decide
    simp only [hn, Option.getD_some, extractNames, r0, r1, r2, r3, r4, caught, extractTarget, Bool.false_eq_true, if_false,
      e0, e1, e2, e3, e4, Option.map_some]

/-- The hypotheses of `C46_parent_escapes` are met: `../x` of the sample leaves `/home/u/out`. -/
example : ∃ f a path, buildBytes toyEnv zeroMd5 trickyBuilder = .ok f ∧ openArchive toyEnv f = .ok a ∧
    (path, [1, 2, 3]) ∈ (extractAll toyEnv a (some (ascii "/home/u/out")) true).1 ∧
    ¬ (Spec.place path).inside (Spec.place (ascii "/home/u/out")) := by
  obtain ⟨f, a, entries, hf, ho, hl, hn, r0, _⟩ := tricky_archive
  obtain ⟨f', a', hf', ho', hx⟩ := tricky_extracted
  rw [hf] at hf'
  cases hf'
  rw [ho] at ho'
  cases ho'
  have hm : ascii "../x" ∈ entries.map (·.name) := by rw [hn]; exact List.mem_cons_self
  obtain ⟨entry, hme, hname⟩ := List.mem_map.1 hm
  obtain ⟨path, h1, h2⟩ := C46_parent_escapes toyEnv a (some (ascii "/home/u/out")) entries hl (by rw [(hx _).1]) (ascii "x")
    (by decide) (by decide) (by decide) (by decide) entry hme hname [1, 2, 3] r0 (by decide)
  exact ⟨f, a, path, hf, ho, h1, h2⟩

/-- `/y` of the sample is written to `/y`, and without preserved paths to `out/y`. -/
example : ∃ f a, buildBytes toyEnv zeroMd5 trickyBuilder = .ok f ∧ openArchive toyEnv f = .ok a ∧
    (ascii "/y", [4]) ∈ (extractAll toyEnv a (some (ascii "out")) true).1 ∧
    (ascii "out/y", [4]) ∈ (extractAll toyEnv a (some (ascii "out")) false).1 := by
  obtain ⟨f, a, hf, ho, hx⟩ := tricky_extracted
  refine ⟨f, a, hf, ho, ?_, ?_⟩
  · rw [(hx _).1]; exact List.mem_cons_of_mem _ List.mem_cons_self
  · rw [(hx _).2]; exact List.mem_cons_of_mem _ List.mem_cons_self

/-- The hypothesis of `C46_preserved_paths_inside_partial` on names holds for ordinary ones. -/
example : ∀ name ∈ [ascii "a/f", ascii "dir/./sub//g..txt", listfileName], name.head? ≠ some 0x2F#8 ∧
    (∀ part ∈ name.splitOn 0x2F#8, part ≠ [0x2E#8, 0x2E#8]) ∧
    ∃ part ∈ name.splitOn 0x2F#8, part ≠ [] ∧ part ≠ [0x2E#8] := by decide

/-! ## C51 -/

theorem writeAll_untouched {path : List Byte} : ∀ (ws : List (List Byte × List Byte)) (d : Spec.Disk),
    (∀ data, (path, data) ∉ ws) → d.writeAll ws path = d path
  | [], _, _ => rfl
  | (p, x) :: ws, d, h => by
    rw [Spec.Disk.writeAll, writeAll_untouched ws _ (fun data hm => h data (List.mem_cons_of_mem _ hm))]
    exact if_neg fun e => h x (by rw [e]; exact List.mem_cons_self)

theorem writeAll_same {path data : List Byte} : ∀ (ws : List (List Byte × List Byte)) (d : Spec.Disk),
    (∀ d', (path, d') ∈ ws → d' = data) → (path, data) ∈ ws → d.writeAll ws path = some data
  | [], _, _, h => by cases h
  | (p, x) :: ws, d, hall, hm => by
    rw [Spec.Disk.writeAll]
    by_cases hin : (path, data) ∈ ws
    · exact writeAll_same ws _ (fun d' h => hall d' (List.mem_cons_of_mem _ h)) hin
    · rcases List.mem_cons.1 hm with h | h
      · cases h
        rw [writeAll_untouched ws _ (fun d' h => hin (by rw [← hall d' (List.mem_cons_of_mem _ h)]; exact h))]
        exact if_pos rfl
      · exact absurd h hin

/-- C51 (partial): if extracting everything ends well, then every listed file that can be read is afterwards found with its
content, `disk` being what the writes leave, if no two listed files go to the same path. Missing: equal last parts of names
without `--preserve-path` (`C51_files_overwrite_each_other`), and names without a last part, which make it panic
(`C51_name_without_last_part`). -/
theorem C51_extraction_complete_partial (e : Env) (a : Archive) (output : Option (List Byte)) (preserve : Bool)
    (entries : List FileEntry) (hl : a.list e = .ok entries) (hok : (extractAll e a output preserve).2 = .ok ())
    (hdist : ∀ x ∈ entries, ∀ y ∈ entries, ∀ path, extractTarget (output.getD (ascii ".")) preserve x.name = some path →
      extractTarget (output.getD (ascii ".")) preserve y.name = some path → x.name = y.name)
    (entry : FileEntry) (hm : entry ∈ entries) (data : List Byte) (hr : a.readFile e entry.name = .ok data)
    (before : Spec.Disk) :
    ∃ path, extractTarget (output.getD (ascii ".")) preserve entry.name = some path ∧
      before.writeAll (extractAll e a output preserve).1 path = some data := by
  have hd : ascii "." = [0x2E#8] := rfl
  rw [hd] at hdist ⊢
  unfold extractAll at hok ⊢
  rw [hl] at hok ⊢
  simp only at hok ⊢
  obtain ⟨path, h1, h2⟩ := extractNames_complete e a _ preserve _ hok entry.name data (List.mem_map.2 ⟨entry, hm, rfl⟩) hr
  refine ⟨path, h1, writeAll_same _ _ ?_ h2⟩
  intro d hd
  obtain ⟨name, hmn, ht, hrn⟩ := extractNames_targets _ _ _ _ _ _ _ hd
  obtain ⟨y, hy, rfl⟩ := List.mem_map.1 hmn
  have := hdist entry hm y hy path h1 ht
  rw [← this, hr] at hrn
  exact (Except.ok.inj hrn).symm

/-- C51 fails without `--preserve-path`: if two listed files have the same last part and different contents, one of them is
missing afterwards, although extraction ends well. -/
theorem C51_files_overwrite_each_other (e : Env) (a : Archive) (output : Option (List Byte)) (x y : FileEntry)
    (hsame : fileName x.name = fileName y.name) (dx dy : List Byte)
    (hx : a.readFile e x.name = .ok dx) (hy : a.readFile e y.name = .ok dy) (hne : dx ≠ dy) (before : Spec.Disk) :
    ¬ ∀ entry data, (entry = x ∨ entry = y) → a.readFile e entry.name = .ok data →
      ∃ path, extractTarget (output.getD (ascii ".")) false entry.name = some path ∧
        before.writeAll (extractAll e a output false).1 path = some data := by
  intro h
  obtain ⟨p, hp, h1⟩ := h x dx (Or.inl rfl) hx
  obtain ⟨q, hq, h2⟩ := h y dy (Or.inr rfl) hy
  unfold extractTarget at hp hq
  simp only [Bool.false_eq_true, if_false] at hp hq
  rw [hsame, hq] at hp
  cases hp
  rw [h1] at h2
  exact hne (Option.some.inj h2)

/-- C51 fails without `--preserve-path`: a listed, readable file without a last part (`..`) makes extraction panic. -/
theorem C51_name_without_last_part (e : Env) (a : Archive) (output : Option (List Byte)) (entries : List FileEntry)
    (hl : a.list e = .ok entries) (entry : FileEntry) (hm : entry ∈ entries) (data : List Byte)
    (hr : a.readFile e entry.name = .ok data) (hnone : fileName entry.name = none)
    (hsafe : ∀ x ∈ entries, a.readFile e x.name ≠ .error .panic ∧ a.readFile e x.name ≠ .error .diverge) :
    (extractAll e a output false).2 = .error .panic := by
  unfold extractAll
  rw [hl]
  simp only
  clear hl
  induction entries with
  | nil => cases hm
  | cons n ns ih =>
    rw [List.map_cons, extractNames]
    split
    · rename_i err hc
      have hs := hsafe n List.mem_cons_self
      unfold caught at hc
      split at hc <;> first | (cases hc; done) | skip
      · exact absurd ‹_› hs.1
      · exact absurd ‹_› hs.2
    · rename_i err hc
      rcases List.mem_cons.1 hm with rfl | hm
      · rw [hr] at hc; cases hc
      · exact ih hm (fun x hx => hsafe x (List.mem_cons_of_mem _ hx))
    · split
      · rfl
      · rename_i path hp
        rcases List.mem_cons.1 hm with rfl | hm
        · unfold extractTarget at hp
          rw [hnone] at hp
          cases hp
        · exact ih hm (fun x hx => hsafe x (List.mem_cons_of_mem _ hx))

/-- `a/f` and `b/f` of the sample both go to `out/f`; the second remains. -/
example : ∃ f a, buildBytes toyEnv zeroMd5 trickyBuilder = .ok f ∧ openArchive toyEnv f = .ok a ∧
    (extractAll toyEnv a (some (ascii "out")) false).2 = .ok () ∧
    Spec.Disk.writeAll (fun _ => none) (extractAll toyEnv a (some (ascii "out")) false).1 (ascii "out/f") = some [6, 7] := by
  obtain ⟨f, a, hf, ho, hx⟩ := tricky_extracted
  refine ⟨f, a, hf, ho, by rw [(hx _).2], ?_⟩
  rw [(hx _).2]
  decide +kernel

/-- In the sample, with paths preserved, no two files share a path. -/
example : ∀ x ∈ [ascii "../x", ascii "/y", ascii "a/f", ascii "b/f", listfileName],
    ∀ y ∈ [ascii "../x", ascii "/y", ascii "a/f", ascii "b/f", listfileName],
    extractTarget (ascii "out") true x = extractTarget (ascii "out") true y → x = y := by decide +kernel

example : fileName (ascii "a/..") = none ∧ fileName (ascii "..") = none ∧ fileName (ascii "/") = none := by decide

end Mopaq
