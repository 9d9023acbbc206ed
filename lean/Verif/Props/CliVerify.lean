import Verif.Model.CliVerify
import Verif.Props.Info
import Verif.Props.Listing
import Verif.Props.Enumerate
import Verif.Props.Cli
import Verif.Props.FfiVerify

/-! # Verification by the command line tool (C56) -/

namespace Mopaq

/-- A listed name passes. -/
def Passes (e : Env) (a : Archive) (checkContents : Bool) (name : List Byte) : Prop :=
  (∃ info, a.findFile name = .ok (some info)) ∧ (checkContents = true → ∃ data, a.readFile e name = .ok data)

/-- What one file adds to the report. -/
theorem verifyName_ok {e : Env} {a : Archive} {crc contents : Bool} {name : List Byte} {r r' : VerifyReport}
    (h : verifyName e a crc contents name r = .ok r') :
    r'.info = r.info ∧ r'.totalFiles = r.totalFiles ∧
    ((Passes e a contents name ∧ r'.errors = r.errors ∧ r'.verifiedFiles = r.verifiedFiles + 1 ∧
        r'.filesFound = r.filesFound + 1 ∧ r'.filesMissing = r.filesMissing ∧ r'.filesCorrupted = r.filesCorrupted ∧
        r'.filesReadable = r.filesReadable + (if contents then 1 else 0)) ∨
     (¬ Passes e a contents name ∧ r'.errors = r.errors ++ [name] ∧ r'.verifiedFiles = r.verifiedFiles ∧
        r'.filesReadable = r.filesReadable ∧
        ((a.findFile name = .ok none ∧ r'.filesFound = r.filesFound ∧ r'.filesMissing = r.filesMissing + 1 ∧
            r'.filesCorrupted = r.filesCorrupted) ∨
         (contents = true ∧ (∃ err, a.readFile e name = .error err) ∧ (∃ info, a.findFile name = .ok (some info)) ∧
            r'.filesFound = r.filesFound + 1 ∧
            r'.filesMissing = r.filesMissing ∧ r'.filesCorrupted = r.filesCorrupted + 1)))) := by
  unfold verifyName at h
  obtain ⟨found, hf, h⟩ := bind_eq_ok.1 h
  cases found with
  | none =>
    have h := Except.ok.inj h
    subst h
    refine ⟨rfl, rfl, .inr ⟨?_, rfl, rfl, rfl, .inl ⟨hf, rfl, rfl, rfl⟩⟩⟩
    rintro ⟨⟨i, hi⟩, _⟩
    rw [hf] at hi
    cases Except.ok.inj hi
  | some i =>
    unfold verifyFound at h
    cases contents with
    | false =>
      have h := Except.ok.inj h
      subst h
      exact ⟨rfl, rfl, .inl ⟨⟨⟨i, hf⟩, fun h => (nomatch h)⟩, rfl, rfl, rfl, rfl, rfl, rfl⟩⟩
    | true =>
      rw [if_pos rfl] at h
      cases hc : caught (a.readFile e name) with
      | error err => rw [hc] at h; cases h
      | ok v =>
        rw [hc] at h
        cases v with
        | ok data =>
          have h := Except.ok.inj h
          subst h
          exact ⟨rfl, rfl, .inl ⟨⟨⟨i, hf⟩, fun _ => ⟨data, caught_ok hc⟩⟩, rfl, rfl, rfl, rfl, rfl, rfl⟩⟩
        | error err =>
          have h := Except.ok.inj h
          subst h
          have hr := caught_error hc
          refine ⟨rfl, rfl, .inr ⟨?_, rfl, rfl, rfl, .inr ⟨rfl, ⟨err, hr⟩, ⟨i, hf⟩, rfl, rfl, rfl⟩⟩⟩
          rintro ⟨_, hd⟩
          obtain ⟨data, hd⟩ := hd rfl
          rw [hr] at hd; cases hd

/-- The sums of a report so far. -/
structure Sums (contents : Bool) (n : Nat) (r : VerifyReport) : Prop where
  seen : r.filesFound + r.filesMissing = n
  verdicts : r.verifiedFiles + r.errors.length = n
  failed : r.errors.length = r.filesMissing + r.filesCorrupted
  readable : r.filesReadable = if contents then r.verifiedFiles else 0

theorem verifyNames_ok {e : Env} {a : Archive} {crc contents : Bool} : ∀ {names : List (List Byte)} {r r' : VerifyReport} {n : Nat},
    verifyNames e a crc contents names r = .ok r' → Sums contents n r →
    r'.info = r.info ∧ r'.totalFiles = r.totalFiles ∧ Sums contents (n + names.length) r' ∧
    ∃ bad, r'.errors = r.errors ++ bad ∧ (∀ name, name ∈ bad ↔ name ∈ names ∧ ¬ Passes e a contents name)
  | [], r, r', n, h, hs => by
    have h := Except.ok.inj h
    subst h
    exact ⟨rfl, rfl, hs, [], (List.append_nil _).symm, by simp⟩
  | name :: names, r, r', n, h, hs => by
    obtain ⟨r1, h1, h2⟩ := bind_eq_ok.1 (show (verifyName e a crc contents name r >>= fun r =>
      verifyNames e a crc contents names r) = .ok r' from h)
    obtain ⟨i1, t1, hcase⟩ := verifyName_ok h1
    have hs1 : Sums contents (n + 1) r1 := by
      obtain ⟨s1, s2, s3, s4⟩ := hs
      rcases hcase with ⟨_, he, hv, hf, hm, hcor, hr⟩ | ⟨_, he, hv, hr, ⟨_, hf, hm, hcor⟩ | ⟨_, _, _, hf, hm, hcor⟩⟩
      · refine ⟨by omega, by rw [he]; omega, by rw [he]; omega, ?_⟩
        rw [hr, s4, hv]
        cases contents <;> simp
      · refine ⟨by omega, ?_, ?_, by rw [hr, s4, hv]⟩ <;> (rw [he, List.length_append, List.length_singleton]; omega)
      · refine ⟨by omega, ?_, ?_, by rw [hr, s4, hv]⟩ <;> (rw [he, List.length_append, List.length_singleton]; omega)
    obtain ⟨i2, t2, hs2, bad, hbad, hmem⟩ := verifyNames_ok h2 hs1
    refine ⟨i2.trans i1, t2.trans t1, by rw [List.length_cons, Nat.add_comm names.length, ← Nat.add_assoc]; exact hs2, ?_⟩
    rcases hcase with ⟨hp, he, _⟩ | ⟨hp, he, _⟩
    · refine ⟨bad, by rw [hbad, he], fun x => ?_⟩
      rw [hmem x, List.mem_cons]
      constructor
      · rintro ⟨h1, h2⟩; exact ⟨.inr h1, h2⟩
      · rintro ⟨rfl | h1, h2⟩
        · exact absurd hp h2
        · exact ⟨h1, h2⟩
    · refine ⟨name :: bad, by rw [hbad, he, List.append_assoc]; rfl, fun x => ?_⟩
      rw [List.mem_cons, hmem x, List.mem_cons]
      constructor
      · rintro (rfl | ⟨h1, h2⟩)
        · exact ⟨.inl rfl, hp⟩
        · exact ⟨.inr h1, h2⟩
      · rintro ⟨rfl | h1, h2⟩
        · exact .inl rfl
        · exact .inr ⟨h1, h2⟩

theorem verifyNames_passes {e : Env} {a : Archive} {crc contents : Bool} : ∀ {names : List (List Byte)} {r : VerifyReport},
    (∀ name ∈ names, Passes e a contents name) → ∃ r', verifyNames e a crc contents names r = .ok r'
  | [], r, _ => ⟨r, rfl⟩
  | name :: names, r, h => by
    obtain ⟨⟨i, hi⟩, hd⟩ := h name List.mem_cons_self
    have h1 : ∃ r1, verifyName e a crc contents name r = .ok r1 := by
      unfold verifyName
      rw [hi]
      show ∃ r1, verifyFound e a crc contents name _ = .ok r1
      unfold verifyFound
      cases contents with
      | false => exact ⟨_, rfl⟩
      | true =>
        obtain ⟨data, hd⟩ := hd rfl
        rw [if_pos rfl, hd]
        exact ⟨_, rfl⟩
    obtain ⟨r1, h1⟩ := h1
    obtain ⟨r', h'⟩ := verifyNames_passes (crc := crc) (r := r1) fun x hx => h x (List.mem_cons_of_mem _ hx)
    refine ⟨r', ?_⟩
    show (verifyName e a crc contents name r >>= fun r => verifyNames e a crc contents names r) = .ok r'
    rw [h1]
    exact h'

/-- C56: verification succeeds exactly if the file can be opened, described and listed, and every listed name is found and, if
the contents are to be checked, can be read. -/
theorem C56_success_iff (e : Env) (s : SigEnv) (f : List Byte) (crc contents : Bool) :
    cliVerify e s f crc contents = .ok () ↔
      ∃ a info entries, openArchive e f = .ok a ∧ a.getInfo e s = .ok info ∧ a.list e = .ok entries ∧
        ∀ x ∈ entries, (∃ found, a.findFile x.name = .ok (some found)) ∧
          (contents = true → ∃ data, a.readFile e x.name = .ok data) := by
  constructor
  · intro h
    obtain ⟨r, hr, h⟩ := bind_eq_ok.1 h
    have hnil : r.errors = [] := by
      by_cases hn : r.errors = []
      · exact hn
      · rw [if_neg hn] at h; cases h
    obtain ⟨a, ha, hr⟩ := bind_eq_ok.1 hr
    obtain ⟨info, hi, hr⟩ := bind_eq_ok.1 hr
    obtain ⟨entries, hl, hr⟩ := bind_eq_ok.1 hr
    obtain ⟨_, _, _, bad, hbad, hmem⟩ := verifyNames_ok (n := 0) hr ⟨rfl, rfl, rfl, by cases contents <;> rfl⟩
    refine ⟨a, info, entries, ha, hi, hl, fun x hx => ?_⟩
    have hb : bad = [] := by
      rw [hnil] at hbad
      simpa using hbad.symm
    by_cases hp : Passes e a contents x.name
    · exact hp
    · have := (hmem x.name).2 ⟨List.mem_map_of_mem hx, hp⟩
      rw [hb] at this; cases this
  · rintro ⟨a, info, entries, ha, hi, hl, hall⟩
    have hall' : ∀ name ∈ entries.map (·.name), Passes e a contents name := by
      intro name hn
      obtain ⟨x, hx, rfl⟩ := List.mem_map.1 hn
      exact hall x hx
    obtain ⟨r', hr'⟩ := verifyNames_passes (crc := crc)
      (r := { info, totalFiles := entries.length, verifiedFiles := 0, errors := [], warnings := [], filesFound := 0,
              filesReadable := 0, filesMissing := 0, filesCorrupted := 0 }) hall'
    obtain ⟨_, _, _, bad, hbad, hmem⟩ := verifyNames_ok (n := 0) hr' ⟨rfl, rfl, rfl, by cases contents <;> rfl⟩
    have hb : r'.errors = [] := by
      rw [hbad]
      cases bad with
      | nil => rfl
      | cons x _ =>
        obtain ⟨h1, h2⟩ := (hmem x).1 List.mem_cons_self
        exact absurd (hall' x h1) h2
    unfold cliVerify cliVerifyReport
    rw [ha]
    show (do let r ← (do let info ← a.getInfo e s; _); _) = _
    rw [hi, hl]
    show (verifyNames e a crc contents (entries.map (·.name)) _ >>= _) = _
    rw [hr']
    show (if r'.errors = [] then _ else _) = _
    rw [if_pos hb]; rfl

/-- C56: the numbers of a report add up: every listed file is found or missing; verified or in error; a file in error is missing
or corrupted; with contents checked, the readable files are the verified ones. The files in error are the listed ones that do not
pass. -/
theorem C56_report_adds_up (e : Env) (s : SigEnv) (f : List Byte) (crc contents : Bool) (r : VerifyReport)
    (h : cliVerifyReport e s f crc contents = .ok r) :
    r.filesFound + r.filesMissing = r.totalFiles ∧ r.verifiedFiles + r.errors.length = r.totalFiles ∧
    r.errors.length = r.filesMissing + r.filesCorrupted ∧
    r.filesReadable = (if contents then r.verifiedFiles else 0) ∧
    ∃ a entries, openArchive e f = .ok a ∧ a.getInfo e s = .ok r.info ∧ a.list e = .ok entries ∧
      r.totalFiles = entries.length ∧
      ∀ name, name ∈ r.errors ↔ name ∈ entries.map (·.name) ∧
        ¬ ((∃ found, a.findFile name = .ok (some found)) ∧ (contents = true → ∃ data, a.readFile e name = .ok data)) := by
  obtain ⟨a, ha, hr⟩ := bind_eq_ok.1 h
  obtain ⟨info, hi, hr⟩ := bind_eq_ok.1 hr
  obtain ⟨entries, hl, hr⟩ := bind_eq_ok.1 hr
  obtain ⟨i1, t1, ⟨s1, s2, s3, s4⟩, bad, hbad, hmem⟩ :=
    verifyNames_ok (n := 0) hr ⟨rfl, rfl, rfl, by cases contents <;> rfl⟩
  rw [Nat.zero_add, List.length_map] at s1 s2
  refine ⟨s1.trans t1.symm, s2.trans t1.symm, s3, s4, a, entries, ha, by rw [i1]; exact hi, hl, t1, fun name => ?_⟩
  rw [hbad]
  exact hmem name

theorem noCollision_sub {xs ys : List (List Byte)} (h : NoCollision ys) (hs : ∀ x ∈ xs, x ∈ ys) : NoCollision xs :=
  fun a ha b hb hab => h a (hs a ha) b (hs b hb) hab

/-- C56 (partial): an archive built with a generated listfile verifies, with and without checking the contents, provided every
file is one that can be read back (C21, C22) and every name one that a listfile can carry (C28), the names are different, and
none is that of the attributes or the signature. Missing: versions 3 and 4 with more than four files and
uncompressed tables, or tables compressed other than by zlib. -/
theorem C56_built_archive_verifies_partial (e : Env) (he : e.codecs.Lawful) (s : SigEnv) (hmd : ∀ x, (s.md5 x).length = 16)
    (b : Builder) (f : List Byte) (hb : buildBytes e s.md5 b = .ok f) (hg : b.listfile = .generate) (texts : List (List Nat))
    (hnames : b.pending.map (·.name) = texts.map Spec.encode) (hscalar : ∀ n ∈ texts, ∀ c ∈ n, Spec.scalar c)
    (hlist : ∀ n ∈ texts, Spec.listable n) (pending : List PendingFile)
    (hp : prepareListfile b = .ok pending) (hdist : DistinctNames pending) (hext : ClassicLookup e.codecs b pending)
    (before after : List Byte) (hal : before.length % 512 = 0)
    (hclean : ∀ o < before.length, o % 512 = 0 → ¬ Spec.archiveMark (before ++ f ++ after) o ∧
      ¬ Spec.userDataMark (before ++ f ++ after) o)
    (hlen : f.length < addressable b.version) (hfit : before.length + f.length < 2 ^ 64)
    (hcount : pending.length < 0xFFFFFFFE)
    (hsize : ∀ p ∈ pending, ∀ data, p.source = some data → data.length + data.length / 64 + 12 < 2 ^ 32)
    (hna : ∀ p ∈ pending, ¬ Spec.sameName (attributesName.map BitVec.toNat) (p.name.map BitVec.toNat))
    (hns : ∀ p ∈ pending, ¬ Spec.sameName (signatureName.map BitVec.toNat) (p.name.map BitVec.toNat))
    (ss : Nat) (hss : sectorSizeOf b.blockSize = .ok ss)
    (hread : ∀ p ∈ pending, ∀ data, p.source = some data →
      (data.length ≤ ss ∨ Spec.LosslessMethod p.compression data) ∧ Recoverable e.codecs ss p.compression data)
    (hc : NoCollision (signatureName :: attributesName :: pending.map (·.name))) (crc contents : Bool) :
    cliVerify e s (before ++ f ++ after) crc contents = .ok () := by
  have hpend : pending = b.pending ++ [
      { source := some (listfileText (b.pending.map (·.name))), name := listfileName, compression := b.defaultCompression,
        encrypt := false, useFixKey := false, locale := 0 }] := by
    unfold prepareListfile at hp
    rw [hg] at hp
    exact (Except.ok.inj hp).symm
  obtain ⟨h1, h2⟩ := hread _ (by rw [hpend]; exact List.mem_append_right _ List.mem_cons_self) _ rfl
  have hca : NoCollision (attributesName :: pending.map (·.name)) :=
    noCollision_sub hc fun x hx => List.mem_cons_of_mem _ hx
  obtain ⟨a, entries, ho, hl, hmap, hfound⟩ := C27_generated_listing_partial e he s.md5 hmd b f hb hg texts hnames hscalar hlist
    pending hp hdist hext before after hal hclean hlen hfit hcount hsize hna ss hss h1 h2 hca
  obtain ⟨a', ss', ho', hss', hr, _⟩ := C26_read_back_partial e he s.md5 hmd b f hb pending hp hext before after hal hclean
    hlen hfit hcount hsize hna hca
  have haa : a = a' := Except.ok.inj (ho.symm.trans ho')
  subst haa
  have hsss : ss = ss' := Except.ok.inj (hss.symm.trans hss')
  subst hsss
  obtain ⟨info, hi, _⟩ := C55_built_info_partial e s hmd b f hb pending hp hext before after hal hclean hlen hfit hcount
    (fun p hp data hd => by have := hsize p hp data hd; omega) hns
    (noCollision_sub hc fun x hx => by
      rcases List.mem_cons.1 hx with rfl | hx
      · exact List.mem_cons_self
      · exact List.mem_cons_of_mem _ (List.mem_cons_of_mem _ hx)) hca
    (noCollision_sub hc fun x hx => by
      rcases List.mem_cons.1 hx with rfl | hx
      · refine List.mem_cons_of_mem _ (List.mem_cons_of_mem _ ?_)
        rw [hpend, List.map_append]
        exact List.mem_append_right _ List.mem_cons_self
      · exact List.mem_cons_of_mem _ (List.mem_cons_of_mem _ hx)) a ho
  refine (C56_success_iff e s _ crc contents).2 ⟨a, info, entries, ho, hi, hl, fun x hx => ⟨?_, fun _ => ?_⟩⟩
  · obtain ⟨i, h, _⟩ := hfound x hx
    exact ⟨i, h⟩
  · have hmem : x.name ∈ pending.map (·.name) := by
      have : (x.name, x.size) ∈ entries.map (fun x => (x.name, x.size)) := List.mem_map_of_mem hx
      rw [hmap] at this
      rw [hpend, List.map_append]
      rcases List.mem_append.1 this with h | h
      · obtain ⟨q, hq, he⟩ := List.mem_map.1 h
        exact List.mem_append_left _ (List.mem_map.2 ⟨q, hq, (Prod.mk.inj he).1⟩)
      · have := (Prod.mk.inj (List.mem_singleton.1 h)).1
        exact List.mem_append_right _ (by rw [this]; exact List.mem_cons_self)
    obtain ⟨p, hpm, hpn⟩ := List.mem_map.1 hmem
    obtain ⟨i, hi⟩ := List.mem_iff_getElem?.1 hpm
    have hil := (List.getElem?_eq_some_iff.1 hi).1
    have hie := (List.getElem?_eq_some_iff.1 hi).2
    obtain ⟨data, hd, hiff, _⟩ := hr i p x.name hi (by rw [hpn]; exact sameName_refl _) (by
      intro j hj q hq hsame
      have hjl := (List.getElem?_eq_some_iff.1 hq).1
      have hje := (List.getElem?_eq_some_iff.1 hq).2
      have := List.pairwise_iff_getElem.1 hdist j i hjl hil hj
      rw [hje, hie, hpn] at this
      exact this (sameName_symm hsame))
    obtain ⟨g1, g2⟩ := hread p hpm data hd
    exact ⟨data, (hiff g1).2 g2⟩

/-- C56, a violation: an intact archive of version 1 or 2 without listfile does not verify: it is listed by numbers, and those
numbers are not names of its files (`slots` is the number of hash table slots the builder chooses, which bounds the numbers). -/
theorem C56_nameless_archive_fails (e : Env) (s : SigEnv) (hmd : ∀ x, (s.md5 x).length = 16) (b : Builder)
    (hv : b.version = .v1 ∨ b.version = .v2)
    (f : List Byte) (hb : buildBytes e s.md5 b = .ok f) (pending : List PendingFile) (hp : prepareListfile b = .ok pending)
    (before after : List Byte) (hal : before.length % 512 = 0)
    (hclean : ∀ o < before.length, o % 512 = 0 → ¬ Spec.archiveMark (before ++ f ++ after) o ∧
      ¬ Spec.userDataMark (before ++ f ++ after) o)
    (hlen : f.length < addressable b.version) (hfit : before.length + f.length < 2 ^ 64)
    (hcount : pending.length < 0xFFFFFFFE) (hsize : ∀ p ∈ pending, ∀ data, p.source = some data → data.length < 2 ^ 32)
    (hnone : ∀ p ∈ pending, ¬ Spec.sameName (listfileName.map BitVec.toNat) (p.name.map BitVec.toNat))
    (hc : NoCollision (listfileName :: pending.map (·.name)))
    (hone : pending ≠ [])
    (slots : Nat) (hslots : hashSizeOf b pending = .ok slots)
    (hnum : ∀ i < slots, (∀ p ∈ pending, ¬ Spec.sameName ((Spec.numbered i).map BitVec.toNat) (p.name.map BitVec.toNat)) ∧
      NoCollision (Spec.numbered i :: pending.map (·.name))) (crc contents : Bool) :
    cliVerify e s (before ++ f ++ after) crc contents ≠ .ok () := by
  intro hok
  obtain ⟨a, info, entries, ha, _, hl, hall⟩ := (C56_success_iff e s _ crc contents).1 hok
  obtain ⟨entries', hl', hperm, _, slots', hslots', hnames⟩ := C57_list_without_listfile e s.md5 hmd b hv f hb pending hp before after hal hclean
    hlen hfit hcount hsize hnone hc a ha
  have := Except.ok.inj (hl.symm.trans hl')
  subst this
  have hlen' := hperm.length_eq
  rw [List.length_map, List.length_map] at hlen'
  obtain ⟨L⟩ := layout_of_build hmd hb
  have hpe : L.pending = pending := Except.ok.inj (L.prepared.symm.trans hp)
  subst hpe
  obtain ⟨ho, hhet, _⟩ := L.opened_tables hmd before after hal hclean hlen hfit hcount ha
  have hge : b.version.ge .v3 = false := by rcases hv with h | h <;> rw [h] <;> rfl
  rw [hge] at hhet
  have hhet : a.hetTable = none := (Except.ok.inj hhet).symm
  cases entries with
  | nil =>
    apply hone
    exact List.length_eq_zero_iff.1 hlen'.symm
  | cons x _ =>
    obtain ⟨⟨found, hf⟩, _⟩ := hall x List.mem_cons_self
    obtain ⟨i, hlt, hi⟩ := hnames x List.mem_cons_self
    rw [← Except.ok.inj (hslots.symm.trans hslots')] at hlt
    have hn := L.find_none ho hcount x.name (by rw [hi]; exact (hnum i hlt).1) (by rw [hi]; exact (hnum i hlt).2)
    have hff : a.findFile x.name = a.findFileClassic x.name := by
      unfold Archive.findFile usableHetBet
      rw [hhet]
    rw [hff, hn] at hf
    cases Except.ok.inj hf

/-! ### Digests -/

/-- Both fail in the same way or both succeed. -/
inductive SameWay {α β : Type} : Res α → Res β → Prop where
  | ok (a : α) (b : β) : SameWay (.ok a) (.ok b)
  | error (e : Err) : SameWay (.error e) (.error e)

theorem SameWay.bind {α β γ δ : Type} {x : Res α} {y : Res β} {g : α → Res γ} {h : β → Res δ} (hxy : SameWay x y)
    (hgh : ∀ a b, SameWay (g a) (h b)) : SameWay (x >>= g) (y >>= h) := by
  cases hxy with
  | ok a b => exact hgh a b
  | error e => exact .error e

theorem SameWay.same {α : Type} (x : Res α) : SameWay x x := by
  cases x with
  | ok a => exact .ok a a
  | error e => exact .error e

theorem validTable_sameWay (m m' : Md5) (f : List Byte) (o : Nat) (x : List Byte) (p size : U64) :
    SameWay (validTable m f o x p size) (validTable m' f o x p size) := by
  unfold validTable
  split
  · exact .ok _ _
  · cases addPos o p with
    | error e => exact .error e
    | ok pos =>
      show SameWay (readVec f pos size.toNat >>= _) (readVec f pos size.toNat >>= _)
      exact (SameWay.same _).bind fun _ _ => .ok _ _

theorem validOptional_sameWay (m m' : Md5) (f : List Byte) (o : Nat) (x : List Byte) (p : Option U64) (size : U64) :
    SameWay (validOptional m f o x p size) (validOptional m' f o x p size) := by
  unfold validOptional
  cases p with
  | none => exact .ok _ _
  | some p =>
    dsimp only
    split
    · exact validTable_sameWay m m' f o x p size
    · exact .ok _ _

theorem validateMd5_sameWay (m m' : Md5) (f : List Byte) (o : Nat) (h : MpqHeader) :
    SameWay (validateMd5 m f o h) (validateMd5 m' f o h) := by
  unfold validateMd5
  cases h.v4Data with
  | none => exact .ok _ _
  | some v =>
    dsimp only
    have tail : ∀ b1 b2 b1' b2' : Bool, SameWay
        (do let b3 ← validOptional m f o v.md5HiBlockTable h.hiBlockTablePos v.hiBlockTableSize64
            let b4 ← validOptional m f o v.md5HetTable h.hetTablePos v.hetTableSize64
            let b5 ← validOptional m f o v.md5BetTable h.betTablePos v.betTableSize64
            let header ← readAt f o 192
            return some (Md5Status.mk b1 b2 b3 b4 b5 (m header = v.md5MpqHeader)))
        (do let b3 ← validOptional m' f o v.md5HiBlockTable h.hiBlockTablePos v.hiBlockTableSize64
            let b4 ← validOptional m' f o v.md5HetTable h.hetTablePos v.hetTableSize64
            let b5 ← validOptional m' f o v.md5BetTable h.betTablePos v.betTableSize64
            let header ← readAt f o 192
            return some (Md5Status.mk b1' b2' b3 b4 b5 (m' header = v.md5MpqHeader))) := by
      intro b1 b2 b1' b2'
      refine (validOptional_sameWay m m' _ _ _ _ _).bind fun _ _ => ?_
      refine (validOptional_sameWay m m' _ _ _ _ _).bind fun _ _ => ?_
      refine (validOptional_sameWay m m' _ _ _ _ _).bind fun _ _ => ?_
      exact (SameWay.same _).bind fun _ _ => .ok _ _
    split
    · refine (validTable_sameWay m m' _ _ _ _ _).bind fun _ _ => ?_
      split
      · refine (validTable_sameWay m m' _ _ _ _ _).bind fun _ _ => ?_
        exact tail _ _ _ _
      · exact tail _ _ _ _
    · split
      · refine (validTable_sameWay m m' _ _ _ _ _).bind fun _ _ => ?_
        exact tail _ _ _ _
      · exact tail _ _ _ _

/-- Describing an archive without signature file succeeds or fails whatever the digests. -/
theorem getInfo_sameWay (e : Env) (s s' : SigEnv) (a : Archive) (hl : a.hashTable.isSome = true)
    (hf : a.findFile signatureName = .ok none) :
    SameWay (a.getInfo e s) (a.getInfo e s') := by
  unfold Archive.getInfo
  have hld : a.ensureLoaded e = .ok a := by
    unfold Archive.ensureLoaded
    cases hh : a.hashTable with
    | none => rw [hh] at hl; cases hl
    | some _ => rfl
  rw [hld]
  simp only [bind, Except.bind, hf, Option.isSome_none, Archive.signatureStatus]
  cases a.findFile listfileName with
  | error x => exact .error x
  | ok r1 =>
    cases a.hasAttributes with
    | error x => exact .error x
    | ok r2 =>
      cases a.hetTableInfo with
      | error x => exact .error x
      | ok r3 =>
        cases a.betTableInfo with
        | error x => exact .error x
        | ok r4 =>
          have := validateMd5_sameWay s.md5 s'.md5 a.file a.archiveOffset a.header
          generalize validateMd5 s.md5 a.file a.archiveOffset a.header = v at this
          generalize validateMd5 s'.md5 a.file a.archiveOffset a.header = v' at this
          cases this with
          | error x => exact .error x
          | ok w w' =>
            cases sectorSizeOf a.header.blockSize with
            | error x => exact .error x
            | ok r5 => exact .ok _ _

/-- C56: the digests and keys do not count. For an archive without signature file, verification succeeds with one digest
function exactly if it succeeds with any other: wrong MD5 values in the header are reported but do not make it fail. -/
theorem C56_digests_ignored (e : Env) (s s' : SigEnv) (f : List Byte) (crc contents : Bool) (a : Archive)
    (ha : openArchive e f = .ok a) (hl : a.hashTable.isSome = true) (hf : a.findFile signatureName = .ok none)
    (h : cliVerify e s f crc contents = .ok ()) : cliVerify e s' f crc contents = .ok () := by
  obtain ⟨a', info, entries, h1, h2, h3, h4⟩ := (C56_success_iff e s f crc contents).1 h
  have := Except.ok.inj (ha.symm.trans h1)
  subst this
  have hw := getInfo_sameWay e s s' a hl hf
  rw [h2] at hw
  generalize hx : a.getInfo e s' = x at hw
  cases hw with
  | ok _ info' => exact (C56_success_iff e s' f crc contents).2 ⟨a, info', entries, h1, hx, h3, h4⟩

/-- The verdict on the header. -/
theorem validateMd5_header {m : Md5} {f : List Byte} {o : Nat} {h : MpqHeader} {r : Option Md5Status} {v : V4Data}
    (hd : h.v4Data = some v) (hv : validateMd5 m f o h = .ok r) :
    ∃ st header, r = some st ∧ readAt f o 192 = .ok header ∧ st.headerValid = decide (m header = v.md5MpqHeader) := by
  unfold validateMd5 at hv
  rw [hd] at hv
  dsimp only at hv
  have tail : ∀ b1 b2 : Bool,
      (do let b3 ← validOptional m f o v.md5HiBlockTable h.hiBlockTablePos v.hiBlockTableSize64
          let b4 ← validOptional m f o v.md5HetTable h.hetTablePos v.hetTableSize64
          let b5 ← validOptional m f o v.md5BetTable h.betTablePos v.betTableSize64
          let header ← readAt f o 192
          return some (Md5Status.mk b1 b2 b3 b4 b5 (m header = v.md5MpqHeader))) = .ok r →
      ∃ st header, r = some st ∧ readAt f o 192 = .ok header ∧ st.headerValid = decide (m header = v.md5MpqHeader) := by
    intro b1 b2 hv
    obtain ⟨_, _, hv⟩ := bind_eq_ok.1 hv
    obtain ⟨_, _, hv⟩ := bind_eq_ok.1 hv
    obtain ⟨_, _, hv⟩ := bind_eq_ok.1 hv
    obtain ⟨header, hh, hv⟩ := bind_eq_ok.1 hv
    exact ⟨_, header, (Except.ok.inj hv).symm, hh, rfl⟩
  split at hv <;> (obtain ⟨_, _, hv⟩ := bind_eq_ok.1 hv) <;> split at hv <;> (obtain ⟨_, _, hv⟩ := bind_eq_ok.1 hv) <;>
    exact tail _ _ hv

theorem getInfo_md5 {s : SigEnv} {e : Env} {a : Archive} (hl : a.hashTable.isSome = true) {info : ArchiveInfo}
    (h : a.getInfo e s = .ok info) : validateMd5 s.md5 a.file a.archiveOffset a.header = .ok info.md5Status := by
  unfold Archive.getInfo Archive.ensureLoaded at h
  have hl' : a.hashTable.isNone = false := by
    cases hh : a.hashTable with
    | none => rw [hh] at hl; cases hl
    | some _ => rfl
  rw [hl', Bool.false_and, if_neg (by simp)] at h
  obtain ⟨a', ha', h⟩ := bind_eq_ok.1 h
  have ha' := Except.ok.inj ha'
  subst ha'
  obtain ⟨r1, _, h⟩ := bind_eq_ok.1 h
  obtain ⟨r2, _, h⟩ := bind_eq_ok.1 h
  obtain ⟨r3, _, h⟩ := bind_eq_ok.1 h
  obtain ⟨r4, _, h⟩ := bind_eq_ok.1 h
  obtain ⟨r5, _, h⟩ := bind_eq_ok.1 h
  obtain ⟨r6, _, h⟩ := bind_eq_ok.1 h
  obtain ⟨r7, h7, h⟩ := bind_eq_ok.1 h
  obtain ⟨r8, _, h⟩ := bind_eq_ok.1 h
  have h := Except.ok.inj h
  subst h
  exact h7

/-- C56, a violation: a version 4 archive whose MD5 values are wrong (as when they were computed by another function than the
one used for checking, which agrees with it nowhere) verifies like any other, although the report says that the header does not have the right MD5. -/
theorem C56_wrong_digests_pass (e : Env) (s s' : SigEnv) (hmd : ∀ x, (s.md5 x).length = 16)
    (b : Builder) (hv : b.version = .v4) (f : List Byte) (hb : buildBytes e s.md5 b = .ok f) (pending : List PendingFile)
    (hp : prepareListfile b = .ok pending)
    (before after : List Byte) (hal : before.length % 512 = 0)
    (hclean : ∀ o < before.length, o % 512 = 0 → ¬ Spec.archiveMark (before ++ f ++ after) o ∧
      ¬ Spec.userDataMark (before ++ f ++ after) o)
    (hlen : f.length < addressable b.version) (hfit : before.length + f.length < 2 ^ 64)
    (hcount : pending.length < 0xFFFFFFFE) (a : Archive) (ha : openArchive e (before ++ f ++ after) = .ok a)
    (hns : a.findFile signatureName = .ok none) (hother : ∀ x, s'.md5 x ≠ s.md5 x) (crc contents : Bool)
    (hok : cliVerify e s (before ++ f ++ after) crc contents = .ok ()) :
    cliVerify e s' (before ++ f ++ after) crc contents = .ok () ∧
    ∃ r st, cliVerifyReport e s' (before ++ f ++ after) crc contents = .ok r ∧ r.info.md5Status = some st ∧
      st.headerValid = false := by
  obtain ⟨L⟩ := layout_of_build hmd hb
  have hpe : L.pending = pending := Except.ok.inj (L.prepared.symm.trans hp)
  obtain ⟨ho, _⟩ := L.opened_tables hmd before after hal hclean hlen hfit (by rw [hpe]; exact hcount) ha
  have hl : a.hashTable.isSome = true := by rw [ho.hash]; rfl
  have hok' := C56_digests_ignored e s s' _ crc contents a ha hl hns hok
  refine ⟨hok', ?_⟩
  obtain ⟨r, hr, _⟩ := bind_eq_ok.1 hok'
  obtain ⟨_, _, _, _, a', _, ha', hinfo, _⟩ := C56_report_adds_up e s' _ crc contents r hr
  have := Except.ok.inj (ha.symm.trans ha')
  subst this
  have hm := getInfo_md5 hl hinfo
  have hgood := C34_fresh_archive_valid e s.md5 hmd b hv f hb pending hp before after hal hclean hlen hfit hcount true a ha
  rw [← ho.file] at hgood
  cases hd : a.header.v4Data with
  | none =>
    unfold validateMd5 at hgood
    rw [hd] at hgood
    cases Except.ok.inj hgood
  | some v =>
    obtain ⟨st0, header, hst0, hh, hvalid⟩ := validateMd5_header hd hgood
    have hst0 := Option.some.inj hst0
    subst hst0
    have heq : s.md5 header = v.md5MpqHeader := of_decide_eq_true hvalid.symm
    obtain ⟨st, header', hst, hh', hvalid'⟩ := validateMd5_header hd hm
    have h2 := Except.ok.inj (hh.symm.trans hh')
    subst h2
    refine ⟨r, st, hr, hst, ?_⟩
    rw [hvalid', ← heq]
    exact decide_eq_false (hother header)

/-! ### Examples -/

theorem sample_recoverable : ∀ p ∈ samplePending, ∀ data, p.source = some data →
    (data.length ≤ 4096 ∨ Spec.LosslessMethod p.compression data) ∧ Recoverable toyCodecs 4096 p.compression data := by
  intro p hp data hd
  have hl : ∀ p ∈ samplePending, (p.source.getD []).length ≤ 4096 ∧ (p.compression = 0#8 ∨ p.compression = 2#8) ∧
      (compress toyCodecs (p.source.getD []) p.compression).toOption.isSome = true := by decide +kernel
  obtain ⟨h1, h2, h3⟩ := hl p hp
  rw [hd] at h1 h3
  have h1 : data.length ≤ 4096 := h1
  have h3 : (compress toyCodecs data p.compression).toOption.isSome = true := h3
  refine ⟨.inl h1, ?_⟩
  have hlm : Spec.LosslessMethod p.compression data := by
    rcases h2 with h2 | h2 <;> rw [h2] <;>
      exact ⟨by decide, by decide, by decide, fun h => by rcases h with h | h <;> exact absurd h (by decide), by omega⟩
  cases hcmp : compress toyCodecs data p.compression with
  | error x => rw [hcmp] at h3; cases h3
  | ok c => exact recoverable_of_lossless toyCodecs_lawful h1 hlm hcmp

theorem sample_texts : (sampleBuilder .v1).pending.map (·.name) =
      ["Dir\\a.txt".toList.map Char.toNat, "b.bin".toList.map Char.toNat].map Spec.encode ∧
    (∀ n ∈ ["Dir\\a.txt".toList.map Char.toNat, "b.bin".toList.map Char.toNat], ∀ c ∈ n, Spec.scalar c) ∧
    (∀ n ∈ ["Dir\\a.txt".toList.map Char.toNat, "b.bin".toList.map Char.toNat], Spec.listable n) := by
  refine ⟨by decide +kernel, ?_, ?_⟩
  · have : ∀ n ∈ ["Dir\\a.txt".toList.map Char.toNat, "b.bin".toList.map Char.toNat], ∀ c ∈ n, c < 0xD800 := by decide
    exact fun n hn c hc => Or.inl (this n hn c hc)
  · intro n hn
    unfold Spec.listable Spec.space
    simp only [List.mem_cons, List.not_mem_nil, or_false] at hn
    rcases hn with rfl | rfl
    · refine ⟨by decide, by decide, by decide, by decide, ?_, ?_⟩
      · intro c hc
        have : some (0x44 : Nat) = some c := hc
        injection this with this; omega
      · intro c hc
        have : some (0x74 : Nat) = some c := hc
        injection this with this; omega
    · refine ⟨by decide, by decide, by decide, by decide, ?_, ?_⟩
      · intro c hc
        have : some (0x62 : Nat) = some c := hc
        injection this with this; omega
      · intro c hc
        have : some (0x6E : Nat) = some c := hc
        injection this with this; omega

/-- The sample archive of every version from 2 on verifies. -/
theorem sample_verifies (v : FormatVersion) (hv : v ≠ .v1) (crc contents : Bool) :
    ∃ f a, buildBytes toyEnv zeroMd5 (sampleBuilder v) = .ok f ∧ f.length < addressable v ∧ f.length < 2 ^ 48 ∧
      openArchive toyEnv ([] ++ f ++ []) = .ok a ∧ cliVerify toyEnv toySigEnv ([] ++ f ++ []) crc contents = .ok () := by
  have e48 : (2 : Nat) ^ 48 = 281474976710656 := rfl
  have e64 : (2 : Nat) ^ 64 = 18446744073709551616 := rfl
  obtain ⟨f, a, hf, had, hlt, ha⟩ := toy_opens (sampleBuilder v) samplePending (sample_buildable v) rfl
    (fun _ => .inl ⟨rfl, by decide⟩) hv (by decide +kernel) (by decide +kernel) (by decide) (by decide +kernel)
    (noCollision_lit (by decide +kernel))
  refine ⟨f, a, hf, had, hlt, ha, ?_⟩
  exact C56_built_archive_verifies_partial toyEnv toyCodecs_lawful toySigEnv (fun _ => List.length_replicate) (sampleBuilder v)
    f hf rfl _ sample_texts.1 sample_texts.2.1 sample_texts.2.2 samplePending (samplePending_eq v)
    (by unfold DistinctNames; decide +kernel) (fun _ => .inl ⟨rfl, by decide⟩) [] [] rfl (by intro o ho; cases ho) had
    (by simp only [List.length_nil]; omega) (by decide) sample_sizes (by decide +kernel) (by decide +kernel) 4096
    (show sectorSizeOf 3#16 = .ok 4096 by decide) sample_recoverable (noCollision_lit (by decide +kernel)) crc contents

def oneMd5 : Md5 := fun _ => List.replicate 16 1

/-- Checked with another digest function, the sample of version 4 has a wrong header MD5 and verifies. -/
example : ∃ f r st, buildBytes toyEnv zeroMd5 (sampleBuilder .v4) = .ok f ∧
    cliVerify toyEnv { toySigEnv with md5 := oneMd5 } f true true = .ok () ∧
    cliVerifyReport toyEnv { toySigEnv with md5 := oneMd5 } f true true = .ok r ∧ r.info.md5Status = some st ∧
    st.headerValid = false := by
  have e48 : (2 : Nat) ^ 48 = 281474976710656 := rfl
  have e64 : (2 : Nat) ^ 64 = 18446744073709551616 := rfl
  obtain ⟨f, a, hf, had, hlt, ha, hok⟩ := sample_verifies .v4 (by decide) true true
  have hns : a.findFile signatureName = .ok none := by
    obtain ⟨L⟩ := layout_of_build (fun _ => List.length_replicate) hf
    have hpe : L.pending = samplePending := Except.ok.inj (L.prepared.symm.trans (samplePending_eq .v4))
    have hnp : L.pending.length < 0xFFFFFFFE := by rw [hpe]; decide
    obtain ⟨het, bet, hhet', hbet', hfall⟩ := L.fallback (fun _ => List.length_replicate) [] [] had
      (by simp only [List.length_nil]; omega) (fun _ => .inl ⟨rfl, by rw [hpe]; decide⟩)
    obtain ⟨ho, hhet, hbet, _⟩ := L.opened_tables (fun _ => List.length_replicate) [] [] rfl (by intro o ho; cases ho) had
      (by simp only [List.length_nil]; omega) hnp ha
    rw [hfall a ho (Except.ok.inj (hhet.symm.trans hhet')) (Except.ok.inj (hbet.symm.trans hbet')) signatureName]
    exact L.find_none ho hnp _ (by rw [hpe]; decide +kernel) (by rw [hpe]; exact noCollision_lit (by decide +kernel))
  obtain ⟨h1, r, st, h2, h3, h4⟩ := C56_wrong_digests_pass toyEnv toySigEnv { toySigEnv with md5 := oneMd5 }
    (fun _ => List.length_replicate) (sampleBuilder .v4) rfl f hf samplePending (samplePending_eq .v4) [] [] rfl
    (by intro o ho; cases ho) had (by simp only [List.length_nil]; omega) (by decide) a ha hns
    (by intro x; show List.replicate 16 (1 : Byte) ≠ List.replicate 16 0; decide) true true hok
  rw [List.nil_append, List.append_nil] at h1 h2
  exact ⟨f, r, st, hf, h1, h2, h3, h4⟩

/-- The sample without listfile does not verify. -/
example : ∃ f, buildBytes toyEnv zeroMd5 namelessBuilder = .ok f ∧
    ∀ crc contents, cliVerify toyEnv toySigEnv f crc contents ≠ .ok () := by
  have e48 : (2 : Nat) ^ 48 = 281474976710656 := rfl
  have e64 : (2 : Nat) ^ 64 = 18446744073709551616 := rfl
  have e32 : (2 : Nat) ^ 32 = 4294967296 := rfl
  have hsb : ∀ p ∈ namelessBuilder.pending, storedBound p + (p.source.getD []).length < 1000 := by decide +kernel
  obtain ⟨f, a, hf, had, hlt, ha⟩ := toy_opens namelessBuilder _ nameless_buildable rfl
    (fun _ => .inl ⟨rfl, by decide⟩) (by decide) hsb (by decide +kernel) (by decide) (by decide +kernel)
    (noCollision_lit (by decide +kernel))
  refine ⟨f, hf, fun crc contents => ?_⟩
  have := C56_nameless_archive_fails toyEnv toySigEnv (fun _ => List.length_replicate) namelessBuilder (Or.inr rfl) f hf _ rfl
    [] [] rfl (by intro o ho; cases ho) had (by simp only [List.length_nil]; omega) (by decide)
    (fun p hp data hd => by
      have := hsb p hp
      rw [hd] at this
      have : storedBound p + data.length < 1000 := this
      omega) (by decide +kernel) (noCollision_lit (by decide +kernel)) (by decide)
    16 (by decide +kernel) (fun i hi => by
      have h1 : ∀ i < 16, ∀ p ∈ namelessBuilder.pending,
          ¬ Spec.sameName ((Spec.numbered i).map BitVec.toNat) (p.name.map BitVec.toNat) := by decide +kernel
      have h2 : ∀ i < 16, ∀ a ∈ Spec.numbered i :: namelessBuilder.pending.map (·.name),
          ∀ b ∈ Spec.numbered i :: namelessBuilder.pending.map (·.name),
          hashLit 1 0x7FED7FED 0xEEEEEEEE (a.map BitVec.toNat) = hashLit 1 0x7FED7FED 0xEEEEEEEE (b.map BitVec.toNat) →
          Spec.normalise (a.map BitVec.toNat) = Spec.normalise (b.map BitVec.toNat) := by decide +kernel
      exact ⟨h1 i hi, noCollision_lit (h2 i hi)⟩) crc contents
  rwa [List.nil_append, List.append_nil] at this

end Mopaq
