import Verif.Spec.Mask
import Verif.Props.Ffi

/-! # The C API: verifying a file (C53) and enumerating with a mask (C54) -/

namespace Mopaq

/-! ## C53 -/

/-- The caller asks for check `k` (bit `k` of the flags; no flags at all ask for everything). -/
def asksFor (flags : U32) (k : Nat) : Prop := flags = 0#32 ∨ flags.getLsbD k = true

theorem hasBits_bit (flags : U32) (k : Nat) (hk : k < 32) : hasBits flags (1#32 <<< k) = flags.getLsbD k := by
  unfold hasBits
  cases h : flags.getLsbD k with
  | true =>
    rw [bne_iff_ne]
    intro h0
    have := congrArg (fun v => BitVec.getLsbD v k) h0
    rw [BitVec.getLsbD_eq_getElem hk] at h
    simp [hk, h] at this
  | false =>
    have : flags &&& 1#32 <<< k = 0#32 := by
      apply BitVec.eq_of_getLsbD_eq
      intro i hi
      simp only [BitVec.getLsbD_and, BitVec.getLsbD_shiftLeft, BitVec.getLsbD_zero, BitVec.getLsbD_one]
      by_cases he : i = k
      · subst he; simp [h]
      · by_cases hlt : i < k
        · simp [hlt]
        · have : i - k ≠ 0 := by omega
          simp [this]
    simp [this]

/-- The flags as the call uses them. -/
theorem asksFor_iff (flags : U32) (k : Nat) (hk : k < 3) :
    hasBits (if flags = 0#32 then 0xFF#32 else flags) (1#32 <<< k) = true ↔ asksFor flags k := by
  rw [hasBits_bit _ _ (by omega)]
  unfold asksFor
  split
  · rename_i h
    constructor
    · intro _; exact .inl h
    · intro _
      have : k = 0 ∨ k = 1 ∨ k = 2 := by omega
      rcases this with rfl | rfl | rfl <;> decide
  · rename_i h
    constructor
    · exact .inr
    · rintro (h' | h')
      · exact absurd h' h
      · exact h'

theorem caught_error {α : Type} {r : Res α} {e : Err} (h : caught r = .ok (.error e)) : r = .error e := by
  unfold caught at h
  split at h
  · cases h
  · cases h
  · cases h
  · cases h; rfl

theorem checkContent_true {x : FfiEnv} {a : Archive} {name : List Byte} {good : List Byte → Bool} :
    checkContent x a name good = .ok true ↔ ∃ data, a.readFile x.env name = .ok data ∧ good data = true := by
  constructor
  · intro h
    unfold checkContent at h
    obtain ⟨r, hr, h⟩ := bind_eq_ok.1 h
    cases r with
    | ok data => exact ⟨data, caught_ok hr, Except.ok.inj h⟩
    | error e => cases h
  · rintro ⟨data, h1, h2⟩
    unfold checkContent
    simp only [h1, caught, bind, Except.bind, pure, Except.pure, h2]

theorem checkSectors_true {x : FfiEnv} {a : Archive} {name : List Byte} {flags : U32} {info : FileInfo} :
    checkSectors x a name flags info = .ok true ↔
      (hasBits flags 1#32 = true → info.hasSectorCrc = true → ∃ data, a.readFile x.env name = .ok data) := by
  unfold checkSectors
  split
  · rename_i h
    rw [Bool.and_eq_true] at h
    rw [checkContent_true]
    constructor
    · rintro ⟨data, h1, _⟩ _ _; exact ⟨data, h1⟩
    · intro hh
      obtain ⟨data, h1⟩ := hh h.1 h.2
      exact ⟨data, h1, rfl⟩
  · rename_i h
    refine ⟨fun _ h1 h2 => absurd ?_ h, fun _ => rfl⟩
    rw [h1, h2]; rfl

theorem checkCrc_true {x : FfiEnv} {a : Archive} {name : List Byte} {flags : U32} {attrs : Option FileAttributes} :
    checkCrc x a name flags attrs = .ok true ↔ (hasBits flags 2#32 = true → ∀ sum, attrs.bind (·.crc32) = some sum →
      ∃ data, a.readFile x.env name = .ok data ∧ x.crc32 data = sum) := by
  unfold checkCrc
  split
  · rename_i expected h1 h2
    rw [checkContent_true]
    constructor
    · rintro ⟨data, hd, hg⟩ _ sum hs
      rw [h2] at hs; cases hs
      exact ⟨data, hd, by simpa using hg⟩
    · intro hh
      obtain ⟨data, hd, hg⟩ := hh h1 expected h2
      exact ⟨data, hd, by simpa using hg⟩
  · rename_i h
    exact ⟨fun _ h1 sum hs => absurd hs (by exact h sum h1), fun _ => rfl⟩

theorem checkMd5_true {x : FfiEnv} {a : Archive} {name : List Byte} {flags : U32} {attrs : Option FileAttributes} :
    checkMd5 x a name flags attrs = .ok true ↔ (hasBits flags 4#32 = true → ∀ sum, attrs.bind (·.md5) = some sum →
      ∃ data, a.readFile x.env name = .ok data ∧ x.sig.md5 data = sum) := by
  unfold checkMd5
  split
  · rename_i expected h1 h2
    rw [checkContent_true]
    constructor
    · rintro ⟨data, hd, hg⟩ _ sum hs
      rw [h2] at hs; cases hs
      exact ⟨data, hd, by simpa using hg⟩
    · intro hh
      obtain ⟨data, hd, hg⟩ := hh h1 expected h2
      exact ⟨data, hd, by simpa using hg⟩
  · rename_i h
    exact ⟨fun _ h1 sum hs => absurd hs (by exact h sum h1), fun _ => rfl⟩

/-- What the attributes record for a file. -/
def Archive.recorded (a : Archive) (info : FileInfo) : Option FileAttributes :=
  a.attributes.bind fun t => t.files[info.blockIndex]?

/-- C53: verifying a file reports success if and only if the file is in the archive and passes every check that was asked
for and for which something is recorded: the content can be read (sector checksums), and its CRC32 and its MD5 are those
in the attributes. -/
theorem C53_success_iff (x : FfiEnv) (a : Archive) (name : List Byte) (flags : U32) :
    verifyFileIn x a name flags = .ok (.ok .done) ↔ ∃ info, a.findFile name = .ok (some info) ∧
      (asksFor flags 0 → info.hasSectorCrc = true → ∃ data, a.readFile x.env name = .ok data) ∧
      (asksFor flags 1 → ∀ sum, (a.recorded info).bind (·.crc32) = some sum →
        ∃ data, a.readFile x.env name = .ok data ∧ x.crc32 data = sum) ∧
      (asksFor flags 2 → ∀ sum, (a.recorded info).bind (·.md5) = some sum →
        ∃ data, a.readFile x.env name = .ok data ∧ x.sig.md5 data = sum) := by
  have h0 := asksFor_iff flags 0 (by decide)
  have h1 := asksFor_iff flags 1 (by decide)
  have h2 := asksFor_iff flags 2 (by decide)
  rw [← h0, ← h1, ← h2]
  unfold verifyFileIn Archive.recorded
  generalize (if flags = 0#32 then 0xFF#32 else flags) = fl
  constructor
  · intro h
    obtain ⟨r, hr, h⟩ := bind_eq_ok.1 h
    split at h
    · cases h
    · cases h
    · rename_i info
      refine ⟨info, caught_ok hr, ?_⟩
      obtain ⟨b1, c1, h⟩ := bind_eq_ok.1 h
      cases b1 with
      | false => cases h
      | true =>
        obtain ⟨b2, c2, h⟩ := bind_eq_ok.1 h
        cases b2 with
        | false => cases h
        | true =>
          obtain ⟨b3, c3, h⟩ := bind_eq_ok.1 h
          cases b3 with
          | false => cases h
          | true => exact ⟨checkSectors_true.1 c1, checkCrc_true.1 c2, checkMd5_true.1 c3⟩
  · rintro ⟨info, hf, c1, c2, c3⟩
    have c1 := checkSectors_true.2 c1
    have c2 := checkCrc_true.2 c2
    have c3 := checkMd5_true.2 c3
    simp only [hf, caught, bind, Except.bind, c1, c2, c3, Bool.not_true, Bool.false_eq_true, if_false, pure, Except.pure]

/-- C53: a file whose content is not the one the MD5 was recorded for never passes when the MD5 is asked for. -/
theorem C53_changed_content_fails (x : FfiEnv) (a : Archive) (name data : List Byte) (flags : U32) (info : FileInfo)
    (sum : List Byte) (hf : a.findFile name = .ok (some info)) (hr : a.readFile x.env name = .ok data)
    (hask : asksFor flags 2) (hsum : (a.recorded info).bind (·.md5) = some sum) (hne : x.sig.md5 data ≠ sum) :
    verifyFileIn x a name flags ≠ .ok (.ok .done) := by
  intro h
  obtain ⟨info', hf', _, _, h3⟩ := (C53_success_iff x a name flags).1 h
  rw [hf] at hf'; cases hf'
  obtain ⟨data', hr', h4⟩ := h3 hask sum hsum
  rw [hr] at hr'; cases hr'
  exact hne h4

/-- C53 (limit): without attributes and without the sector checksum flag the content does not matter: whatever bytes the
archive consists of, verifying the file reports success, for any flags. -/
theorem C53_content_ignored_without_records (x : FfiEnv) (a : Archive) (name : List Byte) (flags : U32) (info : FileInfo)
    (hf : a.findFile name = .ok (some info)) (hattr : a.attributes = none) (hcrc : info.hasSectorCrc = false)
    (bytes : List Byte) : verifyFileIn x { a with file := bytes } name flags = .ok (.ok .done) := by
  refine (C53_success_iff _ _ _ _).2 ⟨info, hf, ?_, ?_, ?_⟩
  · intro _ h; rw [hcrc] at h; cases h
  · intro _ sum h
    simp only [Archive.recorded, hattr] at h
    cases h
  · intro _ sum h
    simp only [Archive.recorded, hattr] at h
    cases h

/-- The sample: `b.bin` has no recorded sums and no sector checksums; with sums recorded in the attributes, verifying
succeeds or fails with the sum. -/
example (x : FfiEnv) (hx : x.env = toyEnv) : ∃ f a data info, openArchive toyEnv f = .ok a ∧ a.readFile toyEnv (ascii "dir/A.TXT") = .ok data ∧
    a.findFile (ascii "dir/A.TXT") = .ok (some info) ∧
    ∀ (t : Attributes) (at' : FileAttributes), t.files[info.blockIndex]? = some at' → at'.crc32 = none →
      at'.md5 = some (x.sig.md5 data) →
      verifyFileIn x { a with attributes := some t } (ascii "dir/A.TXT") 0#32 = .ok (.ok .done) := by
  obtain ⟨f, a, _, _, h1, h2, _⟩ := sample_reads .v2 (by decide)
  have hfind : ∃ info, a.findFile (ascii "dir/A.TXT") = .ok (some info) := by
    unfold Archive.readFile at h2
    obtain ⟨r, hr, h2⟩ := bind_eq_ok.1 h2
    cases r with
    | none => cases h2
    | some info => exact ⟨info, hr⟩
  obtain ⟨info, hi⟩ := hfind
  refine ⟨f, a, _, info, h1, h2, hi, ?_⟩
  intro t at' ht hc hm
  have hread : ({ a with attributes := some t } : Archive).readFile x.env (ascii "dir/A.TXT") = .ok (List.replicate 40 0x41#8) := by
    rw [hx]; exact h2
  refine (C53_success_iff _ _ _ _).2 ⟨info, hi, fun _ _ => ⟨_, hread⟩, ?_, ?_⟩
  · intro _ sum h
    simp only [Archive.recorded, Option.bind_some, ht, hc] at h
    cases h
  · intro _ sum h
    simp only [Archive.recorded, Option.bind_some, ht, hm] at h
    cases h
    exact ⟨_, hread, rfl⟩

/-! ## C54 -/

theorem wild_star (name : List Byte) : Spec.Wild [0x2A#8] name := by
  induction name with
  | nil => exact .starNone .nil
  | cons b name ih => exact .starMore b ih

theorem wild_star_drop {mask : List Byte} : ∀ {name : List Byte},
    Spec.Wild (0x2A#8 :: mask) name ↔ ∃ i, i ≤ name.length ∧ Spec.Wild mask (name.drop i) := by
  intro name
  constructor
  · intro h
    generalize hm : 0x2A#8 :: mask = m at h
    induction h with
    | nil => cases hm
    | starNone h _ => cases hm; exact ⟨0, Nat.zero_le _, by simpa using h⟩
    | starMore b h ih =>
      cases hm
      obtain ⟨i, h1, h2⟩ := ih rfl
      exact ⟨i + 1, by simp only [List.length_cons]; omega, by simpa using h2⟩
    | any b h _ => cases hm
    | byte b h1 h2 h _ => cases hm; exact absurd rfl h1
  · rintro ⟨i, hi, h⟩
    induction i generalizing name with
    | zero => exact .starNone (by simpa using h)
    | succ i ih =>
      cases name with
      | nil => simp at hi
      | cons b name => exact .starMore b (ih (by simp only [List.length_cons] at hi; omega) (by simpa using h))

/-- Without wildcards. -/
def Literal (part : List Byte) : Prop := ∀ b ∈ part, b ≠ 0x2A#8 ∧ b ≠ 0x3F#8

theorem wild_literal {part mask : List Byte} (hp : Literal part) : ∀ {name : List Byte},
    Spec.Wild (part ++ mask) name ↔ ∃ rest, name = part ++ rest ∧ Spec.Wild mask rest := by
  induction part with
  | nil => intro name; exact ⟨fun h => ⟨name, rfl, h⟩, by rintro ⟨_, rfl, h⟩; exact h⟩
  | cons b part ih =>
    intro name
    have hb := hp b List.mem_cons_self
    have ih := @ih (fun c hc => hp c (List.mem_cons_of_mem _ hc))
    constructor
    · intro h
      rw [List.cons_append] at h
      generalize hm : b :: (part ++ mask) = m at h
      cases h with
      | nil => cases hm
      | starNone h => cases hm; exact absurd rfl hb.1
      | starMore c h => cases hm; exact absurd rfl hb.1
      | any c h => cases hm; exact absurd rfl hb.2
      | byte c h1 h2 h =>
        cases hm
        obtain ⟨rest, h3, h4⟩ := ih.1 h
        exact ⟨rest, by rw [h3]; rfl, h4⟩
    · rintro ⟨rest, rfl, h⟩
      exact .byte b hb.1 hb.2 (ih.2 ⟨rest, rfl, h⟩)

theorem containsSub_iff (name part : List Byte) :
    containsSub name part = true ↔ ∃ i, i ≤ name.length ∧ ∃ rest, name.drop i = part ++ rest := by
  unfold containsSub
  rw [List.any_eq_true]
  constructor
  · rintro ⟨i, hi, h⟩
    obtain ⟨rest, hr⟩ := List.isPrefixOf_iff_prefix.1 h
    exact ⟨i, by have := List.mem_range.1 hi; omega, rest, hr.symm⟩
  · rintro ⟨i, hi, rest, hr⟩
    exact ⟨i, List.mem_range.2 (by omega), List.isPrefixOf_iff_prefix.2 ⟨rest, hr.symm⟩⟩

theorem filter_literal {part : List Byte} (hp : Literal part) : part.filter (· != 0x2A#8) = part := by
  rw [List.filter_eq_self]
  intro b hb
  rw [bne_iff_ne]
  exact (hp b hb).1

theorem maskMatches_infix {part name : List Byte} (hp : Literal part) :
    maskMatches (0x2A#8 :: (part ++ [0x2A#8])) name = true ↔ Spec.Wild (0x2A#8 :: (part ++ [0x2A#8])) name := by
  have hfilter : (0x2A#8 :: (part ++ [0x2A#8])).filter (· != 0x2A#8) = part := by
    rw [List.filter_cons_of_neg (by simp), List.filter_append, filter_literal hp]
    simp
  unfold maskMatches
  rw [hfilter, Bool.or_eq_true, containsSub_iff, wild_star_drop]
  constructor
  · rintro (h | ⟨i, hi, rest, hr⟩)
    · simp at h
    · exact ⟨i, hi, (wild_literal hp).2 ⟨rest, hr, wild_star rest⟩⟩
  · rintro ⟨i, hi, h⟩
    obtain ⟨rest, hr, _⟩ := (wild_literal hp).1 h
    exact .inr ⟨i, hi, rest, hr⟩

/-- C54 (what holds): for the mask `*`, and for masks of the form `*text*` with no further wildcard, enumerating the files
of an archive that can be listed reports exactly the listed names that fit the mask, in the order of the listing (names with
a zero byte cannot be passed on). -/
theorem C54_enumeration_partial (x : FfiEnv) (a : Archive) (entries : List FileEntry) (hlist : a.list x.env = .ok entries)
    (mask : List Byte) (hmask : mask = [0x2A#8] ∨ ∃ part, Literal part ∧ mask = 0x2A#8 :: (part ++ [0x2A#8])) :
    ∃ names, enumNames x a mask = .ok names ∧ names.Sublist (entries.map (·.name)) ∧
      ∀ name, name ∈ names ↔ name ∈ entries.map (·.name) ∧ 0#8 ∉ name ∧ Spec.Wild mask name := by
  refine ⟨_, by unfold enumNames; simp only [hlist, caught, bind, Except.bind]; rfl, List.filter_sublist, ?_⟩
  intro name
  rw [List.mem_filter, Bool.and_eq_true, Bool.not_eq_true']
  have h0 : name.contains 0#8 = false ↔ 0#8 ∉ name := by simp
  have hm : maskMatches mask name = true ↔ Spec.Wild mask name := by
    rcases hmask with rfl | ⟨part, hp, rfl⟩
    · exact ⟨fun _ => wild_star name, fun _ => by simp [maskMatches]⟩
    · exact maskMatches_infix hp
  rw [h0, hm]
  exact and_congr_right fun _ => And.comm

/-- C54 fails: for a mask of the form `*text` every listed name that has the text anywhere is reported, whether or not it
ends with it. -/
theorem C54_suffix_masks_report_more (x : FfiEnv) (a : Archive) (entries : List FileEntry) (names : List (List Byte))
    (hlist : a.list x.env = .ok entries) (part : List Byte) (hp : Literal part)
    (henum : enumNames x a (0x2A#8 :: part) = .ok names) (front back : List Byte)
    (hn : front ++ part ++ back ∈ entries.map (·.name)) (h0 : 0#8 ∉ front ++ part ++ back) :
    front ++ part ++ back ∈ names := by
  unfold enumNames at henum
  simp only [hlist, caught, bind, Except.bind, pure, Except.pure] at henum
  rw [← Except.ok.inj henum, List.mem_filter, Bool.and_eq_true]
  refine ⟨hn, ?_, by simp only [Bool.not_eq_true']; simpa using h0⟩
  unfold maskMatches
  rw [Bool.or_eq_true]
  right
  have : (0x2A#8 :: part).filter (· != 0x2A#8) = part := by
    rw [List.filter_cons_of_neg (by simp), filter_literal hp]
  rw [this, containsSub_iff]
  exact ⟨front.length, by simp only [List.length_append]; omega, back, by simp⟩

/-- `*.txt` and `x.txt.bak`. -/
example : ascii "x" ++ ascii ".txt" ++ ascii ".bak" = ascii "x.txt.bak" ∧ Literal (ascii ".txt") ∧
    0#8 ∉ ascii "x.txt.bak" ∧ ¬ Spec.Wild (0x2A#8 :: ascii ".txt") (ascii "x.txt.bak") := by
  refine ⟨by decide, ?_, by decide, ?_⟩
  · unfold Literal; decide
  · intro h
    obtain ⟨i, hi, h⟩ := wild_star_drop.1 h
    obtain ⟨rest, hr, h2⟩ := (wild_literal (part := ascii ".txt") (mask := []) (by unfold Literal; decide)).1 (by simpa using h)
    cases h2
    have hl := congrArg List.length hr
    have hlen : (ascii "x.txt.bak").length = 9 := by decide
    have hlen2 : (ascii ".txt").length = 4 := by decide
    simp only [List.length_drop, List.length_append, hlen, hlen2, List.length_nil] at hl
    have : i = 5 := by omega
    subst this
    exact absurd hr (by decide)

/-- C54 fails: a mask with a `*` inside does not report a name that fits: `a*c` and `abc`. -/
theorem C54_inner_star_misses (x : FfiEnv) (a : Archive) (names : List (List Byte))
    (henum : enumNames x a (ascii "a*c") = .ok names) : Spec.Wild (ascii "a*c") (ascii "abc") ∧ ascii "abc" ∉ names := by
  refine ⟨?_, ?_⟩
  · refine .byte _ (by decide) (by decide) (.starMore _ (.starNone (.byte _ (by decide) (by decide) .nil)))
  · intro h
    unfold enumNames at henum
    obtain ⟨r, _, henum⟩ := bind_eq_ok.1 henum
    cases r with
    | error e => cases henum; cases h
    | ok entries =>
      rw [← Except.ok.inj henum, List.mem_filter, Bool.and_eq_true] at h
      exact absurd h.2.1 (by decide)

/-- The sample archive has a listing. -/
example : ∃ (f : List Byte) (a : Archive) (entries : List FileEntry), openArchive toyEnv f = .ok a ∧
    a.list toyEnv = .ok entries ∧ ascii "Dir\\a.txt" ∈ entries.map (·.name) := by
  obtain ⟨f, a, entries, _, h1, h2, h3⟩ := sample_lists .v2 (by decide)
  refine ⟨f, a, entries, h1, h2, ?_⟩
  have := congrArg (List.map Prod.fst) h3
  rw [List.map_map] at this
  have e : (Prod.fst ∘ fun x : FileEntry => (x.name, x.size)) = (·.name) := rfl
  rw [e] at this
  rw [this]
  exact List.mem_cons_self

end Mopaq
