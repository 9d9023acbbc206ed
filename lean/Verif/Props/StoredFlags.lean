import Verif.Model.SpecialInfo
import Verif.Props.Listing
import Verif.Props.Spelling

/-!
# C98: what an archive says about how its files are stored
-/

namespace Mopaq

/-- A part of the data (as long as a sector, but for the last) is changed by the method. -/
def Spec.SomePartChanged (compress : List Byte → Res (List Byte)) (sector : Nat) (data : List Byte) : Prop :=
  ∃ i packed, (data.drop (i * sector)).take sector ≠ [] ∧ compress ((data.drop (i * sector)).take sector) = .ok packed ∧
    packed ≠ (data.drop (i * sector)).take sector

/-- The flags of an entry, by the bits of the format: compressed (9), encrypted (16), fix key (17), single unit (24), checksums (26),
exists (31), and no other. -/
structure Spec.FlagsSay (flags : U32) (compressed encrypted fixKey single checksums : Prop) : Prop where
  compressed : flags.getLsbD 9 = true ↔ compressed
  encrypted : flags.getLsbD 16 = true ↔ encrypted
  fixKey : flags.getLsbD 17 = true ↔ fixKey
  single : flags.getLsbD 24 = true ↔ single
  checksums : flags.getLsbD 26 = true ↔ checksums
  exists_ : flags.getLsbD 31 = true
  others : ∀ i, i ∉ [9, 16, 17, 24, 26, 31] → flags.getLsbD i = false

theorem mkFlags_say (single crc comp enc fix : Bool) :
    Spec.FlagsSay (mkFlags single crc comp enc fix ||| flagExists) (comp = true) (enc = true) (enc = true ∧ fix = true) (single = true)
      (crc = true) where
  compressed := by revert single crc comp enc fix; decide
  encrypted := by revert single crc comp enc fix; decide
  fixKey := by revert single crc comp enc fix; decide
  single := by revert single crc comp enc fix; decide
  checksums := by revert single crc comp enc fix; decide
  exists_ := by revert single crc comp enc fix; decide
  others := by
    have key : ∀ single crc comp enc fix : Bool, ∀ i : Fin 32, i.val ∉ [9, 16, 17, 24, 26, 31] →
        (mkFlags single crc comp enc fix ||| flagExists).getLsbD i.val = false := by decide +kernel
    intro i hi
    by_cases h : i < 32
    · exact key single crc comp enc fix ⟨i, h⟩ hi
    · exact BitVec.getLsbD_of_ge _ _ (by omega)

theorem storeUnit_changed {e : Env} {m : Byte} {d s : List Byte} {b : Bool} (h : storeUnit e m d = .ok (s, b)) :
    b = true ↔ m ≠ 0#8 ∧ d ≠ [] ∧ ∃ packed, compress e.codecs d m = .ok packed ∧ packed ≠ d := by
  constructor
  · intro hb
    rcases storeUnit_cases h with ⟨h1, _⟩ | ⟨_, h2, h3, h4, h5⟩
    · rw [hb] at h1; cases h1
    · exact ⟨h3, h4, s, h5, h2⟩
  · rintro ⟨h1, h2, c, h3, h4⟩
    unfold storeUnit at h
    rw [if_pos ⟨h1, h2⟩, h3] at h
    have h : (if c ≠ d then (pure (c, true) : Res _) else pure (d, false)) = .ok (s, b) := h
    rw [if_pos h4] at h
    cases h
    rfl

theorem mapM_any {e : Env} {m : Byte} : ∀ {xs : List (List Byte)} {ys : List (List Byte × Bool)},
    Pairwise₂ (fun x y => storeUnit e m x = .ok y) xs ys →
      (ys.any (·.2) = true ↔ ∃ x ∈ xs, m ≠ 0#8 ∧ x ≠ [] ∧ ∃ packed, compress e.codecs x m = .ok packed ∧ packed ≠ x)
  | _, _, .nil => by simp
  | _, _, .cons (x := x) (y := y) h t => by
    rw [List.any_cons, Bool.or_eq_true, mapM_any t, storeUnit_changed (s := y.1) (b := y.2) h]
    simp only [List.mem_cons, exists_eq_or_imp]

/-- The flags of a stored file say how it is stored. -/
theorem storeFile_flags {e : Env} {crcs : Bool} {ss pos : Nat} {p : PendingFile} {s : Stored} (h : storeFile e crcs ss pos p = .ok s) :
    ∃ data, p.source = some data ∧ Spec.FlagsSay s.block.flags
      (p.compression ≠ 0#8 ∧ Spec.SomePartChanged (fun x => compress e.codecs x p.compression) ss data) (p.encrypt = true)
      (p.encrypt = true ∧ p.useFixKey = true) (data.length ≤ ss) (crcs = true) := by
  obtain ⟨data, w, hd, hw, hs⟩ := storeFile_ok h
  refine ⟨data, hd, ?_⟩
  rw [hs]
  show Spec.FlagsSay (w.flags ||| flagExists) ..
  unfold writeFile at hw
  split at hw
  · rename_i hle
    have hle : data.length ≤ ss := hle
    obtain ⟨st, b, hst, hf, _⟩ := writeSingle_eq hw
    have hf : w.flags = mkFlags true crcs b p.encrypt p.useFixKey := hf
    rw [hf]
    have hsay := mkFlags_say true crcs b p.encrypt p.useFixKey
    refine ⟨hsay.compressed.trans ((storeUnit_changed hst).trans ?_), hsay.encrypted, hsay.fixKey,
      hsay.single.trans ⟨fun _ => hle, fun _ => rfl⟩, hsay.checksums, hsay.exists_, hsay.others⟩
    show p.compression ≠ 0#8 ∧ data ≠ [] ∧ _ ↔ _
    have h0 : (data.drop (0 * ss)).take ss = data := by
      rw [Nat.zero_mul, List.drop_zero, List.take_of_length_le hle]
    refine and_congr_right fun _ => ⟨fun ⟨h1, c, h2, h3⟩ => ⟨0, c, ?_, ?_, ?_⟩, fun ⟨i, c, h1, h2, h3⟩ => ?_⟩
    · rw [h0]; exact h1
    · rw [h0]; exact h2
    · rw [h0]; exact h3
    · cases i with
      | zero =>
        rw [h0] at h1 h2 h3
        exact ⟨h1, c, h2, h3⟩
      | succ i =>
        refine absurd ?_ h1
        rw [List.drop_eq_nil_of_le (Nat.le_trans hle (Nat.le_mul_of_pos_left _ (Nat.succ_pos i))), List.take_nil]
  · rename_i hgt
    have hgt : ¬ data.length ≤ ss := hgt
    obtain ⟨count, stored, hc, hm, hf, _⟩ := writeSectored_eq hw
    have hf : w.flags = mkFlags false crcs (stored.any (·.2)) p.encrypt p.useFixKey := hf
    rw [hf]
    have hsay := mkFlags_say false crcs (stored.any (·.2)) p.encrypt p.useFixKey
    refine ⟨hsay.compressed.trans ((mapM_any (mapM_ok hm)).trans ?_), hsay.encrypted, hsay.fixKey,
      hsay.single.trans ⟨fun h => absurd h (by decide), fun h => absurd h hgt⟩, hsay.checksums, hsay.exists_, hsay.others⟩
    obtain ⟨_, _, hle, _⟩ := divCeil_ok hc
    have hle : data.length ≤ count * ss := hle
    constructor
    · rintro ⟨x, hx, h1, h2, c, h3, h4⟩
      obtain ⟨i, _, rfl⟩ := List.mem_map.1 hx
      exact ⟨h1, i, c, h2, h3, h4⟩
    · rintro ⟨h1, i, c, h2, h3, h4⟩
      refine ⟨_, List.mem_map.2 ⟨i, List.mem_range.2 ?_, rfl⟩, h1, h2, c, h3, h4⟩
      rcases Nat.lt_or_ge i count with hi | hi
      · exact hi
      · refine absurd ?_ h2
        rw [List.drop_eq_nil_of_le (Nat.le_trans hle (Nat.mul_le_mul_right _ hi)), List.take_nil]

/-- C98: the entry found for a file of a built archive (as in C26) has the length of its content as its size and, as flags, exactly
those asked for: encrypted, with a key that depends on the position, with checksums; it is a single unit if its content fits into a
sector, and compressed if compression changed some sector. -/
theorem C98_flags_say_partial (e : Env) (md5 : Md5) (hmd : ∀ x, (md5 x).length = 16) (b : Builder)
    (f : List Byte) (hb : buildBytes e md5 b = .ok f) (pending : List PendingFile) (hp : prepareListfile b = .ok pending)
    (hext : ClassicLookup e.codecs b pending) (before after : List Byte) (hal : before.length % 512 = 0)
    (hclean : ∀ o < before.length, o % 512 = 0 → ¬ Spec.archiveMark (before ++ f ++ after) o ∧
      ¬ Spec.userDataMark (before ++ f ++ after) o)
    (hlen : f.length < addressable b.version) (hfit : before.length + f.length < 2 ^ 64)
    (hcount : pending.length < 0xFFFFFFFE)
    (hsize : ∀ p ∈ pending, ∀ data, p.source = some data → data.length < 2 ^ 32)
    (hna : ∀ p ∈ pending, ¬ Spec.sameName (attributesName.map BitVec.toNat) (p.name.map BitVec.toNat))
    (hc : NoCollision (attributesName :: pending.map (·.name))) :
    ∃ a ss, openArchive e (before ++ f ++ after) = .ok a ∧ sectorSizeOf b.blockSize = .ok ss ∧
      ∀ (i : Nat) (p : PendingFile), pending[i]? = some p →
        (∀ j < i, ∀ q, pending[j]? = some q → ¬ Spec.sameName (p.name.map BitVec.toNat) (q.name.map BitVec.toNat)) →
        ∃ data info, p.source = some data ∧ a.findFile p.name = .ok (some info) ∧ info.fileSize = data.length ∧
          Spec.FlagsSay info.flags (p.compression ≠ 0#8 ∧ Spec.SomePartChanged (fun x => compress e.codecs x p.compression) ss data)
            (p.encrypt = true) (p.encrypt = true ∧ p.useFixKey = true) (data.length ≤ ss) (b.generateCrcs = true) := by
  obtain ⟨L⟩ := layout_of_build hmd hb
  have hpe : L.pending = pending := by
    have := L.prepared
    rw [hp] at this
    injection this with this
    exact this.symm
  subst hpe
  obtain ⟨het, bet, hhet, hbet, hfall⟩ := L.fallback hmd before after hlen hfit hext
  obtain ⟨a, ha, hht, hbt, hat, _, hopen⟩ := L.open hmd before after hal hclean hlen hfit hcount het bet hhet hbet
  have hfb := hfall a ha hht hbt
  have hfn : a.findFile attributesName = .ok none := by
    rw [hfb attributesName]
    exact L.find_none ha hcount _ hna hc
  rw [loadAttributes_none hfn hat] at hopen
  have ha' : L.Opened before after { a with attributes := none } := ⟨ha.file, ha.offset, ha.header, ha.hash, ha.block, ha.his⟩
  have hfb' := hfall { a with attributes := none } ha' hht hbt
  refine ⟨{ a with attributes := none }, L.sectorSize, hopen, L.sector, ?_⟩
  intro i p hp' hfirst
  have hcn : NoCollision (p.name :: L.pending.map (·.name)) :=
    noCollision_respell (noCollision_tail hc) (List.mem_map_of_mem (List.mem_of_getElem? hp')) (sameName_refl _)
  obtain ⟨s, hashIndex, pre, post, _, _, hstore, hfind⟩ := L.find_some hmd ha' hlen hfit hcount hp' p.name (sameName_refl _) hfirst hcn
  obtain ⟨data, hd, hsay⟩ := storeFile_flags hstore
  refine ⟨data, _, hd, (hfb' p.name).trans hfind, ?_, hsay⟩
  obtain ⟨data', w, hd', _, hs⟩ := storeFile_ok hstore
  rw [hd] at hd'
  cases hd'
  show s.block.fileSize.toNat = _
  rw [hs]
  show (BitVec.ofNat 32 data.length).toNat = _
  rw [BitVec.toNat_ofNat, Nat.mod_eq_of_lt (hsize p (List.mem_of_getElem? hp') data hd)]

/-- C98: the listfile that the builder adds is stored without encryption, as the library says of special files; it is never compressed if
the builder was told not to compress. -/
theorem C98_listfile (b : Builder) (pending : List PendingFile) (h : prepareListfile b = .ok pending) (hl : b.listfile ≠ .none) :
    ∃ p info, pending = b.pending ++ [p] ∧ p.name = ascii "(listfile)" ∧ specialFileInfo p.name = some info ∧
      p.encrypt = info.encrypted ∧ info.compressed = true ∧ p.compression = b.defaultCompression := by
  have hname : listfileName = ascii "(listfile)" := by decide
  have hinfo : specialFileInfo listfileName = some ⟨listfileName, false, true⟩ := by decide
  unfold prepareListfile at h
  cases hb : b.listfile with
  | none => exact absurd hb hl
  | generate =>
    rw [hb] at h
    cases h
    exact ⟨_, ⟨listfileName, false, true⟩, rfl, hname, hinfo, rfl, rfl, rfl⟩
  | external c =>
    rw [hb] at h
    cases c with
    | none => cases h
    | some c =>
      cases h
      exact ⟨_, ⟨listfileName, false, true⟩, rfl, hname, hinfo, rfl, rfl, rfl⟩

/-- C98 is violated: the library says that the listfile is compressed, and a builder told not to compress stores it as it is. -/
theorem C98_listfile_not_compressed (e : Env) (crcs : Bool) (ss pos : Nat) (b : Builder) (pending : List PendingFile)
    (h : prepareListfile b = .ok pending) (hl : b.listfile ≠ .none) (h0 : b.defaultCompression = 0#8) :
    ∃ p info, pending = b.pending ++ [p] ∧ specialFileInfo p.name = some info ∧ info.compressed = true ∧
      ∀ s, storeFile e crcs ss pos p = .ok s → s.block.flags.getLsbD 9 = false := by
  obtain ⟨p, info, h1, _, h2, _, h3, h4⟩ := C98_listfile b pending h hl
  refine ⟨p, info, h1, h2, h3, fun s hs => ?_⟩
  obtain ⟨_, _, hsay⟩ := storeFile_flags hs
  cases hbit : s.block.flags.getLsbD 9 with
  | false => rfl
  | true => exact absurd (h4.trans h0) (hsay.compressed.1 hbit).1

/-- C98: which names the library knows as special files, and that it gives back the name. -/
theorem C98_special_names (name : List Byte) :
    (specialFileInfo name ≠ none ↔
      name ∈ [ascii "(listfile)", ascii "(attributes)", ascii "(signature)", ascii "(user data)"]) ∧
    ∀ info, specialFileInfo name = some info → info.name = name ∧ info.encrypted = false ∧
      (info.compressed = true ↔ name ∈ [ascii "(listfile)", ascii "(attributes)"]) := by
  have e1 : ascii "(listfile)" = listfileName := by decide
  have e2 : ascii "(attributes)" = attributesName := by decide
  have e3 : ascii "(signature)" = signatureName := by decide
  have e4 : ascii "(user data)" = word "(user data)" := rfl
  have d1 : attributesName ≠ listfileName := by decide
  have d2 : signatureName ∉ [listfileName, attributesName] := by decide
  have d3 : word "(user data)" ∉ [listfileName, attributesName] := by decide
  rw [e1, e2, e3, e4]
  unfold specialFileInfo
  by_cases h1 : name = listfileName
  · subst h1
    rw [if_pos rfl]
    exact ⟨⟨fun _ => List.mem_cons_self, fun _ h => by cases h⟩, fun info h => by cases h; exact ⟨rfl, rfl, fun _ => List.mem_cons_self, fun _ => rfl⟩⟩
  rw [if_neg h1]
  by_cases h2 : name = attributesName
  · subst h2
    rw [if_pos rfl]
    exact ⟨⟨fun _ => List.mem_cons_of_mem _ List.mem_cons_self, fun _ h => by cases h⟩, fun info h => by
      cases h; exact ⟨rfl, rfl, fun _ => List.mem_cons_of_mem _ List.mem_cons_self, fun _ => rfl⟩⟩
  rw [if_neg h2]
  by_cases h3 : name = signatureName
  · subst h3
    rw [if_pos rfl]
    exact ⟨⟨fun _ => List.mem_cons_of_mem _ (List.mem_cons_of_mem _ List.mem_cons_self), fun _ h => by cases h⟩, fun info h => by
      cases h; exact ⟨rfl, rfl, fun h => (by cases h), fun h => absurd h d2⟩⟩
  rw [if_neg h3]
  by_cases h4 : name = word "(user data)"
  · rw [if_pos h4]
    refine ⟨⟨fun _ => by rw [h4]; exact List.mem_cons_of_mem _ (List.mem_cons_of_mem _ (List.mem_cons_of_mem _ List.mem_cons_self)),
      fun _ h => by cases h⟩, fun info h => ?_⟩
    cases h
    exact ⟨h4.symm, rfl, fun h => (by cases h), fun h => absurd (h4 ▸ h) d3⟩
  · rw [if_neg h4]
    refine ⟨⟨fun h => absurd rfl h, fun h => ?_⟩, fun info h => by cases h⟩
    simp only [List.mem_cons, List.not_mem_nil, or_false] at h
    rcases h with h | h | h | h
    · exact absurd h h1
    · exact absurd h h2
    · exact absurd h h3
    · exact absurd h h4

/-- C98 is violated: another spelling of the name of the listfile reaches the same file in every archive, and the library does not know
it as a special file. -/
theorem C98_spelling_unknown (e : Env) (a : Archive) :
    a.findFile (ascii "(LISTFILE)") = a.findFile (ascii "(listfile)") ∧
    a.readFile e (ascii "(LISTFILE)") = a.readFile e (ascii "(listfile)") ∧
    specialFileInfo (ascii "(listfile)") ≠ none ∧ specialFileInfo (ascii "(LISTFILE)") = none := by
  obtain ⟨h1, h2⟩ := C66_same_file e a (ascii "(LISTFILE)") (ascii "(listfile)") (by simp [ascii, Spec.sameName, Spec.sameChar])
  exact ⟨h1, h2, by decide, by decide⟩

/-- The second file of the sample of version 2 is encrypted with a key that depends on the position, one unit, with a checksum, and not
compressed. -/
example : ∃ f a info, buildBytes toyEnv zeroMd5 (sampleBuilder .v2) = .ok f ∧ openArchive toyEnv f = .ok a ∧
    a.findFile (ascii "b.bin") = .ok (some info) ∧ info.fileSize = 5 ∧ [9, 16, 17, 24, 26].map (fun i => info.flags.getLsbD i) =
      [false, true, true, true, true] := by
  obtain ⟨f, _, hf, hlt, _, _⟩ := sample_reads .v2 (by decide)
  have e48 : (2 : Nat) ^ 48 = 281474976710656 := rfl
  have e64 : (2 : Nat) ^ 64 = 18446744073709551616 := rfl
  have hsb : ∀ p ∈ samplePending, (p.source.getD []).length < 1000 := by decide +kernel
  obtain ⟨a, ss, ho, hss, hall⟩ := C98_flags_say_partial toyEnv zeroMd5 (fun _ => List.length_replicate) (sampleBuilder .v2) f hf
    samplePending (samplePending_eq .v2) (fun _ => .inl ⟨rfl, by decide⟩) [] [] rfl (by intro o ho; cases ho)
    (by unfold addressable; rw [if_neg (show ¬ (sampleBuilder .v2).version = .v1 by decide)]; exact hlt)
    (by simp only [List.length_nil]; omega) (by decide)
    (by
      intro p hp data hd
      have := hsb p hp
      rw [hd] at this
      have : data.length < 1000 := this
      omega)
    (by decide +kernel) (noCollision_lit (by decide +kernel))
  rw [List.nil_append, List.append_nil] at ho
  have hss' : ss = 4096 := Except.ok.inj (hss.symm.trans (show sectorSizeOf 3#16 = .ok 4096 by decide))
  obtain ⟨data, info, hd, hfind, hsize, hsay⟩ := hall 1
    { source := some [1, 2, 3, 4, 5], name := ascii "b.bin", compression := 0, encrypt := true, useFixKey := true, locale := 0 }
    (by decide +kernel) (by
      have key : ∀ j < 1, ∀ q ∈ samplePending[j]?,
          ¬ Spec.sameName ((ascii "b.bin").map BitVec.toNat) (q.name.map BitVec.toNat) := by decide +kernel
      exact fun j hj q hq => key j hj q hq)
  cases hd
  refine ⟨f, a, info, hf, ho, hfind, hsize, ?_⟩
  have h9 : info.flags.getLsbD 9 = false := by
    cases h : info.flags.getLsbD 9 with
    | false => rfl
    | true => exact absurd rfl (hsay.compressed.1 h).1
  rw [List.map_cons, List.map_cons, List.map_cons, List.map_cons, List.map_cons, List.map_nil, h9, hsay.encrypted.2 rfl,
    hsay.fixKey.2 ⟨rfl, rfl⟩, hsay.single.2 (by rw [hss']; decide), hsay.checksums.2 rfl]

/-- The sample without compression has such a listfile, and it is stored. -/
example : (∃ pending, prepareListfile { sampleBuilder .v2 with defaultCompression := 0#8 } = .ok pending ∧ pending.length = 3) ∧
    (sampleBuilder .v2).listfile ≠ .none ∧
    ∃ s, storeFile toyEnv true 4096 32 ⟨some (ascii "b.bin"), listfileName, 0#8, false, false, 0⟩ = .ok s ∧ s.block.flags.getLsbD 9 = false := by
  refine ⟨⟨_, rfl, rfl⟩, by decide, _, rfl, by decide +kernel⟩

end Mopaq
