import Verif.Lemmas.Attributes

/-!
# C35, C36: the attributes file
-/

namespace Mopaq

/-- A parsed record in the words of the specification. -/
def FileAttributes.view (a : FileAttributes) : Spec.BlockAttributes :=
  { checksum := a.crc32.map (·.toNat), time := a.filetime.map (·.toNat), digest := a.md5, patch := a.isPatch }

/-- Two blocks, all four tables. -/
def twoRows : Attributes :=
  { version := 100, flags := 15
    files := [⟨some 7, some 8, some (List.replicate 16 9), some false⟩, ⟨some 17, none, some (List.replicate 16 19), some true⟩] }

/-- C36: bytes are accepted as an attributes file for `count` blocks exactly when the version is 100 and all tables
announced by the flag word are there; anything else is refused with a format error and never with a panic. (`count` is
below 2^58; see `C36_huge_count_panics`.) -/
theorem C36_accepts_exactly (data : List Byte) (count : Nat) (h : count < 2 ^ 58) :
    ((∃ a, parseAttributes data count = .ok a) ↔
      8 ≤ data.length ∧ Spec.numAt 4 data 0 = 100 ∧ Spec.attributesLength (Spec.numAt 4 data 4) count ≤ data.length) ∧
    (∀ e, parseAttributes data count = .error e → e = .invalidFormat) := by
  rw [parseAttributes_eq data count h]
  split
  · rename_i hc
    exact ⟨⟨fun _ => hc, fun _ => ⟨_, rfl⟩⟩, fun e he => by cases he⟩
  · rename_i hc
    exact ⟨⟨fun ⟨a, ha⟩ => (by cases ha), fun h => absurd h hc⟩, fun e he => by cases he; rfl⟩

/-- C36: an accepted file has one record for every block, holding the values found at the place the format assigns to
them, and no others. -/
theorem C36_values (data : List Byte) (count : Nat) (a : Attributes) (h : count < 2 ^ 58)
    (hp : parseAttributes data count = .ok a) :
    a.version = 100 ∧ a.flags.toNat = Spec.numAt 4 data 4 ∧
      a.files.map FileAttributes.view = (List.range count).map (Spec.attributesOf data count) := by
  rw [parseAttributes_eq data count h] at hp
  split at hp
  rotate_left
  · cases hp
  rename_i hc
  obtain ⟨h8, _, hl⟩ := hc
  injection hp with hp
  subst hp
  have v4 := ofLe32_slice data 4 (by omega)
  refine ⟨rfl, v4, ?_⟩
  dsimp only
  rw [List.map_map]
  apply List.map_congr_left
  intro i hi
  have hi' : i < count := by simpa using hi
  simp only [Function.comp, FileAttributes.view, attributesRow, Spec.attributesOf, v4, hasCrc32_eq, hasFiletime_eq, hasMd5_eq,
    hasPatchBit_eq]
  generalize hfl : Spec.numAt 4 data 4 = flags at *
  have hl' := hl
  unfold Spec.attributesLength Spec.patchesAt Spec.digestsAt Spec.timesAt Spec.tableLength at hl'
  have ht : Spec.timesAt flags count = 8 + if flags.testBit 0 then 4 * count else 0 := rfl
  congr 1
  · cases h0 : flags.testBit 0 with
    | false => rfl
    | true =>
      simp only [h0, if_true] at hl' ⊢
      rw [Option.map_some, ofLe32_slice data _ (by omega)]
  · cases h0 : flags.testBit 1 with
    | false => rfl
    | true =>
      simp only [h0, if_true] at hl' ⊢
      rw [Option.map_some, ofLe64_slice data _ (by omega)]

/-- C36: with a checksum table announced, a block count of 2^62 or more makes the size computation overflow (a panic
in a checked build), whatever else the file contains. -/
theorem C36_huge_count_panics (data : List Byte) (count : Nat) (h8 : 8 ≤ data.length) (hv : Spec.numAt 4 data 0 = 100)
    (hf : (Spec.numAt 4 data 4).testBit 0) (hc : 2 ^ 62 ≤ count) : parseAttributes data count = .error .panic := by
  have r0 : rd32 data = .ok (ofLe32 (slice data 0 4), data.drop 4) := rd32_drop_ok data 0 (by omega)
  have r4 := rd32_drop_ok data 4 (by omega)
  have v0 := ofLe32_slice data 0 (by omega)
  have v4 := ofLe32_slice data 4 (by omega)
  have hv' : ofLe32 (slice data 0 4) = 100#32 := BitVec.eq_of_toNat_eq (by rw [v0, hv]; rfl)
  unfold parseAttributes
  rw [if_neg (by omega)]
  simp only [pure, Except.pure, bind, Except.bind, r0, r4]
  rw [if_neg (by simp [hv'])]
  have hs : attributesSize (ofLe32 (slice data 4 4)) count = .error .panic := by
    have hp : usizeChecked (count * 4) = .error .panic := by
      unfold usizeChecked
      rw [if_neg (by have : 2 ^ 62 = 4611686018427387904 := rfl; have : 2 ^ 64 = 18446744073709551616 := rfl; omega)]
    unfold attributesSize
    rw [hasCrc32_eq, v4, hf]
    simp only [if_true, hp, bind, Except.bind]
  rw [hs]

example : parseAttributes (twoRows.toBytes) (2 ^ 62) = .error .panic :=
  C36_huge_count_panics _ _ (by decide +kernel) (by decide +kernel) (by decide +kernel) (Nat.le_refl _)

/-- C35: writing attributes and parsing the bytes gives back the flags and, for every block and every announced table, the
value that was given (zero where none was given). Bytes following the file do not matter. -/
theorem C35_round_trip (a : Attributes) (extra : List Byte) (hv : a.version = 100) (hn : a.files.length < 2 ^ 58)
    (hm : ∀ f ∈ a.files, ∀ d, f.md5 = some d → d.length = 16) :
    ∃ b, parseAttributes (a.toBytes ++ extra) a.files.length = .ok b ∧ b.version = 100 ∧ b.flags = a.flags ∧
      b.files.map FileAttributes.view = a.files.map (fun f => Spec.written a.flags.toNat f.view) := by
  obtain ⟨b, hb, h1, h2, h3⟩ := parse_written a extra hv hn hm
  refine ⟨b, hb, h1, h2, ?_⟩
  rw [h3, List.map_map]
  apply List.map_congr_left
  intro f _
  simp only [Function.comp, writtenRow, FileAttributes.view, Spec.written, hasCrc32_eq, hasFiletime_eq, hasMd5_eq, hasPatchBit_eq]
  congr 1
  · cases a.flags.toNat.testBit 0 <;> cases f.crc32 <;> rfl
  · cases a.flags.toNat.testBit 1 <;> cases f.filetime <;> rfl

/-- C35: attributes whose records have exactly the announced values come back unchanged. -/
theorem C35_round_trip_same (a : Attributes) (extra : List Byte) (hv : a.version = 100) (hn : a.files.length < 2 ^ 58)
    (hm : ∀ f ∈ a.files, ∀ d, f.md5 = some d → d.length = 16)
    (hf : ∀ f ∈ a.files, f.crc32.isSome = a.flags.toNat.testBit 0 ∧ f.filetime.isSome = a.flags.toNat.testBit 1 ∧
      f.md5.isSome = a.flags.toNat.testBit 2 ∧ f.isPatch.isSome = a.flags.toNat.testBit 3) :
    parseAttributes (a.toBytes ++ extra) a.files.length = .ok a := by
  obtain ⟨b, hb, h1, h2, h3⟩ := parse_written a extra hv hn hm
  rw [hb]
  have h4 : b.files = a.files := by
    rw [h3]
    refine (List.map_congr_left (g := id) ?_).trans (List.map_id _)
    intro f hfm
    obtain ⟨q0, q1, q2, q3⟩ := hf f hfm
    simp only [id, writtenRow, hasCrc32_eq, hasFiletime_eq, hasMd5_eq, hasPatchBit_eq, ← q0, ← q1, ← q2, ← q3]
    obtain ⟨c, t, m, p⟩ := f
    cases c <;> cases t <;> cases m <;> cases p <;> rfl
  obtain ⟨v, fl, fs⟩ := a
  obtain ⟨v', fl', fs'⟩ := b
  simp only at hv h1 h2 h4
  rw [hv, h1, h2, h4]

/-- Two blocks and two of the tables. -/
def twoColumns : Attributes :=
  { version := 100, flags := 9, files := [⟨some 7, none, none, some false⟩, ⟨some 17, none, none, some true⟩] }

example : parseAttributes (twoColumns.toBytes ++ [1, 2, 3]) 2 = .ok twoColumns :=
  C35_round_trip_same twoColumns [1, 2, 3] rfl (by decide) (by decide) (by decide)

example : ∃ b, parseAttributes (twoRows.toBytes ++ []) 2 = .ok b ∧ b.version = 100 ∧ b.flags = 15 ∧
    b.files.map FileAttributes.view = twoRows.files.map (fun f => Spec.written 15 f.view) :=
  C35_round_trip twoRows [] rfl (by decide) (by decide)

end Mopaq
