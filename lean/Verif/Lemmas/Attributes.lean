import Verif.Model.Attributes
import Verif.Spec.Attributes
import Verif.Lemmas.Header
import Verif.Lemmas.HeaderAccept

namespace Mopaq

theorem slice_succ (f : List Byte) (o w : Nat) (h : o < f.length) : slice f o (w + 1) = f.getD o 0 :: slice f (o + 1) w := by
  unfold slice
  rw [List.drop_eq_getElem_cons h, List.take_succ_cons]
  simp [List.getD, h]

theorem leNat_slice (f : List Byte) : ∀ (w o : Nat), o + w ≤ f.length → leNat (slice f o w) = Spec.numAt w f o
  | 0, o, _ => by simp [slice, leNat, Spec.numAt]
  | w + 1, o, h => by
    rw [slice_succ f o w (by omega), leNat, Spec.numAt, leNat_slice f w (o + 1) (by omega), Spec.byteAt]

theorem slice_len (f : List Byte) (o w : Nat) (h : o + w ≤ f.length) : (slice f o w).length = w := by
  simp [slice]; omega

theorem ofLe32_slice (f : List Byte) (o : Nat) (h : o + 4 ≤ f.length) : (ofLe32 (slice f o 4)).toNat = Spec.numAt 4 f o := by
  have := leNat_lt (slice f o 4)
  rw [slice_len f o 4 h] at this
  rw [ofLe32, BitVec.toNat_ofNat, Nat.mod_eq_of_lt this, leNat_slice f 4 o h]

theorem ofLe64_slice (f : List Byte) (o : Nat) (h : o + 8 ≤ f.length) : (ofLe64 (slice f o 8)).toNat = Spec.numAt 8 f o := by
  have := leNat_lt (slice f o 8)
  rw [slice_len f o 8 h] at this
  rw [ofLe64, BitVec.toNat_ofNat, Nat.mod_eq_of_lt this, leNat_slice f 8 o h]

theorem and_one_shift (f : U32) (k : Nat) (hk : k < 32) : (f &&& (1#32 <<< k) != 0#32) = f.toNat.testBit k := by
  rw [Bool.eq_iff_iff, bne_iff_ne]
  constructor
  · intro h
    apply Classical.byContradiction
    intro hn
    apply h
    apply BitVec.eq_of_getLsbD_eq
    intro i hi
    simp only [BitVec.getLsbD_and, BitVec.getLsbD_shiftLeft, BitVec.getLsbD_one, BitVec.getLsbD_zero]
    by_cases hik : i = k
    · subst hik
      have : f.getLsbD i = false := by simpa [BitVec.getLsbD] using hn
      simp [this]
    · by_cases h2 : i < k
      · simp [h2]
      · have : i - k ≠ 0 := by omega
        simp [this]
  · intro h h0
    have : (f &&& (1#32 <<< k)).getLsbD k = false := by rw [h0]; simp
    simp only [BitVec.getLsbD_and, BitVec.getLsbD_shiftLeft, BitVec.getLsbD_one] at this
    have h' : f.getLsbD k = true := by simpa [BitVec.getLsbD] using h
    rw [h'] at this; simp [hk] at this

theorem hasCrc32_eq (f : U32) : hasCrc32 f = f.toNat.testBit 0 := and_one_shift f 0 (by decide)
theorem hasFiletime_eq (f : U32) : hasFiletime f = f.toNat.testBit 1 := and_one_shift f 1 (by decide)
theorem hasMd5_eq (f : U32) : hasMd5 f = f.toNat.testBit 2 := and_one_shift f 2 (by decide)
theorem hasPatchBit_eq (f : U32) : hasPatchBit f = f.toNat.testBit 3 := and_one_shift f 3 (by decide)

theorem and_one_shift8 (b : Byte) (k : Nat) (hk : k < 8) : (b &&& (1#8 <<< k) != 0#8) = b.toNat.testBit k := by
  have h : ∀ k : Fin 8, ∀ b : BitVec 8, (b &&& (1#8 <<< k.val) != 0#8) = b.toNat.testBit k.val := by decide +kernel
  exact h ⟨k, hk⟩ b

theorem usizeChecked_ok (n : Nat) (h : n < 2 ^ 64) : usizeChecked n = .ok n := by simp [usizeChecked, h]

theorem attributesSize_eq (flags : U32) (count : Nat) (h : count < 2 ^ 58) :
    attributesSize flags count = .ok (Spec.attributesLength flags.toNat count) := by
  have h58 : 2 ^ 58 = 288230376151711744 := rfl
  have h64 : 2 ^ 64 = 18446744073709551616 := rfl
  unfold attributesSize Spec.attributesLength Spec.patchesAt Spec.digestsAt Spec.timesAt Spec.tableLength
  simp only [hasCrc32_eq, hasFiletime_eq, hasMd5_eq, hasPatchBit_eq]
  cases flags.toNat.testBit 0 <;> cases flags.toNat.testBit 1 <;> cases flags.toNat.testBit 2 <;> cases flags.toNat.testBit 3 <;>
    simp (disch := omega) only [usizeChecked_ok, pure, Except.pure, bind, Except.bind, if_true, if_false, Bool.false_eq_true] <;>
    congr 1 <;> omega

theorem readMany_drop {α : Type} (f : List Byte) (w : Nat) (dec : List Byte → α) (read : List Byte → Res (α × List Byte))
    (hr : ∀ o, o + w ≤ f.length → read (f.drop o) = .ok (dec (slice f o w), f.drop (o + w))) :
    ∀ n o, o + w * n ≤ f.length →
      readMany read n (f.drop o) = .ok ((List.range n).map (fun i => dec (slice f (o + w * i) w)), f.drop (o + w * n))
  | 0, o, _ => by simp [readMany]
  | n + 1, o, h => by
    have hm : w * (n + 1) = w * n + w := Nat.mul_succ w n
    unfold readMany
    rw [hr o (by omega)]
    simp only [bind, Except.bind]
    rw [readMany_drop f w dec read hr n (o + w) (by omega)]
    simp only [pure, Except.pure, List.range_succ_eq_map, List.map_cons, List.map_map]
    congr 2
    · congr 1
      apply List.map_congr_left
      intro i _
      simp only [Function.comp, Nat.mul_succ]
      congr 2
      omega
    · congr 1; omega

theorem mapM_oks {α β : Type} (f : α → Res β) (g : α → β) :
    ∀ l : List α, (∀ x ∈ l, f x = .ok (g x)) → l.mapM f = .ok (l.map g)
  | [], _ => rfl
  | x :: l, h => by
    rw [List.mapM_cons, h x (by simp)]
    simp only [bind, Except.bind]
    rw [mapM_oks f g l (fun y hy => h y (by simp [hy]))]
    rfl

/-- The record the parser makes for block `i`. -/
def attributesRow (data : List Byte) (count i : Nat) : FileAttributes :=
  let flags := ofLe32 (slice data 4 4)
  { crc32 := if hasCrc32 flags then some (ofLe32 (slice data (8 + 4 * i) 4)) else none
    filetime := if hasFiletime flags then some (ofLe64 (slice data (Spec.timesAt flags.toNat count + 8 * i) 8)) else none
    md5 := if hasMd5 flags then some (slice data (Spec.digestsAt flags.toNat count + 16 * i) 16) else none
    isPatch := if hasPatchBit flags then
      some ((data.getD (Spec.patchesAt flags.toNat count + i / 8) 0).toNat.testBit (i % 8)) else none }

theorem readColumn_drop {α : Type} (p : Bool) (f : List Byte) (w : Nat) (dec : List Byte → α)
    (read : List Byte → Res (α × List Byte)) (n o : Nat)
    (hr : ∀ o, o + w ≤ f.length → read (f.drop o) = .ok (dec (slice f o w), f.drop (o + w)))
    (h : o + (if p then w * n else 0) ≤ f.length) :
    readColumn p (readMany read n) (f.drop o) =
      .ok (if p then some ((List.range n).map (fun i => dec (slice f (o + w * i) w))) else none,
        f.drop (o + if p then w * n else 0)) := by
  unfold readColumn
  cases p with
  | false => simp
  | true =>
    simp only [if_true] at h ⊢
    rw [readMany_drop f w dec read hr n o h]
    rfl

theorem column_map {α : Type} (p : Bool) (g : Nat → α) (n i : Nat) (h : i < n) :
    column (if p then some ((List.range n).map g) else none) i = .ok (if p then some (g i) else none) := by
  cases p with
  | false => rfl
  | true => simp [column, h]

/-- The parser in one equation. -/
theorem parseAttributes_eq (data : List Byte) (count : Nat) (h : count < 2 ^ 58) :
    parseAttributes data count =
      if 8 ≤ data.length ∧ Spec.numAt 4 data 0 = 100 ∧ Spec.attributesLength (Spec.numAt 4 data 4) count ≤ data.length then
        .ok { version := 100, flags := ofLe32 (slice data 4 4), files := (List.range count).map (attributesRow data count) }
      else .error .invalidFormat := by
  unfold parseAttributes
  by_cases h8 : data.length < 8
  · rw [if_pos h8, if_neg (by omega)]
    rfl
  rw [if_neg h8]
  have e0 : data = data.drop 0 := rfl
  have r0 : rd32 data = .ok (ofLe32 (slice data 0 4), data.drop 4) := rd32_drop_ok data 0 (by omega)
  have r4 := rd32_drop_ok data 4 (by omega)
  have v0 := ofLe32_slice data 0 (by omega)
  have v4 := ofLe32_slice data 4 (by omega)
  simp only [pure, Except.pure, bind, Except.bind, r0, r4]
  by_cases hv : ofLe32 (slice data 0 4) = 100#32
  rotate_left
  · rw [if_pos hv, if_neg]
    · rfl
    · rintro ⟨_, h1, _⟩
      exact hv (BitVec.eq_of_toNat_eq (by rw [v0, h1]; rfl))
  rw [if_neg (by simp [hv]), attributesSize_eq _ _ h, v4]
  dsimp only
  have hv' : Spec.numAt 4 data 0 = 100 := by rw [← v0, hv]; rfl
  by_cases hs : data.length < Spec.attributesLength (Spec.numAt 4 data 4) count
  · rw [if_pos hs, if_neg (by omega)]
    rfl
  rw [if_neg hs, if_pos ⟨by omega, hv', by omega⟩]
  have hs' : Spec.attributesLength (ofLe32 (slice data 4 4)).toNat count ≤ data.length := by rw [v4]; omega
  generalize hfl : ofLe32 (slice data 4 4) = flags at *
  have t0 : Spec.timesAt flags.toNat count = 8 + if hasCrc32 flags then 4 * count else 0 := by
    simp only [Spec.timesAt, Spec.tableLength, hasCrc32_eq]
  have t1 : Spec.digestsAt flags.toNat count = Spec.timesAt flags.toNat count + if hasFiletime flags then 8 * count else 0 := by
    simp only [Spec.digestsAt, Spec.tableLength, hasFiletime_eq]
  have t2 : Spec.patchesAt flags.toNat count = Spec.digestsAt flags.toNat count + if hasMd5 flags then 16 * count else 0 := by
    simp only [Spec.patchesAt, Spec.tableLength, hasMd5_eq]
  have t3 : Spec.attributesLength flags.toNat count =
      Spec.patchesAt flags.toNat count + if hasPatchBit flags then (count + 7) / 8 else 0 := by
    simp only [Spec.attributesLength, hasPatchBit_eq]
  rw [readColumn_drop (hasCrc32 flags) data 4 ofLe32 rd32 count 8 (fun o => rd32_drop_ok data o) (by omega), ← t0]
  dsimp only
  rw [readColumn_drop (hasFiletime flags) data 8 ofLe64 rd64 count _ (fun o => rd64_drop_ok data o) (by omega), ← t1]
  dsimp only
  rw [readColumn_drop (hasMd5 flags) data 16 id (rdBytes 16) count _ (fun o => rdBytes_drop 16 data o) (by omega), ← t2]
  dsimp only
  have hp : readColumn (hasPatchBit flags) (rdBytes ((count + 7) / 8)) (data.drop (Spec.patchesAt flags.toNat count)) =
      .ok (if hasPatchBit flags then some (slice data (Spec.patchesAt flags.toNat count) ((count + 7) / 8)) else none,
        data.drop (Spec.patchesAt flags.toNat count + if hasPatchBit flags then (count + 7) / 8 else 0)) := by
    unfold readColumn
    cases hb : hasPatchBit flags with
    | false => simp
    | true =>
      rw [hb] at t3
      simp only [if_true] at t3 ⊢
      rw [rdBytes_drop _ data _ (by omega)]
      rfl
  rw [hp]
  dsimp only
  unfold combineColumns
  rw [mapM_oks _ (attributesRow data count)]
  · simp only [hv]; rfl
  intro i hi
  have hi' : i < count := by simpa using hi
  simp only [column_map _ _ _ _ hi', pure, Except.pure, bind, Except.bind]
  have hb : patchBit (if hasPatchBit flags then some (slice data (Spec.patchesAt flags.toNat count) ((count + 7) / 8)) else none) i =
      .ok (if hasPatchBit flags then
        some ((data.getD (Spec.patchesAt flags.toNat count + i / 8) 0).toNat.testBit (i % 8)) else none) := by
    cases hb : hasPatchBit flags with
    | false => rfl
    | true =>
      rw [hb] at t3
      simp only [if_true] at t3 ⊢
      have hlt : i / 8 < (count + 7) / 8 := by omega
      have hd : Spec.patchesAt flags.toNat count + i / 8 < data.length := by omega
      simp only [patchBit, slice, List.getElem?_take, hlt, if_true, List.getElem?_drop, List.getElem?_eq_getElem hd,
        and_one_shift8 _ _ (Nat.mod_lt i (by decide : 0 < 8)), List.getD, Option.getD]
  rw [hb]
  simp only [attributesRow, hfl, id]

theorem flatMap_length {α : Type} (enc : α → List Byte) (w : Nat) :
    ∀ l : List α, (∀ x ∈ l, (enc x).length = w) → (l.flatMap enc).length = w * l.length
  | [], _ => by simp
  | x :: l, h => by
    rw [List.flatMap_cons, List.length_append, h x (by simp), flatMap_length enc w l (fun y hy => h y (by simp [hy])),
      List.length_cons, Nat.mul_succ, Nat.add_comm]

theorem slice_flatMap {α : Type} (enc : α → List Byte) (w : Nat) : ∀ (l : List α) (pre post : List Byte) (i : Nat) (hi : i < l.length),
    (∀ x ∈ l, (enc x).length = w) → slice (pre ++ (l.flatMap enc ++ post)) (pre.length + w * i) w = enc l[i]
  | x :: l, pre, post, 0, _, h => by
    simp only [slice, Nat.mul_zero, Nat.add_zero, List.drop_left, List.flatMap_cons, List.append_assoc, List.getElem_cons_zero]
    exact List.take_left' (h x (by simp))
  | x :: l, pre, post, i + 1, hi, h => by
    have := slice_flatMap enc w l (pre ++ enc x) post i (by simpa using hi) (fun y hy => h y (by simp [hy]))
    rw [List.getElem_cons_succ, ← this, List.length_append, h x (by simp), List.flatMap_cons, Nat.mul_succ]
    simp only [List.append_assoc]
    congr 1
    omega

theorem or_shift_other (k j : Nat) (hk : k < 8) (hj : j < 8) (h : k ≠ j) : (1#8 <<< k).toNat.testBit j = false := by
  have h' : ∀ k : Fin 8, ∀ j : Fin 8, k ≠ j → (1#8 <<< k.val).toNat.testBit j.val = false := by decide +kernel
  exact h' ⟨k, hk⟩ ⟨j, hj⟩ (by simpa using h)

theorem or_shift_same (k : Nat) (hk : k < 8) : (1#8 <<< k).toNat.testBit k = true := by
  have h' : ∀ k : Fin 8, (1#8 <<< k.val).toNat.testBit k.val = true := by decide +kernel
  exact h' ⟨k, hk⟩

theorem setPatchBits_length : ∀ (files : List FileAttributes) (bits : List Byte) (k : Nat),
    (setPatchBits bits k files).length = bits.length
  | [], _, _ => rfl
  | a :: files, bits, k => by
    rw [setPatchBits, setPatchBits_length files]
    split <;> simp

theorem setPatchBits_bit : ∀ (files : List FileAttributes) (bits : List Byte) (k j : Nat), k + files.length ≤ 8 * bits.length →
    (((setPatchBits bits k files).getD (j / 8) 0).toNat.testBit (j % 8)) =
      (((bits.getD (j / 8) 0).toNat.testBit (j % 8)) || (decide (k ≤ j) && ((files[j - k]?.map (·.isPatch.getD false)).getD false)))
  | [], bits, k, j, _ => by simp [setPatchBits]
  | a :: files, bits, k, j, h => by
    have hl : (a :: files).length = files.length + 1 := rfl
    rw [setPatchBits, setPatchBits_bit files _ (k + 1) j (by
      have : (if a.isPatch.getD false = true then bits.modify (k / 8) (· ||| (1#8 <<< (k % 8))) else bits).length = bits.length := by
        split <;> simp
      omega)]
    rcases Nat.lt_trichotomy j k with hjk | hjk | hjk
    · have h1 : ¬ k + 1 ≤ j := by omega
      have h2 : ¬ k ≤ j := by omega
      simp only [h1, h2, decide_false, Bool.false_and, Bool.or_false]
      split
      · by_cases he : k / 8 = j / 8
        · have hm : k % 8 ≠ j % 8 := by omega
          have hlt : j / 8 < bits.length := by omega
          have := Nat.mod_lt k (by decide : 0 < 8)
          have := Nat.mod_lt j (by decide : 0 < 8)
          simp only [he, List.getD, List.getElem?_modify, if_true, List.getElem?_eq_getElem hlt, Option.map_eq_map, Option.map_some, Option.getD_some,
            BitVec.toNat_or, Nat.testBit_or]
          rw [or_shift_other _ _ (by omega) (by omega) hm]
          simp
        · simp [List.getD, List.getElem?_modify, he]
      · rfl
    · subst hjk
      have h1 : ¬ j + 1 ≤ j := by omega
      have hlt : j / 8 < bits.length := by omega
      have := Nat.mod_lt j (by decide : 0 < 8)
      simp only [h1, decide_false, Bool.false_and, Bool.or_false, Nat.le_refl, decide_true, Bool.true_and, Nat.sub_self,
        List.getElem?_cons_zero, Option.map_some, Option.getD_some]
      cases a.isPatch.getD false with
      | false => simp
      | true =>
        simp only [if_true, List.getD, List.getElem?_modify, List.getElem?_eq_getElem hlt, Option.map_eq_map, Option.map_some, Option.getD_some,
          BitVec.toNat_or, Nat.testBit_or]
        rw [or_shift_same _ (by omega)]
    · have h1 : k + 1 ≤ j := by omega
      have h2 : k ≤ j := by omega
      have h3 : j - k = (j - (k + 1)) + 1 := by omega
      simp only [h1, h2, decide_true, Bool.true_and, h3, List.getElem?_cons_succ]
      congr 1
      split
      · by_cases he : k / 8 = j / 8
        · have hm : k % 8 ≠ j % 8 := by omega
          have := Nat.mod_lt k (by decide : 0 < 8)
          have := Nat.mod_lt j (by decide : 0 < 8)
          by_cases hlt : j / 8 < bits.length
          · simp only [he, List.getD, List.getElem?_modify, if_true, List.getElem?_eq_getElem hlt, Option.map_eq_map, Option.map_some, Option.getD_some,
              BitVec.toNat_or, Nat.testBit_or]
            rw [or_shift_other _ _ (by omega) (by omega) hm]
            simp
          · simp [List.getD, List.getElem?_modify, List.getElem?_eq_none (Nat.le_of_not_lt hlt)]
        · simp [List.getD, List.getElem?_modify, he]
      · rfl

/-- The record that comes back for `f`. -/
def writtenRow (flags : U32) (f : FileAttributes) : FileAttributes :=
  { crc32 := if hasCrc32 flags then some (f.crc32.getD 0) else none
    filetime := if hasFiletime flags then some (f.filetime.getD 0) else none
    md5 := if hasMd5 flags then some (f.md5.getD (List.replicate 16 0)) else none
    isPatch := if hasPatchBit flags then some (f.isPatch.getD false) else none }

theorem ite_length (p : Bool) (l : List Byte) (n : Nat) (h : l.length = n) : (if p then l else []).length = if p then n else 0 := by
  cases p <;> simp [h]

theorem parse_written (a : Attributes) (extra : List Byte) (hv : a.version = 100) (hn : a.files.length < 2 ^ 58)
    (hm : ∀ f ∈ a.files, ∀ d, f.md5 = some d → d.length = 16) :
    ∃ b, parseAttributes (a.toBytes ++ extra) a.files.length = .ok b ∧ b.version = 100 ∧ b.flags = a.flags ∧
      b.files = a.files.map (writtenRow a.flags) := by
  obtain ⟨version, flags, files⟩ := a
  simp only at hv hn hm ⊢
  subst hv
  let crc : FileAttributes → List Byte := fun f => le32 (f.crc32.getD 0)
  let tim : FileAttributes → List Byte := fun f => le64 (f.filetime.getD 0)
  let dig : FileAttributes → List Byte := fun f => f.md5.getD (List.replicate 16 0)
  let pat : List Byte := setPatchBits (List.replicate ((files.length + 7) / 8) 0) 0 files
  have lcrc : ∀ f ∈ files, (crc f).length = 4 := fun f _ => le32_length _
  have ltim : ∀ f ∈ files, (tim f).length = 8 := fun f _ => le64_length _
  have ldig : ∀ f ∈ files, (dig f).length = 16 := by
    intro f hf
    cases hd : f.md5 with
    | none => simp [dig, hd]
    | some d => simpa [dig, hd] using hm f hf d hd
  have lpat : pat.length = (files.length + 7) / 8 := by simp [pat, setPatchBits_length]
  let H : List Byte := le32 100 ++ le32 flags
  let A : List Byte := if hasCrc32 flags then files.flatMap crc else []
  let B : List Byte := if hasFiletime flags then files.flatMap tim else []
  let C : List Byte := if hasMd5 flags then files.flatMap dig else []
  let D : List Byte := if hasPatchBit flags then pat else []
  have lH : H.length = 8 := by simp [H, le32_length]
  have lA : A.length = if hasCrc32 flags then 4 * files.length else 0 := ite_length _ _ _ (flatMap_length crc 4 files lcrc)
  have lB : B.length = if hasFiletime flags then 8 * files.length else 0 := ite_length _ _ _ (flatMap_length tim 8 files ltim)
  have lC : C.length = if hasMd5 flags then 16 * files.length else 0 := ite_length _ _ _ (flatMap_length dig 16 files ldig)
  have lD : D.length = if hasPatchBit flags then (files.length + 7) / 8 else 0 := ite_length _ _ _ lpat
  have e : Attributes.toBytes ⟨100, flags, files⟩ ++ extra = H ++ (A ++ (B ++ (C ++ (D ++ extra)))) := by
    simp only [Attributes.toBytes, H, A, B, C, D, crc, tim, dig, pat, List.append_assoc]
  rw [e]
  have t0 : Spec.timesAt flags.toNat files.length = H.length + A.length := by
    rw [lH, lA]; simp only [Spec.timesAt, Spec.tableLength, hasCrc32_eq]
  have t1 : Spec.digestsAt flags.toNat files.length = H.length + A.length + B.length := by
    rw [← t0, lB]; simp only [Spec.digestsAt, Spec.tableLength, hasFiletime_eq]
  have t2 : Spec.patchesAt flags.toNat files.length = H.length + A.length + B.length + C.length := by
    rw [← t1, lC]; simp only [Spec.patchesAt, Spec.tableLength, hasMd5_eq]
  have t3 : Spec.attributesLength flags.toNat files.length = H.length + A.length + B.length + C.length + D.length := by
    rw [← t2, lD]; simp only [Spec.attributesLength, hasPatchBit_eq]
  generalize hdata : H ++ (A ++ (B ++ (C ++ (D ++ extra)))) = data
  have hlen : data.length = H.length + A.length + B.length + C.length + D.length + extra.length := by
    rw [← hdata]; simp only [List.length_append]; omega
  have hs0 : slice data 0 4 = le32 100 := by
    rw [← hdata]; simp only [slice, H, List.drop_zero, List.append_assoc]; exact List.take_left' (le32_length _)
  have hs4 : slice data 4 4 = le32 flags := by
    rw [← hdata]; simp only [slice, H, List.append_assoc]
    rw [List.drop_left' (le32_length _)]; exact List.take_left' (le32_length _)
  have hf : ofLe32 (slice data 4 4) = flags := by rw [hs4, ofLe32_le32]
  have v0 : Spec.numAt 4 data 0 = 100 := by rw [← ofLe32_slice data 0 (by omega), hs0, ofLe32_le32]; rfl
  have v4 : Spec.numAt 4 data 4 = flags.toNat := by rw [← ofLe32_slice data 4 (by omega), hf]
  rw [parseAttributes_eq data files.length hn, if_pos ⟨by omega, v0, by rw [v4, t3]; omega⟩]
  refine ⟨_, rfl, rfl, hf, ?_⟩
  dsimp only
  apply List.ext_getElem (by simp)
  intro i h1 h2
  have hi : i < files.length := by simpa using h1
  simp only [List.getElem_map, List.getElem_range, attributesRow, hf, writtenRow, t0, t1, t2]
  congr 1
  · cases h0 : hasCrc32 flags with
    | false => rfl
    | true =>
      have hA : A = files.flatMap crc := by simp only [A, h0, if_true]
      have := slice_flatMap crc 4 files H (B ++ (C ++ (D ++ extra))) i hi lcrc
      rw [← hA, hdata, lH] at this
      simp only [if_true, this, crc, ofLe32_le32]
  · cases h0 : hasFiletime flags with
    | false => rfl
    | true =>
      have hB : B = files.flatMap tim := by simp only [B, h0, if_true]
      have := slice_flatMap tim 8 files (H ++ A) (C ++ (D ++ extra)) i hi ltim
      rw [← hB, List.append_assoc, hdata, List.length_append] at this
      simp only [if_true, this, tim, ofLe64_le64]
  · cases h0 : hasMd5 flags with
    | false => rfl
    | true =>
      have hC : C = files.flatMap dig := by simp only [C, h0, if_true]
      have := slice_flatMap dig 16 files (H ++ (A ++ B)) (D ++ extra) i hi ldig
      rw [← hC] at this
      simp only [List.append_assoc, hdata, List.length_append, ← Nat.add_assoc] at this
      simp only [if_true, this, dig]
  · cases h0 : hasPatchBit flags with
    | false => rfl
    | true =>
      have hD : D = pat := by simp only [D, h0, if_true]
      have hlt : i / 8 < pat.length := by omega
      have hg : data.getD (H.length + A.length + B.length + C.length + i / 8) 0 = pat.getD (i / 8) 0 := by
        rw [← hdata, ← hD]
        have hlt' : i / 8 < D.length := by rw [hD]; exact hlt
        simp only [List.getD]
        rw [List.getElem?_append_right (by omega), List.getElem?_append_right (by omega), List.getElem?_append_right (by omega),
          List.getElem?_append_right (by omega), List.getElem?_append_left (by omega)]
        congr 2
        omega
      rw [if_pos rfl, if_pos rfl, hg]
      have hb := setPatchBits_bit files (List.replicate ((files.length + 7) / 8) 0) 0 i (by simp; omega)
      rw [show pat = setPatchBits (List.replicate ((files.length + 7) / 8) 0) 0 files from rfl, hb]
      simp only [Nat.zero_le, decide_true, Bool.true_and, Nat.sub_zero, List.getElem?_eq_getElem hi, Option.map_some, Option.getD_some]
      have hz : (((List.replicate ((files.length + 7) / 8) (0 : Byte)).getD (i / 8) 0).toNat.testBit (i % 8)) = false := by
        rw [List.getD, List.getElem?_replicate]
        split <;> simp
      rw [hz, Bool.false_or]

end Mopaq
