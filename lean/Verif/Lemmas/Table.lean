import Verif.Model.Crypto
import Verif.Spec.Crypto
import Verif.Lemmas.TableLit

/-! # The encryption table: closed form and literal values -/

namespace Mopaq

theorem tableSeedStep_toNat (s : U32) (h : s.toNat < 0x2AAAAB) :
    (tableSeedStep s).toNat = (s.toNat * 125 + 3) % 0x2AAAAB := by
  simp only [tableSeedStep, BitVec.toNat_umod, BitVec.toNat_add, BitVec.toNat_mul, BitVec.reduceToNat]
  rw [Nat.mod_eq_of_lt (a := s.toNat * 125) (by omega),
    Nat.mod_eq_of_lt (a := s.toNat * 125 + 3) (b := 2 ^ 32) (by omega)]

theorem lcg_lt (n : Nat) : Spec.lcg n < 0x2AAAAB := by
  cases n with
  | zero => decide
  | succ n => simp only [Spec.lcg]; omega

/-- The entry stored when the seed before the loop body is `lcg n`. -/
def tableEntry (n : Nat) : U32 :=
  BitVec.ofNat 32 ((Spec.lcg (n + 1) % 0x10000) * 0x10000 + Spec.lcg (n + 2) % 0x10000)

theorem or_halves (a b : U32) :
    ((a &&& 0xFFFF) <<< 0x10) ||| (b &&& 0xFFFF)
      = BitVec.ofNat 32 ((a.toNat % 0x10000) * 0x10000 + b.toNat % 0x10000) := by
  apply BitVec.eq_of_toNat_eq
  have ha : (a &&& 0xFFFF).toNat = a.toNat % 0x10000 := by
    have : (0xFFFF : U32).toNat = 2 ^ 16 - 1 := rfl
    rw [BitVec.toNat_and, this, Nat.and_two_pow_sub_one_eq_mod]
  have hb : (b &&& 0xFFFF).toNat = b.toNat % 0x10000 := by
    have : (0xFFFF : U32).toNat = 2 ^ 16 - 1 := rfl
    rw [BitVec.toNat_and, this, Nat.and_two_pow_sub_one_eq_mod]
  rw [BitVec.toNat_or, BitVec.toNat_shiftLeft, ha, hb, BitVec.toNat_ofNat]
  have h1 : (a.toNat % 0x10000) <<< 0x10 % 2 ^ 32 = (a.toNat % 0x10000) <<< 16 := by
    rw [Nat.shiftLeft_eq]; omega
  rw [h1, ← Nat.shiftLeft_add_eq_or_of_lt (by omega), Nat.shiftLeft_eq]
  omega

theorem tableStep_lcg (n i : Nat) (t : List U32) (s : U32) (hs : s.toNat = Spec.lcg n) :
    (tableStep (s, t) i).1.toNat = Spec.lcg (n + 2) ∧
    (tableStep (s, t) i).2 = t.set i (tableEntry n) := by
  have h0 := lcg_lt n
  have h1 : (tableSeedStep s).toNat = Spec.lcg (n + 1) := by
    rw [tableSeedStep_toNat s (by omega), hs]; rfl
  have h2 : (tableSeedStep (tableSeedStep s)).toNat = Spec.lcg (n + 2) := by
    rw [tableSeedStep_toNat _ (by rw [h1]; exact lcg_lt _), h1]; rfl
  refine ⟨h2, ?_⟩
  show t.set i _ = _
  rw [or_halves, h1, h2]; rfl

/-- The table after the fold: writes happen in order, the `k`-th one stores `tableEntry (n + 2k)`. -/
theorem fold_tableStep (order : List Nat) (hn : order.Nodup) (n : Nat) (s : U32) (t : List U32)
    (hs : s.toNat = Spec.lcg n) :
    ((order.foldl tableStep (s, t)).2).length = t.length ∧
    (∀ k (h : k < order.length), order[k] < t.length →
      ((order.foldl tableStep (s, t)).2)[order[k]]? = some (tableEntry (n + 2 * k))) ∧
    (∀ j, j ∉ order → ((order.foldl tableStep (s, t)).2)[j]? = t[j]?) := by
  induction order generalizing n s t with
  | nil => simp
  | cons i rest ih =>
    obtain ⟨hi, hr⟩ := List.nodup_cons.1 hn
    obtain ⟨h1, h2⟩ := tableStep_lcg n i t s hs
    have hst : tableStep (s, t) i = ((tableStep (s, t) i).1, t.set i (tableEntry n)) := by rw [← h2]
    rw [List.foldl_cons, hst]
    obtain ⟨hl, hk, hj⟩ := ih hr (n + 2) _ (t.set i (tableEntry n)) h1
    refine ⟨by simpa using hl, ?_, ?_⟩
    · intro k hk' hlt
      cases k with
      | zero =>
        simp only [List.getElem_cons_zero] at hlt ⊢
        rw [hj i hi]
        simp [hlt]
      | succ k =>
        simp only [List.getElem_cons_succ] at hlt ⊢
        rw [hk k (by simpa using hk') (by simpa using hlt)]
        congr 2; omega
    · intro j hj'
      simp only [List.mem_cons, not_or] at hj'
      rw [hj j hj'.2, List.getElem?_set_ne (Ne.symm hj'.1)]

theorem flatMap_five {α : Type} (f : Nat → Nat → α) (n : Nat) :
    ((List.range n).flatMap fun a => (List.range 5).map (f a)).length = 5 * n ∧
    ∀ k, k < 5 * n →
      ((List.range n).flatMap fun a => (List.range 5).map (f a))[k]? = some (f (k / 5) (k % 5)) := by
  induction n with
  | zero => exact ⟨rfl, fun k hk => by omega⟩
  | succ n ih =>
    obtain ⟨hl, hg⟩ := ih
    rw [List.range_succ (n := n), List.flatMap_append]
    refine ⟨?_, ?_⟩
    · rw [List.length_append, hl]; simp; omega
    · intro k hk
      by_cases hlt : k < 5 * n
      · rw [List.getElem?_append_left (by omega), hg k hlt]
      · rw [List.getElem?_append_right (by omega), hl]
        have h1 : k / 5 = n := by omega
        have h2 : k % 5 = k - 5 * n := by omega
        rw [h1, h2]
        simp only [List.flatMap_cons, List.flatMap_nil, List.append_nil]
        rw [List.getElem?_map, List.getElem?_range (by omega)]; rfl

theorem tableOrder_length : tableOrder.length = 0x500 :=
  (flatMap_five (fun a b => a + b * 0x100) 0x100).1

theorem tableOrder_getElem? (k : Nat) (h : k < 0x500) :
    tableOrder[k]? = some (k / 5 + k % 5 * 0x100) :=
  (flatMap_five (fun a b => a + b * 0x100) 0x100).2 k h

theorem tableOrder_nodup : tableOrder.Nodup := by
  unfold List.Nodup
  rw [List.pairwise_iff_getElem]
  intro i j hi hj hij heq
  rw [tableOrder_length] at hi hj
  have h1 := tableOrder_getElem? i hi
  have h2 := tableOrder_getElem? j hj
  rw [List.getElem?_eq_getElem (by rw [tableOrder_length]; exact hi)] at h1
  rw [List.getElem?_eq_getElem (by rw [tableOrder_length]; exact hj)] at h2
  have e1 := Option.some.inj h1
  have e2 := Option.some.inj h2
  omega

theorem encTable_length : encTable.length = 0x500 := by
  unfold encTable
  rw [(fold_tableStep tableOrder tableOrder_nodup 0 _ _ rfl).1]
  exact List.length_replicate

theorem encTable_getElem? (i : Nat) (h : i < 0x500) :
    encTable[i]? = some (BitVec.ofNat 32 (Spec.cryptTable i)) := by
  have hk : 5 * (i % 256) + i / 256 < 0x500 := by omega
  have ho := tableOrder_getElem? _ hk
  have hlt : 5 * (i % 256) + i / 256 < tableOrder.length := by rw [tableOrder_length]; exact hk
  rw [List.getElem?_eq_getElem hlt] at ho
  have hi : tableOrder[5 * (i % 256) + i / 256] = i := by
    have := Option.some.inj ho
    rw [this]; omega
  have := (fold_tableStep tableOrder tableOrder_nodup 0 0x00100001 (List.replicate 0x500 0) rfl).2.1
    _ hlt (by rw [hi, List.length_replicate]; exact h)
  rw [hi] at this
  unfold encTable
  rw [this]
  simp [tableEntry, Spec.cryptTable]

theorem cryptTable_lt (i : Nat) : Spec.cryptTable i < 2 ^ 32 := by
  unfold Spec.cryptTable; simp only []; omega

theorem encT_toNat (i : Nat) (h : i < 0x500) : (encT i).toNat = Spec.cryptTable i := by
  unfold encT
  rw [encTable_getElem? i h]
  simp [Nat.mod_eq_of_lt (cryptTable_lt i)]

theorem encTChecked_ok (i : Nat) (h : i < 0x500) : encTChecked i = .ok (encT i) := by
  unfold encTChecked encT
  rw [encTable_getElem? i h]; rfl

theorem encTChecked_panic (i : Nat) (h : 0x500 ≤ i) : encTChecked i = .error .panic := by
  unfold encTChecked
  rw [List.getElem?_eq_none (by rw [encTable_length]; exact h)]

/-! ## Literal values -/

/-- Checks that a list continues the generator from `s`. -/
def chainOk : Nat → List Nat → Bool
  | _, [] => true
  | s, x :: xs => Nat.beq ((s * 125 + 3) % 0x2AAAAB) x && chainOk x xs

theorem chainOk_lcg (l : List Nat) (n : Nat) (h : chainOk (Spec.lcg n) l = true) (k : Nat) (hk : k < l.length) :
    l[k]? = some (Spec.lcg (n + k + 1)) := by
  induction l generalizing n k with
  | nil => simp at hk
  | cons x xs ih =>
    simp only [chainOk, Bool.and_eq_true] at h
    have hx : Spec.lcg (n + 1) = x := Nat.eq_of_beq_eq_true h.1
    cases k with
    | zero => simp [hx]
    | succ k =>
      rw [← hx] at h
      have := ih (n + 1) h.2 k (by simpa using hk)
      simp only [List.getElem?_cons_succ]
      rw [this]; congr 2; omega

theorem seedsLit_ok : chainOk (Spec.lcg 0) seedsLit = true := by decide +kernel

theorem lcg_lit (n : Nat) (h : n < 2560) : seedsLit[n]? = some (Spec.lcg (n + 1)) := by
  have := chainOk_lcg seedsLit 0 seedsLit_ok n (by
    have : seedsLit.length = 2560 := by decide +kernel
    omega)
  simpa using this

/-- Table entry by index, from the literal seeds. -/
def entryLit (i : Nat) : Nat :=
  let m := 5 * (i % 256) + i / 256
  match seedsLit.drop (2 * m) with
  | a :: b :: _ => a % 0x10000 * 0x10000 + b % 0x10000
  | _ => 0

theorem entryLit_eq (i : Nat) (h : i < 0x500) : entryLit i = Spec.cryptTable i := by
  unfold entryLit Spec.cryptTable
  have h1 := lcg_lit (2 * (5 * (i % 256) + i / 256)) (by omega)
  have h2 := lcg_lit (2 * (5 * (i % 256) + i / 256) + 1) (by omega)
  simp only []
  split
  · rename_i a b r heq
    rw [← List.head?_drop, heq] at h1
    rw [← List.getElem?_drop (i := 2 * (5 * (i % 256) + i / 256)) (j := 1), heq] at h2
    simp only [List.head?_cons, Option.some.injEq] at h1
    simp only [List.getElem?_cons_succ, List.getElem?_cons_zero, Option.some.injEq] at h2
    rw [h1, h2]
  · rename_i hn
    exfalso
    match hd : seedsLit.drop (2 * (5 * (i % 256) + i / 256)) with
    | [] => rw [← List.head?_drop, hd] at h1; simp at h1
    | [a] =>
      rw [← List.getElem?_drop (i := 2 * (5 * (i % 256) + i / 256)) (j := 1), hd] at h2; simp at h2
    | a :: b :: r => exact hn a b r hd

theorem encT_lit (i : Nat) (h : i < 0x500) : encT i = BitVec.ofNat 32 (entryLit i) := by
  rw [entryLit_eq i h, ← encT_toNat i h]; simp

end Mopaq
