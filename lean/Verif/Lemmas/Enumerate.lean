import Verif.Spec.Numbered
import Verif.Lemmas.Builder

/-! # Numbered names, and the entries of hash and block tables in listings -/

namespace Mopaq

/-! ## Numbered names -/

/-- Exactly `w` decimal digits. -/
def fixed : Nat → Nat → List Byte
  | 0, _ => []
  | w + 1, n => fixed w (n / 10) ++ [BitVec.ofNat 8 (48 + n % 10)]

theorem fixed_length : ∀ w n, (fixed w n).length = w
  | 0, _ => rfl
  | w + 1, n => by rw [fixed, List.length_append, fixed_length w]; rfl

theorem digits_small : ∀ (fuel w n : Nat), w ≤ fuel → 0 < w → n < 10 ^ w → digits fuel w n = fixed w n
  | 0, w, n, h, h0, _ => by omega
  | fuel + 1, 0, n, _, h0, _ => by omega
  | fuel + 1, 1, n, h, _, hn => by
    have : n < 10 := by simpa using hn
    rw [digits, if_pos ⟨this, Nat.le_refl 1⟩, fixed, fixed, Nat.mod_eq_of_lt this]
    rfl
  | fuel + 1, w + 2, n, h, _, hn => by
    rw [digits, if_neg (by omega), fixed, show w + 2 - 1 = w + 1 from rfl,
      digits_small fuel (w + 1) (n / 10) (by omega) (by omega) (by rw [Nat.pow_succ] at hn; omega)]

theorem digits_eq : ∀ (fuel w n : Nat), 0 < fuel → w ≤ fuel → n < 10 ^ fuel →
    digits fuel w n = (List.leftpad w '0' (Nat.toDigits 10 n)).map fun c => BitVec.ofNat 8 c.toNat
  | 0, w, n, h, _, _ => by omega
  | fuel + 1, w, n, _, hw, hn => by
    have hdc : ∀ d < 10, BitVec.ofNat 8 (48 + d) = BitVec.ofNat 8 (Nat.digitChar d).toNat := by decide
    rw [digits]
    by_cases h10 : n < 10
    · by_cases hw1 : w ≤ 1
      · rw [if_pos ⟨h10, hw1⟩, Nat.toDigits_of_lt_base h10]
        have : List.leftpad w '0' [Nat.digitChar n] = [Nat.digitChar n] := by
          unfold List.leftpad
          rw [show w - [Nat.digitChar n].length = 0 by simp; omega]
          rfl
        rw [this, hdc n h10]
        rfl
      · rw [if_neg (fun h => hw1 h.2)]
        rw [digits_small fuel (w - 1) (n / 10) (by omega) (by omega)
          (Nat.lt_of_lt_of_le (by omega) (Nat.one_le_pow _ _ (by omega)))]
        have h0 : n / 10 = 0 := by omega
        have hz : ∀ k, fixed k 0 = List.replicate k (BitVec.ofNat 8 '0'.toNat) := by
          intro k
          induction k with
          | zero => rfl
          | succ k ih =>
            rw [fixed, Nat.zero_div, ih, List.replicate_succ']
            rfl
        rw [h0, hz, Nat.toDigits_of_lt_base h10]
        unfold List.leftpad
        rw [List.map_append, List.map_replicate, Nat.mod_eq_of_lt h10, hdc n h10]
        rfl
    · rw [if_neg (fun h => h10 h.1)]
      have hf0 : 0 < fuel := by
        rcases Nat.eq_zero_or_pos fuel with rfl | h
        · simp at hn; omega
        · exact h
      have hn' : 10 ≤ n := by omega
      rw [digits_eq fuel (w - 1) (n / 10) hf0 (by omega) (by rw [Nat.pow_succ] at hn; omega),
        Nat.toDigits_of_base_le (n := n) (by decide) hn', hdc _ (Nat.mod_lt _ (by decide))]
      unfold List.leftpad
      simp only [List.map_append, List.map_replicate, List.length_append, List.length_singleton, List.map_cons, List.map_nil,
        List.append_assoc]
      congr 2
      omega

theorem anonymousName_eq (i : Nat) (h : i < 10 ^ 20) : anonymousName i = Spec.numbered i := by
  unfold anonymousName Spec.numbered
  rw [digits_eq 20 8 i (by decide) (by decide) h, List.map_append, List.map_append]
  rfl

/-! ## Order of names -/

theorem nameLe_refl : ∀ a, nameLe a a = true
  | [] => rfl
  | x :: xs => by rw [nameLe, nameLe_refl xs]; simp

theorem nameLe_total : ∀ a b, (nameLe a b || nameLe b a) = true
  | [], _ => by rw [nameLe]; rfl
  | _ :: _, [] => by simp [nameLe]
  | x :: xs, y :: ys => by
    have ih := nameLe_total xs ys
    rw [Bool.or_eq_true] at ih
    simp only [nameLe, Bool.or_eq_true, Bool.and_eq_true, decide_eq_true_eq, beq_iff_eq]
    rcases Nat.lt_trichotomy x.toNat y.toNat with h | h | h
    · exact .inl (.inl h)
    · have := BitVec.eq_of_toNat_eq h
      rcases ih with ih | ih
      · exact .inl (.inr ⟨this, ih⟩)
      · exact .inr (.inr ⟨this.symm, ih⟩)
    · exact .inr (.inl h)

theorem nameLe_trans : ∀ a b c, nameLe a b = true → nameLe b c = true → nameLe a c = true
  | [], _, _ => fun _ _ => by rw [nameLe]
  | _ :: _, [], _ => fun h _ => by cases h
  | _ :: _, _ :: _, [] => fun _ h => by cases h
  | x :: xs, y :: ys, z :: zs => by
    have ih := nameLe_trans xs ys zs
    simp only [nameLe, Bool.or_eq_true, Bool.and_eq_true, decide_eq_true_eq, beq_iff_eq]
    rintro (h1 | ⟨rfl, h1⟩) (h2 | ⟨rfl, h2⟩)
    · exact .inl (by omega)
    · exact .inl h1
    · exact .inl h2
    · exact .inr ⟨rfl, ih h1 h2⟩

theorem nameLe_antisymm : ∀ a b, nameLe a b = true → nameLe b a = true → a = b
  | [], [] => fun _ _ => rfl
  | [], _ :: _ => fun _ h => by cases h
  | _ :: _, [] => fun h _ => by cases h
  | x :: xs, y :: ys => by
    have ih := nameLe_antisymm xs ys
    simp only [nameLe, Bool.or_eq_true, Bool.and_eq_true, decide_eq_true_eq, beq_iff_eq]
    rintro (h1 | ⟨rfl, h1⟩) (h2 | ⟨h, h2⟩)
    · omega
    · subst h; omega
    · omega
    · rw [ih h1 h2]

theorem nameLe_append : ∀ (xs ys a b : List Byte), xs.length = ys.length →
    (nameLe (xs ++ a) (ys ++ b) = true ↔ (xs ≠ ys ∧ nameLe xs ys = true) ∨ (xs = ys ∧ nameLe a b = true))
  | [], [], a, b, _ => by simp
  | [], _ :: _, _, _, h => by cases h
  | _ :: _, [], _, _, h => by cases h
  | x :: xs, y :: ys, a, b, h => by
    have ih := nameLe_append xs ys a b (by simpa using h)
    simp only [List.cons_append, nameLe, Bool.or_eq_true, Bool.and_eq_true, decide_eq_true_eq, beq_iff_eq, ih, ne_eq,
      List.cons.injEq, not_and]
    constructor
    · rintro (h1 | ⟨rfl, ⟨h1, h2⟩ | ⟨h1, h2⟩⟩)
      · exact .inl ⟨fun h => by subst h; omega, .inl h1⟩
      · exact .inl ⟨fun _ => h1, .inr ⟨rfl, h2⟩⟩
      · exact .inr ⟨⟨rfl, h1⟩, h2⟩
    · rintro (⟨h1, h2 | ⟨rfl, h2⟩⟩ | ⟨⟨rfl, rfl⟩, h2⟩)
      · exact .inl h2
      · exact .inr ⟨rfl, .inl ⟨h1 rfl, h2⟩⟩
      · exact .inr ⟨rfl, .inr ⟨rfl, h2⟩⟩

theorem fixed_inj : ∀ (w i j : Nat), i < 10 ^ w → j < 10 ^ w → fixed w i = fixed w j → i = j
  | 0, i, j, hi, hj, _ => by simp at hi hj; omega
  | w + 1, i, j, hi, hj, h => by
    rw [fixed, fixed] at h
    rw [Nat.pow_succ] at hi hj
    obtain ⟨h1, h2⟩ := List.append_inj' h rfl
    have := fixed_inj w (i / 10) (j / 10) (by omega) (by omega) h1
    have h3 := congrArg BitVec.toNat (List.cons.inj h2).1
    rw [BitVec.toNat_ofNat, BitVec.toNat_ofNat] at h3
    omega

theorem fixed_le : ∀ (w i j : Nat), i < 10 ^ w → j < 10 ^ w → i ≤ j → nameLe (fixed w i) (fixed w j) = true
  | 0, _, _, _, _, _ => rfl
  | w + 1, i, j, hi, hj, h => by
    rw [Nat.pow_succ] at hi hj
    rw [fixed, fixed, nameLe_append _ _ _ _ (by rw [fixed_length, fixed_length])]
    by_cases he : i / 10 = j / 10
    · right
      refine ⟨by rw [he], ?_⟩
      simp only [nameLe, Bool.or_eq_true, Bool.and_eq_true, decide_eq_true_eq, beq_iff_eq, and_true, BitVec.toNat_ofNat]
      by_cases hm : i % 10 = j % 10
      · right; rw [hm]
      · left; omega
    · left
      exact ⟨fun hh => he (fixed_inj w _ _ (by omega) (by omega) hh), fixed_le w _ _ (by omega) (by omega) (by omega)⟩

theorem anonymousName_small {i : Nat} (h : i < 10 ^ 8) :
    anonymousName i = [0x66, 0x69, 0x6C, 0x65, 0x5F] ++ fixed 8 i ++ [0x2E, 0x64, 0x61, 0x74] := by
  unfold anonymousName
  rw [digits_small 20 8 i (by decide) (by decide) h]

theorem anonymousName_le {i j : Nat} (hi : i < 10 ^ 8) (hj : j < 10 ^ 8) (h : i ≤ j) :
    nameLe (anonymousName i) (anonymousName j) = true := by
  rw [anonymousName_small hi, anonymousName_small hj, List.append_assoc, List.append_assoc,
    nameLe_append _ _ _ _ rfl]
  right
  refine ⟨rfl, ?_⟩
  rw [nameLe_append _ _ _ _ (by rw [fixed_length, fixed_length])]
  by_cases he : i = j
  · subst he; exact .inr ⟨rfl, nameLe_refl _⟩
  · exact .inl ⟨fun hh => he (fixed_inj 8 _ _ hi hj hh), fixed_le 8 _ _ hi hj h⟩

/-- The number written in decimal digits. -/
def digitsValue (ds : List Byte) : Nat := ds.foldl (fun a b => a * 10 + (b.toNat - 48)) 0

theorem digitsValue_snoc (ds : List Byte) (d : Nat) (h : d < 10) :
    digitsValue (ds ++ [BitVec.ofNat 8 (48 + d)]) = digitsValue ds * 10 + d := by
  unfold digitsValue
  rw [List.foldl_append]
  simp only [List.foldl_cons, List.foldl_nil, BitVec.toNat_ofNat]
  omega

theorem digitsValue_digits : ∀ (fuel w n : Nat), 0 < fuel → w ≤ fuel → n < 10 ^ fuel → digitsValue (digits fuel w n) = n
  | 0, _, _, h, _, _ => by omega
  | fuel + 1, w, n, _, hw, hn => by
    rw [digits]
    by_cases h : n < 10 ∧ w ≤ 1
    · rw [if_pos h, ← List.nil_append [_], digitsValue_snoc _ _ h.1]
      simp [digitsValue]
    · have hf0 : 0 < fuel := by
        rcases Nat.eq_zero_or_pos fuel with rfl | h
        · simp at hn; omega
        · exact h
      rw [if_neg h, digitsValue_snoc _ _ (Nat.mod_lt _ (by decide)),
        digitsValue_digits fuel (w - 1) (n / 10) hf0 (by omega) (by rw [Nat.pow_succ] at hn; omega)]
      omega

theorem anonymousName_inj {i j : Nat} (hi : i < 10 ^ 20) (hj : j < 10 ^ 20) (h : anonymousName i = anonymousName j) :
    i = j := by
  unfold anonymousName at h
  obtain ⟨h1, _⟩ := List.append_inj' h rfl
  obtain ⟨_, h2⟩ := List.append_inj h1 rfl
  rw [← digitsValue_digits 20 8 i (by decide) (by decide) hi, h2, digitsValue_digits 20 8 j (by decide) (by decide) hj]

/-! ## Entries of a hash table -/

theorem filter_set_empty : ∀ (t : HashTable) (i : Nat) (e : HashEntry) (_ : i < t.length),
    t[i].isEmpty = true → e.isEmpty = false →
    ((t.set i e).filter (fun e => !e.isEmpty)).Perm (e :: t.filter (fun e => !e.isEmpty))
  | [], _, _, hi, _, _ => by simp at hi
  | x :: t, 0, e, _, h0, h1 => by
    simp only [List.getElem_cons_zero] at h0
    rw [List.set_cons_zero, List.filter_cons_of_pos (by simp [h1]), List.filter_cons_of_neg (by simp [h0])]
  | x :: t, i + 1, e, hi, h0, h1 => by
    have ih := filter_set_empty t i e (by simpa using hi) (by simpa using h0) h1
    rw [List.set_cons_succ]
    by_cases hx : x.isEmpty = true
    · rw [List.filter_cons_of_neg (by simp [hx]), List.filter_cons_of_neg (by simp [hx])]
      exact ih
    · rw [List.filter_cons_of_pos (by simp [hx]), List.filter_cons_of_pos (by simp [hx])]
      exact (List.Perm.cons x ih).trans (List.Perm.swap e x _)

/-- The entries of a table made by additions are those of the additions. -/
theorem runAdds_perm {n k : Nat} (hk : n = 2 ^ k) (hk32 : k < 32) (ops : List AddOp)
    (hb : ∀ op ∈ ops, op.block.toNat < 0xFFFFFFFE) {t : HashTable} (h : runAdds n ops = .ok t) :
    (t.filter (fun e => !e.isEmpty)).Perm (ops.map AddOp.entry) := by
  generalize hr : ops.reverse = rev
  have hops : ops = rev.reverse := by rw [← hr, List.reverse_reverse]
  clear hr
  subst hops
  induction rev generalizing t with
  | nil =>
    simp only [List.reverse_nil, runAdds, HashTable.new, List.foldlM_nil] at h
    rw [hk, isPowerOfTwo_of_two_pow k hk32] at h
    simp only [if_true, pure, Except.pure, Except.ok.injEq] at h
    subst h
    rw [List.filter_replicate]
    simp [HashEntry.isEmpty, HashEntry.empty]
  | cons op rev ih =>
    rw [List.reverse_cons] at h hb ⊢
    rw [runAdds_snoc] at h
    obtain ⟨t0, h0, hadd⟩ := h
    have hb0 : ∀ o ∈ rev.reverse, o.block.toNat < 0xFFFFFFFE := fun o ho => hb o (List.mem_append_left _ ho)
    have ih := ih hb0 h0
    have hinv := (runAdds_inv hk hk32 _ hb0 h0).1
    unfold addToHashTable at hadd
    obtain ⟨j, hj, he, ht', _⟩ := add_ok (by rw [hinv.len]; exact hk) hadd
    have hpos : 0 < t0.length := by rw [hinv.len, hk]; exact Nat.two_pow_pos k
    have hp : probe t0.length (startOf t0.length op.name) j < t0.length := probe_lt hpos
    have hg := HashTable.get_at hp
    rw [List.getElem?_eq_getElem hp] at hg
    have hg := Option.some.inj hg
    subst ht'
    refine (filter_set_empty t0 _ op.entry hp (by rw [hg]; exact he) (AddOp.entry_not_empty (hb op (by simp)))).trans ?_
    rw [List.map_append]
    refine (List.Perm.cons _ ih).trans ?_
    exact List.perm_append_comm (l₁ := [op.entry])

/-- The block indices of the valid entries of a hash table that are not in `seen`, each once, in order. -/
def newBlocks : List Nat → HashTable → List Nat
  | _, [] => []
  | seen, entry :: rest =>
    if entry.isValid then
      if entry.blockIndex.toNat ∈ seen then newBlocks seen rest
      else entry.blockIndex.toNat :: newBlocks (entry.blockIndex.toNat :: seen) rest
    else newBlocks seen rest

theorem blockEntries_eq (bt : List BlockEntry) : ∀ (t : HashTable) (seen : List Nat),
    blockEntries bt seen t = (newBlocks seen t).filterMap fun i => blockEntryOf bt i i
  | [], _ => rfl
  | entry :: rest, seen => by
    rw [blockEntries, newBlocks]
    split
    · split
      · exact blockEntries_eq bt rest seen
      · rw [List.filterMap_cons, blockEntries_eq bt rest (entry.blockIndex.toNat :: seen)]
        cases blockEntryOf bt entry.blockIndex.toNat entry.blockIndex.toNat <;> rfl
    · exact blockEntries_eq bt rest seen

theorem mem_newBlocks : ∀ (t : HashTable) (seen : List Nat) (i : Nat),
    i ∈ newBlocks seen t ↔ i ∉ seen ∧ ∃ h ∈ t, h.isValid = true ∧ h.blockIndex.toNat = i
  | [], _, _ => by simp [newBlocks]
  | entry :: rest, seen, i => by
    rw [newBlocks]
    split
    · rename_i hv
      split
      · rename_i hs
        rw [mem_newBlocks rest seen i]
        refine and_congr_right fun hi => ?_
        constructor
        · rintro ⟨h, h1, h2⟩; exact ⟨h, List.mem_cons_of_mem _ h1, h2⟩
        · rintro ⟨h, h1, h2, h3⟩
          rcases List.mem_cons.1 h1 with rfl | h1
          · rw [h3] at hs; exact absurd hs hi
          · exact ⟨h, h1, h2, h3⟩
      · rename_i hs
        rw [List.mem_cons, mem_newBlocks rest _ i, List.mem_cons, not_or]
        constructor
        · rintro (rfl | ⟨⟨_, h1⟩, h, h2, h3⟩)
          · exact ⟨hs, entry, List.mem_cons_self, hv, rfl⟩
          · exact ⟨h1, h, List.mem_cons_of_mem _ h2, h3⟩
        · rintro ⟨h1, h, h2, h3, h4⟩
          by_cases he : i = entry.blockIndex.toNat
          · exact .inl he
          · rcases List.mem_cons.1 h2 with rfl | h2
            · exact absurd h4.symm he
            · exact .inr ⟨⟨he, h1⟩, h, h2, h3, h4⟩
    · rename_i hv
      rw [mem_newBlocks rest seen i]
      refine and_congr_right fun hi => ?_
      constructor
      · rintro ⟨h, h1, h2⟩; exact ⟨h, List.mem_cons_of_mem _ h1, h2⟩
      · rintro ⟨h, h1, h2, h3⟩
        rcases List.mem_cons.1 h1 with rfl | h1
        · exact absurd h2 hv
        · exact ⟨h, h1, h2, h3⟩

theorem nodup_newBlocks : ∀ (t : HashTable) (seen : List Nat), (newBlocks seen t).Nodup
  | [], _ => List.nodup_nil
  | entry :: rest, seen => by
    rw [newBlocks]
    split
    · split
      · exact nodup_newBlocks rest seen
      · refine List.nodup_cons.2 ⟨?_, nodup_newBlocks rest _⟩
        rw [mem_newBlocks]
        exact fun h => h.1 List.mem_cons_self
    · exact nodup_newBlocks rest seen

end Mopaq
