import Verif.Model.Huffman

/-! # Huffman decompression: the first item of the tree is always a leaf -/

namespace Mopaq

theorem buildInternal_head (work : Nat) (items : List HuffmanItem) (x : HuffmanItem)
    (h : items[0]? = some x) : (buildInternal work items)[0]? = some x := by
  induction work generalizing items with
  | zero => exact h
  | succ work ih =>
    rw [buildInternal]
    split
    · apply ih
      rw [List.getElem?_append_left]
      · exact h
      · cases items with
        | nil => simp at h
        | cons => simp
    · exact h

/-- The value of the first item after sorting, per table. -/
theorem sorted_head :
    (sortItems (weightItems 0 byteToWeight00 ++ [⟨0x100, 1, none⟩, ⟨0x101, 1, none⟩]))[0]?
        = some ⟨0x100, 1, none⟩ ∧
    (sortItems (weightItems 0 byteToWeight01 ++ [⟨0x100, 1, none⟩, ⟨0x101, 1, none⟩]))[0]?
        = some ⟨0x59, 1, none⟩ ∧
    (sortItems (weightItems 0 byteToWeight02 ++ [⟨0x100, 1, none⟩, ⟨0x101, 1, none⟩]))[0]?
        = some ⟨0x21, 1, none⟩ := by
  refine ⟨?_, ?_, ?_⟩ <;> decide +kernel

theorem decodeOneByte_leaf (items : List HuffmanItem) (v w : Nat) (r : BitReader)
    (h : items[0]? = some ⟨v, w, none⟩) : ∃ r', decodeOneByte items r = .ok (v, r') := by
  refine ⟨r.peek7Bits.2, ?_⟩
  simp only [decodeOneByte]
  rw [traverse]
  simp only [h]

theorem huffmanLoop_leaf (items : List HuffmanItem) (v w expected : Nat) (hv : v < 256)
    (h : items[0]? = some ⟨v, w, none⟩) : ∀ (k fuel : Nat) (r : BitReader) (out : List Byte),
    expected ≤ out.length + k + 1 → (k ≠ 0 → expected = out.length + k + 1) → k < fuel →
    huffmanLoop items expected fuel r out = .ok (out ++ List.replicate (k + 1) (BitVec.ofNat 8 v)) := by
  intro k
  induction k with
  | zero =>
    intro fuel r out he _ hf
    obtain ⟨fuel, rfl⟩ : ∃ f, fuel = f + 1 := ⟨fuel - 1, by omega⟩
    obtain ⟨r', hr⟩ := decodeOneByte_leaf items v w r h
    rw [huffmanLoop, hr]
    simp only [bind, Except.bind]
    rw [if_neg (by omega), if_neg (by omega), if_neg (by omega), if_neg (by omega), if_pos (by simp; omega)]
    rfl
  | succ k ih =>
    intro fuel r out _ he hf
    have he := he (by omega)
    obtain ⟨fuel, rfl⟩ : ∃ f, fuel = f + 1 := ⟨fuel - 1, by omega⟩
    obtain ⟨r', hr⟩ := decodeOneByte_leaf items v w r h
    rw [huffmanLoop, hr]
    simp only [bind, Except.bind]
    rw [if_neg (by omega), if_neg (by omega), if_neg (by omega), if_neg (by omega), if_neg (by simp; omega)]
    rw [ih fuel r' _ (by simp; omega) (by intro _; simp; omega) (by omega)]
    simp [List.append_assoc, ← List.replicate_succ]

/-- What Huffman decompression returns, whatever follows the first byte. -/
theorem huffmanDecompress_eq (t : Byte) (rest : List Byte) (n : Nat) :
    huffmanDecompress (t :: rest) n =
      if t.toNat % 16 = 0 then .ok []
      else if t.toNat % 16 = 1 then .ok (List.replicate (max n 1) 0x59#8)
      else if t.toNat % 16 = 2 then .ok (List.replicate (max n 1) 0x21#8)
      else .error .compression := by
  obtain ⟨h0, h1, h2⟩ := sorted_head
  have hleaf : ∀ items : List HuffmanItem, ∀ v, v < 256 → items[0]? = some ⟨v, 1, none⟩ →
      huffmanLoop items n (n + (t :: rest).length + 1) { data := rest, buffer := 0, count := 0 } []
        = .ok (List.replicate (max n 1) (BitVec.ofNat 8 v)) := by
    intro items v hv h
    have := huffmanLoop_leaf items v 1 n hv h (n - 1) (n + (t :: rest).length + 1)
      { data := rest, buffer := 0, count := 0 } [] (by simp; omega) (by simp; omega) (by simp; omega)
    rw [this, List.nil_append, show n - 1 + 1 = max n 1 by omega]
  have hlt : t.toNat % 16 < 16 := Nat.mod_lt _ (by omega)
  simp only [huffmanDecompress, buildTree]
  rcases Nat.lt_or_ge (t.toNat % 16) 3 with hs | hs
  · rcases (by omega : t.toNat % 16 = 0 ∨ t.toNat % 16 = 1 ∨ t.toNat % 16 = 2) with h | h | h
    · have hd := buildInternal_head
        (sortItems (weightItems 0 byteToWeight00 ++ [⟨0x100, 1, none⟩, ⟨0x101, 1, none⟩])).length _ _ h0
      rw [h, if_pos rfl]
      simp only [weightTables, List.getElem?_cons_zero, bind, Except.bind]
      obtain ⟨r', hr⟩ := decodeOneByte_leaf _ _ _ { data := rest, buffer := 0, count := 0 } hd
      rw [huffmanLoop, hr]
      rfl
    · have hd := buildInternal_head
        (sortItems (weightItems 0 byteToWeight01 ++ [⟨0x100, 1, none⟩, ⟨0x101, 1, none⟩])).length _ _ h1
      rw [h, if_neg (by omega), if_pos rfl]
      simp only [weightTables, List.getElem?_cons_succ, List.getElem?_cons_zero, bind, Except.bind]
      exact hleaf _ _ (by omega) hd
    · have hd := buildInternal_head
        (sortItems (weightItems 0 byteToWeight02 ++ [⟨0x100, 1, none⟩, ⟨0x101, 1, none⟩])).length _ _ h2
      rw [h, if_neg (by omega), if_neg (by omega), if_pos rfl]
      simp only [weightTables, List.getElem?_cons_succ, List.getElem?_cons_zero, bind, Except.bind]
      exact hleaf _ _ (by omega) hd
  · rw [if_neg (by omega), if_neg (by omega), if_neg (by omega)]
    rw [List.getElem?_eq_none (by simp [weightTables]; omega)]
    rfl

end Mopaq
