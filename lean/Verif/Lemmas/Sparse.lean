import Verif.Lemmas.Sizes
import Verif.Model.Compression

/-! # The sparse codec -/

namespace Mopaq

theorem length_takeWhile_le' {α} (p : α → Bool) (l : List α) : (l.takeWhile p).length ≤ l.length := by
  induction l with
  | nil => simp
  | cons a l ih => simp only [List.takeWhile_cons]; split <;> simp <;> omega

/-- The zero run at the head of a list. -/
theorem zero_run (l : List Byte) :
    l = List.replicate (l.takeWhile isZeroByte).length 0#8
      ++ l.drop (l.takeWhile isZeroByte).length := by
  induction l with
  | nil => simp
  | cons a l ih =>
    simp only [List.takeWhile_cons]
    by_cases h : a = 0#8
    · simp only [h, isZeroByte, decide_true, if_true, List.length_cons, List.replicate_succ,
        List.drop_succ_cons, List.cons_append, ← ih]
    · simp [h, isZeroByte]

theorem zero_run_next (l : List Byte) (b : Byte) (bs : List Byte)
    (h : l.drop (l.takeWhile isZeroByte).length = b :: bs) : b ≠ 0#8 := by
  induction l with
  | nil => simp at h
  | cons a l ih =>
    simp only [List.takeWhile_cons] at h
    by_cases ha : a = 0#8
    · simp only [ha, isZeroByte, decide_true, if_true, List.length_cons, List.drop_succ_cons] at h
      exact ih h
    · simp [ha, isZeroByte] at h
      exact h.1 ▸ ha

theorem nonzero_run (l : List Byte) (i : Nat) (h : i < (l.takeWhile isNonZeroByte).length) :
    ∃ b, l[i]? = some b ∧ b ≠ 0#8 := by
  induction l generalizing i with
  | nil => simp at h
  | cons a l ih =>
    simp only [List.takeWhile_cons] at h
    by_cases ha : a = 0#8
    · simp [ha, isNonZeroByte] at h
    · have : isNonZeroByte a = true := by simp [ha, isNonZeroByte]
      rw [this, if_pos rfl] at h
      cases i with
      | zero => exact ⟨a, rfl, ha⟩
      | succ i =>
        simp only [List.length_cons] at h
        obtain ⟨b, hb, hb'⟩ := ih i (by omega)
        exact ⟨b, by simpa using hb, hb'⟩

theorem zero_byte (c : Nat) (h : c < 128) :
    (0x80#8 ||| BitVec.ofNat 8 c) &&& 0x80#8 ≠ 0#8 ∧ ((0x80#8 ||| BitVec.ofNat 8 c) &&& 0x7F#8).toNat = c
      ∧ ((0x80#8 ||| BitVec.ofNat 8 c) = 0xFF#8 ↔ c = 127) := by
  have key : ∀ c < 128, (0x80#8 ||| BitVec.ofNat 8 c) &&& 0x80#8 ≠ 0#8 ∧
      ((0x80#8 ||| BitVec.ofNat 8 c) &&& 0x7F#8).toNat = c
      ∧ ((0x80#8 ||| BitVec.ofNat 8 c) = 0xFF#8 ↔ c = 127) := by decide +kernel
  exact key c h

theorem lit_byte (c : Nat) (h : c < 128) :
    BitVec.ofNat 8 c &&& 0x80#8 = 0#8 ∧ (BitVec.ofNat 8 c).toNat = c ∧ BitVec.ofNat 8 c ≠ 0xFF#8 := by
  have key : ∀ c < 128, BitVec.ofNat 8 c &&& 0x80#8 = 0#8 ∧ (BitVec.ofNat 8 c).toNat = c ∧
      BitVec.ofNat 8 c ≠ 0xFF#8 := by decide +kernel
  exact key c h

theorem zeroChunks_short (z : Nat) (h0 : 0 < z) (h : z < 128) :
    zeroChunks z z = [0x80#8 ||| BitVec.ofNat 8 z] := by
  obtain ⟨k, rfl⟩ : ∃ k, z = k + 1 := ⟨z - 1, by omega⟩
  rw [zeroChunks, if_pos h0]
  have : min (k + 1) 0x7F = k + 1 := by omega
  simp only [this, Nat.sub_self]
  cases k <;> simp [zeroChunks]

theorem zeroChunks_long (z : Nat) (h : 127 ≤ z) : ∃ t, zeroChunks z z = 0xFF#8 :: t := by
  obtain ⟨k, rfl⟩ : ∃ k, z = k + 1 := ⟨z - 1, by omega⟩
  rw [zeroChunks, if_pos (by omega)]
  have : min (k + 1) 0x7F = 0x7F := by omega
  simp only [this]
  exact ⟨_, rfl⟩

theorem sparseDecompressLoop_zero (expected fuel : Nat) (c : Nat) (bs : List Byte) (len : Nat)
    (hl : len < expected) (h : c < 127) :
    sparseDecompressLoop expected (fuel + 1) ((0x80#8 ||| BitVec.ofNat 8 c) :: bs) len
      = (sparseDecompressLoop expected fuel bs (len + c)).map (List.replicate c 0#8 ++ ·) := by
  obtain ⟨h1, h2, h3⟩ := zero_byte c (by omega)
  rw [sparseDecompressLoop, if_pos hl, if_neg (by rw [h3]; omega), if_pos h1]
  simp only [h2]
  cases sparseDecompressLoop expected fuel bs (len + c) <;> rfl

theorem sparseDecompressLoop_lit (expected fuel : Nat) (xs bs : List Byte) (len : Nat)
    (hl : len < expected) (h : xs.length < 128) :
    sparseDecompressLoop expected (fuel + 1) (BitVec.ofNat 8 xs.length :: (xs ++ bs)) len
      = (sparseDecompressLoop expected fuel bs (len + xs.length)).map (xs ++ ·) := by
  obtain ⟨h1, h2, h3⟩ := lit_byte xs.length h
  rw [sparseDecompressLoop, if_pos hl, if_neg h3, if_neg (by simp [h1])]
  simp only [h2]
  rw [if_neg (by simp)]
  simp only [List.drop_left', List.take_left']
  cases sparseDecompressLoop expected fuel bs (len + xs.length) <;> rfl

theorem sparseDecompressLoop_end (expected fuel : Nat) (bs : List Byte) (len : Nat) :
    sparseDecompressLoop expected fuel (0xFF#8 :: bs) len = .ok [] := by
  cases fuel with
  | zero => rfl
  | succ n => rw [sparseDecompressLoop]; split <;> simp

/-- Where 127 consecutive zero bytes begin at index `i`. -/
def ZeroRunAt (d : List Byte) (i : Nat) : Prop := ∀ j < 127, d[i + j]? = some 0#8

/-- What the decoder makes of the encoder's output: the data up to the first run of 127 zeros. -/
theorem sparse_decodes (expected : Nat) (fuel : Nat) : ∀ (data : List Byte) (len fuel' : Nat),
    data.length ≤ fuel → len + data.length ≤ expected →
    (sparseCompressLoop fuel data).length + 1 ≤ fuel' →
    ∃ p s, data = p ++ s ∧
      sparseDecompressLoop expected fuel' (sparseCompressLoop fuel data ++ [0xFF#8]) len = .ok p ∧
      (s = [] ∨ ∃ s', s = List.replicate 127 0#8 ++ s') ∧
      ∀ i, ZeroRunAt data i → p.length ≤ i := by
  induction fuel with
  | zero =>
    intro data len fuel' hf _ _
    have : data = [] := List.length_eq_zero_iff.mp (by omega)
    subst this
    exact ⟨[], [], rfl, sparseDecompressLoop_end _ _ _ _, .inl rfl, fun i _ => Nat.zero_le _⟩
  | succ fuel ih =>
    intro data len fuel' hf he hf'
    by_cases hd : data = []
    · subst hd
      refine ⟨[], [], rfl, ?_, .inl rfl, fun i _ => Nat.zero_le _⟩
      simp only [sparseCompressLoop, if_true, List.nil_append]
      exact sparseDecompressLoop_end _ _ _ _
    rw [sparseCompressLoop, if_neg hd] at hf' ⊢
    have hdl : 0 < data.length := List.length_pos_iff.mpr hd
    have hrun := zero_run data
    have hnext := zero_run_next data
    simp only at hf' ⊢
    generalize hz : (data.takeWhile isZeroByte).length = z at *
    generalize hr : data.drop z = rest at *
    have hlen : data.length = z + rest.length := by rw [hrun]; simp
    by_cases hz127 : 127 ≤ z
    · obtain ⟨t, ht⟩ := zeroChunks_long z hz127
      refine ⟨[], data, rfl, ?_, .inr ⟨List.replicate (z - 127) 0#8 ++ rest, ?_⟩, fun i _ => Nat.zero_le _⟩
      · rw [ht]; simp only [List.cons_append]; exact sparseDecompressLoop_end _ _ _ _
      · rw [← List.append_assoc, List.replicate_append_replicate, show 127 + (z - 127) = z by omega]
        exact hrun
    -- short zero run
    have hlit := nonzero_run rest
    have hdc : min (rest.takeWhile isNonZeroByte).length 0x7F ≤ rest.length := by
      have := length_takeWhile_le' isNonZeroByte rest; omega
    have hdc' : min (rest.takeWhile isNonZeroByte).length 0x7F ≤ 127 := by omega
    have hdcpos : rest ≠ [] → 0 < min (rest.takeWhile isNonZeroByte).length 0x7F := by
      intro hne
      obtain ⟨b, bs, hbs⟩ := List.exists_cons_of_ne_nil hne
      have := hnext b bs hbs
      rw [hbs]; simp [this, isNonZeroByte]; omega
    have hlit' : ∀ i < min (rest.takeWhile isNonZeroByte).length 0x7F, ∃ b, rest[i]? = some b ∧ b ≠ 0#8 :=
      fun i hi => hlit i (by omega)
    generalize hdcd : min (rest.takeWhile isNonZeroByte).length 0x7F = dc at *
    have hlitlen : (rest.take dc).length = dc := by simp; omega
    have hrest : rest.drop dc = rest.drop dc := rfl
    have hmove : ∀ i, ZeroRunAt data i → z + dc ≤ i ∧ ZeroRunAt (rest.drop dc) (i - (z + dc)) := by
      intro i hi
      have hidx : ∀ k, k < rest.length → data[z + k]? = rest[k]? := by
        intro k hk
        rw [hrun, List.getElem?_append_right (by simp)]; simp
      have hge : z + dc ≤ i := by
        rcases Nat.lt_or_ge i (z + dc) with hlt | hge
        · exfalso
          by_cases hdc0 : dc = 0
          · have hre : rest = [] := by
              by_cases h : rest = []
              · exact h
              · have := hdcpos h; omega
            have := hi 126 (by omega)
            rw [List.getElem?_eq_none (by simp [hlen, hre]; omega)] at this
            simp at this
          · rcases Nat.lt_or_ge z i with hzi | hiz
            · obtain ⟨b, hb, hb0⟩ := hlit' (i - z) (by omega)
              have h0 := hi 0 (by omega)
              rw [Nat.add_zero, show i = z + (i - z) by omega, hidx _ (by omega), hb] at h0
              simp at h0; exact hb0 h0
            · obtain ⟨b, hb, hb0⟩ := hlit' 0 (by omega)
              have h0 := hi (z - i) (by omega)
              rw [show i + (z - i) = z + 0 by omega, hidx _ (by omega), hb] at h0
              simp at h0; exact hb0 h0
        · exact hge
      refine ⟨hge, ?_⟩
      intro j hj
      have := hi j hj
      rw [List.getElem?_drop]
      rw [hrun, List.getElem?_append_right (by simp; omega)] at this
      rw [← this]; congr 1; simp; omega
    have hpos : 0 < z + dc := by
      by_cases h : rest = []
      · rw [h] at hlen; simp at hlen; omega
      · have := hdcpos h; omega
    have hdrop : (rest.drop dc).length = rest.length - dc := by simp
    -- decode the zero run
    have step1 : ∀ (bs : List Byte) (f : Nat), (if z > 0 then 1 else 0) ≤ f →
        sparseDecompressLoop expected f (zeroChunks z z ++ bs) len
          = (sparseDecompressLoop expected (f - (if z > 0 then 1 else 0)) bs (len + z)).map
              (List.replicate z 0#8 ++ ·) := by
      intro bs f hf1
      by_cases hz0 : z = 0
      · subst hz0
        simp only [zeroChunks, List.nil_append, Nat.lt_irrefl, gt_iff_lt, if_false, Nat.sub_zero,
          Nat.add_zero, List.replicate_zero]
        cases sparseDecompressLoop expected f bs len <;> rfl
      · rw [zeroChunks_short z (by omega) (by omega)]
        rw [if_pos (by omega)] at hf1 ⊢
        obtain ⟨f', rfl⟩ : ∃ f', f = f' + 1 := ⟨f - 1, by omega⟩
        simp only [List.cons_append, List.nil_append, Nat.add_sub_cancel]
        exact sparseDecompressLoop_zero _ _ _ _ _ (by omega) (by omega)
    have step2 : ∀ (bs : List Byte) (f : Nat), (if dc > 0 then 1 else 0) ≤ f →
        sparseDecompressLoop expected f
            ((if dc > 0 then BitVec.ofNat 8 dc :: rest.take dc else []) ++ bs) (len + z)
          = (sparseDecompressLoop expected (f - (if dc > 0 then 1 else 0)) bs (len + z + dc)).map
              (rest.take dc ++ ·) := by
      intro bs f hf1
      by_cases hdc0 : dc = 0
      · subst hdc0
        simp only [List.nil_append, Nat.lt_irrefl, gt_iff_lt, if_false, Nat.sub_zero,
          Nat.add_zero, List.take_zero]
        cases sparseDecompressLoop expected f bs (len + z) <;> rfl
      · have hp : dc > 0 := by omega
        rw [if_pos hp] at hf1 ⊢
        rw [if_pos hp]
        obtain ⟨f', rfl⟩ : ∃ f', f = f' + 1 := ⟨f - 1, by omega⟩
        have := sparseDecompressLoop_lit expected f' (rest.take dc) bs (len + z) (by omega) (by omega)
        rw [hlitlen] at this
        simpa using this
    have hzl : (if z > 0 then 1 else 0) ≤ (zeroChunks z z).length := by
      by_cases hz0 : z = 0
      · subst hz0; simp
      · rw [zeroChunks_short z (by omega) (by omega)]; split <;> simp
    have hdl' : (if dc > 0 then 1 else 0) ≤
        (if dc > 0 then BitVec.ofNat 8 dc :: rest.take dc else []).length := by
      split <;> simp
    simp only [List.length_append] at hf'
    obtain ⟨p, s, hps, hdec, hs, hmin⟩ := ih (rest.drop dc) (len + z + dc)
      (fuel' - (if z > 0 then 1 else 0) - (if dc > 0 then 1 else 0)) (by omega) (by omega) (by omega)
    refine ⟨List.replicate z 0#8 ++ (rest.take dc ++ p), s, ?_, ?_, hs, ?_⟩
    · rw [List.append_assoc, List.append_assoc, ← hps, List.take_append_drop, ← hrun]
    · rw [List.append_assoc, List.append_assoc, step1 _ _ (by omega), step2 _ _ (by omega), hdec]
      rfl
    · intro i hi
      obtain ⟨h1, h2⟩ := hmove i hi
      have := hmin _ h2
      simp only [List.length_append, List.length_replicate, hlitlen]
      omega

/-- The sparse codec as a whole. -/
theorem sparse_codec (data : List Byte) (expected : Nat) (he : data.length ≤ expected) :
    ∃ c p s, sparseCompress data = .ok c ∧ data = p ++ s ∧
      sparseDecompress c expected = .ok (p ++ List.replicate (expected - p.length) 0#8) ∧
      (s = [] ∨ ∃ s', s = List.replicate 127 0#8 ++ s') ∧
      ∀ i, ZeroRunAt data i → p.length ≤ i := by
  obtain ⟨p, s, h1, h2, h3, h4⟩ := sparse_decodes expected data.length data 0
    (sparseCompressLoop data.length data ++ [0xFF#8]).length (Nat.le_refl _) (by omega) (by simp)
  refine ⟨_, p, s, rfl, h1, ?_, h3, h4⟩
  simp only [sparseDecompress, h2, bind, Except.bind, pure, Except.pure]

/-- The decoding loop never panics and appends at most 126 bytes more than were asked for. -/
theorem sparseDecompressLoop_total (expected fuel : Nat) (data : List Byte) (len : Nat) :
    (∃ out, sparseDecompressLoop expected fuel data len = .ok out ∧
      (out = [] ∨ len + out.length ≤ expected + 126))
    ∨ sparseDecompressLoop expected fuel data len = .error .compression := by
  induction fuel generalizing data len with
  | zero => exact .inl ⟨[], rfl, .inl rfl⟩
  | succ fuel ih =>
    cases data with
    | nil => exact .inl ⟨[], rfl, .inl rfl⟩
    | cons c bs =>
      rw [sparseDecompressLoop]
      split
      · rename_i hl
        split
        · exact .inl ⟨[], rfl, .inl rfl⟩
        · rename_i hff
          split
          · rename_i hz
            dsimp only
            have hc : (c &&& 0x7F#8).toNat ≤ 126 := by
              have : ∀ c : Byte, c ≠ 0xFF#8 → c &&& 0x80#8 ≠ 0#8 → (c &&& 0x7F#8).toNat ≤ 126 := by
                decide +kernel
              exact this c hff hz
            rcases ih bs (len + (c &&& 0x7F#8).toNat) with ⟨out, ho, hb⟩ | he
            · left
              refine ⟨_, by rw [ho]; rfl, .inr ?_⟩
              simp only [List.length_append, List.length_replicate]
              rcases hb with rfl | hb
              · rw [List.length_nil]; omega
              · omega
            · right; rw [he]; rfl
          · rename_i hz
            dsimp only
            split
            · exact .inr rfl
            · rename_i hcount
              have hc : c.toNat ≤ 127 := by
                have : ∀ c : Byte, ¬ c &&& 0x80#8 ≠ 0#8 → c.toNat ≤ 127 := by decide +kernel
                exact this c hz
              rcases ih (bs.drop c.toNat) (len + c.toNat) with ⟨out, ho, hb⟩ | he
              · left
                refine ⟨_, by rw [ho]; rfl, .inr ?_⟩
                simp only [List.length_append, List.length_take]
                rcases hb with rfl | hb
                · simp; omega
                · omega
              · right; rw [he]; rfl
      · exact .inl ⟨[], rfl, .inl rfl⟩

end Mopaq
