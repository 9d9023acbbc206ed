import Verif.Model.Signature
import Verif.Spec.Signature
import Verif.Lemmas.Bytes
import Verif.Lemmas.HeaderAccept

/-! # Lemmas on signatures -/

namespace Mopaq

/-! ## Big-endian numbers -/

theorem beNat_append_one (bs : List Byte) (b : Byte) : beNat (bs ++ [b]) = beNat bs * 256 + b.toNat := by
  simp [beNat]

theorem foldl_be (bs : List Byte) : ∀ acc : Nat,
    bs.foldl (fun acc b => acc * 256 + b.toNat) acc = acc * 256 ^ bs.length + Spec.beNumber bs := by
  induction bs with
  | nil => simp [Spec.beNumber]
  | cons b bs ih =>
    intro acc
    rw [List.foldl_cons, ih, Spec.beNumber, List.length_cons, Nat.pow_succ, Nat.add_mul, Nat.mul_assoc, Nat.mul_comm 256,
      Nat.add_assoc]

theorem beNat_eq (bs : List Byte) : beNat bs = Spec.beNumber bs := by
  rw [beNat, foldl_be]; simp

theorem beDigits_value : ∀ (fuel n : Nat), n ≤ fuel → beNat (beDigits fuel n) = n
  | 0, n, h => by simp [beDigits, beNat]; omega
  | fuel + 1, n, h => by
    rw [beDigits]
    split
    · rename_i h0; simp [beNat, h0]
    · rw [beNat_append_one, beDigits_value fuel (n / 256) (by omega), BitVec.toNat_ofNat]
      omega

theorem beDigits_head : ∀ (fuel n : Nat), n ≤ fuel → (beDigits fuel n).head? ≠ some 0#8
  | 0, n, h => by simp [beDigits]
  | fuel + 1, n, h => by
    rw [beDigits]
    split
    · simp
    · rename_i h0
      have ih := beDigits_head fuel (n / 256) (by omega)
      cases hd : beDigits fuel (n / 256) with
      | cons b bs => rw [hd] at ih; simpa using ih
      | nil =>
        have hv := beDigits_value fuel (n / 256) (by omega)
        rw [hd] at hv
        have hlt : n < 256 := by simp [beNat] at hv; omega
        simp only [List.nil_append, List.head?_cons, ne_eq, Option.some.injEq]
        intro hc
        have := congrArg BitVec.toNat hc
        simp at this
        omega

theorem toBytesBe_value (n : Nat) : beNat (toBytesBe n) = n := by
  unfold toBytesBe
  split
  · rename_i h; simp [beNat, h]
  · exact beDigits_value n n (Nat.le_refl _)

/-- No leading zero, except for the number zero. -/
theorem toBytesBe_head (n : Nat) (h : (toBytesBe n).length ≠ 1) : (toBytesBe n)[0]? ≠ some 0#8 := by
  unfold toBytesBe at h ⊢
  split
  · rename_i h0; simp [h0] at h
  · rw [← List.head?_eq_getElem?]
    exact beDigits_head n n (Nat.le_refl _)

theorem beDigits_of_value : ∀ (r : List Byte) (fuel : Nat), beNat r.reverse ≤ fuel → r.reverse.head? ≠ some 0#8 →
    beDigits fuel (beNat r.reverse) = r.reverse
  | [], fuel, _, _ => by cases fuel <;> simp [beDigits, beNat]
  | b :: r, fuel, hf, hh => by
    rw [List.reverse_cons] at hf hh ⊢
    rw [beNat_append_one] at hf ⊢
    have hb := b.isLt
    have hpos : beNat r.reverse * 256 + b.toNat ≠ 0 := by
      cases r with
      | nil =>
        intro hz
        apply hh
        simp only [List.reverse_nil, List.nil_append, List.head?_cons, Option.some.injEq]
        apply BitVec.eq_of_toNat_eq
        simp; omega
      | cons c r =>
        intro hz
        have hz' : beNat (c :: r).reverse = 0 := by omega
        have hh' : (c :: r).reverse.head? ≠ some 0#8 := by
          intro hc; apply hh
          rw [List.head?_append, hc]; rfl
        have := beDigits_of_value (c :: r) 0 (by omega) hh'
        rw [beDigits] at this
        have := congrArg List.length this
        simp at this
    cases fuel with
    | zero => omega
    | succ fuel =>
      rw [beDigits, if_neg hpos]
      have h1 : (beNat r.reverse * 256 + b.toNat) / 256 = beNat r.reverse := by omega
      have h2 : (beNat r.reverse * 256 + b.toNat) % 256 = b.toNat := by omega
      rw [h1, h2]
      congr 1
      · cases r with
        | nil => cases fuel <;> simp [beDigits, beNat]
        | cons c r =>
          apply beDigits_of_value (c :: r) fuel (by omega)
          intro hc; apply hh
          rw [List.head?_append, hc]; rfl
      · simp

/-- Digits without a leading zero come back. -/
theorem toBytesBe_beNat (bs : List Byte) (b : Byte) (rest : List Byte) (hbs : bs = b :: rest) (hb : b ≠ 0#8) :
    toBytesBe (beNat bs) = bs := by
  have h := beDigits_of_value bs.reverse (beNat bs) (by simp) (by simp [hbs, hb])
  rw [List.reverse_reverse] at h
  unfold toBytesBe
  split
  · rename_i h0
    rw [h0] at h
    rw [beDigits] at h
    simp [hbs] at h
  · exact h

/-! ## RSA -/

theorem modpowLoop_eq (n : Nat) : ∀ (fuel b e acc : Nat), e ≤ fuel → acc % n = acc →
    modpowLoop n fuel b e acc = acc * b ^ e % n
  | 0, b, e, acc, h, ha => by
    have : e = 0 := by omega
    subst this
    simp [modpowLoop, ha]
  | fuel + 1, b, e, acc, h, ha => by
    rw [modpowLoop]
    split
    · rename_i h0; subst h0; simp [ha]
    · rw [modpowLoop_eq n fuel _ _ _ (by omega) (by split <;> simp [ha])]
      have hb : (b * b % n) ^ (e / 2) % n = (b ^ 2) ^ (e / 2) % n := by
        rw [Nat.pow_mod, Nat.mod_mod, ← Nat.pow_mod, ← Nat.pow_two]
      split
      · rename_i h1
        have he : e = 2 * (e / 2) + 1 := by omega
        rw [Nat.mul_mod, hb, Nat.mod_mod, ← Nat.mul_mod, ← Nat.pow_mul]
        conv => rhs; rw [he, Nat.pow_succ]
        congr 1
        rw [Nat.mul_assoc, Nat.mul_comm b]
      · rename_i h1
        have he : e = 2 * (e / 2) := by omega
        rw [Nat.mul_mod, hb, ← Nat.mul_mod, ← Nat.pow_mul, ← he]

theorem modpow_eq (b e n : Nat) : modpow b e n = b ^ e % n := by
  rw [modpow, modpowLoop_eq n e _ _ _ (Nat.le_refl _) (by simp), Nat.mul_mod, Nat.mod_mod, ← Nat.pow_mod, ← Nat.mul_mod,
    Nat.one_mul]

/-! ## Hashing -/

/-- The file with the excluded area zeroed. -/
def masked (info : SignatureInfo) (f : List Byte) : List Byte :=
  f.mapIdx fun i b => if info.beginExclude ≤ i ∧ i < info.endExclude then 0#8 else b

theorem slice_getElem? (f : List Byte) (off n i : Nat) : (slice f off n)[i]? = if i < n then f[off + i]? else none := by
  rw [slice, List.getElem?_take, List.getElem?_drop]

theorem masked_getElem? (info : SignatureInfo) (f : List Byte) (i : Nat) :
    (masked info f)[i]? = f[i]?.map fun b => if info.beginExclude ≤ i ∧ i < info.endExclude then 0#8 else b := by
  rw [masked, List.getElem?_mapIdx]

theorem zeroExcluded_slice (info : SignatureInfo) (f : List Byte) (pos m : Nat) (he : info.beginExclude ≤ info.endExclude) :
    zeroExcluded info pos (slice f pos m) = .ok (slice (masked info f) pos m) := by
  have hlen : (slice f pos m).length = min m (f.length - pos) := by simp [slice]
  have hf : ∀ i : Nat, f[i]? = none ↔ f.length ≤ i := fun i => List.getElem?_eq_none_iff
  unfold zeroExcluded
  simp only []
  rw [hlen]
  split
  · rename_i hc
    obtain ⟨hc1, hc2⟩ := hc
    rw [if_pos (by split <;> split <;> omega)]
    congr 1
    generalize hs : (if pos < info.beginExclude then info.beginExclude - pos else 0) = start
    generalize ht : (if info.endExclude < pos + min m (f.length - pos) then info.endExclude - pos
      else min m (f.length - pos)) = stop
    have hss : start ≤ stop := by subst hs ht; split <;> split <;> omega
    have hst : stop ≤ min m (f.length - pos) := by subst ht; split <;> omega
    apply List.ext_getElem?
    intro i
    rw [slice_getElem?, masked_getElem?]
    by_cases h1 : i < start
    · rw [List.append_assoc, List.getElem?_append_left (by simp [hlen]; omega), List.getElem?_take, if_pos h1, slice_getElem?]
      have : ¬ (info.beginExclude ≤ pos + i ∧ pos + i < info.endExclude) := by
        subst hs; split at h1 <;> omega
      simp only [this, if_false]
      split <;> simp
    · by_cases h2 : i < stop
      · rw [List.append_assoc, List.getElem?_append_right (by simp [hlen]; omega),
          List.getElem?_append_left (by simp [hlen]; omega), List.getElem?_replicate]
        have hx : (List.take start (slice f pos m)).length = start := by simp [hlen]; omega
        rw [hx, if_pos (by omega), if_pos (by omega)]
        have : info.beginExclude ≤ pos + i ∧ pos + i < info.endExclude := by
          subst hs ht; split at h1 <;> split at h2 <;> omega
        simp only [this, and_self, if_true]
        have hl : pos + i < f.length := by omega
        rw [List.getElem?_eq_getElem hl]
        rfl
      · rw [List.getElem?_append_right (by simp [hlen]; omega), List.getElem?_drop]
        have hx : (List.take start (slice f pos m) ++ List.replicate (stop - start) 0#8).length = stop := by simp [hlen]; omega
        rw [hx, show stop + (i - stop) = i by omega, slice_getElem?]
        by_cases h3 : i < min m (f.length - pos)
        · have : ¬ (info.beginExclude ≤ pos + i ∧ pos + i < info.endExclude) := by
            subst ht; split at h2 <;> omega
          simp only [this, if_false]
          split <;> simp
        · split
          · have : f[pos + i]? = none := (hf _).2 (by omega)
            rw [this]; rfl
          · rfl
  · rename_i hc
    congr 1
    apply List.ext_getElem?
    intro i
    rw [slice_getElem?, slice_getElem?, masked_getElem?]
    split
    · by_cases hl : pos + i < f.length
      · rw [List.getElem?_eq_getElem hl]
        simp only [Option.map_some]
        rw [if_neg (by omega)]
      · rw [(hf _).2 (by omega)]; rfl
    · rfl

theorem masked_length (info : SignatureInfo) (f : List Byte) : (masked info f).length = f.length := by simp [masked]

/-- The bytes hashed so far are those before the position. -/
theorem take_drop_slice (g : List Byte) (first pos m : Nat) (h : first ≤ pos) :
    ((g.take pos).drop first) ++ slice g pos m = (g.take (pos + m)).drop first := by
  rw [slice, List.take_add]
  by_cases hl : first ≤ (g.take pos).length
  · rw [List.drop_append_of_le_length hl]
  · have hg : g.length < first := by simp at hl; omega
    rw [List.drop_eq_nil_of_le (as := g) (by omega), List.take_nil, List.append_nil, List.append_nil]

theorem mpqHashLoop_spec (sched : Reads) (f : List Byte) (info : SignatureInfo) (he : info.beginExclude ≤ info.endExclude)
    (first : Nat) : ∀ (fuel k pos : Nat), first ≤ pos → info.endMpqData - pos < fuel → pos ≤ max first info.endMpqData →
    mpqHashLoop sched f info fuel k pos (((masked info f).take pos).drop first) =
        .ok (((masked info f).take info.endMpqData).drop first) ∨
      (∃ j, k ≤ j ∧ sched j = none) ∧
        mpqHashLoop sched f info fuel k pos (((masked info f).take pos).drop first) = .error .io
  | 0, k, pos, _, h, _ => by omega
  | fuel + 1, k, pos, hfp, h, hm => by
    rw [mpqHashLoop]
    split
    · rename_i hlt
      rw [readSome]
      cases hs : sched k with
      | none => right; exact ⟨⟨k, Nat.le_refl _, hs⟩, rfl⟩
      | some n =>
        have hex : ∃ m, min (min (info.endMpqData - pos) 65536) (max n 1) = m ∧ 0 < m ∧ pos + m ≤ info.endMpqData :=
          ⟨_, rfl, by omega, by omega⟩
        obtain ⟨m, hm', hm0, hmle⟩ := hex
        simp only [bind, Except.bind, hm', zeroExcluded_slice info f pos m he]
        have hlen : (slice f pos m).length = min m (f.length - pos) := by simp [slice]
        split
        · rename_i h0
          left
          rw [hlen] at h0
          have hfl : f.length ≤ pos := by omega
          rw [List.take_of_length_le (by rw [masked_length]; omega), List.take_of_length_le (by rw [masked_length]; omega)]
          rfl
        · rename_i h0
          have hsl : slice (masked info f) pos m = slice (masked info f) pos (slice f pos m).length := by
            rw [hlen]; unfold slice
            rw [List.take_eq_take_iff]; simp [masked_length]
          rw [hsl, take_drop_slice _ _ _ _ hfp]
          rcases mpqHashLoop_spec sched f info he first fuel (k + 1) (pos + (slice f pos m).length) (by omega) (by omega)
            (by omega) with h1 | ⟨⟨j, hj, hjn⟩, h1⟩
          · exact .inl h1
          · exact .inr ⟨⟨j, by omega, hjn⟩, h1⟩
    · rename_i hge
      left
      by_cases hp : pos = info.endMpqData
      · rw [hp]; rfl
      · have : pos = first := by omega
        subst this
        simp only [pure, Except.pure]
        congr 1
        rw [List.drop_eq_nil_of_le (by simp; omega), List.drop_eq_nil_of_le (by simp; omega)]

theorem rangeLoop_spec (sched : Reads) (f : List Byte) (first size : Nat) : ∀ (fuel k done : Nat), size - done < fuel →
    done ≤ size →
    rangeLoop sched f size fuel k (first + done) done (slice f first done) = .ok (slice f first size) ∨
      (∃ j, k ≤ j ∧ sched j = none) ∧
        rangeLoop sched f size fuel k (first + done) done (slice f first done) = .error .io
  | 0, _, _, h, _ => by omega
  | fuel + 1, k, done, h, hd => by
    rw [rangeLoop]
    split
    · rename_i hlt
      rw [readSome]
      cases hs : sched k with
      | none => right; exact ⟨⟨k, Nat.le_refl _, hs⟩, rfl⟩
      | some n =>
        have hex : ∃ m, min (min (size - done) 65536) (max n 1) = m ∧ 0 < m ∧ done + m ≤ size := ⟨_, rfl, by omega, by omega⟩
        obtain ⟨m, hm', hm0, hmle⟩ := hex
        simp only [bind, Except.bind, hm']
        have hlen : (slice f (first + done) m).length = min m (f.length - (first + done)) := by simp [slice]
        split
        · rename_i h0
          left
          rw [hlen] at h0
          unfold slice
          rw [List.take_of_length_le (by simp; omega), List.take_of_length_le (by simp; omega)]
          rfl
        · rename_i h0
          have hsl : slice f first done ++ slice f (first + done) m = slice f first (done + (slice f (first + done) m).length) := by
            have h1 : slice f (first + done) m = slice f (first + done) (slice f (first + done) m).length := by
              rw [hlen]; unfold slice
              rw [List.take_eq_take_iff]; simp
            conv => lhs; rw [h1]
            unfold slice
            rw [List.take_add, ← List.drop_drop]
          rw [hsl, Nat.add_assoc]
          rcases rangeLoop_spec sched f first size fuel (k + 1) (done + (slice f (first + done) m).length) (by omega) (by omega)
            with h1 | ⟨⟨j, hj, hjn⟩, h1⟩
          · exact .inl h1
          · exact .inr ⟨⟨j, by omega, hjn⟩, h1⟩
    · rename_i hge
      left
      rw [show done = size by omega]; rfl

end Mopaq
