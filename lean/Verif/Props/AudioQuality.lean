import Verif.Props.Compression
import Verif.Lemmas.HeaderAccept

/-! # How close decompressed audio is to the original (C90) -/

namespace Spec

/-- Samples that follow each other in a channel (of `n` interleaved ones) differ by at most `b`. -/
def NeighboursWithin (d : List (BitVec 8)) (n b : Nat) : Prop :=
  ∀ i x y, sampleAt d i = some x → sampleAt d (i + n) = some y → (y - x).natAbs ≤ b

end Spec

namespace Mopaq

/-! ## One sample -/

/-- The step of an index. -/
def stepAt (i : Nat) : Nat := stepSizeTable[i]?.getD 0

theorem stepSize_at {i s : Nat} (h : stepSize i = .ok s) : stepAt i = s := by
  unfold stepSize at h
  unfold stepAt
  split at h
  · rename_i v hv
    injection h with h
    rw [hv]
    exact h
  · cases h

theorem stepAt_grow : ∀ i ≤ 88, ∀ j ≤ 88, j ≤ i + 8 → 7 * stepAt j ≤ 16 * stepAt i := by decide +kernel

theorem stepAt_mono : ∀ i ≤ 88, ∀ j ≤ i, stepAt j ≤ stepAt i := by decide +kernel

theorem stepAt_pos : ∀ i ≤ 88, 7 ≤ stepAt i ∧ stepAt i ≤ 32767 := by decide +kernel

theorem stepAt_small : ∀ i ≤ 88, stepAt i < 32 → i ≤ 15 := by decide +kernel

theorem stepAt_15 : ∀ i ≤ 15, stepAt i ≤ 31 := by decide +kernel

theorem stepAt_88 : ∀ i ≤ 88, ¬ i < 88 → stepAt i = 32767 := by decide +kernel

/-- The step is raised to what the difference asks for, not further. -/
theorem raiseStep_low (d : Nat) : ∀ (fuel idx step m i s : Nat), idx ≤ 88 → stepSize idx = .ok step →
    raiseStep d fuel idx step = .ok (m, i, s) →
    i ≤ 88 ∧ stepAt i = s ∧ (d ≤ s * 2 + 1 ∨ 65536 ≤ d) ∧ (i = idx ∨ 7 * s < 8 * d) := by
  intro fuel
  induction fuel with
  | zero => intro idx step m i s _ _ h; cases h
  | succ fuel ih =>
    intro idx step m i s hi hs h
    rw [raiseStep] at h
    have ha := stepSize_at hs
    split at h
    · rename_i hd
      split at h
      · cases h
        have := stepAt_88 idx hi (by omega)
        exact ⟨hi, ha, by omega, .inl rfl⟩
      · obtain ⟨s1, h1, h⟩ := bind_eq_ok.1 h
        obtain ⟨⟨m2, i2, s2⟩, h2, h⟩ := bind_eq_ok.1 h
        cases h
        have hr : (if idx + 8 > 0x58 then 0x58 else idx + 8) ≤ 88 := by split <;> omega
        obtain ⟨k1, k2, k3, k4⟩ := ih _ _ _ _ _ hr h1 h2
        refine ⟨k1, k2, k3, .inr ?_⟩
        rcases k4 with k4 | k4
        · have := stepAt_grow idx hi i k1 (by rw [k4]; split <;> omega)
          omega
        · exact k4
    · cases h
      exact ⟨hi, ha, by omega, .inl rfl⟩

/-- The bits chosen for a difference: how much they stand for, and when the lowest is set. -/
theorem encodeBits_facts (d s : Nat) (neg : Prop) [Decidable neg] :
    ∃ t e, encodeBits d 8 8 1 s 0 (if neg then 0x40#8 else 0#8) = (t, e) ∧ t ≤ d ∧ (t = 0 ∨ s / 8 ≤ t) ∧
      (d ≤ s * 2 + 1 → d + s / 2 + s / 4 + s / 8 ≤ t + s + 1) ∧ (e.getLsbD 0 = true → s ≤ d) ∧
      e.getLsbD 6 = decide neg := by
  have h2 : s / 2 / 2 = s / 4 := by rw [Nat.div_div_eq_div_mul]
  have h3 : s / 4 / 2 = s / 8 := by rw [Nat.div_div_eq_div_mul]
  simp only [encodeBits, Nat.reduceMul, Nat.reduceLeDiff, if_true, if_false, h2, h3, Nat.one_mul, Nat.zero_add]
  by_cases hn : neg <;> simp only [hn, if_true, if_false, decide_true, decide_false] <;>
    split <;> split <;> split <;> split <;>
    refine ⟨_, _, rfl, by omega, by omega, by omega, ?_, by decide⟩ <;>
    first
    | (intro _; omega)
    | (intro h; exact absurd h (by decide))

theorem nextStepTable_facts : ∀ e : Byte, ∃ c, nextStepTable[(e &&& 0x1F#8).toNat]? = some c ∧ c ≤ 8 ∧
    (e.getLsbD 0 = false → c ≤ 0) := by decide +kernel

/-- Moving towards the sample by `u` and clamping leaves at most the difference between `u` and the distance. -/
theorem moved_distance (p x q : Int) (u : Nat) (hx : -32768 ≤ x ∧ x ≤ 32767) 
    (hq : q = max (-32768) (min (if x < p then p - (u : Nat) else p + (u : Nat)) 32767)) :
    (q - x).natAbs + (x - p).natAbs ≤ u ∨ (q - x).natAbs + u ≤ (x - p).natAbs := by
  subst hq
  split <;> omega

/-- One sample at the level the library uses: it is passed over, or a number of steps is added to the prediction. -/
theorem encodeSample_five {c c' : Chan} {x : U16} {bytes : List Byte} (hc : c.idx ≤ 88)
    (h : encodeSample 5 4 c x = .ok (bytes, c')) :
    (c'.pred = c.pred ∧ c'.idx = c.idx - 1 ∧ (x.toInt - c.pred.toInt).natAbs < stepAt c.idx / 32) ∨
    (∃ i t e, stepAt c.idx / 32 ≤ (x.toInt - c.pred.toInt).natAbs ∧ i ≤ 88 ∧ c'.idx ≤ 88 ∧
      (i = c.idx ∨ 7 * stepAt i < 8 * (x.toInt - c.pred.toInt).natAbs) ∧
      ((c'.pred.toInt - x.toInt).natAbs + (x.toInt - c.pred.toInt).natAbs ≤ stepAt i / 16 + t ∨
        (c'.pred.toInt - x.toInt).natAbs + (stepAt i / 16 + t) ≤ (x.toInt - c.pred.toInt).natAbs) ∧
      t ≤ (x.toInt - c.pred.toInt).natAbs ∧ (t = 0 ∨ stepAt i / 8 ≤ t) ∧
      (x.toInt - c.pred.toInt).natAbs + stepAt i / 2 + stepAt i / 4 + stepAt i / 8 ≤ t + stepAt i + 1 ∧
      (e = true → stepAt i ≤ (x.toInt - c.pred.toInt).natAbs) ∧ c'.idx ≤ i + 8 ∧ (e = false → c'.idx ≤ i)) := by
  have hx := toInt16 x
  have hp := toInt16 c.pred
  unfold encodeSample at h
  obtain ⟨s0, hs0, h⟩ := bind_eq_ok.1 h
  obtain ⟨limit, hl, h⟩ := bind_eq_ok.1 h
  have ha := stepSize_at hs0
  have hlim : limit = s0 / 32 := by
    have : shr32 s0 5 = .ok (s0 / 32) := rfl
    rw [this] at hl
    injection hl with hl
    exact hl.symm
  subst hlim
  rw [← ha] at h
  split at h
  · rename_i hlt
    cases h
    refine .inl ⟨rfl, ?_, hlt⟩
    show (if c.idx > 0 then c.idx - 1 else c.idx) = c.idx - 1
    split <;> omega
  · rename_i hge
    obtain ⟨⟨m, i, s⟩, hr, h⟩ := bind_eq_ok.1 h
    rw [ha] at hr
    obtain ⟨k1, k2, k3, k4⟩ := raiseStep_low _ _ _ _ _ _ _ hc hs0 hr
    obtain ⟨mask, hm, h⟩ := bind_eq_ok.1 h
    have hm8 : mask = 8 := by
      have : maxBitMask 4 = .ok 8 := rfl
      rw [this] at hm
      injection hm with hm
      exact hm.symm
    subst hm8
    obtain ⟨base, hb, h⟩ := bind_eq_ok.1 h
    have hbase : base = s / 16 := by
      have : shr32 s 4 = .ok (s / 16) := rfl
      rw [this] at hb
      injection hb with hb
      exact hb.symm
    subst hbase
    obtain ⟨t, e, he, f1, f2, f3, f4, f5⟩ := encodeBits_facts (x.toInt - c.pred.toInt).natAbs s (x.toInt - c.pred.toInt < 0)
    rw [he] at h
    obtain ⟨idx', hi, h⟩ := bind_eq_ok.1 h
    cases h
    obtain ⟨ch, g1, g2, g3⟩ := nextStepTable_facts e
    unfold nextStepIndex at hi
    rw [g1] at hi
    injection hi with hi
    subst k2
    refine .inr ⟨i, t, e.getLsbD 0, by omega, k1, ?_, k4, ?_, f1, f2, f3 (by omega), f4, ?_, ?_⟩
    · show idx' ≤ 88
      rw [← hi]
      split <;> first | omega | (split <;> omega)
    · refine moved_distance _ _ _ _ (by omega) ?_
      show (updatePredicted c.pred e (stepAt i / 16 + t)).toInt = _
      rw [updatePredicted_toInt, f5]
      have : (decide (x.toInt - c.pred.toInt < 0) = true) = (x.toInt < c.pred.toInt) := by
        rw [decide_eq_true_eq]
        exact propext ⟨by omega, by omega⟩
      simp only [this]
    · show idx' ≤ i + 8
      rw [← hi]
      split <;> first | omega | (split <;> omega)
    · intro h0
      have := g3 h0
      show idx' ≤ i
      rw [← hi]
      split <;> first | omega | (split <;> omega)

/-! ## All samples -/

/-- What holds of every sample: `P` is kept in each channel, `R` relates the predictions before and after a sample. -/
theorem trace_follows {n : Nat} (hn : n = 1 ∨ n = 2) (all : List U16) (P : Chan → U16 → Prop) (R : U16 → U16 → U16 → Prop)
    (hstep : ∀ k c c' x0 x bytes, all[k]? = some x0 → all[k + n]? = some x → c.idx ≤ 88 → P c x0 →
      encodeSample 5 4 c x = .ok (bytes, c') → P c' x ∧ R c.pred x c'.pred) :
    ∀ (xs : List U16) (i ch : Nat) (cs : List Chan) (pre ps : List U16), xs = all.drop i → n ≤ i → i ≤ all.length →
    (ch + 1) % n = i % n → GoodChans n cs → pre.length = i →
    (∀ k x, i ≤ k + n → k < i → all[k]? = some x → ∃ c, cs[k % n]? = some c ∧ P c x ∧ pre[k]? = some c.pred) →
    encodeTrace 5 4 n xs ch cs = .ok ps →
    ∀ k x, i ≤ k + n → all[k + n]? = some x → ∃ p0 p c, (pre ++ ps)[k]? = some p0 ∧ (pre ++ ps)[k + n]? = some p ∧ R p0 x p ∧
      P c x ∧ c.pred = p
  | [], i, ch, cs, pre, ps, hxs, hni, hia, _, _, _, _, _, k, x, hk, hx => by
    have : all.length ≤ i := by
      have := congrArg List.length hxs
      rw [List.length_drop] at this
      simp only [List.length_nil] at this
      omega
    obtain ⟨h, _⟩ := List.getElem?_eq_some_iff.1 hx
    omega
  | x :: xs, i, ch, cs, pre, ps, hxs, hni, hia, hch, hg, hpre, hinv, h, k, y, hk, hy => by
    have hlt : i < all.length := by
      have := congrArg List.length hxs
      rw [List.length_drop, List.length_cons] at this
      omega
    have hcons : all.drop i = all[i] :: all.drop (i + 1) := List.drop_eq_getElem_cons hlt
    rw [hcons] at hxs
    injection hxs with hx hxs
    rw [encodeTrace] at h
    obtain ⟨c, hc, h⟩ := bind_eq_ok.1 h
    obtain ⟨⟨bytes, c'⟩, he, h⟩ := bind_eq_ok.1 h
    obtain ⟨rest, hrest, h⟩ := bind_eq_ok.1 h
    cases h
    rw [hch] at hc hrest
    have hin : i % n < n := Nat.mod_lt _ (by omega)
    obtain ⟨c0, hc0, hget, hidx⟩ := hg.get (i % n) hin
    rw [hc0] at hc
    cases hc
    have hxi : all[i]? = some x := by rw [List.getElem?_eq_getElem hlt, hx]
    have hx0 : all[i - n]? = some all[i - n] := List.getElem?_eq_getElem (by omega)
    obtain ⟨c2, hc2, hP, hpr⟩ := hinv (i - n) _ (by omega) (by omega) hx0
    have hmod : (i - n) % n = i % n := by
      rcases hn with rfl | rfl <;> omega
    rw [hmod, hget] at hc2
    cases hc2
    obtain ⟨hP', hR⟩ := hstep (i - n) c c' _ x bytes hx0 (by rw [Nat.sub_add_cancel hni]; exact hxi) hidx hP he
    obtain ⟨hidx', _⟩ := encodeSample_idx 5 4 c c' x bytes hidx he
    have hlen : (pre ++ [c'.pred]).length = i + 1 := by rw [List.length_append, hpre]; rfl
    have key := trace_follows hn all P R hstep xs (i + 1) (i % n) (cs.set (i % n) c') (pre ++ [c'.pred]) rest hxs (by omega)
      (by omega) (by rcases hn with rfl | rfl <;> omega) (hg.set _ c' hidx') hlen
      (by
        intro k z hk1 hk2 hz
        by_cases hki : k = i
        · subst hki
          rw [hxi] at hz
          cases hz
          refine ⟨c', ?_, hP', ?_⟩
          · rw [List.getElem?_set_self (by rw [hg.1]; exact hin)]
          · rw [List.getElem?_append_right (by omega), hpre, Nat.sub_self]
            rfl
        · obtain ⟨c3, h3, h4, h5⟩ := hinv k z (by omega) (by omega) hz
          refine ⟨c3, ?_, h4, ?_⟩
          · rw [List.getElem?_set_ne (by rcases hn with rfl | rfl <;> omega)]
            exact h3
          · rw [List.getElem?_append_left (by omega)]
            exact h5)
      hrest
    rw [List.append_assoc, List.singleton_append] at key
    by_cases hki : k + n = i
    · have hk' : k = i - n := by omega
      subst hk'
      rw [hki, hxi] at hy
      cases hy
      refine ⟨c.pred, c'.pred, c', ?_, ?_, hR, hP', rfl⟩
      · rw [List.getElem?_append_left (by omega)]
        exact hpr
      · rw [hki, List.getElem?_append_right (by omega), hpre, Nat.sub_self]
        rfl
    · exact key k y (by omega) hy

theorem predictions_follow {n : Nat} (hn : n = 1 ∨ n = 2) (d : List Byte) (ps : List U16) (P : Chan → U16 → Prop)
    (R : U16 → U16 → U16 → Prop) (hlen : n ≤ (toSamples d).length) (hp : predictions d 5 n = .ok ps)
    (hinit : ∀ x, P { pred := x, idx := initialStepIndex } x)
    (hstep : ∀ k c c' x0 x bytes, (toSamples d)[k]? = some x0 → (toSamples d)[k + n]? = some x → c.idx ≤ 88 → P c x0 →
      encodeSample 5 4 c x = .ok (bytes, c') → P c' x ∧ R c.pred x c'.pred) :
    ∀ k x, (toSamples d)[k + n]? = some x → ∃ p0 p c, ps[k]? = some p0 ∧ ps[k + n]? = some p ∧ R p0 x p ∧ P c x ∧ c.pred = p := by
  unfold predictions at hp
  obtain ⟨rest, hr, hp⟩ := bind_eq_ok.1 hp
  cases hp
  have htake : ((toSamples d).take n).length = n := by rw [List.length_take]; omega
  intro k x hx
  refine trace_follows hn (toSamples d) P R hstep _ n (n - 1) _ _ rest rfl (Nat.le_refl _) hlen ?_
    (initialChans_good _ n htake) htake ?_ hr k x (by omega) hx
  · rw [Nat.sub_add_cancel (by omega)]
  · intro k x _ hk hx
    refine ⟨{ pred := x, idx := initialStepIndex }, ?_, hinit x, ?_⟩
    · rw [Nat.mod_eq_of_lt hk, List.getElem?_map, List.getElem?_take_of_lt hk, hx]
      rfl
    · rw [List.getElem?_take_of_lt hk, hx]

/-! ## The three invariants -/

/-- The step stays within what the signal asks for, and the prediction close to the sample. -/
def Tracks (b : Nat) (c : Chan) (x : U16) : Prop :=
  stepAt c.idx ≤ 494 + 3 * b ∧ 16 * (c.pred.toInt - x.toInt).natAbs ≤ 574 + 3 * b

theorem tracks_arith {s t d err b : Nat} (h5 : err + d ≤ s / 16 + t ∨ err + (s / 16 + t) ≤ d) (h6 : t ≤ d)
    (h8 : d + s / 2 + s / 4 + s / 8 ≤ t + s + 1) (hs : s ≤ 494 + 3 * b) : 16 * err ≤ 574 + 3 * b := by
  have h1 : err ≤ s / 16 + 5 := by omega
  omega

theorem encodeSample_tracks {b : Nat} {c c' : Chan} {x0 x : U16} {bytes : List Byte} (hc : c.idx ≤ 88) (hP : Tracks b c x0)
    (hb : (x.toInt - x0.toInt).natAbs ≤ b) (h : encodeSample 5 4 c x = .ok (bytes, c')) : Tracks b c' x := by
  have hx := toInt16 x
  have hp := toInt16 c.pred
  obtain ⟨p1, p2⟩ := hP
  unfold Tracks
  rcases encodeSample_five hc h with ⟨h1, h2, h3⟩ | ⟨i, t, e, h1, h2, h3, h4, h5, h6, h7, h8, h9, h10, h11⟩
  · have := stepAt_mono c.idx hc c'.idx (by omega)
    rw [h1]
    generalize stepAt c.idx = s at *
    clear hx hp
    omega
  · have hd : 16 * (x.toInt - c.pred.toInt).natAbs ≤ 574 + 19 * b := by omega
    clear hx hp hb p2
    have hs : stepAt i ≤ 494 + 3 * b := by
      rcases h4 with h4 | h4
      · rw [h4]; exact p1
      · omega
    refine ⟨?_, ?_⟩
    · cases e with
      | false => have := stepAt_mono i h2 c'.idx (h11 rfl); omega
      | true =>
        have := stepAt_grow i h2 c'.idx h3 h10
        have := h9 rfl
        omega
    · exact tracks_arith h5 h6 h8 hs

theorem further_arith {s t d err : Nat} (h5 : err + d ≤ s / 16 + t ∨ err + (s / 16 + t) ≤ d) (h6 : t ≤ d)
    (h7 : t = 0 ∨ s / 8 ≤ t) (h32 : s / 32 ≤ d) : err ≤ d + 1 := by
  rcases h7 with h7 | h7 <;> omega

theorem encodeSample_never_further {c c' : Chan} {x : U16} {bytes : List Byte} (hc : c.idx ≤ 88)
    (h : encodeSample 5 4 c x = .ok (bytes, c')) :
    (c'.pred.toInt - x.toInt).natAbs ≤ (c.pred.toInt - x.toInt).natAbs + 1 := by
  have hx := toInt16 x
  have hp := toInt16 c.pred
  rcases encodeSample_five hc h with ⟨h1, h2, h3⟩ | ⟨i, t, e, h1, h2, h3, h4, h5, h6, h7, h8, h9, h10, h11⟩
  · rw [h1]; omega
  · have h32 : stepAt i / 32 ≤ (x.toInt - c.pred.toInt).natAbs := by
      rcases h4 with h4 | h4
      · rw [h4]; exact h1
      · omega
    have hsym : (c.pred.toInt - x.toInt).natAbs = (x.toInt - c.pred.toInt).natAbs := by
      rw [← Int.natAbs_neg, Int.neg_sub]
    rw [hsym]
    exact further_arith h5 h6 h7 h32

/-- A channel that is held: the prediction is exact, or one off once the steps are small. -/
def Held (c : Chan) (x : U16) : Prop :=
  c.pred.toInt = x.toInt ∨ ((c.pred.toInt - x.toInt).natAbs ≤ 1 ∧ c.idx ≤ 15)

theorem held_arith {s t d err : Nat} (h5 : err + d ≤ s / 16 + t ∨ err + (s / 16 + t) ≤ d) (h6 : t ≤ d) (h7 : 7 ≤ s) (hs : s ≤ 31)
    (hd : d ≤ 1) : err ≤ 1 := by
  omega

theorem encodeSample_held {c c' : Chan} {x : U16} {bytes : List Byte} (hc : c.idx ≤ 88) (hP : Held c x)
    (h : encodeSample 5 4 c x = .ok (bytes, c')) : Held c' x := by
  unfold Held at hP ⊢
  have hd : (x.toInt - c.pred.toInt).natAbs ≤ 1 := by omega
  have hd0 : c.pred.toInt = x.toInt → (x.toInt - c.pred.toInt).natAbs = 0 := by intro h; rw [h, Int.sub_self]; rfl
  have hsm := stepAt_small c.idx hc
  have h15 := stepAt_15 c.idx
  have hpos := stepAt_pos c.idx hc
  rcases encodeSample_five hc h with ⟨h1, h2, h3⟩ | ⟨i, t, e, h1, h2, h3, h4, h5, h6, h7, h8, h9, h10, h11⟩
  · rw [h1]
    rcases hP with hP | hP
    · exact .inl hP
    · exact .inr ⟨hP.1, by omega⟩
  · have hi : i = c.idx := by
      rcases h4 with h4 | h4
      · exact h4
      · have := (stepAt_pos i h2).1
        clear h5 h8
        omega
    subst hi
    have h16 : c.idx ≤ 15 := by
      rcases hP with hP | hP
      · have := hd0 hP
        rw [this] at h1
        clear h5 h8
        exact hsm (by omega)
      · exact hP.2
    have he : e = false := by
      cases e with
      | false => rfl
      | true =>
        have := h9 rfl
        clear h5 h8
        omega
    exact .inr ⟨held_arith h5 h6 hpos.1 (h15 h16) hd, Nat.le_trans (h11 he) h16⟩

/-! ## What is read back -/

theorem adpcm_close (d k : List Byte) (n : Nat) (hn : n = 1 ∨ n = 2) (hd : d ≠ []) (hbig : d.length < 2 ^ 61)
    (hk : adpcmCompress d 5 n = .ok k) : ∃ d', adpcmDecompress k d.length n = .ok d' ∧ d'.length = d.length ∧
      (∀ b, Spec.NeighboursWithin d n b →
        ∀ i x y, Spec.sampleAt d i = some x → Spec.sampleAt d' i = some y → 16 * (y - x).natAbs ≤ 574 + 3 * b) ∧
      (∀ i x y z, Spec.sampleAt d (i + n) = some x → Spec.sampleAt d' i = some y → Spec.sampleAt d' (i + n) = some z →
        (z - x).natAbs ≤ (y - x).natAbs + 1) ∧
      (Spec.NeighboursWithin d n 0 →
        ∀ i x y, Spec.sampleAt d i = some x → Spec.sampleAt d' i = some y → (y - x).natAbs ≤ 1) := by
  obtain ⟨ps, hps, hpl, hnp, hdl, hfirst, hdec, _, _⟩ := adpcm_codec d k 5 n hn (by omega) hd (by omega) hk
  have h0 := hdec []
  rw [List.append_nil] at h0
  have hsample : ∀ i, Spec.sampleAt (ofSamples ps) i = ps[i]?.map BitVec.toInt := by
    intro i
    rw [sampleAt_toSamples, toSamples_ofSamples]
  have hnb : ∀ b, Spec.NeighboursWithin d n b → ∀ k (x0 x : U16), (toSamples d)[k]? = some x0 → (toSamples d)[k + n]? = some x →
      (x.toInt - x0.toInt).natAbs ≤ b := by
    intro b hb k x0 x h1 h2
    exact hb k _ _ (by rw [sampleAt_toSamples, h1]; rfl) (by rw [sampleAt_toSamples, h2]; rfl)
  -- the first sample of each channel is stored as it is
  have hstart : ∀ i, i < n → ps[i]? = (toSamples d)[i]? := by
    intro i hi
    have := congrArg (fun l => l[i]?) hfirst
    simpa [List.getElem?_take_of_lt hi] using this
  refine ⟨ofSamples ps, h0, by rw [ofSamples_length, hdl], ?_, ?_, ?_⟩
  · intro b hb i x y hx hy
    rw [hsample] at hy
    rw [sampleAt_toSamples] at hx
    obtain ⟨x', hx', rfl⟩ := Option.map_eq_some_iff.mp hx
    obtain ⟨y', hy', rfl⟩ := Option.map_eq_some_iff.mp hy
    by_cases hi : i < n
    · rw [hstart i hi, hx'] at hy'
      cases hy'
      omega
    · obtain ⟨p0, p, c, _, h2, _, h4, h5⟩ := predictions_follow hn d ps (Tracks b) (fun _ _ _ => True) (by omega) hps
        (by
          intro x
          refine ⟨?_, by simp⟩
          have : stepAt initialStepIndex = 494 := by decide +kernel
          show stepAt initialStepIndex ≤ _
          omega)
        (by
          intro k c c' x0 x bytes h1 h2 hc hP he
          exact ⟨encodeSample_tracks hc hP (hnb b hb k x0 x h1 h2) he, trivial⟩)
        (i - n) x' (by rw [Nat.sub_add_cancel (by omega)]; exact hx')
      rw [Nat.sub_add_cancel (by omega), hy'] at h2
      cases h2
      rw [← h5]
      exact h4.2
  · intro i x y z hx hy hz
    rw [hsample] at hy hz
    rw [sampleAt_toSamples] at hx
    obtain ⟨x', hx', rfl⟩ := Option.map_eq_some_iff.mp hx
    obtain ⟨y', hy', rfl⟩ := Option.map_eq_some_iff.mp hy
    obtain ⟨z', hz', rfl⟩ := Option.map_eq_some_iff.mp hz
    obtain ⟨p0, p, c, h1, h2, h3, _⟩ := predictions_follow hn d ps (fun _ _ => True)
      (fun p0 x p => (p.toInt - x.toInt).natAbs ≤ (p0.toInt - x.toInt).natAbs + 1) (by omega) hps
      (fun _ => trivial) (fun k c c' x0 x bytes _ _ hc _ he => ⟨trivial, encodeSample_never_further hc he⟩) i x' hx'
    rw [hy'] at h1
    rw [hz'] at h2
    cases h1
    cases h2
    exact h3
  · intro hb i x y hx hy
    rw [hsample] at hy
    rw [sampleAt_toSamples] at hx
    obtain ⟨x', hx', rfl⟩ := Option.map_eq_some_iff.mp hx
    obtain ⟨y', hy', rfl⟩ := Option.map_eq_some_iff.mp hy
    by_cases hi : i < n
    · rw [hstart i hi, hx'] at hy'
      cases hy'
      omega
    · obtain ⟨p0, p, c, _, h2, _, h4, h5⟩ := predictions_follow hn d ps Held (fun _ _ _ => True) (by omega) hps
        (fun x => .inl rfl)
        (by
          intro k c c' x0 x bytes h1 h2 hc hP he
          have := hnb 0 hb k x0 x h1 h2
          have hx0 : x.toInt = x0.toInt := by omega
          refine ⟨encodeSample_held hc ?_ he, trivial⟩
          unfold Held at hP ⊢
          rw [hx0]
          exact hP)
        (i - n) x' (by rw [Nat.sub_add_cancel (by omega)]; exact hx')
      rw [Nat.sub_add_cancel (by omega), hy'] at h2
      cases h2
      rw [← h5]
      unfold Held at h4
      omega

/-- The flags of audio compression, alone and combined with a second method that is undone on reading, with the number
of channels. -/
def audioMethods : List (Byte × Nat) := (0x40#8, 1) :: (0x80#8, 2) :: audioCombos

/-- Reading back audio gives what the audio decoder makes of the audio coder's output. -/
theorem audio_read_back (e : Codecs) (he : e.Lawful) (d body : List Byte) (m : Byte) (n : Nat) (hm : (m, n) ∈ audioMethods)
    (hsp : n = 1 ∧ m = 0x60#8 ∨ n = 2 ∧ m = 0xA0#8 → ∀ k, adpcmCompress d 5 n = .ok k → Spec.NoLongZeroRun k)
    (hbig : d.length < 2 ^ 61) (h : compress e d m = .ok (m :: body)) (hne : m :: body ≠ d) :
    d ≠ [] ∧ (n = 1 ∨ n = 2) ∧ ∃ k, adpcmCompress d 5 n = .ok k ∧ decompress e body m d.length = adpcmDecompress k d.length n := by
  have hd : d ≠ [] := by
    rcases compress_cases h with h | ⟨body', hc, hi, hlen⟩
    · exact absurd h hne
    · intro h; rw [h] at hlen; simp at hlen
  have hn : n = 1 ∨ n = 2 := by
    simp only [audioMethods, audioCombos, List.mem_cons, Prod.mk.injEq, List.not_mem_nil, or_false] at hm; omega
  refine ⟨hd, hn, ?_⟩
  have alone : ∀ n m, (n = 1 ∨ n = 2) → m ≠ 0#8 → compress e d m = .ok (m :: body) → m :: body ≠ d →
      (∀ x, compressInternal e x m = adpcmCompress x 5 n) →
      (∀ x s, x ≠ [] → s < 2 ^ 61 → decompress e x m s = adpcmDecompress x s n) →
      ∃ k, adpcmCompress d 5 n = .ok k ∧ decompress e body m d.length = adpcmDecompress k d.length n := by
    intro n m hn hm0 h hne hcomp hdec
    rcases compress_cases h with h | ⟨body', hc, hi, hlen⟩
    · exact absurd h hne
    injection hc with _ hc; subst hc
    rw [hcomp] at hi
    obtain ⟨ps, _, _, _, _, _, _, _, _, hb, _⟩ := adpcm_codec d body 5 n hn (by omega) hd (by omega) hi
    exact ⟨body, hi, hdec _ _ (by intro h; rw [h] at hb; simp at hb) hbig⟩
  simp only [audioMethods, List.mem_cons, Prod.mk.injEq] at hm
  rcases hm with ⟨rfl, rfl⟩ | ⟨rfl, rfl⟩ | hm
  · refine alone 1 _ (.inl rfl) (by decide) h hne ?_ ?_
    · intro x
      unfold compressInternal
      rw [show Method.fromFlags 0x40#8 = .adpcmMono by decide]
    · intro x s hx hs
      unfold decompress
      rw [if_neg hx, if_neg (by decide), if_neg (fits _ hs), show Method.fromFlags 0x40#8 = .adpcmMono by decide]
  · refine alone 2 _ (.inr rfl) (by decide) h hne ?_ ?_
    · intro x
      unfold compressInternal
      rw [show Method.fromFlags 0x80#8 = .adpcmStereo by decide]
    · intro x s hx hs
      unfold decompress
      rw [if_neg hx, if_neg (by decide), if_neg (fits _ hs), show Method.fromFlags 0x80#8 = .adpcmStereo by decide]
  · obtain ⟨k, d', h1, h2, h3, _⟩ := C49_audio_combinations_partial e he d body m n hm hsp hbig h hne
    exact ⟨k, h1, by rw [h3, h2]⟩

/-- C90: the error of a sample read back is bounded by how fast the sound changes: by 36 and three sixteenths of the
largest difference between neighbouring samples of a channel. This holds for audio compression alone and combined with
a second method, however long the sound is. -/
theorem C90_follows_signal (e : Codecs) (he : e.Lawful) (d body : List Byte) (m : Byte) (n b : Nat) (hm : (m, n) ∈ audioMethods)
    (hsp : n = 1 ∧ m = 0x60#8 ∨ n = 2 ∧ m = 0xA0#8 → ∀ k, adpcmCompress d 5 n = .ok k → Spec.NoLongZeroRun k)
    (hbig : d.length < 2 ^ 61) (h : compress e d m = .ok (m :: body)) (hne : m :: body ≠ d) (hb : Spec.NeighboursWithin d n b) :
    ∃ d', decompress e body m d.length = .ok d' ∧ d'.length = d.length ∧
      ∀ i x y, Spec.sampleAt d i = some x → Spec.sampleAt d' i = some y → 16 * (y - x).natAbs ≤ 574 + 3 * b := by
  obtain ⟨hd, hn, k, hk, hdec⟩ := audio_read_back e he d body m n hm hsp hbig h hne
  obtain ⟨d', h1, h2, h3, _⟩ := adpcm_close d k n hn hd hbig hk
  exact ⟨d', by rw [hdec, h1], h2, h3 b hb⟩

/-- C90: each sample read back is at most one further from the original than the sample before it (in its channel) was:
coding a difference never makes things worse by more than one. -/
theorem C90_never_further (e : Codecs) (he : e.Lawful) (d body : List Byte) (m : Byte) (n : Nat) (hm : (m, n) ∈ audioMethods)
    (hsp : n = 1 ∧ m = 0x60#8 ∨ n = 2 ∧ m = 0xA0#8 → ∀ k, adpcmCompress d 5 n = .ok k → Spec.NoLongZeroRun k)
    (hbig : d.length < 2 ^ 61) (h : compress e d m = .ok (m :: body)) (hne : m :: body ≠ d) :
    ∃ d', decompress e body m d.length = .ok d' ∧ d'.length = d.length ∧
      ∀ i x y z, Spec.sampleAt d (i + n) = some x → Spec.sampleAt d' i = some y → Spec.sampleAt d' (i + n) = some z →
        (z - x).natAbs ≤ (y - x).natAbs + 1 := by
  obtain ⟨hd, hn, k, hk, hdec⟩ := audio_read_back e he d body m n hm hsp hbig h hne
  obtain ⟨d', h1, h2, _, h3, _⟩ := adpcm_close d k n hn hd hbig hk
  exact ⟨d', by rw [hdec, h1], h2, h3⟩

/-- C90: a level that is held (silence, for one) is read back within one of it, forever. -/
theorem C90_held_level (e : Codecs) (he : e.Lawful) (d body : List Byte) (m : Byte) (n : Nat) (hm : (m, n) ∈ audioMethods)
    (hsp : n = 1 ∧ m = 0x60#8 ∨ n = 2 ∧ m = 0xA0#8 → ∀ k, adpcmCompress d 5 n = .ok k → Spec.NoLongZeroRun k)
    (hbig : d.length < 2 ^ 61) (h : compress e d m = .ok (m :: body)) (hne : m :: body ≠ d)
    (hheld : ∀ i x y, Spec.sampleAt d i = some x → Spec.sampleAt d (i + n) = some y → y = x) :
    ∃ d', decompress e body m d.length = .ok d' ∧ d'.length = d.length ∧
      ∀ i x y, Spec.sampleAt d i = some x → Spec.sampleAt d' i = some y → (y - x).natAbs ≤ 1 := by
  obtain ⟨hd, hn, k, hk, hdec⟩ := audio_read_back e he d body m n hm hsp hbig h hne
  obtain ⟨d', h1, h2, _, _, h3⟩ := adpcm_close d k n hn hd hbig hk
  refine ⟨d', by rw [hdec, h1], h2, h3 ?_⟩
  intro i x y hx hy
  rw [hheld i x y hx hy]
  omega

/-- C90 (not exact): silence of thirty-two samples is not read back as silence. -/
theorem C90_silence_not_exact : ∃ body d', compress toyCodecs (List.replicate 64 0#8) 0x40#8 = .ok (0x40#8 :: body) ∧
    decompress toyCodecs body 0x40#8 64 = .ok d' ∧ d' ≠ List.replicate 64 0#8 := by
  refine ⟨?b, ?d, ?_, ?_, ?_⟩
  case b => exact (match compress toyCodecs (List.replicate 64 0#8) 0x40#8 with | .ok l => l.drop 1 | .error _ => [])
  case d => exact (match compress toyCodecs (List.replicate 64 0#8) 0x40#8 with
    | .ok l => (match decompress toyCodecs (l.drop 1) 0x40#8 64 with | .ok x => x | .error _ => [])
    | .error _ => [])
  · decide +kernel
  · decide +kernel
  · decide +kernel

/-- A sound that is compressed: eight samples that change by at most five. -/
def gentle : List Byte :=
  [0#8, 0#8, 4#8, 0#8, 9#8, 0#8, 12#8, 0#8, 15#8, 0#8, 12#8, 0#8, 10#8, 0#8, 7#8, 0#8]

example : ∃ body, compress toyCodecs gentle 0x40#8 = .ok (0x40#8 :: body) ∧ 0x40#8 :: body ≠ gentle := by
  refine ⟨?b, ?_, ?_⟩
  case b => exact (match compress toyCodecs gentle 0x40#8 with | .ok l => l.drop 1 | .error _ => [])
  · decide +kernel
  · decide +kernel

example : Spec.NeighboursWithin gentle 1 5 := by
  have hall : ∀ i < 8, ∀ x ∈ Spec.sampleAt gentle i, ∀ y ∈ Spec.sampleAt gentle (i + 1), (y - x).natAbs ≤ 5 := by decide +kernel
  intro i x y hx hy
  by_cases hi : i < 8
  · exact hall i hi x hx y hy
  · rw [sampleAt_toSamples, List.getElem?_eq_none (by show 8 ≤ i; omega)] at hx
    cases hx

end Mopaq
