import Verif.Spec.Figures
import Verif.Props.CliFile

/-! # Sizes and percentages as text (C89) -/

namespace Mopaq

theorem nearestEven_bounds (p q : Nat) (hq : 0 < q) :
    2 * (nearestEven p q * q) ≤ 2 * p + q ∧ 2 * p ≤ 2 * (nearestEven p q * q) + q := by
  have hd := Nat.div_add_mod p q
  have hm := Nat.mod_lt p hq
  have hc : q * (p / q) = p / q * q := Nat.mul_comm _ _
  unfold nearestEven
  split
  · omega
  · split
    · rw [Nat.add_mul]; omega
    · have : p / q % 2 = 0 ∨ p / q % 2 = 1 := by omega
      rcases this with h | h <;> rw [h, Nat.add_mul] <;> omega

theorem nearestEven_exact (x q : Nat) (hq : 0 < q) : nearestEven (x * q) q = x := by
  unfold nearestEven
  rw [Nat.mul_mod_left, if_pos (by omega), Nat.mul_div_cancel _ hq]

theorem round64_exact {m k q : Nat} (hq : 0 < q) (hm : m < 2 ^ 53) : round64 (m * 2 ^ k * q) q = m * 2 ^ k := by
  unfold round64
  rw [Nat.mul_div_cancel _ hq]
  dsimp only
  rcases Nat.eq_zero_or_pos m with rfl | hpos
  · rw [Nat.zero_mul, Nat.zero_mul]
    have := nearestEven_exact 0 (q * 2 ^ (Nat.log2 0 - 52)) (Nat.mul_pos hq (Nat.two_pow_pos _))
    rw [Nat.zero_mul] at this
    rw [this, Nat.zero_mul]
  have hne : m * 2 ^ k ≠ 0 := Nat.ne_of_gt (Nat.mul_pos hpos (Nat.two_pow_pos _))
  have hle : (m * 2 ^ k).log2 - 52 ≤ k := by
    have : (m * 2 ^ k).log2 < 53 + k := (Nat.log2_lt hne).2 (by
      rw [Nat.pow_add]; exact Nat.mul_lt_mul_of_pos_right hm (Nat.two_pow_pos _))
    omega
  generalize (m * 2 ^ k).log2 - 52 = e at hle
  obtain ⟨j, rfl⟩ := Nat.le.dest hle
  have : m * 2 ^ (e + j) * q = m * 2 ^ j * (q * 2 ^ e) := by
    rw [Nat.pow_add, Nat.mul_comm (2 ^ e) (2 ^ j), ← Nat.mul_assoc m, Nat.mul_assoc _ (2 ^ e) q, Nat.mul_comm (2 ^ e) q]
  rw [this, nearestEven_exact _ _ (Nat.mul_pos hq (Nat.two_pow_pos _)), Nat.mul_assoc, ← Nat.pow_add, Nat.add_comm j e]

/-- Rounding changes a number by at most one part in 2^53. -/
theorem round64_bounds {p q : Nat} (hq : 0 < q) (hp : q * 2 ^ 52 ≤ p) :
    2 ^ 53 * (round64 p q * q) ≤ 2 ^ 53 * p + p ∧ 2 ^ 53 * p ≤ 2 ^ 53 * (round64 p q * q) + p := by
  have hx : 2 ^ 52 ≤ p / q := (Nat.le_div_iff_mul_le hq).2 (by rw [Nat.mul_comm]; exact hp)
  have hne : p / q ≠ 0 := by
    have := Nat.two_pow_pos 52
    omega
  have hl : 52 ≤ (p / q).log2 := (Nat.le_log2 hne).2 hx
  unfold round64
  dsimp only
  have he : 2 ^ ((p / q).log2 - 52) * 2 ^ 52 ≤ p / q := by
    rw [← Nat.pow_add, Nat.sub_add_cancel hl]
    exact Nat.log2_self_le hne
  generalize (p / q).log2 - 52 = e at he ⊢
  have hu : q * 2 ^ e * 2 ^ 52 ≤ p := by
    have := (Nat.le_div_iff_mul_le hq).1 he
    rw [Nat.mul_comm q, Nat.mul_assoc, Nat.mul_comm q, ← Nat.mul_assoc]
    exact this
  obtain ⟨h1, h2⟩ := nearestEven_bounds p (q * 2 ^ e) (Nat.mul_pos hq (Nat.two_pow_pos _))
  rw [show nearestEven p (q * 2 ^ e) * 2 ^ e * q = nearestEven p (q * 2 ^ e) * (q * 2 ^ e) by
    rw [Nat.mul_assoc, Nat.mul_comm (2 ^ e) q]]
  generalize nearestEven p (q * 2 ^ e) * (q * 2 ^ e) = z at h1 h2 ⊢
  generalize q * 2 ^ e = u at hu h1 h2
  omega

theorem toF64_exact {n : Nat} (h : n < 2 ^ 53) : toF64 n = n * one64 := by
  have := round64_exact (k := 120) (q := 1) Nat.one_pos h
  rw [Nat.mul_one] at this
  exact this

theorem quotient_large {W Y Q : Nat} (hW : 0 < W) (hb : W * 2 ^ 53 ≤ Y) (h : 2 ^ 53 * Y ≤ 2 ^ 53 * (Q * W) + Y) : 2 ^ 52 ≤ Q := by
  refine Nat.le_of_mul_le_mul_right ?_ hW
  generalize Q * W = Z at h
  omega

theorem hundred_large {Q : Nat} (h : 2 ^ 52 ≤ Q) : 1 * 2 ^ 52 ≤ Q * 100 := by omega

theorem percent_chain {P Q w K Y : Nat} (hK : 0 < K)
    (q1 : 2 ^ 53 * (Q * (w * K)) ≤ 2 ^ 53 * (Y * K) + Y * K) (q2 : 2 ^ 53 * (Y * K) ≤ 2 ^ 53 * (Q * (w * K)) + Y * K)
    (p1 : 2 ^ 53 * P ≤ 2 ^ 53 * (Q * 100) + Q * 100) (p2 : 2 ^ 53 * (Q * 100) ≤ 2 ^ 53 * P + Q * 100) :
    2 ^ 51 * (P * w) ≤ (2 ^ 51 + 1) * (100 * Y) ∧ (2 ^ 51 - 1) * (100 * Y) ≤ 2 ^ 51 * (P * w) := by
  rw [← Nat.mul_assoc Q w K, ← Nat.mul_assoc (2 ^ 53) (Q * w) K, ← Nat.mul_assoc (2 ^ 53) Y K, ← Nat.add_mul] at q1 q2
  have c1 := Nat.le_of_mul_le_mul_right q1 hK
  have c2 := Nat.le_of_mul_le_mul_right q2 hK
  have d1 := Nat.mul_le_mul_right w p1
  have d2 := Nat.mul_le_mul_right w p2
  have e1 : Q * 100 * w = 100 * (Q * w) := by rw [Nat.mul_comm Q 100, Nat.mul_assoc]
  rw [Nat.add_mul, Nat.mul_assoc, Nat.mul_assoc (2 ^ 53), e1] at d1
  rw [Nat.add_mul, Nat.mul_assoc, Nat.mul_assoc (2 ^ 53), e1] at d2
  clear q1 q2 p1 p2 e1
  generalize Q * w = X at *
  generalize P * w = Z at *
  omega

/-- The percentage before it is cut: off by at most one part in 2^51. -/
theorem percentF64_bounds {part whole : Nat} (h0 : 0 < whole) (hp : part < 2 ^ 53) (hw : whole < 2 ^ 53) :
    2 ^ 51 * (percentF64 part whole * whole) ≤ (2 ^ 51 + 1) * (100 * (part * one64)) ∧
    (2 ^ 51 - 1) * (100 * (part * one64)) ≤ 2 ^ 51 * (percentF64 part whole * whole) := by
  unfold percentF64
  rw [toF64_exact hp, toF64_exact hw]
  rcases Nat.eq_zero_or_pos part with rfl | hpos
  · have : timesHundred (divF64 (0 * one64) (whole * one64)) = 0 := by
      unfold timesHundred divF64
      have h1 := round64_exact (m := 0) (k := 0) (q := whole * one64) (Nat.mul_pos h0 (Nat.two_pow_pos 120)) (by decide)
      have h2 := round64_exact (m := 0) (k := 0) (q := 1) Nat.one_pos (by decide)
      simp only [Nat.zero_mul] at h1 h2 ⊢
      rw [h1, Nat.zero_mul, h2]
    rw [this]
    simp
  have hK : 0 < one64 := Nat.two_pow_pos 120
  have hbig : whole * one64 * 2 ^ 53 ≤ part * one64 * one64 := by
    have h1 : whole * 2 ^ 53 ≤ one64 := by
      have : whole * 2 ^ 53 ≤ 2 ^ 53 * 2 ^ 53 := Nat.mul_le_mul_right _ (Nat.le_of_lt hw)
      exact Nat.le_trans this (by decide)
    have h2 : one64 ≤ part * one64 := Nat.le_mul_of_pos_left _ hpos
    have := Nat.mul_le_mul_right one64 (Nat.le_trans h1 h2)
    rw [Nat.mul_right_comm] at this
    exact this
  have hWK : 0 < whole * one64 := Nat.mul_pos h0 hK
  obtain ⟨q1, q2⟩ := round64_bounds hWK (Nat.le_trans (Nat.mul_le_mul_left _ (by decide)) hbig)
  have hQ := quotient_large hWK hbig q2
  obtain ⟨p1, p2⟩ := round64_bounds (p := round64 (part * one64 * one64) (whole * one64) * 100) (q := 1) Nat.one_pos (hundred_large hQ)
  rw [Nat.mul_one] at p1 p2
  exact percent_chain hK q1 q2 p1 p2

/-- C89: the percentage shown is the whole part of the true one, or one less where the true one is a whole number. -/
theorem C89_ratio_partial (compressed size : Nat) (h0 : 0 < size) (hs : size < 2 ^ 53) (hc : compressed < 2 ^ 44)
    (hfit : 100 * compressed < 2 ^ 32 * size) :
    shownRatio compressed size * size ≤ 100 * compressed ∧ 100 * compressed ≤ (shownRatio compressed size + 1) * size := by
  obtain ⟨h1, h2⟩ := percentF64_bounds h0 (Nat.lt_trans hc (by decide)) hs
  unfold shownRatio toU32
  rw [if_pos h0]
  generalize percentF64 compressed size = P at h1 h2
  have hK : 0 < one64 := Nat.two_pow_pos 120
  have a1 : P / one64 * one64 ≤ P := Nat.div_mul_le_self _ _
  have a2 : P < (P / one64 + 1) * one64 := by
    rw [Nat.mul_comm]
    exact Nat.lt_mul_div_succ P hK
  generalize P / one64 = r at a1 a2
  have b1 := Nat.mul_le_mul_right size a1
  have b2 := Nat.mul_lt_mul_of_pos_right a2 h0
  have e1 : r * one64 * size = r * size * one64 := Nat.mul_right_comm ..
  have e2 : (r + 1) * one64 * size = (r + 1) * size * one64 := Nat.mul_right_comm ..
  rw [e1] at b1
  rw [e2] at b2
  have k1 : r * size ≤ 100 * compressed := by
    have : 2 ^ 51 * (r * size) * one64 ≤ (2 ^ 51 + 1) * (100 * compressed) * one64 := by
      rw [Nat.mul_assoc, Nat.mul_assoc (2 ^ 51 + 1), Nat.mul_assoc 100]
      exact Nat.le_trans (Nat.mul_le_mul_left _ b1) h1
    have := Nat.le_of_mul_le_mul_right this hK
    generalize r * size = A at this
    omega
  have k2 : 100 * compressed ≤ (r + 1) * size := by
    have : (2 ^ 51 - 1) * (100 * compressed) * one64 ≤ 2 ^ 51 * ((r + 1) * size) * one64 := by
      rw [Nat.mul_assoc, Nat.mul_assoc (2 ^ 51), Nat.mul_assoc 100]
      exact Nat.le_trans h2 (Nat.mul_le_mul_left _ (Nat.le_of_lt b2))
    have := Nat.le_of_mul_le_mul_right this hK
    generalize (r + 1) * size = A at this
    omega
  have hr : r < 2 ^ 32 := by
    refine Nat.lt_of_mul_lt_mul_right (a := size) ?_
    exact Nat.lt_of_le_of_lt k1 hfit
  rw [Nat.min_eq_left (by omega)]
  exact ⟨k1, k2⟩

/-- The hypotheses hold, and the answer is right, for two bytes of three. -/
example : 0 < 3 ∧ 3 < 2 ^ 53 ∧ 2 < 2 ^ 44 ∧ 100 * 2 < 2 ^ 32 * 3 ∧ shownRatio 2 3 = 66 := by decide +kernel

theorem nearestEven_scale (p q c : Nat) (hc : 0 < c) : nearestEven (p * c) (q * c) = nearestEven p q := by
  unfold nearestEven
  rw [Nat.mul_mod_mul_right, Nat.mul_div_mul_right _ _ hc]
  have e : 2 * (p % q * c) = 2 * (p % q) * c := (Nat.mul_assoc ..).symm
  rw [e]
  simp only [Nat.mul_lt_mul_right hc]

theorem round64_scale (p q c : Nat) (hc : 0 < c) : round64 (p * c) (q * c) = round64 p q := by
  unfold round64
  rw [Nat.mul_div_mul_right _ _ hc]
  dsimp only
  rw [Nat.mul_right_comm q c, nearestEven_scale _ _ _ hc]

/-- C89: the percentage is one too small for 29 of 100 bytes and everything in this proportion. -/
theorem C89_ratio_off (k : Nat) (h0 : 0 < k) (hk : 100 * k < 2 ^ 53) : shownRatio (29 * k) (100 * k) = 28 := by
  unfold shownRatio percentF64
  rw [if_pos (by omega), toF64_exact (by omega), toF64_exact hk]
  unfold divF64
  have e1 : 29 * k * one64 * one64 = 29 * one64 * (k * one64) := by
    rw [Nat.mul_assoc 29, Nat.mul_assoc 29 (k * one64), Nat.mul_assoc 29, Nat.mul_comm one64 (k * one64)]
  have e2 : 100 * k * one64 = 100 * (k * one64) := Nat.mul_assoc ..
  rw [e1, e2, round64_scale _ _ (k * one64) (Nat.mul_pos h0 (Nat.two_pow_pos 120))]
  decide +kernel

example : shownRatio 29 100 = 28 ∧ shownRatio 290000 1000000 = 28 :=
  ⟨C89_ratio_off 1 (by decide) (by decide), C89_ratio_off 10000 (by decide) (by decide)⟩

theorem shownNearest_bounds (up : Nat → Bool) (x : Nat) :
    2 * (shownNearest up x * one64) ≤ 2 * x + one64 ∧ 2 * x ≤ 2 * (shownNearest up x * one64) + one64 := by
  have hK : 0 < one64 := Nat.two_pow_pos 120
  have hd := Nat.div_add_mod x one64
  have hm := Nat.mod_lt x hK
  unfold shownNearest
  generalize one64 = K at *
  have hc : K * (x / K) = x / K * K := Nat.mul_comm _ _
  split
  · omega
  · split
    · rw [Nat.add_mul]; omega
    · split
      · rw [Nat.add_mul]; omega
      · omega

/-- C89: shares of the number of files are the nearest tenth of a percent. -/
theorem C89_share_nearest (up : Nat → Bool) (part whole : Nat) (h0 : 0 < whole) (hw : whole < 2 ^ 40) (hp : part ≤ whole) :
    ∃ t, shownShare up part whole = some t ∧ 2 * (t * whole) ≤ 2 * (1000 * part) + whole ∧
      2 * (1000 * part) ≤ 2 * (t * whole) + whole := by
  refine ⟨_, if_neg (by omega), ?_⟩
  obtain ⟨h1, h2⟩ := percentF64_bounds h0 (show part < 2 ^ 53 by omega) (show whole < 2 ^ 53 by omega)
  obtain ⟨s1, s2⟩ := shownNearest_bounds up (percentF64 part whole * 10)
  generalize shownNearest up (percentF64 part whole * 10) = t at s1 s2
  generalize percentF64 part whole = P at *
  have hK : 0 < one64 := Nat.two_pow_pos 120
  have b1 := Nat.mul_le_mul_right whole s1
  have b2 := Nat.mul_le_mul_right whole s2
  have e1 : 2 * (t * one64) * whole = 2 * (t * whole) * one64 := by
    rw [Nat.mul_assoc 2, Nat.mul_right_comm t, ← Nat.mul_assoc 2]
  have e2 : 2 * (P * 10) * whole = 20 * (P * whole) := by
    rw [Nat.mul_assoc, Nat.mul_right_comm P 10, Nat.mul_comm (P * whole) 10, ← Nat.mul_assoc]
  have e3 : one64 * whole = whole * one64 := Nat.mul_comm ..
  rw [Nat.add_mul, e1, e2, e3] at b1
  rw [Nat.add_mul, e1, e2, e3] at b2
  have k1 : 2 ^ 51 * (2 * (t * whole)) ≤ (2 ^ 51 + 1) * (2000 * part) + 2 ^ 51 * whole := by
    refine Nat.le_of_mul_le_mul_right ?_ hK
    rw [Nat.add_mul, Nat.mul_assoc, Nat.mul_assoc (2 ^ 51 + 1), Nat.mul_assoc 2000, Nat.mul_assoc (2 ^ 51) whole]
    generalize part * one64 = Y at *
    generalize whole * one64 = W at *
    generalize P * whole = Z at *
    generalize 2 * (t * whole) * one64 = T at *
    omega
  have k2 : (2 ^ 51 - 1) * (2000 * part) ≤ 2 ^ 51 * (2 * (t * whole)) + 2 ^ 51 * whole := by
    refine Nat.le_of_mul_le_mul_right ?_ hK
    rw [Nat.add_mul, Nat.mul_assoc, Nat.mul_assoc (2 ^ 51), Nat.mul_assoc 2000, Nat.mul_assoc (2 ^ 51) whole]
    generalize part * one64 = Y at *
    generalize whole * one64 = W at *
    generalize P * whole = Z at *
    generalize 2 * (t * whole) * one64 = T at *
    omega
  clear h1 h2 s1 s2 b1 b2 e1 e2 e3
  generalize t * whole = T at *
  omega

example : shownShare (fun _ => true) 29 100 = some 290 ∧ shownShare (fun _ => false) 1 3 = some 333 := by decide +kernel

/-- C89: for no files the shares are not numbers. -/
theorem C89_share_of_nothing (up : Nat → Bool) (part : Nat) : shownShare up part 0 = none := rfl

theorem scaleSize_step (left unit n k : Nat) :
    scaleSize (left + 1) unit (n * 2 ^ (k + 10)) =
      if 2 ^ 130 ≤ n * 2 ^ (k + 10) then scaleSize left (unit + 1) (n * 2 ^ k) else (unit, n * 2 ^ (k + 10)) := by
  rw [scaleSize, show 1024 * one64 = 2 ^ 130 by decide]
  have : n * 2 ^ (k + 10) / 1024 = n * 2 ^ k := by
    rw [Nat.pow_add, ← Nat.mul_assoc, Nat.mul_div_cancel _ (by decide)]
  rw [this]

/-- The loop over the units. -/
theorem scaleSize_spec (n : Nat) : ∃ u s, scaleSize 4 0 (n * one64) = (u, s) ∧ s * 1024 ^ u = n * one64 ∧
    (u = 0 ∧ n < 1024 ∨ 1 ≤ u ∧ u ≤ 4 ∧ 1024 ^ u ≤ n ∧ (n < 1024 ^ (u + 1) ∨ u = 4)) := by
  have e : n * one64 = n * 2 ^ (110 + 10) := rfl
  rw [e, scaleSize_step]
  split
  · rw [show n * 2 ^ 110 = n * 2 ^ (100 + 10) from rfl, scaleSize_step]
    split
    · rw [show n * 2 ^ 100 = n * 2 ^ (90 + 10) from rfl, scaleSize_step]
      split
      · rw [show n * 2 ^ 90 = n * 2 ^ (80 + 10) from rfl, scaleSize_step]
        split
        · exact ⟨4, n * 2 ^ 80, rfl, by rw [Nat.mul_assoc], by omega⟩
        · exact ⟨3, _, rfl, by rw [Nat.mul_assoc], by omega⟩
      · exact ⟨2, _, rfl, by rw [Nat.mul_assoc], by omega⟩
    · exact ⟨1, _, rfl, by rw [Nat.mul_assoc], by omega⟩
  · exact ⟨0, _, rfl, by rw [Nat.mul_assoc], by omega⟩

theorem formatSize_eq {up : Nat → Bool} {n v u s : Nat} (hv : toF64 n = v) (h : scaleSize 4 0 v = (u, s)) :
    formatSize up n = sizeText up n u s := by
  unfold formatSize
  rw [hv, h]

theorem twoDecimals_says (h u : Nat) (hu : u ≤ 4) : Spec.SaysSize (twoDecimals h ++ word " " ++ unitName u) h u := by
  refine ⟨h / 100, h / 10 % 10, h % 10, unitName u, by omega, by omega, by omega, ?_, rfl⟩
  have : u = 0 ∨ u = 1 ∨ u = 2 ∨ u = 3 ∨ u = 4 := by omega
  rcases this with rfl | rfl | rfl | rfl | rfl <;> rfl

theorem formatSize_small (up : Nat → Bool) (n : Nat) (hn : n < 1024) : formatSize up n = decimal n := by
  obtain ⟨u, s, hu, hs, hc⟩ := scaleSize_spec n
  rw [formatSize_eq (toF64_exact (show n < 2 ^ 53 by omega)) hu]
  clear hu
  rcases hc with ⟨rfl, _⟩ | ⟨h1, _, h2, _⟩
  · rfl
  · have : 1024 ^ 1 ≤ 1024 ^ u := Nat.pow_le_pow_right (by decide) h1
    omega

theorem formatSize_large (up : Nat → Bool) (n : Nat) (hge : 1024 ≤ n) (hn : n < 2 ^ 53) :
    ∃ h u, formatSize up n = twoDecimals h ++ word " " ++ unitName u ∧ 1 ≤ u ∧ u ≤ 4 ∧ 1024 ^ u ≤ n ∧
      (n < 1024 ^ (u + 1) ∨ u = 4) ∧
      2 * (h * 1024 ^ u) ≤ 2 * (100 * n) + 1024 ^ u ∧ 2 * (100 * n) ≤ 2 * (h * 1024 ^ u) + 1024 ^ u := by
  obtain ⟨u, s, hu, hs, hc⟩ := scaleSize_spec n
  rw [formatSize_eq (toF64_exact hn) hu]
  clear hu
  unfold sizeText
  rcases hc with ⟨_, h⟩ | ⟨h1, h4, h2, h3⟩
  · omega
  rw [if_neg (by omega)]
  refine ⟨_, u, rfl, h1, h4, h2, h3, ?_⟩
  obtain ⟨s1, s2⟩ := shownNearest_bounds up (s * 100)
  generalize shownNearest up (s * 100) = h at s1 s2
  have hK : 0 < one64 := Nat.two_pow_pos 120
  have b1 := Nat.mul_le_mul_right (1024 ^ u) s1
  have b2 := Nat.mul_le_mul_right (1024 ^ u) s2
  have e1 : 2 * (h * one64) * 1024 ^ u = 2 * (h * 1024 ^ u) * one64 := by
    rw [Nat.mul_assoc 2, Nat.mul_right_comm h, ← Nat.mul_assoc 2]
  have e2 : 2 * (s * 100) * 1024 ^ u = 2 * (100 * n) * one64 := by
    rw [Nat.mul_comm s 100, Nat.mul_assoc 2, Nat.mul_assoc 100, hs, Nat.mul_assoc 2, Nat.mul_assoc 100]
  rw [Nat.add_mul, e1, e2, Nat.mul_comm one64, ← Nat.add_mul] at b1
  rw [Nat.add_mul, e1, e2, Nat.mul_comm one64, ← Nat.add_mul] at b2
  exact ⟨Nat.le_of_mul_le_mul_right b1 hK, Nat.le_of_mul_le_mul_right b2 hK⟩

/-- C89: below 9 PB the size shown is the nearest hundredth, in the largest unit that is not more than the size; below 1024 it is
the number of bytes. -/
theorem C89_size_nearest (up : Nat → Bool) (n : Nat) (hn : n < 2 ^ 53) :
    (n < 1024 → formatSize up n = decimal n) ∧
    (1024 ≤ n → ∃ h u, Spec.SaysSize (formatSize up n) h u ∧ 1 ≤ u ∧ 1024 ^ u ≤ n ∧ (n < 1024 ^ (u + 1) ∨ u = 4) ∧
      2 * (h * 1024 ^ u) ≤ 2 * (100 * n) + 1024 ^ u ∧ 2 * (100 * n) ≤ 2 * (h * 1024 ^ u) + 1024 ^ u) := by
  refine ⟨formatSize_small up n, fun hge => ?_⟩
  obtain ⟨h, u, e, h1, h4, h2, h3, h5⟩ := formatSize_large up n hge hn
  rw [e]
  exact ⟨h, u, twoDecimals_says h u h4, h1, h2, h3, h5⟩

theorem split_dot {x : Byte} : ∀ {l l' r r' : List Byte}, x ∉ l → x ∉ l' → l ++ x :: r = l' ++ x :: r' → l = l' ∧ r = r'
  | [], [], r, r', _, _, h => ⟨rfl, (List.cons.inj h).2⟩
  | [], y :: l', r, r', _, h2, h => absurd (List.cons.inj h).1 fun e => h2 (e ▸ List.mem_cons_self)
  | y :: l, [], r, r', h1, _, h => absurd (List.cons.inj h).1 fun e => h1 (e ▸ List.mem_cons_self)
  | y :: l, y' :: l', r, r', h1, h2, h => by
    obtain ⟨e1, e2⟩ := List.cons.inj h
    obtain ⟨e3, e4⟩ := split_dot (fun m => h1 (List.mem_cons_of_mem _ m)) (fun m => h2 (List.mem_cons_of_mem _ m)) e2
    exact ⟨by rw [e1, e3], e4⟩

theorem digit_inj {b b' : Nat} (h : b < 10) (h' : b' < 10) (e : BitVec.ofNat 8 (48 + b) = BitVec.ofNat 8 (48 + b')) : b = b' := by
  have := congrArg BitVec.toNat e
  rw [BitVec.toNat_ofNat, BitVec.toNat_ofNat] at this
  omega

/-- C89: such a text has one meaning. -/
theorem C89_size_unambiguous (text : List Byte) (h u h' u' : Nat) (h1 : Spec.SaysSize text h u) (h2 : Spec.SaysSize text h' u') :
    h = h' ∧ u = u' := by
  obtain ⟨a, b, c, name, hb, hc, rfl, hu, rfl⟩ := h1
  obtain ⟨a', b', c', name', hb', hc', rfl, hu', e⟩ := h2
  have hdot : ∀ n, 0x2E#8 ∉ decimal n := fun n hm => by
    have := (decimal_digits n _ hm).1
    revert this
    decide
  have ew : word "." = [0x2E#8] := by decide
  have es : word " " = [0x20#8] := by decide
  simp only [ew, es, List.append_assoc, List.cons_append, List.nil_append] at e
  obtain ⟨ea, er⟩ := split_dot (hdot a) (hdot a') e
  have ha : a = a' := by rw [← decimal_number a, ea, decimal_number]
  obtain ⟨e1, er⟩ := List.cons.inj er
  obtain ⟨e2, er⟩ := List.cons.inj er
  obtain ⟨_, en⟩ := List.cons.inj er
  refine ⟨by rw [ha, digit_inj hb hb' e1, digit_inj hc hc' e2], ?_⟩
  subst en
  have hlt : ∀ {i : Nat} {x : List Byte}, Spec.units[i]? = some x → i < 5 := fun h => (List.getElem?_eq_some_iff.1 h).1
  have key : ∀ i j : Fin 5, Spec.units[i.val]? = Spec.units[j.val]? → i = j := by decide
  exact congrArg Fin.val (key ⟨u, hlt hu⟩ ⟨u', hlt hu'⟩ (hu.trans hu'.symm))

/-- A size and what it is shown as. -/
example : Spec.SaysSize (formatSize (fun _ => false) 1536) 150 1 ∧ formatSize (fun _ => false) 1536 = word "1.50 KB" := by
  have : formatSize (fun _ => false) 1536 = word "1.50 KB" := by decide +kernel
  rw [this]
  exact ⟨⟨1, 5, 0, word "KB", by decide, by decide, rfl, rfl, by decide +kernel⟩, rfl⟩

theorem unit_unique {n u v : Nat} (h1 : 1024 ^ u ≤ n) (h2 : n < 1024 ^ (u + 1)) (h3 : 1024 ^ v ≤ n) (h4 : n < 1024 ^ (v + 1) ∨ v = 4)
    (hu : u ≤ 3) : u = v := by
  have l1 : u ≤ v ∨ v + 1 ≤ u := by omega
  have l2 : v ≤ u ∨ u + 1 ≤ v := by omega
  rcases l2 with l2 | l2
  · rcases l1 with l1 | l1
    · omega
    · have := Nat.pow_le_pow_right (show 0 < 1024 by decide) l1
      omega
  · have := Nat.pow_le_pow_right (show 0 < 1024 by decide) l2
    omega

/-- C89: a size that is less than half a hundredth below the next unit is shown as 1024.00 of the smaller one. -/
theorem C89_size_1024 (up : Nat → Bool) (n u : Nat) (h1 : 1 ≤ u) (h3 : u ≤ 3) (hn : n < 1024 ^ (u + 1))
    (hlo : 200 * 1024 ^ (u + 1) < 200 * n + 1024 ^ u) : Spec.SaysSize (formatSize up n) (100 * 1024) u := by
  have hp : 1024 ^ 1 ≤ 1024 ^ u := Nat.pow_le_pow_right (by decide) h1
  have hm : 1024 ^ (u + 1) ≤ 1024 ^ 4 := Nat.pow_le_pow_right (by decide) (by omega)
  have hs : 1024 ^ (u + 1) = 1024 ^ u * 1024 := Nat.pow_succ ..
  obtain ⟨h, v, e, k1, k4, k2, k3, k5, k6⟩ := formatSize_large up n (by omega) (by omega)
  have huv : u = v := unit_unique (by omega) hn k2 k3 h3
  subst huv
  rw [e]
  have : h = 100 * 1024 := by
    rw [hs] at hn hlo
    have hU : 0 < 1024 ^ u := Nat.pow_pos (by decide)
    generalize 1024 ^ u = U at *
    have a1 : h < 102401 := by
      refine Nat.lt_of_mul_lt_mul_right (a := U) ?_
      generalize h * U = Z at *
      omega
    have a2 : 102399 < h := by
      refine Nat.lt_of_mul_lt_mul_right (a := U) ?_
      generalize h * U = Z at *
      omega
    omega
  rw [← this]
  exact twoDecimals_says h u (by omega)

example : formatSize (fun _ => false) (1024 * 1024 - 1) = word "1024.00 KB" ∧ formatSize (fun _ => false) (1024 * 1024) = word "1.00 MB" := by
  decide +kernel

/-- C89: from 1024 bytes on the line on the size of an archive names two units. -/
theorem C89_two_units (up : Nat → Bool) (n : Nat) (hge : 1024 ≤ n) (hn : n < 2 ^ 53) : ∃ number u unit, 1 ≤ u ∧
    Spec.units[u]? = some unit ∧ archiveSizeLine up n = outLine (word "Archive size: " ++ number ++ word " " ++ unit ++ word " bytes") := by
  obtain ⟨h, u, e, h1, h4, _⟩ := formatSize_large up n hge hn
  obtain ⟨_, _, _, name, _, _, _, hu, _⟩ := twoDecimals_says h u h4
  refine ⟨twoDecimals h, u, unitName u, h1, ?_, ?_⟩
  · have : u = 0 ∨ u = 1 ∨ u = 2 ∨ u = 3 ∨ u = 4 := by omega
    rcases this with rfl | rfl | rfl | rfl | rfl <;> rfl
  · unfold archiveSizeLine
    rw [e]
    simp only [List.append_assoc]

end Mopaq
