import Verif.Lemmas.Header

/-! # Which headers the reader accepts -/

namespace Mopaq

theorem bind_eq_ok {α β : Type} {x : Res α} {g : α → Res β} {y : β} :
    (x >>= g) = .ok y ↔ ∃ a, x = .ok a ∧ g a = .ok y := by
  cases x with
  | error e => simp [bind, Except.bind]
  | ok a => simp [bind, Except.bind]

theorem rdBytes_ok_iff (n : Nat) (r : List Byte) (x : List Byte × List Byte) :
    rdBytes n r = .ok x ↔ n ≤ r.length ∧ x = (r.take n, r.drop n) := by
  unfold rdBytes
  split
  · rename_i h; simp [h, eq_comm]
  · rename_i h; simp; omega

theorem rd16_ok_iff (r : List Byte) (x : U16 × List Byte) :
    rd16 r = .ok x ↔ 2 ≤ r.length ∧ x = (ofLe16 (r.take 2), r.drop 2) := by
  unfold rd16 rdBytes
  split
  · rename_i h; simp [h, eq_comm, Except.map]
  · rename_i h; simp [Except.map]; omega
theorem rd32_ok_iff (r : List Byte) (x : U32 × List Byte) :
    rd32 r = .ok x ↔ 4 ≤ r.length ∧ x = (ofLe32 (r.take 4), r.drop 4) := by
  unfold rd32 rdBytes
  split
  · rename_i h; simp [h, eq_comm, Except.map]
  · rename_i h; simp [Except.map]; omega
theorem rd64_ok_iff (r : List Byte) (x : U64 × List Byte) :
    rd64 r = .ok x ↔ 8 ≤ r.length ∧ x = (ofLe64 (r.take 8), r.drop 8) := by
  unfold rd64 rdBytes
  split
  · rename_i h; simp [h, eq_comm, Except.map]
  · rename_i h; simp [Except.map]; omega

theorem ite_throw_ok {c : Prop} [Decidable c] {e : Err} {x : PUnit} :
    (if c then (throw e : Res PUnit) else pure ⟨⟩) = .ok x ↔ ¬ c := by
  split <;> simp_all [throw, throwThe, MonadExceptOf.throw, pure, Except.pure]

theorem readV2_short (r : List Byte) (h : r.length < 12) : ∀ x, readV2 r ≠ .ok x := by
  intro x hx
  simp only [readV2, bind_eq_ok, rd16_ok_iff, rd64_ok_iff] at hx
  obtain ⟨a, ⟨h1, rfl⟩, b, ⟨h2, rfl⟩, c, ⟨h3, rfl⟩, _⟩ := hx
  simp at h2 h3; omega

theorem readV2_iff (r : List Byte) : (∃ y, readV2 r = .ok (y, r.drop 12)) ∨ (r.length < 12 ∧ ∀ x, readV2 r ≠ .ok x) := by
  rcases Nat.lt_or_ge r.length 12 with h | h
  · exact .inr ⟨h, readV2_short r h⟩
  · left
    simp only [readV2, bind_eq_ok, rd16_ok_iff, rd64_ok_iff]
    exact ⟨_, _, ⟨by omega, rfl⟩, _, ⟨by simp; omega, rfl⟩, _, ⟨by simp; omega, rfl⟩, by simp only [List.drop_drop]; rfl⟩

theorem readV3_short (r : List Byte) (h : r.length < 24) : ∀ x, readV3 r ≠ .ok x := by
  intro x hx
  simp only [readV3, bind_eq_ok, rd64_ok_iff] at hx
  obtain ⟨a, ⟨h1, rfl⟩, b, ⟨h2, rfl⟩, c, ⟨h3, rfl⟩, _⟩ := hx
  simp at h2 h3; omega

theorem readV3_iff (r : List Byte) : (∃ y, readV3 r = .ok (y, r.drop 24)) ∨ (r.length < 24 ∧ ∀ x, readV3 r ≠ .ok x) := by
  rcases Nat.lt_or_ge r.length 24 with h | h
  · exact .inr ⟨h, readV3_short r h⟩
  · left
    simp only [readV3, bind_eq_ok, rd64_ok_iff]
    exact ⟨_, _, ⟨by omega, rfl⟩, _, ⟨by simp; omega, rfl⟩, _, ⟨by simp; omega, rfl⟩, by simp only [List.drop_drop]; rfl⟩

theorem readV4_short (r : List Byte) (h : r.length < 140) : ∀ x, readV4 r ≠ .ok x := by
  intro x hx
  simp only [readV4, bind_eq_ok, rd32_ok_iff, rd64_ok_iff, rdBytes_ok_iff] at hx
  obtain ⟨_, ⟨h1, rfl⟩, _, ⟨h2, rfl⟩, _, ⟨h3, rfl⟩, _, ⟨h4, rfl⟩, _, ⟨h5, rfl⟩, _, ⟨h6, rfl⟩, _, ⟨h7, rfl⟩, _, ⟨h8, rfl⟩,
    _, ⟨h9, rfl⟩, _, ⟨h10, rfl⟩, _, ⟨h11, rfl⟩, _, ⟨h12, rfl⟩, _⟩ := hx
  simp only [List.drop_drop, List.length_drop] at h12; omega

theorem readV4_iff (r : List Byte) : (∃ y, readV4 r = .ok y) ∨ (r.length < 140 ∧ ∀ x, readV4 r ≠ .ok x) := by
  rcases Nat.lt_or_ge r.length 140 with h | h
  · exact .inr ⟨h, readV4_short r h⟩
  · left
    simp only [readV4, bind_eq_ok, rd32_ok_iff, rd64_ok_iff, rdBytes_ok_iff]
    exact ⟨_, _, ⟨by omega, rfl⟩, _, ⟨by simp; omega, rfl⟩, _, ⟨by simp; omega, rfl⟩, _, ⟨by simp; omega, rfl⟩,
      _, ⟨by simp; omega, rfl⟩, _, ⟨by simp; omega, rfl⟩, _, ⟨by simp; omega, rfl⟩, _, ⟨by simp; omega, rfl⟩,
      _, ⟨by simp; omega, rfl⟩, _, ⟨by simp; omega, rfl⟩, _, ⟨by simp; omega, rfl⟩, _, ⟨by simp; omega, rfl⟩, rfl⟩

theorem readHeader_short (f : List Byte) (h : f.length < 32) (x : MpqHeader) : readHeader f ≠ .ok x := by
  intro hx
  simp only [readHeader, bind_eq_ok, rd32_ok_iff] at hx
  obtain ⟨_, ⟨h1, rfl⟩, hx⟩ := hx
  by_cases hs : ofLe32 (f.take 4) = mpqSignature
  · simp only [hs, ne_eq, not_true_eq_false, if_false, bind_eq_ok, rd32_ok_iff, rd16_ok_iff] at hx
    obtain ⟨_, ⟨h2, rfl⟩, _, ⟨h3, rfl⟩, _, ⟨h4, rfl⟩, _, ⟨h5, rfl⟩, _, ⟨h6, rfl⟩, _, ⟨h7, rfl⟩, _, ⟨h8, rfl⟩,
      _, ⟨h9, rfl⟩, _⟩ := hx
    simp only [List.drop_drop, List.length_drop] at h9
    omega
  · simp only [hs, ne_eq, not_false_eq_true, if_true] at hx
    cases hx

theorem u16_of_u32At (f : List Byte) (o : Nat) (h : o + 4 ≤ f.length) :
    Spec.u32At f o = some (ofLe32 (slice f o 4)).toNat ∧
    (ofLe32 (slice f o 4)).toNat % 65536 = (ofLe16 (slice f o 2)).toNat := by
  refine ⟨u32At_eq_some f o h, ?_⟩
  unfold slice
  have hl : 4 ≤ (f.drop o).length := by simp; omega
  match hd : f.drop o, hl with
  | a :: b :: c :: d :: _, _ =>
    have ha := a.isLt; have hb := b.isLt; have hc := c.isLt; have hd := d.isLt
    simp only [List.take_succ_cons, List.take_zero, ofLe32, ofLe16, leNat, BitVec.toNat_ofNat]
    omega

theorem fromRaw_cases (raw : U16) :
    (FormatVersion.fromRaw raw = none ∧ Spec.headerBytes raw.toNat = none) ∨
    ∃ v, FormatVersion.fromRaw raw = some v ∧ v.raw = raw ∧ Spec.headerBytes raw.toNat = some v.headerSize.toNat := by
  by_cases h0 : raw = 0
  · subst h0; exact .inr ⟨.v1, rfl, rfl, rfl⟩
  by_cases h1 : raw = 1
  · subst h1; exact .inr ⟨.v2, rfl, rfl, rfl⟩
  by_cases h2 : raw = 2
  · subst h2; exact .inr ⟨.v3, rfl, rfl, rfl⟩
  by_cases h3 : raw = 3
  · subst h3; exact .inr ⟨.v4, rfl, rfl, rfl⟩
  left
  refine ⟨by unfold FormatVersion.fromRaw; rw [if_neg h0, if_neg h1, if_neg h2, if_neg h3], ?_⟩
  have n0 : raw.toNat ≠ 0 := fun h => h0 (BitVec.eq_of_toNat_eq h)
  have n1 : raw.toNat ≠ 1 := fun h => h1 (BitVec.eq_of_toNat_eq h)
  have n2 : raw.toNat ≠ 2 := fun h => h2 (BitVec.eq_of_toNat_eq h)
  have n3 : raw.toNat ≠ 3 := fun h => h3 (BitVec.eq_of_toNat_eq h)
  match hr : raw.toNat with
  | 0 => exact absurd hr n0
  | 1 => exact absurd hr n1
  | 2 => exact absurd hr n2
  | 3 => exact absurd hr n3
  | n + 4 => rfl

theorem readHeader_ok_iff (f : List Byte) : (∃ h, readHeader f = .ok h) ↔ Spec.acceptableHeader f := by
  rcases Nat.lt_or_ge f.length 32 with hl | hl
  · constructor
    · rintro ⟨h, hx⟩; exact absurd hx (readHeader_short f hl h)
    · rintro ⟨_, size, word, n, _, _, hn, _, hlen⟩
      exfalso
      have : 32 ≤ n := by
        revert hn; unfold Spec.headerBytes; split <;> intro h <;> first | (injection h; omega) | cases h
      omega
  · have e0 : f = f.drop 0 := rfl
    have s0 := u32At_eq_some f 0 (by omega)
    have s4 := u32At_eq_some f 4 (by omega)
    obtain ⟨s12, s12'⟩ := u16_of_u32At f 12 (by omega)
    unfold Spec.acceptableHeader Spec.archiveMark
    rw [s0, s4, s12]
    simp only [readHeader, bind_eq_ok]
    conv => lhs; rw [e0]
    rw [rd32_drop_ok f 0 (by omega)]
    simp only [Except.ok.injEq, exists_eq_left', Nat.zero_add]
    rw [mark_iff]
    by_cases hs : ofLe32 (slice f 0 4) = mpqSignature
    · simp only [hs, ne_eq, not_true_eq_false, if_false, true_and, bind_eq_ok]
      rw [rd32_drop_ok f 4 (by omega)]
      simp only [Except.ok.injEq, exists_eq_left']
      rw [rd32_drop_ok f 8 (by omega)]
      simp only [Except.ok.injEq, exists_eq_left']
      rw [rd16_drop_ok f 12 (by omega)]
      simp only [Except.ok.injEq, exists_eq_left']
      rw [rd16_drop_ok f 14 (by omega)]
      simp only [Except.ok.injEq, exists_eq_left']
      rw [rd32_drop_ok f 16 (by omega)]
      simp only [Except.ok.injEq, exists_eq_left']
      rw [rd32_drop_ok f 20 (by omega)]
      simp only [Except.ok.injEq, exists_eq_left']
      rw [rd32_drop_ok f 24 (by omega)]
      simp only [Except.ok.injEq, exists_eq_left']
      rw [rd32_drop_ok f 28 (by omega)]
      simp only [Except.ok.injEq, exists_eq_left']
      have hrhs : (∃ size word n, some (ofLe32 (slice f 4 4)).toNat = some size ∧
          some (ofLe32 (slice f 12 4)).toNat = some word ∧ Spec.headerBytes (word % 65536) = some n ∧ n ≤ size ∧
          n ≤ f.length) ↔ ∃ n, Spec.headerBytes (ofLe16 (slice f 12 2)).toNat = some n ∧
            n ≤ (ofLe32 (slice f 4 4)).toNat ∧ n ≤ f.length := by
        constructor
        · rintro ⟨size, word, n, h1, h2, h3, h4, h5⟩
          injection h1 with h1; injection h2 with h2; subst h1; subst h2
          rw [s12'] at h3
          exact ⟨n, h3, h4, h5⟩
        · rintro ⟨n, h3, h4, h5⟩
          exact ⟨_, _, n, rfl, rfl, by rw [s12']; exact h3, h4, h5⟩
      rw [hrhs]
      rcases fromRaw_cases (ofLe16 (slice f 12 2)) with ⟨h1, h2⟩ | ⟨v, h1, _, h2⟩
      · rw [h1, h2]
        constructor
        · rintro ⟨h, hx⟩; cases hx
        · rintro ⟨n, hn, _⟩; cases hn
      · rw [h1, h2]
        simp only [Option.some.injEq, exists_eq_left']
        by_cases hsz : (ofLe32 (slice f 4 4)).toNat < v.headerSize.toNat
        · simp only [hsz, if_true]
          constructor
          · rintro ⟨h, hx⟩; cases hx
          · rintro ⟨h3, _⟩; omega
        · simp only [hsz, if_false]
          have hsz' : v.headerSize.toNat ≤ (ofLe32 (slice f 4 4)).toNat := by omega
          simp only [hsz', true_and]
          cases v with
          | v1 => exact ⟨fun _ => hl, fun _ => ⟨_, rfl⟩⟩
          | v2 =>
            have hd : FormatVersion.v2.headerSize.toNat = 44 := rfl
            simp only [show FormatVersion.ge .v2 .v2 = true from rfl, show FormatVersion.ge .v2 .v3 = false from rfl,
              Bool.not_true, Bool.not_false, Bool.false_eq_true, if_false, if_true]
            rw [hd]
            rcases readV2_iff (f.drop 32) with ⟨y, h⟩ | ⟨h, hno⟩
            · refine ⟨fun ⟨x, hx⟩ => ?_, fun _ => ?_⟩
              · rcases Nat.lt_or_ge f.length 44 with hlt | hge
                · exact absurd h (readV2_short _ (by simp; omega) _)
                · exact hge
              · rw [h]; exact ⟨_, rfl⟩
            · refine ⟨fun ⟨x, hx⟩ => ?_, fun h2 => ?_⟩
              · obtain ⟨a, ha, _⟩ := bind_eq_ok.mp hx
                exact absurd ha (hno a)
              · simp at h; omega
          | v3 =>
            have hd : FormatVersion.v3.headerSize.toNat = 68 := rfl
            simp only [show FormatVersion.ge .v3 .v2 = true from rfl, show FormatVersion.ge .v3 .v3 = true from rfl,
              show FormatVersion.ge .v3 .v4 = false from rfl,
              Bool.not_true, Bool.not_false, Bool.false_eq_true, if_false, if_true]
            rw [hd]
            refine ⟨fun ⟨x, hx⟩ => ?_, fun hlen => ?_⟩
            · obtain ⟨a, ha, hx⟩ := bind_eq_ok.mp hx
              obtain ⟨b, hb, hx⟩ := bind_eq_ok.mp hx
              rcases readV2_iff (f.drop 32) with ⟨y, h⟩ | ⟨h, hno⟩
              · rw [h] at ha; injection ha with ha; subst ha
                rcases readV3_iff ((f.drop 32).drop 12) with ⟨z, h3⟩ | ⟨h3, hno⟩
                · rcases Nat.lt_or_ge f.length 68 with hlt | hge
                  · exact absurd h3 (readV3_short _ (by simp; omega) _)
                  · exact hge
                · exact absurd hb (hno b)
              · exact absurd ha (hno a)
            · rcases readV2_iff (f.drop 32) with ⟨y, h⟩ | ⟨h, hno⟩
              · rw [h]
                rcases readV3_iff ((f.drop 32).drop 12) with ⟨z, h3⟩ | ⟨h3, hno⟩
                · simp only [bind_eq_ok, Except.ok.injEq, exists_eq_left', h3]
                  exact ⟨_, rfl⟩
                · simp at h3; omega
              · simp at h; omega
          | v4 =>
            have hd : FormatVersion.v4.headerSize.toNat = 208 := rfl
            simp only [show FormatVersion.ge .v4 .v2 = true from rfl, show FormatVersion.ge .v4 .v3 = true from rfl,
              show FormatVersion.ge .v4 .v4 = true from rfl,
              Bool.not_true, Bool.false_eq_true, if_false]
            rw [hd]
            refine ⟨fun ⟨x, hx⟩ => ?_, fun hlen => ?_⟩
            · obtain ⟨a, ha, hx⟩ := bind_eq_ok.mp hx
              obtain ⟨b, hb, hx⟩ := bind_eq_ok.mp hx
              obtain ⟨c, hc, hx⟩ := bind_eq_ok.mp hx
              rcases readV2_iff (f.drop 32) with ⟨y, h⟩ | ⟨h, hno⟩
              · rw [h] at ha; injection ha with ha; subst ha
                rcases readV3_iff ((f.drop 32).drop 12) with ⟨z, h3⟩ | ⟨h3, hno⟩
                · rw [h3] at hb; injection hb with hb; subst hb
                  rcases Nat.lt_or_ge f.length 208 with hlt | hge
                  · exact absurd hc (readV4_short _ (by simp; omega) _)
                  · exact hge
                · exact absurd hb (hno b)
              · exact absurd ha (hno a)
            · rcases readV2_iff (f.drop 32) with ⟨y, h⟩ | ⟨h, hno⟩
              · rw [h]
                rcases readV3_iff ((f.drop 32).drop 12) with ⟨z, h3⟩ | ⟨h3, hno⟩
                · simp only [bind_eq_ok, Except.ok.injEq, exists_eq_left', h3]
                  rcases readV4_iff (((f.drop 32).drop 12).drop 24) with ⟨u, h4⟩ | ⟨h4, hno⟩
                  · rw [h4]; exact ⟨_, _, rfl, rfl⟩
                  · simp at h4; omega
                · simp at h3; omega
              · simp at h; omega
    · simp only [ne_eq, hs, not_false_eq_true, if_true, false_and, iff_false]
      rintro ⟨h, hx⟩
      cases hx
end Mopaq
