import Verif.Props.OpenTotal
import Verif.Props.Layout
import Verif.Props.Listing

/-! # Damage stays where it is (C77) -/

namespace Mopaq

/-- The file `f'` is `f` with other bytes at the places from `lo` up to `hi`. -/
structure Spec.Damaged (f f' : List Byte) (lo hi : Nat) : Prop where
  length : f'.length = f.length
  same : ∀ i, i < lo ∨ hi ≤ i → f'[i]? = f[i]?

/-- The `n` bytes from `place` on are not among those from `lo` up to `hi`. -/
def Spec.Apart (lo hi place n : Nat) : Prop := n = 0 ∨ place + n ≤ lo ∨ hi ≤ place

variable {f f' : List Byte} {lo hi : Nat}

theorem slice_apart (hd : Spec.Damaged f f' lo hi) {o n : Nat} (ha : Spec.Apart lo hi o n) : slice f' o n = slice f o n := by
  unfold slice
  apply List.ext_getElem?
  intro i
  rw [List.getElem?_take, List.getElem?_take]
  by_cases hi' : i < n
  · rw [if_pos hi', if_pos hi', List.getElem?_drop, List.getElem?_drop]
    unfold Spec.Apart at ha
    exact hd.same _ (by omega)
  · rw [if_neg hi', if_neg hi']

theorem readAt_apart (hd : Spec.Damaged f f' lo hi) {o n : Nat} (ha : Spec.Apart lo hi o n) : readAt f' o n = readAt f o n := by
  unfold readAt
  rw [hd.length, slice_apart hd ha]

theorem readVec_apart (hd : Spec.Damaged f f' lo hi) {o n : Nat} (ha : Spec.Apart lo hi o n) : readVec f' o n = readVec f o n := by
  unfold readVec
  rw [readAt_apart hd ha]

theorem u32At_slice (f : List Byte) (o : Nat) :
    Spec.u32At f o = match slice f o 4 with
      | [a, b, c, d] => some (a.toNat + 256 * (b.toNat + 256 * (c.toNat + 256 * d.toNat)))
      | _ => none := by
  unfold Spec.u32At slice
  generalize f.drop o = r
  match r with
  | [] => rfl
  | [_] => rfl
  | [_, _] => rfl
  | [_, _, _] => rfl
  | _ :: _ :: _ :: _ :: _ => rfl

theorem u32At_apart (hd : Spec.Damaged f f' lo hi) {o : Nat} (ha : Spec.Apart lo hi o 4) : Spec.u32At f' o = Spec.u32At f o := by
  rw [u32At_slice, u32At_slice, slice_apart hd ha]

theorem readHeader_version {r : List Byte} {h : MpqHeader} (hr : readHeader r = .ok h) :
    ∃ word, Spec.u32At r 12 = some word ∧ Spec.headerBytes (word % 65536) = some h.formatVersion.headerSize.toNat := by
  obtain ⟨_, size, word, n, _, hw, hn, _, hlen⟩ := (readHeader_ok_iff r).1 ⟨h, hr⟩
  have h32 : 32 ≤ n := by
    revert hn; unfold Spec.headerBytes; split <;> intro h <;> first | (injection h; omega) | cases h
  refine ⟨word, hw, ?_⟩
  obtain ⟨s12, s12'⟩ := u16_of_u32At r 12 (by omega)
  rw [hw] at s12
  injection s12 with s12
  rw [s12, s12']
  unfold readHeader at hr
  obtain ⟨⟨sig, r0⟩, h0, hr⟩ := bind_eq_ok.1 hr
  dsimp only at hr
  by_cases hs : sig ≠ mpqSignature
  · rw [if_pos hs] at hr; cases hr
  rw [if_neg hs] at hr
  obtain ⟨⟨x1, r1⟩, h1, hr⟩ := bind_eq_ok.1 hr
  obtain ⟨⟨x2, r2⟩, h2, hr⟩ := bind_eq_ok.1 hr
  obtain ⟨⟨x3, r3⟩, h3, hr⟩ := bind_eq_ok.1 hr
  obtain ⟨⟨x4, r4⟩, h4, hr⟩ := bind_eq_ok.1 hr
  obtain ⟨⟨x5, r5⟩, h5, hr⟩ := bind_eq_ok.1 hr
  obtain ⟨⟨x6, r6⟩, h6, hr⟩ := bind_eq_ok.1 hr
  obtain ⟨⟨x7, r7⟩, h7, hr⟩ := bind_eq_ok.1 hr
  obtain ⟨⟨x8, r8⟩, h8, hr⟩ := bind_eq_ok.1 hr
  dsimp only at h1 h2 h3 hr
  rw [rd32_ok_iff] at h0 h1 h2
  rw [rd16_ok_iff] at h3
  have hx3 : x3 = ofLe16 (slice r 12 2) := by
    have e3 := congrArg Prod.fst h3.2
    have e2 := congrArg Prod.snd h2.2
    have e1 := congrArg Prod.snd h1.2
    have e0 := congrArg Prod.snd h0.2
    dsimp only at e3 e2 e1 e0
    rw [e3, e2, e1, e0, List.drop_drop, List.drop_drop]
    rfl
  rw [← hx3]
  rcases fromRaw_cases x3 with ⟨hv, _⟩ | ⟨v, hv, _, hb⟩
  · rw [hv] at hr; cases hr
  · rw [hv] at hr
    dsimp only at hr
    rw [hb]
    congr 2
    by_cases hz : x1.toNat < v.headerSize.toNat
    · rw [if_pos hz] at hr; cases hr
    rw [if_neg hz] at hr
    by_cases hv2 : (!v.ge .v2) = true
    · rw [if_pos hv2] at hr; cases hr; rfl
    rw [if_neg hv2] at hr
    obtain ⟨⟨⟨a, b, c⟩, q2⟩, k2, hr⟩ := bind_eq_ok.1 hr
    dsimp only at hr
    by_cases hv3 : (!v.ge .v3) = true
    · rw [if_pos hv3] at hr; cases hr; rfl
    rw [if_neg hv3] at hr
    obtain ⟨⟨⟨a', b', c'⟩, q3⟩, k3, hr⟩ := bind_eq_ok.1 hr
    dsimp only at hr
    by_cases hv4 : (!v.ge .v4) = true
    · rw [if_pos hv4] at hr; cases hr; rfl
    rw [if_neg hv4] at hr
    obtain ⟨⟨w, q4⟩, k4, hr⟩ := bind_eq_ok.1 hr
    cases hr; rfl

theorem u32At_take {r : List Byte} {o n : Nat} (h : o + 4 ≤ n) : Spec.u32At (r.take n) o = Spec.u32At r o := by
  rw [u32At_slice, u32At_slice]
  have : slice (r.take n) o 4 = slice r o 4 := by
    unfold slice
    rw [List.drop_take, List.take_take, Nat.min_eq_left (by omega)]
  rw [this]

/-- The header depends on its own bytes only. -/
theorem readHeader_front {r r' : List Byte} {h : MpqHeader} (hr : readHeader r = .ok h)
    (hs : r'.take h.formatVersion.headerSize.toNat = r.take h.formatVersion.headerSize.toNat) : readHeader r' = .ok h := by
  have h32 : 32 ≤ h.formatVersion.headerSize.toNat := by cases h.formatVersion <;> decide
  have ha : Spec.acceptableHeader (r.take h.formatVersion.headerSize.toNat) := by
    obtain ⟨hm, size, word, n, h4, hw, hn, hns, hlen⟩ := (readHeader_ok_iff r).1 ⟨h, hr⟩
    obtain ⟨word', hw', hn'⟩ := readHeader_version hr
    rw [hw] at hw'
    injection hw' with hw'
    subst hw'
    rw [hn] at hn'
    injection hn' with hn'
    subst hn'
    refine ⟨?_, size, word, _, ?_, ?_, hn, hns, ?_⟩
    · unfold Spec.archiveMark; rw [u32At_take (by omega)]; exact hm
    · rw [u32At_take (by omega)]; exact h4
    · rw [u32At_take (by omega)]; exact hw
    · rw [List.length_take]; omega
  obtain ⟨h', hh⟩ := (readHeader_ok_iff _).2 ha
  have k1 := readHeader_keeps (r.drop h.formatVersion.headerSize.toNat) _ _ hh
  rw [List.take_append_drop, hr] at k1
  cases k1
  have k2 := readHeader_keeps (r'.drop h.formatVersion.headerSize.toNat) _ _ hh
  rwa [← hs, List.take_append_drop] at k2

/-! ## Finding the header -/

theorem pointsTo_apart (hd : Spec.Damaged f f' lo hi) {o t : Nat} (h : o + 16 ≤ lo) :
    Spec.pointsTo f' o t ↔ Spec.pointsTo f o t := by
  have ha : ∀ k, k + 4 ≤ 16 → Spec.u32At f' (o + k) = Spec.u32At f (o + k) := fun k hk =>
    u32At_apart hd (.inr (.inl (by omega)))
  unfold Spec.pointsTo Spec.userDataMark
  have h0 := ha 0 (by omega)
  rw [Nat.add_zero] at h0
  rw [h0, ha 4 (by omega), ha 8 (by omega), ha 12 (by omega)]

theorem findHeader_apart (hd : Spec.Damaged f f' lo hi) (off : Nat) (ud : Option UserDataHeader) (h : MpqHeader)
    (hf : findHeader f = .ok (off, ud, h)) (hlo : off + h.formatVersion.headerSize.toNat ≤ lo)
    (hu : ∀ o t, o % 512 = 0 → o < off → Spec.pointsTo f o t → Spec.Apart lo hi t 4) :
    findHeader f' = .ok (off, ud, h) := by
  have hok : ∀ (s : Nat) (ud' : Option UserDataHeader) (r : Res MpqHeader),
      (r.map fun h => (s, ud', h)) = .ok (off, ud, h) → s = off ∧ ud' = ud ∧ r = .ok h := by
    intro s ud' r hr
    cases r with
    | error e => cases hr
    | ok x =>
      simp only [Except.map, Except.ok.injEq, Prod.mk.injEq] at hr
      exact ⟨hr.1, hr.2.1, by rw [hr.2.2]⟩
  have h32 : 32 ≤ h.formatVersion.headerSize.toNat := by cases h.formatVersion <;> decide
  rcases C13_search_exact f with ⟨o, s, h1, h2, h3, h4, ud', h5, h6, h7⟩ | ⟨o, _, _, _, _, h'⟩ | ⟨_, h'⟩
  rotate_left
  · rw [hf] at h'; cases h'
  · rw [hf] at h'; cases h'
  rw [hf] at h7
  obtain ⟨rfl, rfl, hr⟩ := hok s ud' _ h7.symm
  have hso : o ≤ s := by
    rcases h4 with ⟨_, h⟩ | ⟨⟨_, _, ⟨d, _, h⟩, _⟩, _⟩ <;> omega
  have hmark : ∀ k, k ≤ s → Spec.u32At f' k = Spec.u32At f k := fun k hk => u32At_apart hd (.inr (.inl (by omega)))
  have hpt : ∀ k t, k ≤ s → (Spec.pointsTo f' k t ↔ Spec.pointsTo f k t) := fun k t hk => pointsTo_apart hd (by omega)
  have hst : Spec.startsAt f' o s := by
    rcases h4 with ⟨h, h'⟩ | ⟨h, h'⟩
    · exact .inl ⟨by unfold Spec.archiveMark; rw [hmark _ hso]; exact h, h'⟩
    · exact .inr ⟨(hpt _ _ hso).2 h, by unfold Spec.archiveMark; rw [hmark _ (Nat.le_refl _)]; exact h'⟩
  have hnb : NothingBefore f' o := by
    intro o' ho' hm
    obtain ⟨hc, hs⟩ := h3 o' ho' hm
    have htm : ∀ t, Spec.pointsTo f o' t → Spec.u32At f' t = Spec.u32At f t := fun t ht =>
      u32At_apart hd (hu o' t hm (by omega) ht)
    refine ⟨?_, ?_⟩
    · rintro ⟨hmk, hn⟩
      unfold Spec.userDataMark at hmk
      rw [hmark _ (by omega)] at hmk
      refine hc ⟨hmk, ?_⟩
      rcases hn with hn | ⟨t, ht, htl, htn⟩
      · exact .inl fun t ht => hn t ((hpt _ _ (by omega)).2 ht)
      · have ht := (hpt _ _ (by omega)).1 ht
        rw [hd.length] at htl
        rw [htm t ht] at htn
        exact .inr ⟨t, ht, htl, htn⟩
    · rintro t (⟨hmk, rfl⟩ | ⟨ht, hmk⟩)
      · unfold Spec.archiveMark at hmk
        rw [hmark _ (by omega)] at hmk
        exact hs t (.inl ⟨hmk, rfl⟩)
      · have ht := (hpt _ _ (by omega)).1 ht
        unfold Spec.archiveMark at hmk
        rw [htm t ht] at hmk
        exact hs t (.inr ⟨ht, hmk⟩)
  have hlt : o < f'.length := by rw [hd.length]; omega
  rcases C13_search_exact f' with ⟨o1, s1, k1, k2, k3, k4, ud1, k5, k6, k7⟩ | ⟨o1, k1, k2, k3, k4, k'⟩ | ⟨k, k'⟩
  · have ho : o1 = o := by
      rcases Nat.lt_trichotomy o1 o with hlt | heq | hgt
      · exact absurd k4 ((hnb o1 hlt k1).2 s1)
      · exact heq
      · exact absurd hst ((k3 o hgt h1).2 s)
    subst ho
    have hs1 : s1 = s := startsAt_unique k4 hst
    subst hs1
    have hnu : ∀ F, ¬ (Spec.archiveMark F o1 ∧ Spec.userDataMark F o1) := by
      rintro F ⟨a, b⟩
      unfold Spec.archiveMark at a
      unfold Spec.userDataMark at b
      rw [a] at b
      injection b with b
      omega
    have hud : ud1 = ud' := by
      cases ud1 with
      | none =>
        cases ud' with
        | none => rfl
        | some u => exact absurd ⟨(k5 rfl).1, ((hpt _ _ hso).2 (h6 u rfl).1).1⟩ (hnu _)
      | some u1 =>
        cases ud' with
        | none =>
          have := (h5 rfl).1
          exact absurd ⟨this, ((hpt _ _ hso).1 (k6 u1 rfl).1).1⟩ (hnu _)
        | some u =>
          obtain ⟨_, a1, a2, a3⟩ := k6 u1 rfl
          obtain ⟨_, b1, b2, b3⟩ := h6 u rfl
          rw [u32At_apart hd (.inr (.inl (by omega)))] at a1 a2 a3
          have c1 := b1.symm.trans a1
          have c2 := b2.symm.trans a2
          have c3 := b3.symm.trans a3
          simp only [Option.some.injEq] at c1 c2 c3
          cases u; cases u1
          simp only [Option.some.injEq, UserDataHeader.mk.injEq]
          exact ⟨(BitVec.eq_of_toNat_eq c1).symm, (BitVec.eq_of_toNat_eq c2).symm, (BitVec.eq_of_toNat_eq c3).symm⟩
    rw [k7, hud, readHeader_front hr (slice_apart hd (.inr (.inl hlo)))]
    rfl
  · rcases Nat.lt_trichotomy o1 o with hlt | heq | hgt
    · exact absurd k4 (hnb o1 hlt k1).1
    · subst heq
      exfalso
      obtain ⟨hum, hc⟩ := k4
      rcases hst with ⟨hm, _⟩ | ⟨hp, hm⟩
      · unfold Spec.archiveMark at hm
        unfold Spec.userDataMark at hum
        rw [hm] at hum
        injection hum with hum
        omega
      · rcases hc with hc | ⟨t, ht, _, hn⟩
        · exact hc _ hp
        · rw [pointsTo_unique ht hp] at hn
          unfold Spec.archiveMark at hm
          rw [hm] at hn
          cases hn
    · exact absurd hst ((k3 o hgt h1).2 s)
  · exact absurd hst ((k o h1 hlt).2 s)

/-! ## Reading the tables -/

theorem readExtTable_apart (e : Codecs) (hd : Spec.Damaged f f' lo hi) {o n : Nat} (ha : Spec.Apart lo hi o n) (sig key : U32) :
    readExtTable e f' o n sig key = readExtTable e f o n sig key := by
  unfold readExtTable
  rw [readVec_apart hd ha]

theorem hetSize_ok {h : MpqHeader} {pos size : U64} (hv : h.formatVersion = .v3 → h.v4Data = none)
    (hs : (if ((h.v4Data.map (·.hetTableSize64)).getD 0#64 = 0#64 && h.formatVersion == .v3) = true then hetTableSizeOf h pos
        else pure ((h.v4Data.map (·.hetTableSize64)).getD 0#64)) = .ok size) : size.toNat = Spec.hetSize h pos := by
  unfold Spec.hetSize
  have hsub : ∀ a b r : U64, sub64 a b = .ok r → r.toNat = a.toNat - b.toNat := by
    intro a b r h
    unfold sub64 at h
    split at h
    · rename_i hle
      cases h
      exact BitVec.toNat_sub_of_le hle
    · cases h
  cases hd : h.v4Data with
  | some v =>
    rw [hd, if_neg] at hs
    · cases hs; rfl
    · intro hc
      rw [Bool.and_eq_true] at hc
      rw [hv (eq_of_beq hc.2)] at hd
      cases hd
  | none =>
    rw [hd] at hs
    by_cases h3 : h.formatVersion = .v3
    · rw [if_pos (by rw [h3]; decide)] at hs
      dsimp only
      rw [if_pos h3]
      unfold hetTableSizeOf at hs
      cases hb : h.betTablePos with
      | none =>
        rw [hb] at hs
        dsimp only at hs
        rw [if_neg (by simp)]
        exact hsub _ _ _ hs
      | some b =>
        rw [hb] at hs
        dsimp only [Option.getD_some] at hs ⊢
        by_cases hlt : pos.toNat < b.toNat
        · rw [if_pos hlt] at hs ⊢
          exact hsub _ _ _ hs
        · rw [if_neg hlt] at hs ⊢
          exact hsub _ _ _ hs
    · rw [if_neg (by
        intro hc
        rw [Bool.and_eq_true] at hc
        exact h3 (eq_of_beq hc.2))] at hs
      dsimp only
      rw [if_neg h3]
      cases hs; rfl

theorem betSize_ok {h : MpqHeader} {pos size : U64} (hv : h.formatVersion = .v3 → h.v4Data = none)
    (hs : (if ((h.v4Data.map (·.betTableSize64)).getD 0#64 = 0#64 && h.formatVersion == .v3) = true then betTableSizeOf h pos
        else pure ((h.v4Data.map (·.betTableSize64)).getD 0#64)) = .ok size) : size.toNat = Spec.betSize h pos := by
  unfold Spec.betSize
  cases hd : h.v4Data with
  | some v =>
    rw [hd, if_neg] at hs
    · cases hs; rfl
    · intro hc
      rw [Bool.and_eq_true] at hc
      rw [hv (eq_of_beq hc.2)] at hd
      cases hd
  | none =>
    rw [hd] at hs
    by_cases h3 : h.formatVersion = .v3
    · rw [if_pos (by rw [h3]; decide)] at hs
      dsimp only
      rw [if_pos h3]
      unfold betTableSizeOf sub64 at hs
      split at hs
      · rename_i hle
        cases hs
        exact BitVec.toNat_sub_of_le hle
      · cases hs
    · rw [if_neg (by
        intro hc
        rw [Bool.and_eq_true] at hc
        exact h3 (eq_of_beq hc.2))] at hs
      dsimp only
      rw [if_neg h3]
      cases hs; rfl

/-- Equal on the way: a step that gives the same, and then the same whatever it gives. -/
theorem bind_same {α β : Type} {r r' : Res α} {g g' : α → Res β} (h : r' = r) (hg : ∀ x, r = .ok x → g' x = g x) :
    (r' >>= g') = (r >>= g) := by
  subst h
  cases r' with
  | error err => rfl
  | ok x => exact hg x rfl

theorem loadHet_apart (e : Env) (hd : Spec.Damaged f f' lo hi) {off : Nat} {h : MpqHeader}
    (hv : h.formatVersion = .v3 → h.v4Data = none)
    (ha : ∀ pos, h.hetTablePos = some pos → pos ≠ 0#64 → Spec.Apart lo hi (off + pos.toNat) (Spec.hetSize h pos)) :
    loadHet e f' off h = loadHet e f off h := by
  unfold loadHet
  cases hp : h.hetTablePos with
  | none => rfl
  | some pos =>
    dsimp only
    by_cases h0 : pos = 0#64
    · rw [if_pos h0, if_pos h0]
    rw [if_neg h0, if_neg h0, e1_res, e1_res]
    refine bind_same rfl fun size hs => ?_
    have hs := hetSize_ok hv hs
    by_cases hz : size = 0#64
    · rw [if_pos hz, if_pos hz]
    rw [if_neg hz, if_neg hz]
    refine bind_same rfl fun o ho => ?_
    unfold addPos at ho
    split at ho
    · cases ho
      unfold readHetTable
      rw [readExtTable_apart _ hd (by rw [hs]; exact ha pos hp h0)]
    · cases ho

theorem loadBet_apart (e : Env) (hd : Spec.Damaged f f' lo hi) {off : Nat} {h : MpqHeader}
    (hv : h.formatVersion = .v3 → h.v4Data = none)
    (ha : ∀ pos, h.betTablePos = some pos → pos ≠ 0#64 → Spec.Apart lo hi (off + pos.toNat) (Spec.betSize h pos)) :
    loadBet e f' off h = loadBet e f off h := by
  unfold loadBet
  cases hp : h.betTablePos with
  | none => rfl
  | some pos =>
    dsimp only
    by_cases h0 : pos = 0#64
    · rw [if_pos h0, if_pos h0]
    rw [if_neg h0, if_neg h0, e1_res, e1_res]
    refine bind_same rfl fun size hs => ?_
    have hs := betSize_ok hv hs
    by_cases hz : size = 0#64
    · rw [if_pos hz, if_pos hz]
    rw [if_neg hz, if_neg hz]
    refine bind_same rfl fun o ho => ?_
    unfold addPos at ho
    split at ho
    · cases ho
      unfold readBetTable
      rw [readExtTable_apart _ hd (by rw [hs]; exact ha pos hp h0)]
    · cases ho

theorem loadClassic_apart (hd : Spec.Damaged f f' lo hi) {off : Nat} {h : MpqHeader} (usable : Bool)
    (hh : Spec.Apart lo hi (off + h.getHashTablePos.toNat) (16 * h.hashTableSize.toNat))
    (hb : Spec.Apart lo hi (off + h.getBlockTablePos.toNat) (16 * h.blockTableSize.toNat)) :
    loadClassic f' off h usable = loadClassic f off h usable := by
  unfold loadClassic
  split
  · refine bind_same rfl fun o ho => ?_
    unfold addPos at ho
    split at ho
    · cases ho
      unfold readHashTable
      rw [readAt_apart hd (by rw [Nat.mul_comm]; exact hh)]
      refine bind_same rfl fun t _ => bind_same rfl fun o ho => ?_
      unfold addPos at ho
      split at ho
      · cases ho
        unfold readBlockTable
        rw [readAt_apart hd (by rw [Nat.mul_comm]; exact hb)]
      · cases ho
    · cases ho
  · rfl

theorem readHiBlockTable_apart (hd : Spec.Damaged f f' lo hi) : ∀ (n off : Nat), Spec.Apart lo hi off (2 * n) →
    readHiBlockTable f' off n = readHiBlockTable f off n := by
  intro n
  induction n with
  | zero => intro off _; rfl
  | succ n ih =>
    intro off ha
    unfold Spec.Apart at ha
    unfold readHiBlockTable
    rw [readAt_apart hd (by unfold Spec.Apart; omega), ih _ (by unfold Spec.Apart; omega)]

theorem loadHiBlock_apart (hd : Spec.Damaged f f' lo hi) {off : Nat} {h : MpqHeader}
    (ha : ∀ pos, h.hiBlockTablePos = some pos → pos ≠ 0#64 → Spec.Apart lo hi (off + pos.toNat) (2 * h.blockTableSize.toNat)) :
    loadHiBlock f' off h = loadHiBlock f off h := by
  unfold loadHiBlock
  cases hp : h.hiBlockTablePos with
  | none => rfl
  | some pos =>
    dsimp only
    split
    · rfl
    · rename_i h0
      refine bind_same rfl fun o ho => ?_
      unfold addPos at ho
      split at ho
      · cases ho
        rw [readHiBlockTable_apart hd _ _ (ha pos hp h0)]
      · cases ho

/-! ## Reading a file -/

/-- The sector offsets of a file, decrypted. -/
def Spec.sectorOffsets (f : List Byte) (info : FileInfo) (key : U32) (count : Nat) : List U32 :=
  let raw := slice f info.filePos ((count + 1) * 4)
  toDwords (if info.isEncrypted then decryptFileData raw (key - 1) else raw)

/-- How far a file reaches from where it starts. A file stored as a whole has the stored size, and a checksum behind it if it
has one; a file in sectors has its table of offsets, its checksums, and its sectors up to the greatest offset. -/
def Spec.extent (f : List Byte) (shift : U16) (info : FileInfo) (key : U32) : Nat :=
  if info.isSingleUnit || !info.isCompressed then
    info.compressedSize + if info.hasSectorCrc && info.isSingleUnit then 4 else 0
  else
    let ss := 512 * 2 ^ shift.toNat % 2 ^ 64
    let count := (info.fileSize + ss - 1) / ss
    (Spec.sectorOffsets f info key count).foldr (fun o m => max o.toNat m)
      ((count + 1) * 4 + if info.hasSectorCrc then count * 4 else 0)

theorem foldr_max_le (os : List U32) (n : Nat) :
    n ≤ os.foldr (fun o m => max o.toNat m) n ∧ ∀ o ∈ os, o.toNat ≤ os.foldr (fun o m => max o.toNat m) n := by
  induction os with
  | nil => exact ⟨Nat.le_refl _, fun o h => nomatch h⟩
  | cons x os ih =>
    rw [List.foldr_cons]
    refine ⟨by omega, fun o ho => ?_⟩
    rcases List.mem_cons.1 ho with rfl | ho
    · omega
    · have := ih.2 o ho; omega

theorem Apart_sub {lo hi p n q m : Nat} (h : Spec.Apart lo hi p n) (h1 : p ≤ q) (h2 : q + m ≤ p + n) : Spec.Apart lo hi q m := by
  unfold Spec.Apart at h ⊢
  omega

theorem readSectors_apart (e : Env) (hd : Spec.Damaged f f' lo hi) (info : FileInfo) (key : U32) (ss n : Nat)
    (ha : Spec.Apart lo hi info.filePos n) : ∀ (os : List U32) (i done : Nat), (∀ o ∈ os, o.toNat ≤ n) →
    readSectors e f' info key ss i done os = readSectors e f info key ss i done os := by
  intro os
  induction os with
  | nil => intro i done _; rfl
  | cons o0 os ih =>
    intro i done hle
    cases os with
    | nil => rfl
    | cons o1 rest =>
      unfold readSectors
      split
      · rfl
      split
      · rfl
      have h1 := hle o1 (List.mem_cons_of_mem _ List.mem_cons_self)
      unfold readSector
      rw [readAt_apart hd (Apart_sub ha (by omega) (by omega))]
      exact bind_same rfl fun s _ => bind_same (ih _ _ fun o ho => hle o (List.mem_cons_of_mem _ ho)) fun _ _ => rfl

theorem readFileData_apart (e : Env) (hd : Spec.Damaged f f' lo hi) (off : Nat) (shift : U16) (name : List Byte) (info : FileInfo)
    (k : U32) (n : Nat) (ha : Spec.Apart lo hi info.filePos (Spec.extent f shift info (readerKey name off info k))) :
    readFileData e f' off shift name info k n = readFileData e f off shift name info k n := by
  unfold readFileData
  dsimp only
  unfold Spec.extent at ha
  by_cases hw : (info.isSingleUnit || !info.isCompressed) = true
  · rw [if_pos hw] at ha ⊢
    rw [if_pos hw, readAt_apart hd (Apart_sub ha (Nat.le_refl _) (by omega))]
    refine bind_same rfl fun raw _ => ?_
    split
    · rename_i hc
      rw [if_pos hc] at ha
      rw [readAt_apart hd (Apart_sub ha (by omega) (by omega))]
    · rfl
  · rw [if_neg hw] at ha ⊢
    rw [if_neg hw]
    dsimp only at ha
    generalize readerKey name off info k = key at ha
    unfold readSectoredFile
    refine bind_same rfl fun ss hss => bind_same rfl fun count hcount => ?_
    have hss : ss = 512 * 2 ^ shift.toNat % 2 ^ 64 := by
      unfold sectorSizeOf at hss
      split at hss <;> cases hss
      rfl
    have hcount : count = (info.fileSize + ss - 1) / ss := by
      unfold divCeil at hcount
      split at hcount <;> cases hcount
      rfl
    rw [← hss, ← hcount] at ha
    obtain ⟨hm, ho⟩ := foldr_max_le (Spec.sectorOffsets f info key count)
      ((count + 1) * 4 + if info.hasSectorCrc then count * 4 else 0)
    generalize (Spec.sectorOffsets f info key count).foldr _ _ = N at ha hm ho
    rw [readAt_apart hd (Apart_sub ha (Nat.le_refl _) (by omega))]
    refine bind_same rfl fun raw hraw => ?_
    have hraw : raw = slice f info.filePos ((count + 1) * 4) := by
      unfold readAt at hraw
      rw [if_neg (by omega)] at hraw
      split at hraw <;> cases hraw
      rfl
    unfold Spec.sectorOffsets at ho
    dsimp only at ho
    rw [← hraw] at ho
    dsimp only
    generalize toDwords (if info.isEncrypted = true then decryptFileData raw (key - 1) else raw) = offsets at ho ⊢
    split
    · rename_i hc
      rw [Bool.and_eq_true] at hc
      rw [if_pos hc.1] at hm
      rw [readAt_apart hd (Apart_sub ha (by omega) (by omega))]
      exact bind_same rfl fun _ _ => readSectors_apart e hd info key ss N ha _ _ _ ho
    · exact readSectors_apart e hd info key ss N ha _ _ _ ho

/-- The place of the block entry a lookup in the classic tables answers with. -/
theorem findFileClassic_at {a : Archive} {name : List Byte} {info : FileInfo}
    (h : a.findFileClassic name = .ok (some info)) : ∃ bt block, a.blockTable = some bt ∧ bt[info.blockIndex]? = some block ∧
      info.fileSize = block.fileSize.toNat := by
  unfold Archive.findFileClassic at h
  split at h
  · cases h
  split at h
  · cases h
  rename_i bt hbt
  obtain ⟨r, _, h⟩ := bind_eq_ok.1 h
  split at h
  · cases h
  rename_i hashIndex entry
  split at h
  · cases h
  rename_i block hb
  obtain ⟨pos, _, h⟩ := bind_eq_ok.1 h
  have h := Option.some.inj (Except.ok.inj h)
  exact ⟨bt, block, hbt, by rw [← h]; exact hb, by rw [← h]⟩

/-- Where a file that the archive finds is stored: its place, and how far it reaches. -/
def Archive.stored (a : Archive) (name : List Byte) (info : FileInfo) : Nat × Nat :=
  (info.filePos, Spec.extent a.file a.header.blockSize info
    (readerKey name a.archiveOffset info (BitVec.ofNat 32 info.fileSize)))

/-- C77: reading a file depends on nothing but the tables and the bytes of that file. If other bytes come to stand outside of
what the file occupies, reading it gives what it gave before, be it the content or an error. This is so for all archives and
files, whoever made them. -/
theorem C77_other_files_unaffected (e : Env) (a : Archive) (f' : List Byte) (lo hi : Nat) (hd : Spec.Damaged a.file f' lo hi)
    (name : List Byte) (ha : ∀ info, a.findFile name = .ok (some info) → Spec.Apart lo hi (a.stored name info).1 (a.stored name info).2) :
    ({ a with file := f' } : Archive).readFile e name = a.readFile e name := by
  unfold Archive.readFile
  refine bind_same (r := a.findFile name) rfl fun r hr => ?_
  cases r with
  | none => rfl
  | some info =>
    dsimp only
    have ha := ha info hr
    unfold Archive.stored at ha
    split
    · exact readFileData_apart e hd _ _ _ _ _ _ ha
    · rename_i hx
      have hcl : a.findFileClassic name = .ok (some info) := by
        unfold Archive.findFile at hr
        have : usableHetBet a.hetTable a.betTable = none := by
          unfold usableHetBet
          split
          · rename_i h1 h2; rw [h1, h2] at hx; exact absurd rfl hx
          · rfl
        rw [this] at hr
        exact hr
      obtain ⟨bt, block, hbt, hb, hs⟩ := findFileClassic_at hcl
      rw [hbt]
      dsimp only
      rw [hb]
      dsimp only
      rw [hs, BitVec.ofNat_toNat, BitVec.setWidth_eq] at ha
      exact readFileData_apart e hd _ _ _ _ _ _ ha

theorem loadAttributes_apart (e : Env) (a : Archive) (f' : List Byte) (lo hi : Nat) (hd : Spec.Damaged a.file f' lo hi)
    (ha : ∀ info, a.findFile attributesName = .ok (some info) →
      Spec.Apart lo hi (a.stored attributesName info).1 (a.stored attributesName info).2) :
    ({ a with file := f' } : Archive).loadAttributes e = a.loadAttributes e := by
  unfold Archive.loadAttributes
  rw [C77_other_files_unaffected e a f' lo hi hd attributesName ha]

/-- The places from `lo` up to `hi` belong neither to what stands in front of the archive nor to its header nor to any of its
tables. (A block of user data in front is looked through, so its target is not among them either.) -/
structure Spec.OutsideTables (f : List Byte) (off : Nat) (h : MpqHeader) (lo hi : Nat) : Prop where
  header : off + h.formatVersion.headerSize.toNat ≤ lo
  userData : ∀ o target, o % 512 = 0 → o < off → _root_.Spec.pointsTo f o target → Spec.Apart lo hi target 4
  hash : Spec.Apart lo hi (off + h.getHashTablePos.toNat) (16 * h.hashTableSize.toNat)
  block : Spec.Apart lo hi (off + h.getBlockTablePos.toNat) (16 * h.blockTableSize.toNat)
  hiBlock : ∀ pos, h.hiBlockTablePos = some pos → pos ≠ 0#64 → Spec.Apart lo hi (off + pos.toNat) (2 * h.blockTableSize.toNat)
  het : ∀ pos, h.hetTablePos = some pos → pos ≠ 0#64 → Spec.Apart lo hi (off + pos.toNat) (Spec.hetSize h pos)
  bet : ∀ pos, h.betTablePos = some pos → pos ≠ 0#64 → Spec.Apart lo hi (off + pos.toNat) (Spec.betSize h pos)

/-- C77: damage outside of the tables, and outside of `(attributes)` if there is such a file, leaves opening as it was: the
archive opens, with the same header, tables and attributes. -/
theorem C77_opening_unaffected (e : Env) (f f' : List Byte) (a : Archive) (h : openArchive e f = .ok a) (lo hi : Nat)
    (hd : Spec.Damaged f f' lo hi) (ho : Spec.OutsideTables f a.archiveOffset a.header lo hi)
    (hat : ∀ info, a.findFile attributesName = .ok (some info) →
      Spec.Apart lo hi (a.stored attributesName info).1 (a.stored attributesName info).2) :
    openArchive e f' = .ok { a with file := f' } := by
  obtain ⟨off, ud, hdr, het, bet, classic, hib, attributes, h1, h2, h3, h4, h5, h6, rfl⟩ := openArchive_parts e f a h
  have hv4 := (findHeader_fields h1).2.2.2
  have hv : hdr.formatVersion = .v3 → hdr.v4Data = none := fun h3 => hv4 (by rw [h3]; decide)
  unfold openArchive
  refine bind_eq_ok.2 ⟨_, findHeader_apart hd _ _ _ h1 ho.header ho.userData, ?_⟩
  dsimp only
  rw [if_pos rfl]
  unfold Archive.loadTables
  dsimp only
  have e1 : ∀ {α : Type} (c : Bool) (x y : Res α) (g : α → Res Archive),
      (if c then (x >>= g) else (y >>= g)) = ((if c then x else y) >>= g) := by
    intro α c x y g; cases c <;> rfl
  rw [e1]
  refine bind_eq_ok.2 ⟨het, ?_, ?_⟩
  · rw [loadHet_apart (off := off) e hd hv ho.het]; exact h2
  rw [e1]
  refine bind_eq_ok.2 ⟨bet, ?_, bind_eq_ok.2 ⟨classic, ?_, bind_eq_ok.2 ⟨hib, ?_, bind_eq_ok.2 ⟨attributes, ?_, rfl⟩⟩⟩⟩
  · rw [loadBet_apart (off := off) e hd hv ho.bet]; exact h3
  · have hh : Spec.Apart lo hi (off + hdr.getHashTablePos.toNat) (16 * hdr.hashTableSize.toNat) := ho.hash
    have hb : Spec.Apart lo hi (off + hdr.getBlockTablePos.toNat) (16 * hdr.blockTableSize.toNat) := ho.block
    rw [loadClassic_apart hd _ hh hb]; exact h4
  · have hh : ∀ pos, hdr.hiBlockTablePos = some pos → pos ≠ 0#64 →
        Spec.Apart lo hi (off + pos.toNat) (2 * hdr.blockTableSize.toNat) := ho.hiBlock
    rw [loadHiBlock_apart hd hh]; exact h5
  · rw [← h6]
    exact loadAttributes_apart e (openedFrom f off ud hdr het bet classic hib none) f' lo hi hd hat

/-- C77: in particular, listing is as it was, if `(listfile)` is not damaged. -/
theorem C77_listing_unaffected (e : Env) (a : Archive) (f' : List Byte) (lo hi : Nat) (hd : Spec.Damaged a.file f' lo hi)
    (hl : ∀ info, a.findFile listfileName = .ok (some info) →
      Spec.Apart lo hi (a.stored listfileName info).1 (a.stored listfileName info).2) :
    ({ a with file := f' } : Archive).list e = a.list e ∧ ({ a with file := f' } : Archive).listAll = a.listAll := by
  refine ⟨?_, rfl⟩
  have hla : ∀ names, ({ a with file := f' } : Archive).lookupAll names = a.lookupAll names := by
    intro names
    induction names with
    | nil => rfl
    | cons n ns ih => unfold Archive.lookupAll; rw [ih]; rfl
  unfold Archive.list
  refine bind_same (r := a.findFile listfileName) rfl fun r _ => ?_
  cases r with
  | none => rfl
  | some info =>
    dsimp only
    rw [C77_other_files_unaffected e a f' lo hi hd listfileName hl]
    exact bind_same rfl fun data _ => hla _

/-! ## Archives made by the builder -/

theorem offsetsFrom_le : ∀ (bs : List (List Byte)) (start : Nat) (o : U32), o ∈ offsetsFrom start bs →
    o.toNat ≤ start + bs.flatten.length
  | [], start, o, h => by
    simp only [offsetsFrom, List.mem_singleton] at h
    subst h
    rw [BitVec.toNat_ofNat]
    exact Nat.le_trans (Nat.mod_le _ _) (by omega)
  | b :: bs, start, o, h => by
    rw [List.flatten_cons, List.length_append]
    rcases List.mem_cons.1 h with rfl | h
    · rw [BitVec.toNat_ofNat]
      exact Nat.le_trans (Nat.mod_le _ _) (by omega)
    · have := offsetsFrom_le bs _ o h
      omega

theorem foldr_max_bound {os : List U32} {n m : Nat} (hn : n ≤ m) (h : ∀ o ∈ os, o.toNat ≤ m) :
    os.foldr (fun o m => max o.toNat m) n ≤ m := by
  induction os with
  | nil => exact hn
  | cons x os ih =>
    rw [List.foldr_cons]
    have := h x List.mem_cons_self
    have := ih fun o ho => h o (List.mem_cons_of_mem _ ho)
    omega

/-- A file reaches no further than the bytes the builder wrote for it. -/
theorem extent_written {e : Env} {crcs : Bool} {p : FileWriteParams} {w : Written} (hw : writeFile e crcs p = .ok w)
    (info : FileInfo) (ao : Nat) (hdesc : Describes info ao p w) (pre post : List Byte) (hpre : pre.length = ao + p.filePos)
    (shift : U16) (hss : sectorSizeOf shift = .ok p.sectorSize) (hsize : p.data.length + p.data.length / 64 + 12 < 2 ^ 32)
    (name : List Byte) (hn : hashString name htFileKey = hashString p.name htFileKey) :
    Spec.extent (pre ++ w.bytes ++ post) shift info (readerKey name ao info (BitVec.ofNat 32 p.data.length)) ≤ w.bytes.length := by
  obtain ⟨_, hwl⟩ := writeFile_facts hw hss hsize
  have hcs := hdesc.compressedSize
  have hinfo := hdesc.infoOf
  unfold writeFile at hw
  by_cases hlen : p.data.length ≤ p.sectorSize
  · rw [if_pos hlen] at hw
    obtain ⟨s, b, hs, hf, hsz, hby⟩ := writeSingle_eq hw
    obtain ⟨h1, h2, h3, h4, h5⟩ := infoOf_bits info.hashIndex info.blockIndex ao info.locale p w hf
    rw [← hinfo] at h1 h2 h3 h4 h5
    unfold Spec.extent
    rw [h4, if_pos (show (true || _) = true from rfl), h5, hwl, hcs, Bool.and_true]
    unfold checksumCount
    rw [if_pos hlen]
    cases crcs <;> simp
  · rw [if_neg hlen] at hw
    obtain ⟨count, stored, hc, hs, hf, hrest⟩ := writeSectored_eq hw
    obtain ⟨hss0, hcount, hle, hpos, hge⟩ := divCeil_ok hc
    have h512 := sectorSizeOf_512 hss hss0
    have hpw := mapM_ok hs
    obtain ⟨hflat, _⟩ := sectorsOf_spec p.sectorSize count p.data 0 hle
    have htot := flatten_stored_le hpw
    rw [hflat] at htot
    have hcb : (count - 1) * 512 ≤ p.data.length := Nat.le_trans (Nat.mul_le_mul_left _ h512) hge
    have hbound : (count + 1) * 4 + (if crcs then count * 4 else 0) + (stored.map (·.1)).flatten.length < 2 ^ 32 := by
      split <;> omega
    obtain ⟨hsz, hbytes⟩ := hrest hbound
    obtain ⟨h1, h2, h3, h4, h5⟩ := infoOf_bits info.hashIndex info.blockIndex ao info.locale p w hf
    rw [← hinfo] at h1 h2 h3 h4 h5
    have hcc : checksumCount p.sectorSize p.data.length = count := by
      unfold checksumCount
      rw [if_neg hlen, hcount]
    rw [hcc] at hwl
    unfold Spec.extent
    rw [h4, h5]
    by_cases hany : info.isCompressed = true
    · rw [hany, if_neg (by simp)]
      dsimp only
      have hss' : 512 * 2 ^ shift.toNat % 2 ^ 64 = p.sectorSize := by
        unfold sectorSizeOf at hss
        split at hss
        · exact Except.ok.inj hss
        · cases hss
      rw [hss', hdesc.fileSize, ← hcount]
      have hkey : p.encrypt = true → readerKey name ao info (BitVec.ofNat 32 p.data.length) =
          calculateFileKey p.name p.filePos (BitVec.ofNat 32 p.data.length) w.flags := by
        intro henc
        rw [henc] at hf
        have := key_agrees info.hashIndex info.blockIndex ao info.locale p w name (BitVec.ofNat 32 p.data.length) hn hf
        rwa [← hinfo] at this
      generalize readerKey name ao info (BitVec.ofNat 32 p.data.length) = rkey at hkey
      have hoff : Spec.sectorOffsets (pre ++ w.bytes ++ post) info rkey count =
          offsetsFrom ((count + 1) * 4 + (if crcs then count * 4 else 0)) (stored.map (·.1)) := by
        dsimp only at hbytes
        generalize hkw : calculateFileKey p.name p.filePos (BitVec.ofNat 32 p.data.length) w.flags = key at hbytes hkey
        generalize hofs : offsetsFrom ((count + 1) * 4 + (if crcs then count * 4 else 0)) (stored.map (·.1)) = offsets at hbytes
        have hol : offsets.length = count + 1 := by
          rw [← hofs, offsetsFrom_length, List.length_map, ← pairwise₂_length hpw]; simp [sectorsOf]
        have htl : (if p.encrypt then encryptBlock offsets (key - 1) else offsets).length = count + 1 := by
          split
          · rw [encryptBlock_length, hol]
          · exact hol
        have hsl : slice (pre ++ w.bytes ++ post) info.filePos ((count + 1) * 4) =
            ofDwords (if p.encrypt then encryptBlock offsets (key - 1) else offsets) := by
          unfold slice
          rw [hdesc.filePos, ← hpre, List.append_assoc, List.drop_left, hbytes, List.append_assoc, List.append_assoc,
            List.take_left' (by rw [ofDwords_length, htl]; omega)]
        unfold Spec.sectorOffsets
        dsimp only
        rw [hsl, h2]
        cases henc : p.encrypt with
        | false => simp only [Bool.false_eq_true, if_false]; exact toDwords_ofDwords _
        | true =>
          simp only [if_true]
          rw [hkey henc, ← encryptData_ofDwords, decryptFileData_encryptData, toDwords_ofDwords]
      rw [hoff]
      have hend : (count + 1) * 4 + (if crcs then count * 4 else 0) + (stored.map (·.1)).flatten.length = w.bytes.length := by
        rw [hwl, hsz]; split <;> omega
      refine foldr_max_bound (by omega) fun o ho => ?_
      have := offsetsFrom_le _ _ _ ho
      omega
    · have hany : info.isCompressed = false := by simpa using hany
      rw [hany, if_pos (by simp), Bool.and_false, if_neg (by simp), hwl, hcs]
      omega

variable {e : Env} {md5 : Md5} {b : Builder} {f : List Byte}

theorem flatMap_take_le {α : Type} (g : α → List Byte) : ∀ (l : List α) (i j : Nat) (x : α), l[i]? = some x → i < j →
    ((l.take i).flatMap g).length + (g x).length ≤ ((l.take j).flatMap g).length
  | [], i, _, _, h, _ => by simp at h
  | y :: l, 0, j + 1, x, h, _ => by
    simp only [List.getElem?_cons_zero, Option.some.injEq] at h
    subst h
    simp only [List.take_zero, List.flatMap_nil, List.length_nil, List.take_succ_cons, List.flatMap_cons, List.length_append]
    omega
  | y :: l, i + 1, j + 1, x, h, hij => by
    rw [List.getElem?_cons_succ] at h
    have := flatMap_take_le g l i j x h (by omega)
    simp only [List.take_succ_cons, List.flatMap_cons, List.length_append]
    omega

/-- Where the builder put a file, and that it reaches no further than what was written for it. -/
theorem Layout.stored_found (L : Layout e md5 b f) (hmd : ∀ x, (md5 x).length = 16) {before after : List Byte} {a : Archive}
    (ha : L.Opened before after a) {p : PendingFile} {s : Stored} {pre post : List Byte}
    (hfiles : L.files = pre ++ s.bytes ++ post)
    (hstore : storeFile e b.generateCrcs L.sectorSize (b.version.headerSize.toNat + pre.length) p = .ok s)
    (data : List Byte) (hdata : p.source = some data) (hsize : data.length + data.length / 64 + 12 < 2 ^ 32)
    (name : List Byte) (info : FileInfo) (hn : hashString name htFileKey = hashString p.name htFileKey)
    (hpos : info.filePos = before.length + (b.version.headerSize.toNat + pre.length))
    (hcs : info.compressedSize = s.block.compressedSize.toNat) (hfs : info.fileSize = s.block.fileSize.toNat)
    (hfl : info.flags = s.block.flags) :
    (a.stored name info).2 ≤ s.bytes.length := by
  obtain ⟨data', w, hd', hw, hseq⟩ := storeFile_ok hstore
  rw [hdata] at hd'
  injection hd' with hd'
  subst hd'
  have h32 : 2 ^ 32 = 4294967296 := rfl
  obtain ⟨hws, _⟩ := writeFile_facts hw L.sector hsize
  have hhdr := L.header_length hmd
  have hblk : s.block.fileSize = BitVec.ofNat 32 data.length := by rw [hseq]
  have hlenNat : (BitVec.ofNat 32 data.length : U32).toNat = data.length := by
    rw [BitVec.toNat_ofNat, Nat.mod_eq_of_lt (by omega)]
  have hcsz : s.block.compressedSize = BitVec.ofNat 32 w.size := by rw [hseq]
  have hflg : s.block.flags = w.flags ||| flagExists := by rw [hseq]
  have hbytes : s.bytes = w.bytes := by rw [hseq]
  have hfsn : info.fileSize = data.length := by rw [hfs, hblk, hlenNat]
  have hdesc : Describes info before.length
      { data, name := p.name, compression := p.compression, encrypt := p.encrypt, useFixKey := p.useFixKey,
        sectorSize := L.sectorSize, filePos := b.version.headerSize.toNat + pre.length } w := by
    refine ⟨hpos, ?_, hfsn, ?_⟩
    · rw [hcs, hcsz, BitVec.toNat_ofNat, Nat.mod_eq_of_lt hws]
    · rw [hfl, hflg]; rfl
  have hF : before ++ f ++ after = before ++ L.header ++ pre ++ w.bytes ++
      (post ++ L.het ++ L.bet ++ L.hash ++ L.block ++ L.hi ++ after) := by
    conv => lhs; rw [L.bytes]
    rw [hfiles, hbytes]
    simp only [List.append_assoc]
  unfold Archive.stored
  dsimp only
  have hbs : L.hdr.blockSize = b.blockSize := rfl
  rw [ha.file, ha.offset, ha.header, hbs, hF, hfsn, hbytes]
  exact extent_written hw info before.length hdesc (before ++ L.header ++ pre) _
    (by simp only [List.length_append, hhdr]; omega) b.blockSize L.sector hsize name hn

/-- C77: in an archive made by the builder, damage inside of what one file occupies cannot be noticed anywhere else: the
archive opens, with the same header and tables, so that every name is found as before, and every other file (the first added
under its name) is read as before under every spelling of its name, also encrypted and compressed ones. The hypotheses are
those of C26. Left out, as there: archives of version 3 and 4 with more than four files and uncompressed tables, in which a
name may lead to the wrong file. -/
theorem C77_built_damage_local_partial (e : Env) (md5 : Md5) (hmd : ∀ x, (md5 x).length = 16) (b : Builder)
    (f : List Byte) (hb : buildBytes e md5 b = .ok f) (pending : List PendingFile) (hp : prepareListfile b = .ok pending)
    (hext : ClassicLookup e.codecs b pending) (before after : List Byte) (hal : before.length % 512 = 0)
    (hclean : ∀ o < before.length, o % 512 = 0 → ¬ Spec.archiveMark (before ++ f ++ after) o ∧
      ¬ Spec.userDataMark (before ++ f ++ after) o)
    (hlen : f.length < addressable b.version) (hfit : before.length + f.length < 2 ^ 64)
    (hcount : pending.length < 0xFFFFFFFE)
    (hsize : ∀ p ∈ pending, ∀ data, p.source = some data → data.length + data.length / 64 + 12 < 2 ^ 32)
    (hna : ∀ p ∈ pending, ¬ Spec.sameName (attributesName.map BitVec.toNat) (p.name.map BitVec.toNat))
    (hc : NoCollision (attributesName :: pending.map (·.name))) :
    ∃ a ss blocks, openArchive e (before ++ f ++ after) = .ok a ∧ sectorSizeOf b.blockSize = .ok ss ∧
      a.blockTable = some blocks ∧ blocks.length = pending.length ∧
      ∀ (i : Nat) (block : BlockEntry), blocks[i]? = some block →
      ∀ (lo hi : Nat) (f' : List Byte), (a.fileRegion ss (block, i)).1 ≤ lo →
        hi ≤ (a.fileRegion ss (block, i)).1 + (a.fileRegion ss (block, i)).2 →
        Spec.Damaged (before ++ f ++ after) f' lo hi →
        ∃ a', openArchive e f' = .ok a' ∧ a' = { a with file := f' } ∧ (∀ name, a'.findFile name = a.findFile name) ∧
          ∀ (j : Nat) (q : PendingFile) (name : List Byte), j ≠ i → pending[j]? = some q →
            Spec.sameName (name.map BitVec.toNat) (q.name.map BitVec.toNat) →
            (∀ k < j, ∀ r, pending[k]? = some r → ¬ Spec.sameName (name.map BitVec.toNat) (r.name.map BitVec.toNat)) →
            a'.readFile e name = a.readFile e name := by
  obtain ⟨L⟩ := layout_of_build hmd hb
  have hpe : L.pending = pending := Except.ok.inj (L.prepared.symm.trans hp)
  subst hpe
  obtain ⟨a, hopen, ha, hfb⟩ := L.opens hmd hext before after hal hclean hlen hfit hcount hna hc
  have hfl := L.f_length hmd
  have hhdr := L.header_length hmd
  have e48 : 2 ^ 48 = 281474976710656 := rfl
  have h32 : 2 ^ 32 = 4294967296 := rfl
  have h48 := addressable_le b.version
  refine ⟨a, L.sectorSize, L.stored.map (·.block), hopen, L.sector, ha.block, by rw [List.length_map, L.placed.length], ?_⟩
  intro i block hblk lo hi f' hlo hhi hd
  have hil : i < L.pending.length := by
    have := (List.getElem?_eq_some_iff.1 hblk).1
    rwa [List.length_map, L.placed.length] at this
  have hgi : L.pending[i]? = some L.pending[i] := List.getElem?_eq_getElem hil
  -- what the damaged file occupies
  obtain ⟨s, pre, post, h1, h2, h3, h4⟩ := L.placed.get hgi
  rw [← L.files_eq] at h2
  have hbl : block = s.block := by
    rw [List.getElem?_map, h1] at hblk
    exact (Option.some.inj hblk).symm
  subst hbl
  have hfll : L.files.length = pre.length + s.bytes.length + post.length := by
    rw [h2]; simp only [List.length_append]
  have hreg : a.fileRegion L.sectorSize (s.block, i) =
      (before.length + (b.version.headerSize.toNat + pre.length), s.bytes.length) := by
    have hfp := L.file_pos hmd hlen h1 _ (by omega) h4
    obtain ⟨data, w, hdt, hw, hs⟩ := storeFile_ok h4
    have hsz := hsize _ (List.mem_of_getElem? hgi) data hdt
    obtain ⟨hws, hwl⟩ := writeFile_facts hw L.sector hsz
    unfold Archive.fileRegion
    dsimp only
    rw [ha.his, hfp, ha.offset]
    congr 1
    rw [hs]
    dsimp only
    rw [writeFile_crc_flag hw, BitVec.toNat_ofNat, Nat.mod_eq_of_lt hws, BitVec.toNat_ofNat, Nat.mod_eq_of_lt (by omega),
      hwl]
    rfl
  rw [hreg] at hlo hhi
  dsimp only at hlo hhi
  have hfile := ha.file
  rw [← hfile] at hd
  have hout : Spec.OutsideTables (before ++ f ++ after) a.archiveOffset a.header lo hi := by
    have hpos := L.positions hmd hlen
    constructor
    · have : L.hdr.formatVersion = b.version := rfl
      rw [ha.offset, ha.header, this]; omega
    · intro o target ho1 ho2 hpt
      rw [ha.offset] at ho2
      exact ((hclean o ho2 ho1).2 hpt.1).elim
    · rw [ha.offset, ha.header, hpos.1]; exact Or.inr (Or.inr (by omega))
    · rw [ha.offset, ha.header, hpos.2]; exact Or.inr (Or.inr (by omega))
    · intro pos hp h0
      rw [ha.header] at hp
      have := L.hiPos hmd hlen
      split at this
      · obtain ⟨pos', hp', _, ht⟩ := this
        rw [hp] at hp'
        cases hp'
        rw [ha.offset, ht]; exact Or.inr (Or.inr (by omega))
      · rcases this with h | h
        · rw [hp] at h; cases h
        · rw [hp] at h; exact (h0 (Option.some.inj h)).elim
    · intro pos hp h0
      rw [ha.header] at hp
      have := L.hetPos hmd hlen
      split at this
      · obtain ⟨x, y, hx, hy, _, _, htx, hty⟩ := this
        rw [hp] at hx
        cases hx
        rw [ha.offset, htx]; exact Or.inr (Or.inr (by omega))
      · rw [hp] at this; cases this.1
    · intro pos hp h0
      rw [ha.header] at hp
      have := L.hetPos hmd hlen
      split at this
      · obtain ⟨x, y, hx, hy, _, _, htx, hty⟩ := this
        rw [hp] at hy
        cases hy
        rw [ha.offset, hty]; exact Or.inr (Or.inr (by omega))
      · rw [hp] at this; cases this.2
  refine ⟨{ a with file := f' }, ?_, rfl, fun name => rfl, ?_⟩
  · rw [hfile] at hd
    refine C77_opening_unaffected e _ f' a hopen lo hi hd hout fun info hinfo => ?_
    rw [hfb attributesName, L.find_none ha hcount _ hna hc] at hinfo
    cases hinfo
  · intro j q name hji hq hname hfirst
    refine C77_other_files_unaffected e a f' lo hi hd name fun info hinfo => ?_
    have hc' := noCollision_respell (noCollision_tail hc)
      (List.mem_map.2 ⟨q, List.mem_of_getElem? hq, rfl⟩ : q.name ∈ L.pending.map (·.name)) hname
    obtain ⟨t, hashIndex, pre', post', g1, g2, g3, g4⟩ := L.find_some hmd ha hlen hfit hcount hq name hname hfirst hc'
    rw [hfb name, g4] at hinfo
    cases hinfo
    obtain ⟨data, _, hdt, _⟩ := storeFile_ok g3
    have hle := L.stored_found hmd ha g2 g3 data hdt (hsize q (List.mem_of_getElem? hq) data hdt) name
      { hashIndex, blockIndex := j, filePos := before.length + (b.version.headerSize.toNat + pre'.length),
        compressedSize := t.block.compressedSize.toNat, fileSize := t.block.fileSize.toNat, flags := t.block.flags,
        locale := q.locale } (fileKey_sameName hname) rfl rfl rfl rfl
    obtain ⟨t', pre'', post'', k1, k2, k3, k4⟩ := L.placed.get hq
    rw [g1] at k1
    cases k1
    rw [← L.files_eq] at k2
    have hfl' : L.files.length = pre'.length + t.bytes.length + post'.length := by rw [g2]; simp only [List.length_append]
    have hfl'' : L.files.length = pre''.length + t.bytes.length + post''.length := by rw [k2]; simp only [List.length_append]
    have p1 := L.file_pos hmd hlen g1 _ (by omega) g3
    have p2 := L.file_pos hmd hlen g1 _ (by omega) k4
    have hpl : pre'.length = pre''.length := by omega
    change Spec.Apart lo hi (before.length + (b.version.headerSize.toNat + pre'.length)) _
    rcases Nat.lt_or_gt_of_ne hji with hlt | hgt
    · have := flatMap_take_le (·.bytes) L.stored j i t g1 hlt
      rw [← h3, ← k3] at this
      exact Or.inr (Or.inl (by omega))
    · have := flatMap_take_le (·.bytes) L.stored i j s h1 hgt
      rw [← h3, ← k3] at this
      exact Or.inr (Or.inr (by omega))

/-- In the sample, whatever comes to stand where the second file was, the first is still read. -/
example (v : FormatVersion) (hv : v ≠ .v1) : ∃ f a block, buildBytes toyEnv zeroMd5 (sampleBuilder v) = .ok f ∧
    openArchive toyEnv f = .ok a ∧ ((a.blockTable.getD [])[1]? = some block) ∧
    ∀ lo hi f', (a.fileRegion 4096 (block, 1)).1 ≤ lo →
      hi ≤ (a.fileRegion 4096 (block, 1)).1 + (a.fileRegion 4096 (block, 1)).2 → Spec.Damaged f f' lo hi →
      ∃ a', openArchive toyEnv f' = .ok a' ∧ a'.readFile toyEnv (ascii "dir/A.TXT") = .ok (List.replicate 40 0x41#8) := by
  obtain ⟨f, a, hf, hlt, ho, hr, _⟩ := sample_reads v hv
  obtain ⟨a1, ss, blocks, ho1, hss, hbt, hbl, hdam⟩ := C77_built_damage_local_partial toyEnv zeroMd5
    (fun _ => List.length_replicate)
    (sampleBuilder v) f hf samplePending (samplePending_eq v) (fun _ => .inl ⟨rfl, by decide⟩) [] [] rfl
    (by intro o ho; cases ho) (by unfold addressable; rw [if_neg (show ¬ (sampleBuilder v).version = .v1 from hv)]; exact hlt)
    (by have e48 : (2 : Nat) ^ 48 = 281474976710656 := rfl
        have : (2 : Nat) ^ 64 = 18446744073709551616 := rfl
        simp only [List.length_nil]; omega)
    (by decide) sample_sizes (by decide +kernel)
    (noCollision_lit (by decide +kernel))
  rw [List.nil_append, List.append_nil] at ho1 hdam
  rw [ho] at ho1
  cases ho1
  have h4096 : sectorSizeOf 3#16 = .ok 4096 := by decide
  have hss' : ss = 4096 := Except.ok.inj (hss.symm.trans h4096)
  subst hss'
  have hlen : 1 < blocks.length := by rw [hbl]; decide
  refine ⟨f, a, blocks[1], hf, ho, by rw [hbt]; exact List.getElem?_eq_getElem hlen, ?_⟩
  intro lo hi f' hlo hhi hd
  obtain ⟨a', ho', _, _, hread⟩ := hdam 1 blocks[1] (List.getElem?_eq_getElem hlen) lo hi f' hlo hhi hd
  refine ⟨a', ho', ?_⟩
  rw [hread 0 _ (ascii "dir/A.TXT") (by decide) rfl (by decide +kernel) (by intro j hj; omega)]
  exact hr

/-- The hypotheses of the general theorems: three bytes, the middle one damaged. -/
example : Spec.Damaged [1#8, 2#8, 3#8] [1#8, 9#8, 3#8] 1 2 ∧ Spec.Apart 1 2 0 1 ∧ Spec.Apart 1 2 2 1 ∧ ¬ Spec.Apart 1 2 0 2 := by
  refine ⟨⟨rfl, ?_⟩, by unfold Spec.Apart; omega, by unfold Spec.Apart; omega, by unfold Spec.Apart; omega⟩
  intro i hi
  match i, hi with
  | 0, _ => rfl
  | 1, h => omega
  | n + 2, _ => rfl

end Mopaq
