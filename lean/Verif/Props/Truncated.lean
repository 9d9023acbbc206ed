import Verif.Props.Header
import Verif.Props.Builder
import Verif.Props.Spelling
import Verif.Props.ErrorKind
import Verif.Lemmas.ArchiveOpen

/-! # C74: archives that have been cut off -/

namespace Mopaq

/-! ## What can be read from the beginning of a file can be read from the file -/

/-- Whatever `r` returns, `r'` returns. -/
def Keeps {α : Type} (r r' : Res α) : Prop := ∀ x, r = .ok x → r' = .ok x

theorem Keeps.refl {α : Type} (r : Res α) : Keeps r r := fun _ h => h

theorem Keeps.error {α : Type} (err : Err) (r : Res α) : Keeps (.error err) r := fun _ h => nomatch h

theorem Keeps.throw {α : Type} (err : Err) (r : Res α) : Keeps (throw err) r := fun _ h => nomatch h

theorem Keeps.bind {α β : Type} {r r' : Res α} {g g' : α → Res β} (h : Keeps r r') (hg : ∀ x, r = .ok x → Keeps (g x) (g' x)) :
    Keeps (r >>= g) (r' >>= g') := by
  intro y hy
  obtain ⟨x, hx, hy⟩ := bind_eq_ok.1 hy
  exact bind_eq_ok.2 ⟨x, h x hx, hg x hx y hy⟩

theorem Keeps.ite {α : Type} {c : Prop} [Decidable c] {r r' s s' : Res α} (h : c → Keeps r r') (h' : ¬ c → Keeps s s') :
    Keeps (if c then r else s) (if c then r' else s') := by
  by_cases hc : c
  · rw [if_pos hc, if_pos hc]; exact h hc
  · rw [if_neg hc, if_neg hc]; exact h' hc

variable (more : List Byte)

theorem readAt_keeps (f : List Byte) (o n : Nat) : Keeps (readAt f o n) (readAt (f ++ more) o n) := by
  intro x h
  unfold readAt at h ⊢
  by_cases h0 : n = 0
  · rw [if_pos h0] at h ⊢; exact h
  · rw [if_neg h0] at h ⊢
    by_cases hl : o + n ≤ f.length
    · rw [if_pos hl] at h
      rw [if_pos (by rw [List.length_append]; omega), ← h]
      unfold slice
      rw [List.drop_append_of_le_length (by omega), List.take_append_of_le_length (by rw [List.length_drop]; omega)]
    · rw [if_neg hl] at h; cases h

theorem rd16_more {r rest : List Byte} {v : U16} (h : rd16 r = .ok (v, rest)) : rd16 (r ++ more) = .ok (v, rest ++ more) := by
  obtain ⟨h1, h2⟩ := (rd16_ok_iff _ _).1 h
  cases h2
  exact (rd16_ok_iff _ _).2 ⟨by rw [List.length_append]; omega, by
    rw [List.take_append_of_le_length h1, List.drop_append_of_le_length h1]⟩

theorem rd32_more {r rest : List Byte} {v : U32} (h : rd32 r = .ok (v, rest)) : rd32 (r ++ more) = .ok (v, rest ++ more) := by
  obtain ⟨h1, h2⟩ := (rd32_ok_iff _ _).1 h
  cases h2
  exact (rd32_ok_iff _ _).2 ⟨by rw [List.length_append]; omega, by
    rw [List.take_append_of_le_length h1, List.drop_append_of_le_length h1]⟩

theorem rd64_more {r rest : List Byte} {v : U64} (h : rd64 r = .ok (v, rest)) : rd64 (r ++ more) = .ok (v, rest ++ more) := by
  obtain ⟨h1, h2⟩ := (rd64_ok_iff _ _).1 h
  cases h2
  exact (rd64_ok_iff _ _).2 ⟨by rw [List.length_append]; omega, by
    rw [List.take_append_of_le_length h1, List.drop_append_of_le_length h1]⟩

theorem rdBytes_more {n : Nat} {r v rest : List Byte} (h : rdBytes n r = .ok (v, rest)) :
    rdBytes n (r ++ more) = .ok (v, rest ++ more) := by
  obtain ⟨h1, h2⟩ := (rdBytes_ok_iff _ _ _).1 h
  cases h2
  exact (rdBytes_ok_iff _ _ _).2 ⟨by rw [List.length_append]; omega, by
    rw [List.take_append_of_le_length h1, List.drop_append_of_le_length h1]⟩

/-- One more field. -/
macro "field" h:term : tactic => `(tactic| (refine bind_eq_ok.2 ⟨_, $h, ?_⟩; dsimp only))

theorem readV2_more {r rest : List Byte} {v : U64 × U16 × U16} (h : readV2 r = .ok (v, rest)) :
    readV2 (r ++ more) = .ok (v, rest ++ more) := by
  unfold readV2 at h ⊢
  obtain ⟨⟨a, r1⟩, h1, h⟩ := bind_eq_ok.1 h
  obtain ⟨⟨b, r2⟩, h2, h⟩ := bind_eq_ok.1 h
  obtain ⟨⟨c, r3⟩, h3, h⟩ := bind_eq_ok.1 h
  cases h
  field rd64_more more h1
  field rd16_more more h2
  field rd16_more more h3
  rfl

theorem readV3_more {r rest : List Byte} {v : U64 × U64 × U64} (h : readV3 r = .ok (v, rest)) :
    readV3 (r ++ more) = .ok (v, rest ++ more) := by
  unfold readV3 at h ⊢
  obtain ⟨⟨a, r1⟩, h1, h⟩ := bind_eq_ok.1 h
  obtain ⟨⟨b, r2⟩, h2, h⟩ := bind_eq_ok.1 h
  obtain ⟨⟨c, r3⟩, h3, h⟩ := bind_eq_ok.1 h
  cases h
  field rd64_more more h1
  field rd64_more more h2
  field rd64_more more h3
  rfl

theorem readV4_more {r rest : List Byte} {v : V4Data} (h : readV4 r = .ok (v, rest)) :
    readV4 (r ++ more) = .ok (v, rest ++ more) := by
  unfold readV4 at h ⊢
  obtain ⟨⟨x1, r1⟩, h1, h⟩ := bind_eq_ok.1 h
  obtain ⟨⟨x2, r2⟩, h2, h⟩ := bind_eq_ok.1 h
  obtain ⟨⟨x3, r3⟩, h3, h⟩ := bind_eq_ok.1 h
  obtain ⟨⟨x4, r4⟩, h4, h⟩ := bind_eq_ok.1 h
  obtain ⟨⟨x5, r5⟩, h5, h⟩ := bind_eq_ok.1 h
  obtain ⟨⟨x6, r6⟩, h6, h⟩ := bind_eq_ok.1 h
  obtain ⟨⟨x7, r7⟩, h7, h⟩ := bind_eq_ok.1 h
  obtain ⟨⟨x8, r8⟩, h8, h⟩ := bind_eq_ok.1 h
  obtain ⟨⟨x9, r9⟩, h9, h⟩ := bind_eq_ok.1 h
  obtain ⟨⟨x10, r10⟩, h10, h⟩ := bind_eq_ok.1 h
  obtain ⟨⟨x11, r11⟩, h11, h⟩ := bind_eq_ok.1 h
  obtain ⟨⟨x12, r12⟩, h12, h⟩ := bind_eq_ok.1 h
  cases h
  field rd64_more more h1
  field rd64_more more h2
  field rd64_more more h3
  field rd64_more more h4
  field rd64_more more h5
  field rd32_more more h6
  field rdBytes_more more h7
  field rdBytes_more more h8
  field rdBytes_more more h9
  field rdBytes_more more h10
  field rdBytes_more more h11
  field rdBytes_more more h12
  rfl

theorem readHeader_keeps (r : List Byte) : Keeps (readHeader r) (readHeader (r ++ more)) := by
  intro y h
  unfold readHeader at h ⊢
  obtain ⟨⟨sig, r0⟩, h0, h⟩ := bind_eq_ok.1 h
  field rd32_more more h0
  dsimp only at h
  by_cases hs : sig ≠ mpqSignature
  · rw [if_pos hs] at h; cases h
  rw [if_neg hs] at h ⊢
  obtain ⟨⟨x1, r1⟩, h1, h⟩ := bind_eq_ok.1 h
  obtain ⟨⟨x2, r2⟩, h2, h⟩ := bind_eq_ok.1 h
  obtain ⟨⟨x3, r3⟩, h3, h⟩ := bind_eq_ok.1 h
  obtain ⟨⟨x4, r4⟩, h4, h⟩ := bind_eq_ok.1 h
  obtain ⟨⟨x5, r5⟩, h5, h⟩ := bind_eq_ok.1 h
  obtain ⟨⟨x6, r6⟩, h6, h⟩ := bind_eq_ok.1 h
  obtain ⟨⟨x7, r7⟩, h7, h⟩ := bind_eq_ok.1 h
  obtain ⟨⟨x8, r8⟩, h8, h⟩ := bind_eq_ok.1 h
  field rd32_more more h1
  field rd32_more more h2
  field rd16_more more h3
  field rd16_more more h4
  field rd32_more more h5
  field rd32_more more h6
  field rd32_more more h7
  field rd32_more more h8
  dsimp only at h
  cases hv : FormatVersion.fromRaw x3 with
  | none => rw [hv] at h; cases h
  | some v =>
    rw [hv] at h
    dsimp only at h ⊢
    by_cases hz : x1.toNat < v.headerSize.toNat
    · rw [if_pos hz] at h; cases h
    rw [if_neg hz] at h ⊢
    by_cases hv2 : (!v.ge .v2) = true
    · rw [if_pos hv2] at h ⊢; exact h
    rw [if_neg hv2] at h ⊢
    obtain ⟨⟨⟨a, b, c⟩, q2⟩, k2, h⟩ := bind_eq_ok.1 h
    field readV2_more more k2
    dsimp only at h
    by_cases hv3 : (!v.ge .v3) = true
    · rw [if_pos hv3] at h ⊢; exact h
    rw [if_neg hv3] at h ⊢
    obtain ⟨⟨⟨a', b', c'⟩, q3⟩, k3, h⟩ := bind_eq_ok.1 h
    field readV3_more more k3
    dsimp only at h
    by_cases hv4 : (!v.ge .v4) = true
    · rw [if_pos hv4] at h ⊢; exact h
    rw [if_neg hv4] at h ⊢
    obtain ⟨⟨w, q4⟩, k4, h⟩ := bind_eq_ok.1 h
    field readV4_more more k4
    exact h

theorem u32At_more {f : List Byte} {o v : Nat} (h : Spec.u32At f o = some v) : Spec.u32At (f ++ more) o = some v := by
  by_cases hl : o + 4 ≤ f.length
  · rw [u32At_eq_some _ _ hl] at h
    rw [u32At_eq_some _ _ (by rw [List.length_append]; omega), ← h]
    unfold slice
    rw [List.drop_append_of_le_length (by omega), List.take_append_of_le_length (by rw [List.length_drop]; omega)]
  · rw [u32At_eq_none _ _ (by omega)] at h; cases h

theorem u32At_inside (f : List Byte) (o : Nat) (h : o + 4 ≤ f.length) : Spec.u32At (f ++ more) o = Spec.u32At f o := by
  rw [u32At_eq_some _ _ h]
  exact u32At_more more (u32At_eq_some _ _ h)

theorem pointsTo_more {f : List Byte} {o t : Nat} (h : Spec.pointsTo f o t) : Spec.pointsTo (f ++ more) o t := by
  obtain ⟨h1, ⟨s, h2⟩, ⟨d, h3, h4⟩, x, h5⟩ := h
  exact ⟨u32At_more more h1, ⟨s, u32At_more more h2⟩, ⟨d, u32At_more more h3, h4⟩, x, u32At_more more h5⟩

theorem pointsTo_inside {f : List Byte} {o t : Nat} (h : o + 16 ≤ f.length) (hp : Spec.pointsTo (f ++ more) o t) :
    Spec.pointsTo f o t := by
  unfold Spec.pointsTo Spec.userDataMark at hp ⊢
  rw [u32At_inside more _ _ (by omega), u32At_inside more _ _ (by omega), u32At_inside more _ _ (by omega),
    u32At_inside more _ _ (by omega)] at hp
  exact hp

theorem pointsTo_unique {f : List Byte} {o t t' : Nat} (h : Spec.pointsTo f o t) (h' : Spec.pointsTo f o t') : t = t' := by
  obtain ⟨_, _, ⟨d, h3, h4⟩, _⟩ := h
  obtain ⟨_, _, ⟨d', h3', h4'⟩, _⟩ := h'
  rw [h3] at h3'
  injection h3' with h3'
  omega

theorem startsAt_unique {f : List Byte} {o t t' : Nat} (h : Spec.startsAt f o t) (h' : Spec.startsAt f o t') : t = t' := by
  have hne : ¬ (Spec.archiveMark f o ∧ Spec.userDataMark f o) := by
    rintro ⟨a, b⟩
    unfold Spec.archiveMark at a
    unfold Spec.userDataMark at b
    rw [a] at b
    injection b with b
    omega
  rcases h with ⟨h1, h2⟩ | ⟨h1, h2⟩ <;> rcases h' with ⟨h1', h2'⟩ | ⟨h1', h2'⟩
  · omega
  · exact absurd ⟨h1, h1'.1⟩ hne
  · exact absurd ⟨h1', h1.1⟩ hne
  · exact pointsTo_unique h1 h1'

theorem startsAt_more {f : List Byte} {o t : Nat} (h : Spec.startsAt f o t) : Spec.startsAt (f ++ more) o t := by
  rcases h with ⟨h1, h2⟩ | ⟨h1, h2⟩
  · exact .inl ⟨u32At_more more h1, h2⟩
  · exact .inr ⟨pointsTo_more more h1, u32At_more more h2⟩

/-- No block of user data in front of `start` points behind the end of the file. -/
def Spec.UserDataInside (f : List Byte) (start : Nat) : Prop :=
  ∀ o target, o % 512 = 0 → o < start → _root_.Spec.pointsTo f o target → target < f.length

theorem findHeader_keeps (f : List Byte) (off : Nat) (ud : Option UserDataHeader) (h : MpqHeader)
    (hf : findHeader f = .ok (off, ud, h)) (hu : Spec.UserDataInside f off) : findHeader (f ++ more) = .ok (off, ud, h) := by
  have hok : ∀ (s : Nat) (ud' : Option UserDataHeader) (r : Res MpqHeader),
      (r.map fun h => (s, ud', h)) = .ok (off, ud, h) → s = off ∧ ud' = ud ∧ r = .ok h := by
    intro s ud' r hr
    cases r with
    | error e => cases hr
    | ok x =>
      simp only [Except.map, Except.ok.injEq, Prod.mk.injEq] at hr
      exact ⟨hr.1, hr.2.1, by rw [hr.2.2]⟩
  rcases C13_search_exact f with ⟨o, s, h1, h2, h3, h4, ud', h5, h6, h7⟩ | ⟨o, _, _, _, _, h'⟩ | ⟨_, h'⟩
  rotate_left
  · rw [hf] at h'; cases h'
  · rw [hf] at h'; cases h'
  rw [hf] at h7
  obtain ⟨rfl, rfl, hr⟩ := hok s ud' _ h7.symm
  have hso : o ≤ s := by
    rcases h4 with ⟨_, h⟩ | ⟨⟨_, _, ⟨d, _, h⟩, _⟩, _⟩ <;> omega
  have hslen : s ≤ f.length := by
    by_cases hs : s + 4 ≤ f.length
    · omega
    · have hm : Spec.archiveMark f s := by
        rcases h4 with ⟨h, h'⟩ | ⟨_, h⟩
        · rw [h']; exact h
        · exact h
      unfold Spec.archiveMark at hm
      rw [u32At_eq_none _ _ (by omega)] at hm
      cases hm
  -- nothing new comes before it
  have hnb : NothingBefore (f ++ more) o := by
    intro o' ho' hm
    obtain ⟨hc, hs⟩ := h3 o' ho' hm
    have h16 : o' + 16 ≤ f.length := by omega
    have hin : ∀ t, Spec.pointsTo (f ++ more) o' t → Spec.pointsTo f o' t ∧ t < f.length := fun t ht =>
      ⟨pointsTo_inside more h16 ht, hu o' t hm (by omega) (pointsTo_inside more h16 ht)⟩
    have hfour : ∀ t, Spec.pointsTo f o' t → t < f.length → t + 4 ≤ f.length := by
      intro t ht htl
      by_cases h4 : t + 4 ≤ f.length
      · exact h4
      · exact absurd ⟨ht.1, .inr ⟨t, ht, htl, u32At_eq_none _ _ (by omega)⟩⟩ hc
    refine ⟨?_, ?_⟩
    · rintro ⟨hmark, hn | ⟨t, ht, _, htn⟩⟩
      · have hmark' : Spec.userDataMark f o' := by
          unfold Spec.userDataMark at hmark ⊢
          rwa [u32At_inside more _ _ (by omega)] at hmark
        refine hc ⟨hmark', .inl fun t ht => hn t (pointsTo_more more ht)⟩
      · obtain ⟨ht, htl⟩ := hin t ht
        have h4 := hfour t ht htl
        rw [u32At_inside more _ _ h4, u32At_eq_some _ _ h4] at htn
        cases htn
    · rintro t (⟨hmark, rfl⟩ | ⟨ht, hmark⟩)
      · unfold Spec.archiveMark at hmark
        rw [u32At_inside more _ _ (by omega)] at hmark
        exact hs t (.inl ⟨hmark, rfl⟩)
      · obtain ⟨ht, htl⟩ := hin t ht
        unfold Spec.archiveMark at hmark
        rw [u32At_inside more _ _ (hfour t ht htl)] at hmark
        exact hs t (.inr ⟨ht, hmark⟩)
  have hst := startsAt_more more h4
  have hlt : o < (f ++ more).length := by rw [List.length_append]; omega
  rcases C13_search_exact (f ++ more) with ⟨o1, s1, k1, k2, k3, k4, ud1, k5, k6, k7⟩ | ⟨o1, k1, k2, k3, k4, k'⟩ | ⟨k, k'⟩
  · have ho : o1 = o := by
      rcases Nat.lt_trichotomy o1 o with hlt | heq | hgt
      · exact absurd k4 ((hnb o1 hlt k1).2 s1)
      · exact heq
      · exact absurd hst ((k3 o hgt h1).2 s)
    subst ho
    have hs1 : s1 = s := startsAt_unique k4 hst
    subst hs1
    have hnu : ∀ F, ¬ (Spec.archiveMark F o1 ∧ Spec.userDataMark F o1) := by
      rintro F ⟨a, b⟩
      unfold Spec.archiveMark at a
      unfold Spec.userDataMark at b
      rw [a] at b
      injection b with b
      omega
    have hud : ud1 = ud' := by
      cases ud1 with
      | none =>
        cases ud' with
        | none => rfl
        | some u => exact absurd ⟨(k5 rfl).1, (pointsTo_more more (h6 u rfl).1).1⟩ (hnu _)
      | some u1 =>
        cases ud' with
        | none => exact absurd ⟨u32At_more more (h5 rfl).1, (k6 u1 rfl).1.1⟩ (hnu _)
        | some u =>
          obtain ⟨_, a1, a2, a3⟩ := k6 u1 rfl
          obtain ⟨_, b1, b2, b3⟩ := h6 u rfl
          have c1 := (u32At_more more b1).symm.trans a1
          have c2 := (u32At_more more b2).symm.trans a2
          have c3 := (u32At_more more b3).symm.trans a3
          simp only [Option.some.injEq] at c1 c2 c3
          cases u; cases u1
          simp only [Option.some.injEq, UserDataHeader.mk.injEq]
          exact ⟨(BitVec.eq_of_toNat_eq c1).symm, (BitVec.eq_of_toNat_eq c2).symm, (BitVec.eq_of_toNat_eq c3).symm⟩
    rw [k7, hud, List.drop_append_of_le_length hslen, readHeader_keeps more _ _ hr]
    rfl
  · rcases Nat.lt_trichotomy o1 o with hlt | heq | hgt
    · exact absurd k4 (hnb o1 hlt k1).1
    · subst heq
      exfalso
      obtain ⟨hum, hc⟩ := k4
      rcases hst with ⟨hm, _⟩ | ⟨hp, hm⟩
      · unfold Spec.archiveMark at hm
        unfold Spec.userDataMark at hum
        rw [hm] at hum
        injection hum with hum
        omega
      · rcases hc with hc | ⟨t, ht, _, hn⟩
        · exact hc _ hp
        · rw [pointsTo_unique ht hp] at hn
          unfold Spec.archiveMark at hm
          rw [hm] at hn
          cases hn
    · exact absurd hst ((k3 o hgt h1).2 s)
  · exact absurd hst ((k o h1 hlt).2 s)

/-! ## Tables and files -/

theorem readHashTable_keeps (f : List Byte) (off : Nat) (n : U32) :
    Keeps (readHashTable f off n) (readHashTable (f ++ more) off n) := by
  unfold readHashTable
  refine .ite (fun _ => .refl _) fun _ => ?_
  intro x h
  cases hr : readAt f off (n.toNat * 16) with
  | error err => rw [hr] at h; cases h
  | ok raw => rw [hr] at h; rw [readAt_keeps more _ _ _ _ hr]; exact h

theorem readBlockTable_keeps (f : List Byte) (off : Nat) (n : U32) :
    Keeps (readBlockTable f off n) (readBlockTable (f ++ more) off n) := by
  unfold readBlockTable
  intro x h
  cases hr : readAt f off (n.toNat * 16) with
  | error err => rw [hr] at h; cases h
  | ok raw => rw [hr] at h; rw [readAt_keeps more _ _ _ _ hr]; exact h

theorem readHiBlockTable_keeps (f : List Byte) : ∀ (n off : Nat),
    Keeps (readHiBlockTable f off n) (readHiBlockTable (f ++ more) off n) := by
  intro n
  induction n with
  | zero => intro off; exact .refl _
  | succ n ih =>
    intro off x h
    unfold readHiBlockTable at h ⊢
    cases hr : readAt f off 2 with
    | error err => rw [hr] at h; cases h
    | ok b =>
      rw [hr] at h
      rw [readAt_keeps more _ _ _ _ hr]
      dsimp only at h ⊢
      cases hm : readHiBlockTable f (off + 2) n with
      | error err => rw [hm] at h; cases h
      | ok rest => rw [hm] at h; rw [ih _ _ hm]; exact h

theorem loadClassic_keeps (f : List Byte) (off : Nat) (h : MpqHeader) (usable : Bool) :
    Keeps (loadClassic f off h usable) (loadClassic (f ++ more) off h usable) := by
  unfold loadClassic
  refine .ite (fun _ => ?_) fun _ => .refl _
  exact .bind (.refl _) fun _ _ => .bind (readHashTable_keeps more _ _ _) fun _ _ => .bind (.refl _) fun _ _ =>
    .bind (readBlockTable_keeps more _ _ _) fun _ _ => .refl _

theorem loadHiBlock_keeps (f : List Byte) (off : Nat) (h : MpqHeader) :
    Keeps (loadHiBlock f off h) (loadHiBlock (f ++ more) off h) := by
  unfold loadHiBlock
  cases h.hiBlockTablePos with
  | none => exact .refl _
  | some pos =>
    dsimp only
    refine .ite (fun _ => .refl _) fun _ => ?_
    exact .bind (.refl _) fun _ _ => .bind (readHiBlockTable_keeps more _ _ _) fun _ _ => .refl _

theorem readSector_keeps (e : Env) (f : List Byte) (info : FileInfo) (key : U32) (i at_ stored expected : Nat) :
    Keeps (readSector e f info key i at_ stored expected) (readSector e (f ++ more) info key i at_ stored expected) := by
  unfold readSector
  exact .bind (readAt_keeps more _ _ _) fun _ _ => .refl _

theorem readSectors_keeps (e : Env) (f : List Byte) (info : FileInfo) (key : U32) (ss : Nat) : ∀ (os : List U32) (i done : Nat),
    Keeps (readSectors e f info key ss i done os) (readSectors e (f ++ more) info key ss i done os) := by
  intro os
  induction os with
  | nil => intro i done; exact .refl _
  | cons o0 os ih =>
    intro i done
    cases os with
    | nil => exact .refl _
    | cons o1 rest =>
      unfold readSectors
      refine .ite (fun _ => .refl _) fun _ => .ite (fun _ => .refl _) fun _ => ?_
      exact .bind (readSector_keeps more _ _ _ _ _ _ _ _) fun _ _ => .bind (ih _ _) fun _ _ => .refl _

theorem readSectoredFile_keeps (e : Env) (f : List Byte) (shift : U16) (info : FileInfo) (key : U32) :
    Keeps (readSectoredFile e f shift info key) (readSectoredFile e (f ++ more) shift info key) := by
  unfold readSectoredFile
  refine .bind (.refl _) fun _ _ => .bind (.refl _) fun _ _ => .bind (readAt_keeps more _ _ _) fun _ _ => ?_
  refine .ite (fun _ => ?_) fun _ => readSectors_keeps more _ _ _ _ _ _ _ _
  exact .bind (readAt_keeps more _ _ _) fun _ _ => readSectors_keeps more _ _ _ _ _ _ _ _

theorem readFileData_keeps (e : Env) (f : List Byte) (off : Nat) (shift : U16) (name : List Byte) (info : FileInfo) (k : U32)
    (n : Nat) : Keeps (readFileData e f off shift name info k n) (readFileData e (f ++ more) off shift name info k n) := by
  unfold readFileData
  dsimp only
  refine .ite (fun _ => ?_) fun _ => readSectoredFile_keeps more _ _ _ _ _
  refine .bind (readAt_keeps more _ _ _) fun _ _ => ?_
  refine .ite (fun _ => ?_) fun _ => .refl _
  exact .bind (readAt_keeps more _ _ _) fun _ _ => .refl _

/-- The archive with more bytes behind the file. -/
def Archive.extend (a : Archive) : Archive := { a with file := a.file ++ more }

theorem readFile_keeps (e : Env) (a : Archive) (name : List Byte) :
    Keeps (a.readFile e name) ((a.extend more).readFile e name) := by
  unfold Archive.readFile
  refine .bind (r := a.findFile name) (.refl _) fun info _ => ?_
  cases info with
  | none => exact .refl _
  | some info =>
    dsimp only
    refine .ite (fun _ => readFileData_keeps more _ _ _ _ _ _ _ _) fun _ => ?_
    show Keeps _ (match a.blockTable with | none => _ | some blockTable => _)
    cases a.blockTable with
    | none => exact .refl _
    | some t =>
      dsimp only
      cases t[info.blockIndex]? with
      | none => exact .refl _
      | some block => exact readFileData_keeps more _ _ _ _ _ _ _ _

theorem list_keeps (e : Env) (a : Archive) : Keeps (a.list e) ((a.extend more).list e) := by
  unfold Archive.list
  refine .bind (r := a.findFile listfileName) (.refl _) fun info _ => ?_
  have hl : ∀ names, (a.extend more).lookupAll names = a.lookupAll names := by
    intro names
    induction names with
    | nil => rfl
    | cons n ns ih => unfold Archive.lookupAll; rw [ih]; rfl
  cases info with
  | none => exact .refl _
  | some info =>
    dsimp only
    refine .bind (readFile_keeps more _ _ _) fun data _ => ?_
    rw [hl]
    exact .refl _

theorem loadAttributes_keeps (e : Env) (a : Archive) : Keeps (a.loadAttributes e) ((a.extend more).loadAttributes e) := by
  unfold Archive.loadAttributes
  refine .ite (fun _ => .refl _) fun _ => ?_
  intro x h
  cases hr : a.readFile e attributesName with
  | ok data => rw [hr] at h; rw [readFile_keeps more _ _ _ _ hr]; exact h
  | error err =>
    rw [hr] at h
    rcases open_readFile e a attributesName hr with ⟨rfl, hf⟩ | ⟨ho, hf⟩
    · rw [open_readFile_missing e (a.extend more) attributesName hf]; exact h
    · have hne : err ≠ .fileNotFound := by
        rintro rfl
        simp [OpenErr] at ho
      exfalso
      cases err <;> first | exact hne rfl | cases h

/-- An open archive from its parts. -/
def openedFrom (f : List Byte) (off : Nat) (ud : Option UserDataHeader) (hdr : MpqHeader) (het : Option HetTable)
    (bet : Option BetTable) (classic : Option (HashTable × List BlockEntry)) (hi : Option (List U16))
    (attributes : Option Attributes) : Archive where
  file := f
  archiveOffset := off
  userData := ud
  header := hdr
  hashTable := classic.map Prod.fst
  blockTable := classic.map Prod.snd
  hiBlockTable := hi
  hetTable := het
  betTable := bet
  attributes := attributes

theorem openArchive_parts (e : Env) (f : List Byte) (a : Archive) (h : openArchive e f = .ok a) :
    ∃ off ud hdr het bet classic hi attributes, findHeader f = .ok (off, ud, hdr) ∧
      (if hdr.formatVersion.ge .v3 then loadHet e f off hdr else pure none) = .ok het ∧
      (if hdr.formatVersion.ge .v3 then loadBet e f off hdr else pure none) = .ok bet ∧
      loadClassic f off hdr (usableHetBet het bet).isSome = .ok classic ∧ loadHiBlock f off hdr = .ok hi ∧
      (openedFrom f off ud hdr het bet classic hi none).loadAttributes e = .ok attributes ∧
      a = openedFrom f off ud hdr het bet classic hi attributes := by
  unfold openArchive at h
  obtain ⟨⟨off, ud, hdr⟩, h1, h⟩ := bind_eq_ok.1 h
  dsimp only at h
  rw [if_pos rfl] at h
  unfold Archive.loadTables at h
  have e1 : ∀ {α : Type} (c : Bool) (x y : Res α) (g : α → Res Archive),
      (if c then (x >>= g) else (y >>= g)) = ((if c then x else y) >>= g) := by
    intro α c x y g; cases c <;> rfl
  dsimp only at h
  rw [e1] at h
  obtain ⟨het, h2, h⟩ := bind_eq_ok.1 h
  rw [e1] at h
  obtain ⟨bet, h3, h⟩ := bind_eq_ok.1 h
  obtain ⟨classic, h4, h⟩ := bind_eq_ok.1 h
  obtain ⟨hi, h5, h⟩ := bind_eq_ok.1 h
  obtain ⟨attributes, h6, h⟩ := bind_eq_ok.1 h
  cases h
  exact ⟨off, ud, hdr, het, bet, classic, hi, attributes, h1, h2, h3, h4, h5, h6, rfl⟩

/-- C74: what opens when a file is cut off opens from the whole file, for archives of versions 1 and 2: there are the same
tables, the same files are found with the same properties, every file that can be read has the same content, and a listing is
the same. (`UserDataInside`: a block of user data in front of the archive does not point into the missing part.) -/
theorem C74_cut_agrees_partial (e : Env) (short more : List Byte) (a : Archive) (h : openArchive e short = .ok a)
    (hv : a.header.formatVersion = .v1 ∨ a.header.formatVersion = .v2) (hu : Spec.UserDataInside short a.archiveOffset) :
    ∃ a', openArchive e (short ++ more) = .ok a' ∧ a'.archiveOffset = a.archiveOffset ∧ a'.header = a.header ∧
      a'.attributes = a.attributes ∧ (∀ name, a'.findFile name = a.findFile name) ∧
      (∀ name data, a.readFile e name = .ok data → a'.readFile e name = .ok data) ∧
      (∀ files, a.list e = .ok files → a'.list e = .ok files) ∧ a'.listAll = a.listAll := by
  obtain ⟨off, ud, hdr, het, bet, classic, hi, attributes, h1, h2, h3, h4, h5, h6, rfl⟩ := openArchive_parts e short a h
  have hv3 : hdr.formatVersion.ge .v3 = false := by
    rcases hv with hv | hv <;> dsimp only [openedFrom] at hv <;> rw [hv] <;> decide
  refine ⟨Archive.extend more _, ?_, rfl, rfl, rfl, fun _ => rfl, fun name data hd => readFile_keeps more _ _ _ _ hd,
    fun files hl => list_keeps more _ _ _ hl, rfl⟩
  rw [hv3] at h2 h3
  unfold openArchive
  refine bind_eq_ok.2 ⟨_, findHeader_keeps more _ _ _ _ h1 hu, ?_⟩
  dsimp only
  rw [if_pos rfl]
  unfold Archive.loadTables
  dsimp only
  rw [hv3]
  show (pure none >>= _ : Res Archive) = _
  refine bind_eq_ok.2 ⟨het, h2, bind_eq_ok.2 ⟨bet, h3, bind_eq_ok.2 ⟨classic, loadClassic_keeps more _ _ _ _ _ h4,
    bind_eq_ok.2 ⟨hi, loadHiBlock_keeps more _ _ _ _ h5, bind_eq_ok.2 ⟨attributes, ?_, rfl⟩⟩⟩⟩⟩
  exact loadAttributes_keeps more _ _ _ h6

theorem readAt_bound {f d : List Byte} {o n : Nat} (h : readAt f o n = .ok d) : n = 0 ∨ o + n ≤ f.length := by
  unfold readAt at h
  by_cases h0 : n = 0
  · exact .inl h0
  · rw [if_neg h0] at h
    by_cases hl : o + n ≤ f.length
    · exact .inr hl
    · rw [if_neg hl] at h; cases h

theorem readHiBlockTable_bound {f : List Byte} : ∀ {n off : Nat} {t : List U16}, readHiBlockTable f off n = .ok t →
    n = 0 ∨ off + 2 * n ≤ f.length := by
  intro n
  induction n with
  | zero => intro off t _; exact .inl rfl
  | succ n ih =>
    intro off t h
    unfold readHiBlockTable at h
    cases hr : readAt f off 2 with
    | error err => rw [hr] at h; cases h
    | ok b =>
      rw [hr] at h
      dsimp only at h
      cases hm : readHiBlockTable f (off + 2) n with
      | error err => rw [hm] at h; cases h
      | ok rest =>
        have h2 := readAt_bound hr
        have := ih hm
        right
        omega

theorem loadClassic_bound {f : List Byte} {off : Nat} {hdr : MpqHeader} {usable : Bool} {c : Option (HashTable × List BlockEntry)}
    (h : loadClassic f off hdr usable = .ok c) (hs : 0 < hdr.hashTableSize.toNat) :
    off + hdr.getHashTablePos.toNat + hdr.hashTableSize.toNat * 16 ≤ f.length ∧
    (hdr.blockTableSize.toNat = 0 ∨ off + hdr.getBlockTablePos.toNat + hdr.blockTableSize.toNat * 16 ≤ f.length) := by
  unfold loadClassic at h
  rw [if_pos (by rw [decide_eq_true hs, Bool.or_true])] at h
  have hadd : ∀ {p : U64} {x : Nat}, addPos off p = .ok x → x = off + p.toNat := by
    intro p x hx
    unfold addPos at hx
    split at hx
    · cases hx; rfl
    · cases hx
  obtain ⟨o1, h1, h⟩ := bind_eq_ok.1 h
  obtain ⟨t1, h2, h⟩ := bind_eq_ok.1 h
  obtain ⟨o2, h3, h⟩ := bind_eq_ok.1 h
  obtain ⟨t2, h4, h⟩ := bind_eq_ok.1 h
  rw [hadd h1] at h2
  rw [hadd h3] at h4
  constructor
  · unfold readHashTable at h2
    split at h2
    · cases h2
    · cases hr : readAt f (off + hdr.getHashTablePos.toNat) (hdr.hashTableSize.toNat * 16) with
      | error err => rw [hr] at h2; cases h2
      | ok raw =>
        have := readAt_bound hr
        omega
  · unfold readBlockTable at h4
    cases hr : readAt f (off + hdr.getBlockTablePos.toNat) (hdr.blockTableSize.toNat * 16) with
    | error err => rw [hr] at h4; cases h4
    | ok raw =>
      have := readAt_bound hr
      omega

theorem loadHiBlock_bound {f : List Byte} {off : Nat} {hdr : MpqHeader} {hi : Option (List U16)} {pos : U64}
    (h : loadHiBlock f off hdr = .ok hi) (hp : hdr.hiBlockTablePos = some pos) (hne : pos ≠ 0#64) :
    hdr.blockTableSize.toNat = 0 ∨ off + pos.toNat + 2 * hdr.blockTableSize.toNat ≤ f.length := by
  unfold loadHiBlock at h
  rw [hp] at h
  dsimp only at h
  rw [if_neg hne] at h
  obtain ⟨o, h1, h⟩ := bind_eq_ok.1 h
  obtain ⟨t, h2, h⟩ := bind_eq_ok.1 h
  unfold addPos at h1
  split at h1
  · cases h1
    exact readHiBlockTable_bound h2
  · cases h1

variable {e : Env} {md5 : Md5} {b : Builder} {f : List Byte}

/-- The header found in the beginning of a file with an archive in it is the one of the archive. -/
theorem Layout.cut_header (L : Layout e md5 b f) (hmd : ∀ x, (md5 x).length = 16) (before : List Byte)
    (hal : before.length % 512 = 0)
    (hclean : ∀ o < before.length, o % 512 = 0 → ¬ Spec.archiveMark before o ∧ ¬ Spec.userDataMark before o)
    (F rest : List Byte) (hsplit : before ++ f = F ++ rest) (off : Nat) (ud : Option UserDataHeader) (hdr : MpqHeader)
    (h1 : Mopaq.findHeader F = .ok (off, ud, hdr)) : off = before.length ∧ hdr = L.hdr := by
  have hwhole := L.findHeader hmd before [] hal (by
    intro o ho hm
    have h4 : o + 4 ≤ before.length := by omega
    rw [List.append_nil]
    unfold Spec.archiveMark Spec.userDataMark
    rw [u32At_inside f before o h4]
    exact hclean o ho hm)
  rw [List.append_nil, hsplit] at hwhole
  have hmarks : ∀ o, o < before.length → o % 512 = 0 → ¬ Spec.archiveMark F o ∧ ¬ Spec.userDataMark F o := by
    intro o ho hm
    have h4 : o + 4 ≤ before.length := by omega
    obtain ⟨c1, c2⟩ := hclean o ho hm
    refine ⟨fun h => c1 ?_, fun h => c2 ?_⟩
    · have := u32At_more rest h
      rwa [← hsplit, u32At_inside f before o h4] at this
    · have := u32At_more rest h
      rwa [← hsplit, u32At_inside f before o h4] at this
  have hfirst := (C13_found_is_first_aligned _ _ _ hwhole).2.1
  have hoff : off = before.length := by
    rcases C13_search_exact F with ⟨o, s, k1, k2, k3, k4, ud', k5, k6, k7⟩ | ⟨o, _, _, _, _, h'⟩ | ⟨_, h'⟩
    rotate_left
    · rw [h1] at h'; cases h'
    · rw [h1] at h'; cases h'
    have hge : before.length ≤ o := by
      by_cases hlt : o < before.length
      · obtain ⟨c1, c2⟩ := hmarks o hlt k1
        rcases k4 with ⟨k, _⟩ | ⟨k, _⟩
        · exact absurd k c1
        · exact absurd k.1 c2
      · omega
    have hle : o ≤ before.length := by
      by_cases hlt : before.length < o
      · have hin : before.length + 4 ≤ F.length := by omega
        unfold Spec.archiveMark at hfirst
        rw [u32At_inside rest F _ hin] at hfirst
        exact absurd (.inl ⟨hfirst, rfl⟩) ((k3 before.length hlt hal).2 before.length)
      · omega
    have ho : o = before.length := by omega
    subst ho
    have hs : s = before.length := startsAt_unique (startsAt_more rest k4) (.inl ⟨hfirst, rfl⟩)
    rw [h1] at k7
    cases hr : readHeader (F.drop s) with
    | error err => rw [hr] at k7; cases k7
    | ok x =>
      rw [hr] at k7
      simp only [Except.map, Except.ok.injEq, Prod.mk.injEq] at k7
      omega
  subst hoff
  have hkeep := findHeader_keeps rest F before.length ud hdr h1 (by
    intro o t hm ho hp
    exact absurd hp.1 (hmarks o ho hm).2)
  rw [hwhole] at hkeep
  simp only [Except.ok.injEq, Prod.mk.injEq] at hkeep
  exact ⟨rfl, hkeep.2.2.symm⟩

/-- The tables of the archive cannot be read when something is missing at its end. -/
theorem Layout.cut_tables (L : Layout e md5 b f) (hmd : ∀ x, (md5 x).length = 16) (before F : List Byte)
    (hlen : f.length < addressable b.version) (hcount : L.pending.length < 0xFFFFFFFE)
    (hn : F.length < before.length + f.length) (usable : Bool) (c : Option (HashTable × List BlockEntry)) (hi : Option (List U16))
    (h4 : Mopaq.loadClassic F before.length L.hdr usable = .ok c) (h5 : Mopaq.loadHiBlock F before.length L.hdr = .ok hi) : False := by
  have hfl := L.f_length hmd
  have hhead : 32 ≤ b.version.headerSize.toNat := by cases b.version <;> decide
  obtain ⟨p1, p2⟩ := L.positions hmd hlen
  have hk : 2 ^ L.k < 2 ^ 32 := Nat.pow_lt_pow_right (by decide) L.hk
  have hkpos := Nat.two_pow_pos L.k
  have hsize : L.hdr.hashTableSize.toNat = 2 ^ L.k := by
    rw [L.hashTableSize, BitVec.toNat_ofNat, Nat.mod_eq_of_lt hk]
  have hbs : L.hdr.blockTableSize.toNat = L.pending.length := by
    rw [L.blockTableSize, BitVec.toNat_ofNat, Nat.mod_eq_of_lt L.count]
  obtain ⟨b1, b2⟩ := loadClassic_bound h4 (by omega)
  rw [hsize, p1] at b1
  rw [hbs, p2] at b2
  have hhl : L.hash.length = 16 * 2 ^ L.k := by rw [L.hash_eq, hashTableBytes_length, L.table_length hcount]
  have hbl : L.block.length = 16 * L.pending.length := by
    rw [L.block_eq, blockTableBytes_length, List.length_map, L.placed.length]
  have hil : L.hi.length = 0 ∨ (L.hiNeeded = true ∧ L.hi.length = 2 * L.pending.length) := by
    rw [L.hi_eq]
    by_cases hn : L.hiNeeded = true
    · rw [if_pos hn]
      exact .inr ⟨hn, by rw [hiBlockTableBytes_length, List.length_map, L.placed.length]⟩
    · rw [if_neg hn]; exact .inl rfl
  have h48 := addressable_le b.version
  have e48 : 2 ^ 48 = 281474976710656 := rfl
  have e64 : 2 ^ 64 = 18446744073709551616 := rfl
  rcases hil with hil | ⟨hneed, hil⟩
  · omega
  · have hv1 : b.version ≠ .v1 := by
      intro h
      rw [L.hiNeeded_eq, h] at hneed
      have : FormatVersion.v1.ge .v2 = false := by decide
      rw [this] at hneed; cases hneed
    have hpos : L.hdr.hiBlockTablePos = some (BitVec.ofNat 64
        (b.version.headerSize.toNat + L.files.length + L.het.length + L.bet.length + L.hash.length + L.block.length)) := by
      show (if b.version = .v1 then none else some (L.params.hiBlockTablePos.getD 0)) = _
      rw [if_neg hv1, L.params_eq]
      dsimp only
      rw [if_pos hneed]
      rfl
    have hlt : b.version.headerSize.toNat + L.files.length + L.het.length + L.bet.length + L.hash.length + L.block.length <
        2 ^ 64 := by omega
    have b3 := loadHiBlock_bound h5 hpos (by
      intro h0
      have := congrArg BitVec.toNat h0
      rw [BitVec.toNat_ofNat, Nat.mod_eq_of_lt hlt] at this
      have h00 : (0#64).toNat = 0 := rfl
      omega)
    rw [BitVec.toNat_ofNat, Nat.mod_eq_of_lt hlt, hbs] at b3
    omega

/-- An error that the caller is told of. -/
def Told (err : Err) : Prop := err ≠ .panic ∧ err ≠ .diverge

theorem told_readAt (f : List Byte) (off n : Nat) : Gives Told (readAt f off n) := by
  unfold readAt; errors
  all_goals exact gives_error ⟨nofun, nofun⟩

theorem told_parseEntries {α : Type} {parse : List Byte → Res α} (h : ∀ raw, Gives Told (parse raw)) :
    ∀ (n : Nat) (raw : List Byte), Gives Told (parseEntries parse n raw) := by
  intro n
  induction n with
  | zero => intro raw; exact gives_ok _
  | succ n ih =>
    intro raw
    unfold parseEntries
    split
    · rename_i heq
      exact gives_error (h _ _ heq)
    · split
      · rename_i heq
        exact gives_error (ih _ _ heq)
      · exact gives_ok _

theorem told_readHashTable (f : List Byte) (off : Nat) (n : U32) : Gives Told (readHashTable f off n) := by
  unfold readHashTable
  split
  · exact gives_error ⟨nofun, nofun⟩
  split
  · rename_i heq
    exact gives_error (told_readAt _ _ _ _ heq)
  · apply told_parseEntries
    intro raw
    unfold HashEntry.fromBytes
    errors
    all_goals exact gives_error ⟨nofun, nofun⟩

theorem told_readBlockTable (f : List Byte) (off : Nat) (n : U32) : Gives Told (readBlockTable f off n) := by
  unfold readBlockTable
  split
  · rename_i heq
    exact gives_error (told_readAt _ _ _ _ heq)
  · apply told_parseEntries
    intro raw
    unfold BlockEntry.fromBytes
    errors
    all_goals exact gives_error ⟨nofun, nofun⟩

theorem told_readHiBlockTable (f : List Byte) : ∀ (n off : Nat), Gives Told (readHiBlockTable f off n) := by
  intro n
  induction n with
  | zero => intro off; exact gives_ok _
  | succ n ih =>
    intro off
    unfold readHiBlockTable
    split
    · rename_i heq
      exact gives_error (told_readAt _ _ _ _ heq)
    · split
      · rename_i heq
        exact gives_error (ih _ _ heq)
      · exact gives_ok _

theorem told_addPos {off : Nat} {pos : U64} (h : off + pos.toNat < 2 ^ 64) : Gives Told (addPos off pos) := by
  unfold addPos
  rw [if_pos h]
  exact gives_ok _

theorem told_loadClassic (f : List Byte) (off : Nat) (h : MpqHeader) (usable : Bool)
    (h1 : off + h.getHashTablePos.toNat < 2 ^ 64) (h2 : off + h.getBlockTablePos.toNat < 2 ^ 64) :
    Gives Told (loadClassic f off h usable) := by
  unfold loadClassic
  split
  · exact gives_bind (told_addPos h1) fun _ => gives_bind (told_readHashTable _ _ _) fun _ =>
      gives_bind (told_addPos h2) fun _ => gives_bind (told_readBlockTable _ _ _) fun _ => gives_ok _
  · exact gives_ok _

theorem told_loadHiBlock (f : List Byte) (off : Nat) (h : MpqHeader)
    (h1 : ∀ pos, h.hiBlockTablePos = some pos → off + pos.toNat < 2 ^ 64) : Gives Told (loadHiBlock f off h) := by
  unfold loadHiBlock
  split
  · exact gives_ok _
  · rename_i pos heq
    split
    · exact gives_ok _
    · exact gives_bind (told_addPos (h1 _ heq)) fun _ => gives_bind (told_readHiBlockTable _ _ _) fun _ => gives_ok _

/-- C74: an archive that the builder made and that was cut off anywhere, be it at the front of the file or embedded behind
other content without marks, does not open. This is so for all four versions; in versions 1 and 2 the error is not a panic. -/
theorem C74_built_cut_refused (e : Env) (md5 : Md5) (b : Builder) (f before : List Byte) (hb : buildBytes e md5 b = .ok f)
    (hmd : ∀ x, (md5 x).length = 16) (pending : List PendingFile) (hp : prepareListfile b = .ok pending)
    (hcount : pending.length < 0xFFFFFFFE) (hal : before.length % 512 = 0)
    (hclean : ∀ o < before.length, o % 512 = 0 → ¬ Spec.archiveMark before o ∧ ¬ Spec.userDataMark before o)
    (hlen : f.length < addressable b.version) (n : Nat) (hn : n < (before ++ f).length) :
    ∃ err, openArchive e ((before ++ f).take n) = .error err ∧
      (b.version = .v1 ∨ b.version = .v2 → before.length + f.length < 2 ^ 64 → err ≠ .panic ∧ err ≠ .diverge) := by
  obtain ⟨L⟩ := layout_of_build hmd hb
  have hpe : L.pending = pending := by
    have := L.prepared
    rw [hp] at this
    exact (Except.ok.inj this).symm
  rw [← hpe] at hcount
  generalize hF : (before ++ f).take n = F
  have hFn : F.length = n := by rw [← hF, List.length_take]; omega
  have hsplit : before ++ f = F ++ (before ++ f).drop n := by rw [← hF, List.take_append_drop]
  rw [List.length_append] at hn
  have hhdr := L.cut_header hmd before hal hclean F _ hsplit
  have htab := L.cut_tables hmd before F hlen hcount (by omega)
  cases ho : openArchive e F with
  | ok a =>
    obtain ⟨off, ud, hdr, het, bet, classic, hi, attributes, h1, h2, h3, h4, h5, h6, rfl⟩ := openArchive_parts e F a ho
    obtain ⟨rfl, rfl⟩ := hhdr _ _ _ h1
    exact (htab _ _ _ h4 h5).elim
  | error err =>
    refine ⟨err, rfl, fun hv hfit => ?_⟩
    have hv3 : b.version.ge .v3 = false := by rcases hv with hv | hv <;> rw [hv] <;> decide
    unfold openArchive at ho
    cases h1 : findHeader F with
    | error err' =>
      rw [h1] at ho
      cases ho
      obtain ⟨t1, t2⟩ := C13_search_terminates F
      exact ⟨fun h => t2 (by rw [h1, h]), fun h => t1 (by rw [h1, h])⟩
    | ok x =>
      obtain ⟨off, ud, hdr⟩ := x
      obtain ⟨rfl, rfl⟩ := hhdr _ _ _ h1
      rw [h1] at ho
      have ho : (do
          let a : Archive := openedFrom F before.length ud L.hdr none none none none none
          a.loadTables e) = Except.error err := ho
      unfold Archive.loadTables at ho
      dsimp only [openedFrom] at ho
      rw [show L.hdr.formatVersion = b.version from rfl, hv3] at ho
      obtain ⟨p1, p2⟩ := L.positions hmd hlen
      have hfl := L.f_length hmd
      have h48 := addressable_le b.version
      have e48 : 2 ^ 48 = 281474976710656 := rfl
      have e64 : 2 ^ 64 = 18446744073709551616 := rfl
      have t1 := told_loadClassic F before.length L.hdr false (by omega) (by omega)
      have t2 := told_loadHiBlock F before.length L.hdr (by
        intro pos hpos
        by_cases hneed : L.hiNeeded = true
        · have hpos' : (if b.version = .v1 then none else some (L.params.hiBlockTablePos.getD 0)) = some pos := hpos
          by_cases hv1 : b.version = .v1
          · rw [if_pos hv1] at hpos'; cases hpos'
          rw [if_neg hv1, L.params_eq] at hpos'
          dsimp only at hpos'
          rw [if_pos hneed] at hpos'
          simp only [Option.getD_some, Option.some.injEq] at hpos'
          subst hpos'
          rw [BitVec.toNat_ofNat, Nat.mod_eq_of_lt (by omega)]
          omega
        · have hpos' : (if b.version = .v1 then none else some (L.params.hiBlockTablePos.getD 0)) = some pos := hpos
          by_cases hv1 : b.version = .v1
          · rw [if_pos hv1] at hpos'; cases hpos'
          rw [if_neg hv1, L.params_eq] at hpos'
          dsimp only at hpos'
          rw [if_neg hneed] at hpos'
          simp only [Option.getD_none, Option.some.injEq] at hpos'
          subst hpos'
          have : (0 : U64).toNat = 0 := rfl
          omega)
      simp only [Bool.false_eq_true, ↓reduceIte, pure_bind] at ho
      rw [show (usableHetBet none none).isSome = false from rfl] at ho
      cases h4 : Mopaq.loadClassic F before.length L.hdr false with
      | error err' =>
        rw [h4] at ho
        cases ho
        exact t1 _ h4
      | ok c =>
        rw [h4] at ho
        cases h5 : Mopaq.loadHiBlock F before.length L.hdr with
        | error err' =>
          have ho : (Mopaq.loadHiBlock F before.length L.hdr >>= _) = Except.error err := ho
          rw [h5] at ho
          cases ho
          exact t2 _ h5
        | ok hi => exact (htab _ _ _ h4 h5).elim


/-! ## Concrete archives -/

/-- The header of a version 1 archive with its hash table (one entry) behind the header, followed by its block table. -/
def frontHeader : List Byte :=
  [0x4D, 0x50, 0x51, 0x1A, 0x20, 0, 0, 0, 0x55, 0, 0, 0, 0, 0, 3, 0, 0x20, 0, 0, 0, 0x30, 0, 0, 0, 1, 0, 0, 0, 1, 0, 0, 0]

/-- The tables of the archive: the file `a` of five bytes stands at position 64. -/
def frontTables (frontEntry : HashEntry) : List Byte := frontHeader ++ hashTableBytes [frontEntry] ++ blockTableBytes [⟨64, 5, 5, 0x80000000⟩]

theorem frontHeader_length : frontHeader.length = 32 := rfl

theorem findFileHash_one (en : HashEntry) (name : List Byte) :
    findFileHash [en] name 0 = .ok (if en.isHit (hashString name htNameA) (hashString name htNameB) 0 then some (0, en) else none) := by
  unfold findFileHash
  simp only [List.length_singleton, Nat.sub_self, Nat.and_zero, Nat.one_ne_zero, if_false]
  unfold findLoop
  simp only [List.getElem?_cons_zero, List.length_singleton, Nat.sub_self, Nat.and_zero, if_true]
  split
  · rfl
  · split <;> rfl

/-- The header of the archive, read. -/
theorem frontHeader_read : ∃ H, findHeader frontHeader = .ok (0, none, H) ∧ H.getHashTablePos = 32#64 ∧
    H.getBlockTablePos = 48#64 ∧ H.hashTableSize = 1#32 ∧ H.blockTableSize = 1#32 ∧ H.hiBlockTablePos = none ∧
    H.formatVersion = .v1 :=
  ⟨((findHeader frontHeader).toOption.get (by decide +kernel)).2.2, by decide +kernel, by decide +kernel, by decide +kernel,
    by decide +kernel, by decide +kernel, by decide +kernel, by decide +kernel⟩

theorem attributes_not_a : hashString attributesName 1 ≠ hashString (ascii "a") 1 := by
  rw [hashString_lit 1 (by decide), hashString_lit 1 (by decide)]
  decide +kernel

/-- The files of such an archive. -/
theorem front_find (a : Archive) (x1 x2 : U32) (f1 : x1 = hashString (ascii "a") 1) (f2 : x2 = hashString (ascii "a") 2)
    (h1 : a.hetTable = none) (h2 : a.hashTable = some [⟨x1, x2, 0, 0, 0⟩]) (h3 : a.blockTable = some [⟨64, 5, 5, 0x80000000⟩])
    (h4 : a.archiveOffset = 0) (h5 : a.hiBlockTable = none) :
    a.findFile attributesName = .ok none ∧ a.findFile (ascii "A") = .ok (some ⟨0, 0, 64, 5, 5, 0x80000000, 0⟩) := by
  have hn := attributes_not_a
  rw [← f1] at hn
  have hs := findFileHash_spelling (n := ascii "A") (m := ascii "a") ⟨.inr (.inl (by decide)), trivial⟩ [⟨x1, x2, 0, 0, 0⟩] 0
  rw [findFileHash_one _ (ascii "a")] at hs
  unfold htNameA htNameB at hs
  rw [← f1, ← f2, if_pos (by unfold HashEntry.isHit; simp; rfl)] at hs
  have ha := findFileHash_one ⟨x1, x2, 0, 0, 0⟩ attributesName
  unfold htNameA htNameB at ha
  rw [if_neg (by unfold HashEntry.isHit; simp [Ne.symm hn])] at ha
  generalize attributesName = n1 at *
  generalize ascii "A" = n2 at *
  clear hn f1 f2
  unfold Archive.findFile usableHetBet Archive.findFileClassic
  simp only [h1, h2, h3, h4, h5]
  rw [hs, ha]
  exact ⟨rfl, rfl⟩

theorem front_read (e : Env) (a : Archive) (n : List Byte) (hf : a.findFile n = .ok (some ⟨0, 0, 64, 5, 5, 0x80000000, 0⟩))
    (h1 : a.hetTable = none) (h3 : a.blockTable = some [⟨64, 5, 5, 0x80000000⟩]) {f : List Byte} (h4 : a.file = f) :
    a.readFile e n = readAt f 64 5 := by
  unfold Archive.readFile
  simp only [hf, h1, h3, h4]
  show readFileData e f a.archiveOffset a.header.blockSize n ⟨0, 0, 64, 5, 5, 0x80000000, 0⟩ 5#32 5 = _
  unfold readFileData
  rw [if_pos (by decide)]
  show (readAt f 64 5 >>= _) = _
  cases readAt f 64 5 with
  | error x => rfl
  | ok x => rfl

theorem no_attributes (e : Env) (a : Archive) (hf : a.findFile attributesName = .ok none) (h : a.attributes = none) :
    a.loadAttributes e = .ok none := by
  have := open_readFile_missing e a _ hf
  unfold Archive.loadAttributes
  rw [h, if_neg (by decide), this]

theorem front_opens (x1 x2 : U32) (f1 : x1 = hashString (ascii "a") 1) (f2 : x2 = hashString (ascii "a") 2)
    (more : List Byte) : ∃ a, openArchive toyEnv (frontTables ⟨x1, x2, 0, 0, 0⟩ ++ more) = .ok a ∧ a.archiveOffset = 0 ∧
    a.header.formatVersion = .v1 ∧ a.readFile toyEnv (ascii "A") = readAt (frontTables ⟨x1, x2, 0, 0, 0⟩ ++ more) 64 5 ∧
    a.hashTable = some [⟨x1, x2, 0, 0, 0⟩] := by
  obtain ⟨H, h0, h1, h2, h3, h4, h5, h6⟩ := frontHeader_read
  have hk := findHeader_keeps (hashTableBytes [⟨x1, x2, 0, 0, 0⟩] ++ (blockTableBytes [⟨64, 5, 5, 0x80000000⟩] ++ more)) _ _ _ _ h0
    (fun o t _ ho => absurd ho (Nat.not_lt_zero o))
  have ht := readHashTable_written frontHeader (blockTableBytes [⟨64, 5, 5, 0x80000000⟩] ++ more) [⟨x1, x2, 0, 0, 0⟩] (show 1 < 2 ^ 32 by decide)
    (show isPowerOfTwo 1 = true by decide)
  have hb := readBlockTable_written (frontHeader ++ hashTableBytes [⟨x1, x2, 0, 0, 0⟩]) more [⟨64, 5, 5, 0x80000000⟩] (by decide)
  rw [List.length_append, hashTableBytes_length, frontHeader_length, List.length_singleton, List.length_singleton] at hb
  rw [frontHeader_length, List.length_singleton] at ht
  generalize hF : frontTables ⟨x1, x2, 0, 0, 0⟩ ++ more = F
  have e1 : frontHeader ++ (hashTableBytes [⟨x1, x2, 0, 0, 0⟩] ++ (blockTableBytes [⟨64, 5, 5, 0x80000000⟩] ++ more)) = F := by
    rw [← hF]; unfold frontTables; simp only [List.append_assoc]
  have e2 : frontHeader ++ hashTableBytes [⟨x1, x2, 0, 0, 0⟩] ++ (blockTableBytes [⟨64, 5, 5, 0x80000000⟩] ++ more) = F := by
    rw [← e1]; simp only [List.append_assoc]
  have e3 : frontHeader ++ hashTableBytes [⟨x1, x2, 0, 0, 0⟩] ++ blockTableBytes [⟨64, 5, 5, 0x80000000⟩] ++ more = F := by
    rw [← e1]; simp only [List.append_assoc]
  rw [e1] at hk
  rw [e2] at ht
  rw [e3] at hb
  have hcl : loadClassic F 0 H false = .ok (some ([⟨x1, x2, 0, 0, 0⟩], [⟨64, 5, 5, 0x80000000⟩])) := by
    unfold loadClassic
    rw [h1, h2, h3, h4]
    exact bind_eq_ok.2 ⟨32, rfl, bind_eq_ok.2 ⟨_, ht, bind_eq_ok.2 ⟨48, rfl, bind_eq_ok.2 ⟨_, hb, rfl⟩⟩⟩⟩
  have hhi : loadHiBlock F 0 H = .ok none := by unfold loadHiBlock; rw [h5]
  have hatt (r) (hr : r = openedFrom F 0 none H none none (some ([⟨x1, x2, 0, 0, 0⟩], [⟨64, 5, 5, 0x80000000⟩])) none none) :=
    front_find r x1 x2 f1 f2 (by rw [hr]; rfl) (by rw [hr]; rfl) (by rw [hr]; rfl) (by rw [hr]; rfl) (by rw [hr]; rfl)
  obtain ⟨hatt, hfa⟩ := hatt _ rfl
  refine ⟨_, ?_, rfl, h6, front_read _ _ _ hfa rfl rfl rfl, rfl⟩
  unfold openArchive
  refine bind_eq_ok.2 ⟨_, hk, ?_⟩
  dsimp only
  rw [if_pos rfl]
  unfold Archive.loadTables
  dsimp only
  rw [h6]
  refine bind_eq_ok.2 ⟨none, rfl, bind_eq_ok.2 ⟨none, rfl, bind_eq_ok.2 ⟨_, hcl, bind_eq_ok.2 ⟨none, hhi,
    bind_eq_ok.2 ⟨none, ?_, rfl⟩⟩⟩⟩⟩
  exact no_attributes _ _ hatt rfl

theorem frontTables_length (en : HashEntry) : (frontTables en).length = 64 := by
  unfold frontTables
  rw [List.length_append, List.length_append, hashTableBytes_length, blockTableBytes_length, List.length_singleton,
    List.length_singleton, frontHeader_length]

/-- The whole archive can be opened and its file read. When the file is cut off behind the tables the archive opens, the file is
found, and reading it fails. -/
example : ∃ tables : List Byte, tables.length = 64 ∧
    (∃ a, openArchive toyEnv (tables ++ ascii "hello") = .ok a ∧ a.readFile toyEnv (ascii "A") = .ok (ascii "hello")) ∧
    ∀ n < 5, ∃ a, openArchive toyEnv (tables ++ (ascii "hello").take n) = .ok a ∧
      a.header.formatVersion = .v1 ∧ Spec.UserDataInside (tables ++ (ascii "hello").take n) a.archiveOffset ∧
      a.readFile toyEnv (ascii "A") = .error .io := by
  obtain ⟨x1, f1⟩ : ∃ x, x = hashString (ascii "a") 1 := ⟨_, rfl⟩
  obtain ⟨x2, f2⟩ : ∃ x, x = hashString (ascii "a") 2 := ⟨_, rfl⟩
  have hopen := front_opens _ _ f1 f2
  generalize (⟨x1, x2, 0, 0, 0⟩ : HashEntry) = en at hopen
  refine ⟨frontTables en, frontTables_length en, ?_, fun n hn => ?_⟩
  · obtain ⟨a, h, _, _, hr, _⟩ := hopen (ascii "hello")
    refine ⟨a, h, hr.trans ?_⟩
    have := readAt_mid (frontTables en) (ascii "hello") [] 64 5 (frontTables_length en).symm rfl
    rwa [List.append_nil] at this
  · obtain ⟨a, h, h0, hv, hr, _⟩ := hopen ((ascii "hello").take n)
    refine ⟨a, h, hv, ?_, hr.trans ?_⟩
    · rw [h0]
      exact fun o _ _ ho => absurd ho (Nat.not_lt_zero o)
    · unfold readAt
      rw [if_neg (by decide), if_neg]
      rw [List.length_append, List.length_take, frontTables_length]
      omega

/-- Every proper beginning of the sample archive is refused, in every version but the first. -/
example (v : FormatVersion) (hv : v ≠ .v1) : ∃ f, buildBytes toyEnv zeroMd5 (sampleBuilder v) = .ok f ∧
    ∀ n < f.length, ∃ err, openArchive toyEnv (f.take n) = .error err := by
  obtain ⟨f, _, hf, hlt, _, _⟩ := sample_reads v hv
  refine ⟨f, hf, fun n hn => ?_⟩
  obtain ⟨err, h, _⟩ := C74_built_cut_refused toyEnv zeroMd5 (sampleBuilder v) f [] hf (fun _ => List.length_replicate) samplePending
    (samplePending_eq v) (by decide) rfl (by intro o ho; cases ho)
    (by unfold addressable; rw [if_neg (show ¬ (sampleBuilder v).version = .v1 from hv)]; exact hlt) n hn
  exact ⟨err, h⟩

/-- User data that points to an archive at 1024, and another archive at 512. -/
def twoArchives : List Byte :=
  [0x4D, 0x50, 0x51, 0x1B, 0, 0, 0, 0, 0, 4, 0, 0, 0x10, 0, 0, 0] ++ List.replicate 496 0 ++ frontHeader ++
    List.replicate 480 0 ++ frontHeader

/-- C74: the hypothesis about user data is needed. When the file is cut off in front of the archive that user data points to,
another archive further in front is opened in its place, without an error. -/
theorem C74_violated_user_data (e : Env) : ∃ f n a a', openArchive e (f.take n) false = .ok a ∧ openArchive e f false = .ok a' ∧
    a.archiveOffset = 512 ∧ a'.archiveOffset = 1024 := by
  have h1 : ∃ ud H, findHeader (twoArchives.take 1024) = .ok (512, ud, H) :=
    ⟨none, ((findHeader (twoArchives.take 1024)).toOption.get (by decide +kernel)).2.2, by decide +kernel⟩
  have h2 : ∃ ud H, findHeader twoArchives = .ok (1024, ud, H) :=
    ⟨((findHeader twoArchives).toOption.get (by decide +kernel)).2.1,
      ((findHeader twoArchives).toOption.get (by decide +kernel)).2.2, by decide +kernel⟩
  obtain ⟨ud, H, h1⟩ := h1
  obtain ⟨ud', H', h2⟩ := h2
  generalize twoArchives = f at h1 h2
  refine ⟨f, 1024, _, _, bind_eq_ok.2 ⟨_, h1, rfl⟩, bind_eq_ok.2 ⟨_, h2, rfl⟩, rfl, rfl⟩

end Mopaq
