import Verif.Model.Header
import Verif.Spec.Header
import Verif.Lemmas.Bytes

/-! # Lemmas: headers -/

namespace Mopaq

theorem rdBytes_append (a r : List Byte) (n : Nat) (h : a.length = n) : rdBytes n (a ++ r) = .ok (a, r) := by
  unfold rdBytes
  rw [if_pos (by simp; omega), List.take_left' h, List.drop_left' h]

theorem rd16_le16 (v : U16) (r : List Byte) : rd16 (le16 v ++ r) = .ok (v, r) := by
  unfold rd16; rw [rdBytes_append _ _ _ (le16_length v)]; simp [Except.map]
theorem rd32_le32 (v : U32) (r : List Byte) : rd32 (le32 v ++ r) = .ok (v, r) := by
  unfold rd32; rw [rdBytes_append _ _ _ (le32_length v)]; simp [Except.map]
theorem rd64_le64 (v : U64) (r : List Byte) : rd64 (le64 v ++ r) = .ok (v, r) := by
  unfold rd64; rw [rdBytes_append _ _ _ (le64_length v)]; simp [Except.map]

/-- `read` at an offset of a file in terms of the bytes from there. -/
theorem rdBytes_drop (n : Nat) (f : List Byte) (o : Nat) (h : o + n ≤ f.length) :
    rdBytes n (f.drop o) = .ok (slice f o n, f.drop (o + n)) := by
  unfold rdBytes slice
  rw [if_pos (by simp; omega), List.drop_drop]

theorem rdBytes_drop_err (n : Nat) (f : List Byte) (o : Nat) (hn : 0 < n) (h : f.length < o + n) :
    rdBytes n (f.drop o) = .error .io := by
  unfold rdBytes
  rw [if_neg (by simp; omega)]

theorem rd32_drop_ok (f : List Byte) (o : Nat) (h : o + 4 ≤ f.length) :
    rd32 (f.drop o) = .ok (ofLe32 (slice f o 4), f.drop (o + 4)) := by
  unfold rd32; rw [rdBytes_drop 4 f o h]; rfl

theorem rd32_drop_err (f : List Byte) (o : Nat) (h : f.length < o + 4) : rd32 (f.drop o) = .error .io := by
  unfold rd32; rw [rdBytes_drop_err 4 f o (by decide) h]; rfl

theorem rd16_drop_ok (f : List Byte) (o : Nat) (h : o + 2 ≤ f.length) :
    rd16 (f.drop o) = .ok (ofLe16 (slice f o 2), f.drop (o + 2)) := by
  unfold rd16; rw [rdBytes_drop 2 f o h]; rfl

theorem rd64_drop_ok (f : List Byte) (o : Nat) (h : o + 8 ≤ f.length) :
    rd64 (f.drop o) = .ok (ofLe64 (slice f o 8), f.drop (o + 8)) := by
  unfold rd64; rw [rdBytes_drop 8 f o h]; rfl

theorem u32At_eq_some (f : List Byte) (o : Nat) (h : o + 4 ≤ f.length) :
    Spec.u32At f o = some (ofLe32 (slice f o 4)).toNat := by
  unfold Spec.u32At slice
  have hl : 4 ≤ (f.drop o).length := by simp; omega
  match hd : f.drop o, hl with
  | a :: b :: c :: d :: rest, _ =>
    simp only [List.take_succ_cons, List.take_zero, ofLe32, leNat, BitVec.toNat_ofNat]
    have := a.isLt; have := b.isLt; have := c.isLt; have := d.isLt
    congr 1
    rw [Nat.mod_eq_of_lt (by omega)]
    omega

theorem u32At_eq_none (f : List Byte) (o : Nat) (h : f.length < o + 4) : Spec.u32At f o = none := by
  unfold Spec.u32At
  have hl : (f.drop o).length < 4 := by simp; omega
  match hd : f.drop o, hl with
  | [], _ => rfl
  | [_], _ => rfl
  | [_, _], _ => rfl
  | [_, _, _], _ => rfl

theorem rd32_u32At (f : List Byte) (o : Nat) :
    (Spec.u32At f o = none ∧ rd32 (f.drop o) = .error .io ∧ f.length < o + 4) ∨
    (∃ v : U32, Spec.u32At f o = some v.toNat ∧ rd32 (f.drop o) = .ok (v, f.drop (o + 4)) ∧ o + 4 ≤ f.length) := by
  rcases Nat.lt_or_ge f.length (o + 4) with h | h
  · exact Or.inl ⟨u32At_eq_none f o h, rd32_drop_err f o h, h⟩
  · exact Or.inr ⟨_, u32At_eq_some f o h, rd32_drop_ok f o h, h⟩

/-- What the search does at one 512-byte boundary: an event ends it, otherwise it goes on. -/
inductive Verdict where
  | mpq
  | viaUserData (u : UserDataHeader) (start : Nat)
  | ioError
  | next

/-- The decision at one boundary. -/
def verdict (f : List Byte) (o : Nat) : Verdict :=
  match rd32 (f.drop o) with
  | .error _ => .next
  | .ok (sig, rest) =>
    if sig = mpqSignature then .mpq
    else if sig = userDataSignature then
      match rd32 rest with
      | .error _ => .ioError
      | .ok (a, rest) =>
        match rd32 rest with
        | .error _ => .ioError
        | .ok (b, rest) =>
          match rd32 rest with
          | .error _ => .ioError
          | .ok (c, _) =>
            if o + b.toNat < f.length then
              match rd32 (f.drop (o + b.toNat)) with
              | .error _ => .ioError
              | .ok (s, _) => if s = mpqSignature then .viaUserData ⟨a, b, c⟩ (o + b.toNat) else .next
            else .next
    else .next

theorem rd32_error {r : List Byte} {e : Err} (h : rd32 r = .error e) : e = .io := by
  unfold rd32 rdBytes at h
  split at h
  · cases h
  · simp only [Except.map] at h; cases h; rfl

theorem findHeaderLoop_succ (f : List Byte) (fuel o : Nat) :
    findHeaderLoop f (fuel + 1) o =
      if f.length ≤ o then .error .invalidFormat
      else match verdict f o with
        | .mpq => (readHeader (f.drop o)).map fun h => (o, none, h)
        | .viaUserData u s => (readHeader (f.drop s)).map fun h => (s, some u, h)
        | .ioError => .error .io
        | .next => findHeaderLoop f fuel (o + 0x200) := by
  rw [findHeaderLoop]
  split
  · rfl
  · unfold verdict
    cases h1 : rd32 (f.drop o) with
    | error e => rfl
    | ok r1 =>
      obtain ⟨sig, rest⟩ := r1
      simp only []
      by_cases hs : sig = mpqSignature
      · rw [if_pos hs, if_pos hs]
      · rw [if_neg hs, if_neg hs]
        by_cases hu : sig = userDataSignature
        · rw [if_pos hu, if_pos hu]
          cases h2 : rd32 rest with
          | error e => rw [rd32_error h2]; rfl
          | ok r2 =>
            simp only [bind, Except.bind]
            cases h3 : rd32 r2.2 with
            | error e => rw [rd32_error h3]
            | ok r3 =>
              simp only []
              cases h4 : rd32 r3.2 with
              | error e => rw [rd32_error h4]
              | ok r4 =>
                simp only []
                by_cases hl : o + r3.1.toNat < f.length
                · rw [if_pos hl, if_pos hl]
                  cases h5 : rd32 (f.drop (o + r3.1.toNat)) with
                  | error e => rw [rd32_error h5]
                  | ok r5 =>
                    simp only []
                    by_cases h6 : r5.1 = mpqSignature
                    · rw [if_pos h6, if_pos h6]
                      simp only []
                      cases readHeader (f.drop (o + r3.1.toNat)) <;> rfl
                    · rw [if_neg h6, if_neg h6]
                · rw [if_neg hl, if_neg hl]
        · rw [if_neg hu, if_neg hu]

/-- The whole search: it looks at the boundaries in order and stops at the first that is not `next`. -/
theorem findHeaderLoop_eq (f : List Byte) (fuel o : Nat) (hf : f.length ≤ o + 0x200 * fuel) :
    (∃ i, o + 0x200 * i < f.length ∧ (∀ j < i, verdict f (o + 0x200 * j) = .next) ∧
      verdict f (o + 0x200 * i) ≠ .next ∧
      findHeaderLoop f (fuel + 1) o = match verdict f (o + 0x200 * i) with
        | .mpq => (readHeader (f.drop (o + 0x200 * i))).map fun h => (o + 0x200 * i, none, h)
        | .viaUserData u s => (readHeader (f.drop s)).map fun h => (s, some u, h)
        | .ioError => .error .io
        | .next => .error .diverge) ∨
    ((∀ j, o + 0x200 * j < f.length → verdict f (o + 0x200 * j) = .next) ∧
      findHeaderLoop f (fuel + 1) o = .error .invalidFormat) := by
  induction fuel generalizing o with
  | zero =>
    right
    refine ⟨fun j hj => by omega, ?_⟩
    rw [findHeaderLoop_succ, if_pos (by omega)]
  | succ fuel ih =>
    rw [findHeaderLoop_succ]
    by_cases hl : f.length ≤ o
    · right
      exact ⟨fun j hj => by omega, by rw [if_pos hl]⟩
    · rw [if_neg hl]
      by_cases hv : verdict f o = .next
      · rw [hv]
        simp only []
        rcases ih (o + 0x200) (by omega) with ⟨i, h1, h2, h3, h4⟩ | ⟨h1, h2⟩
        · left
          have e : ∀ j, o + 0x200 + 0x200 * j = o + 0x200 * (j + 1) := by intro j; omega
          refine ⟨i + 1, by omega, ?_, ?_, ?_⟩
          · intro j hj
            cases j with
            | zero => simpa using hv
            | succ j => rw [← e]; exact h2 j (by omega)
          · rw [← e]; exact h3
          · rw [← e]; exact h4
        · right
          refine ⟨?_, h2⟩
          intro j hj
          cases j with
          | zero => simpa using hv
          | succ j =>
            have := h1 j (by omega)
            rw [show o + 0x200 + 0x200 * j = o + 0x200 * (j + 1) by omega] at this
            exact this
      · left
        refine ⟨0, by omega, fun j hj => by omega, by simpa using hv, ?_⟩
        simp only [Nat.mul_zero, Nat.add_zero]
        cases h : verdict f o with
        | next => exact absurd h hv
        | _ => rfl

theorem toNat_inj_lit {a : U32} {n : Nat} (b : U32) (hb : b.toNat = n) : a.toNat = n ↔ a = b :=
  ⟨fun h => BitVec.eq_of_toNat_eq (h.trans hb.symm), fun h => by rw [h, hb]⟩

theorem mark_iff (v : U32) : (some v.toNat = some 0x1A51504D) ↔ v = mpqSignature := by
  rw [Option.some.injEq]; exact toNat_inj_lit mpqSignature rfl
theorem userMark_iff (v : U32) : (some v.toNat = some 0x1B51504D) ↔ v = userDataSignature := by
  rw [Option.some.injEq]; exact toNat_inj_lit userDataSignature rfl

/-- The verdict in the terms of the specification. -/
theorem verdict_spec (f : List Byte) (o : Nat) :
    match verdict f o with
    | .mpq => Spec.archiveMark f o
    | .viaUserData u s => Spec.pointsTo f o s ∧ Spec.archiveMark f s ∧ ¬ Spec.archiveMark f o ∧
        Spec.u32At f (o + 4) = some u.userDataSize.toNat ∧ Spec.u32At f (o + 8) = some u.headerOffset.toNat ∧
        Spec.u32At f (o + 12) = some u.userDataHeaderSize.toNat
    | .ioError => Spec.cutOff f o
    | .next => ¬ Spec.cutOff f o ∧ ∀ s, ¬ Spec.startsAt f o s := by
  unfold verdict Spec.startsAt Spec.cutOff
  rcases rd32_u32At f o with ⟨h1, h2, _⟩ | ⟨sig, h1, h2, _⟩
  · rw [h2]
    simp [Spec.archiveMark, Spec.pointsTo, Spec.userDataMark, h1]
  · rw [h2]
    simp only []
    by_cases hs : sig = mpqSignature
    · rw [if_pos hs]; simp only [Spec.archiveMark]; rw [h1]; exact (mark_iff sig).2 hs
    · rw [if_neg hs]
      have hna : ¬ Spec.archiveMark f o := by
        unfold Spec.archiveMark; rw [h1, mark_iff]; exact hs
      by_cases hu : sig = userDataSignature
      · rw [if_pos hu]
        have hum : Spec.userDataMark f o := by
          unfold Spec.userDataMark; rw [h1, userMark_iff]; exact hu
        rcases rd32_u32At f (o + 4) with ⟨a1, a2, _⟩ | ⟨a, a1, a2, _⟩
        · rw [a2]
          simp only []
          refine ⟨hum, Or.inl ?_⟩
          rintro t ⟨_, ⟨s, hs⟩, _⟩; rw [a1] at hs; cases hs
        · rw [a2]
          simp only []
          rcases rd32_u32At f (o + 4 + 4) with ⟨b1, b2, _⟩ | ⟨b, b1, b2, _⟩
          · rw [b2]
            simp only []
            refine ⟨hum, Or.inl ?_⟩
            rintro t ⟨_, _, ⟨d, hd, _⟩, _⟩; rw [b1] at hd; cases hd
          · rw [b2]
            simp only []
            rcases rd32_u32At f (o + 4 + 4 + 4) with ⟨c1, c2, _⟩ | ⟨c, c1, c2, _⟩
            · rw [c2]
              simp only []
              refine ⟨hum, Or.inl ?_⟩
              rintro t ⟨_, _, _, ⟨d, hd⟩⟩; rw [c1] at hd; cases hd
            · rw [c2]
              simp only []
              have hpt : ∀ t, Spec.pointsTo f o t ↔ t = o + b.toNat := by
                intro t
                constructor
                · rintro ⟨_, _, ⟨d, hd, rfl⟩, _⟩
                  have : f.length = f.length := rfl
                  rw [show o + 8 = o + 4 + 4 by omega, b1, Option.some.injEq] at hd
                  rw [hd]
                · rintro rfl
                  exact ⟨hum, ⟨_, a1⟩, ⟨_, b1, rfl⟩, ⟨_, c1⟩⟩
              by_cases hl : o + b.toNat < f.length
              · rw [if_pos hl]
                rcases rd32_u32At f (o + b.toNat) with ⟨d1, d2, _⟩ | ⟨d, d1, d2, _⟩
                · rw [d2]
                  simp only []
                  exact ⟨hum, Or.inr ⟨_, (hpt _).2 rfl, hl, d1⟩⟩
                · rw [d2]
                  simp only []
                  by_cases hd : d = mpqSignature
                  · rw [if_pos hd]
                    refine ⟨(hpt _).2 rfl, ?_, hna, a1, b1, c1⟩
                    unfold Spec.archiveMark; rw [d1, mark_iff]; exact hd
                  · rw [if_neg hd]
                    constructor
                    · rintro ⟨_, h | ⟨t, ht, _, hn⟩⟩
                      · exact h _ ((hpt _).2 rfl)
                      · rw [(hpt t).1 ht, d1] at hn; cases hn
                    · rintro s (⟨h, _⟩ | ⟨h, hm⟩)
                      · exact hna h
                      · rw [(hpt s).1 h] at hm
                        unfold Spec.archiveMark at hm; rw [d1, mark_iff] at hm; exact hd hm
              · rw [if_neg hl]
                constructor
                · rintro ⟨_, h | ⟨t, ht, hlt, _⟩⟩
                  · exact h _ ((hpt _).2 rfl)
                  · rw [(hpt t).1 ht] at hlt; exact hl hlt
                · rintro s (⟨h, _⟩ | ⟨h, hm⟩)
                  · exact hna h
                  · rw [(hpt s).1 h] at hm
                    unfold Spec.archiveMark at hm; rw [u32At_eq_none _ _ (by omega)] at hm; cases hm
      · rw [if_neg hu]
        have hnu : ¬ Spec.userDataMark f o := by
          unfold Spec.userDataMark; rw [h1, userMark_iff]; exact hu
        exact ⟨fun h => hnu h.1, fun s h => h.elim (fun h => hna h.1) (fun h => hnu h.1.1)⟩

theorem fromRaw_raw (v : FormatVersion) : FormatVersion.fromRaw v.raw = some v := by cases v <;> decide

/-- The MD5 fields of version 4 data have 16 bytes (in the code the type is `[u8; 16]`). -/
def V4Data.Sized (v : V4Data) : Prop :=
  v.md5BlockTable.length = 16 ∧ v.md5HashTable.length = 16 ∧ v.md5HiBlockTable.length = 16 ∧
  v.md5BetTable.length = 16 ∧ v.md5HetTable.length = 16 ∧ v.md5MpqHeader.length = 16

/-- What reading a written header gives. -/
def parsedHeader (version : FormatVersion) (blockSize : U16) (p : HeaderParams) : MpqHeader :=
  { headerSize := version.headerSize, archiveSize := BitVec.ofNat 32 (min p.archiveSize.toNat 0xFFFFFFFF),
    formatVersion := version, blockSize, hashTablePos := p.hashTablePos.setWidth 32,
    blockTablePos := p.blockTablePos.setWidth 32, hashTableSize := p.hashTableSize, blockTableSize := p.blockTableSize,
    hiBlockTablePos := if version = .v1 then none else some (p.hiBlockTablePos.getD 0),
    hashTablePosHi := if version = .v1 then none else some ((p.hashTablePos >>> 32).setWidth 16),
    blockTablePosHi := if version = .v1 then none else some ((p.blockTablePos >>> 32).setWidth 16),
    archiveSize64 := if version = .v3 ∨ version = .v4 then some p.archiveSize else none,
    betTablePos := if version = .v3 ∨ version = .v4 then some (p.betTablePos.getD 0) else none,
    hetTablePos := if version = .v3 ∨ version = .v4 then some (p.hetTablePos.getD 0) else none,
    v4Data := if version = .v4 then p.v4Data else none }

theorem readHeader_written (version : FormatVersion) (blockSize : U16) (p : HeaderParams) (bytes rest : List Byte)
    (hv4 : ∀ v, p.v4Data = some v → v.Sized) (h : writeHeader version blockSize p = .ok bytes) :
    readHeader (bytes ++ rest) = .ok (parsedHeader version blockSize p) := by
  cases version with
  | v1 =>
    simp only [writeHeader, Except.ok.injEq] at h
    subst h
    simp only [readHeader, headerCommonBytes, List.append_assoc, rd32_le32, rd16_le16, fromRaw_raw, bind, Except.bind,
      ne_eq, not_true_eq_false, if_false, Nat.lt_irrefl, pure, Except.pure]
    rfl
  | v2 =>
    simp only [writeHeader, Except.ok.injEq] at h
    subst h
    simp only [readHeader, readV2, headerCommonBytes, headerV2Bytes, List.append_assoc, rd32_le32, rd16_le16,
      rd64_le64, fromRaw_raw, bind, Except.bind,
      ne_eq, not_true_eq_false, if_false, Nat.lt_irrefl, pure, Except.pure]
    rfl
  | v3 =>
    simp only [writeHeader, Except.ok.injEq] at h
    subst h
    simp only [readHeader, readV2, readV3, headerCommonBytes, headerV2Bytes, headerV3Bytes, List.append_assoc,
      rd32_le32, rd16_le16, rd64_le64, fromRaw_raw, bind, Except.bind,
      ne_eq, not_true_eq_false, if_false, Nat.lt_irrefl, pure, Except.pure]
    rfl
  | v4 =>
    simp only [writeHeader] at h
    cases hv : p.v4Data with
    | none => rw [hv] at h; cases h
    | some v =>
      rw [hv] at h
      obtain ⟨m1, m2, m3, m4, m5, m6⟩ := hv4 v hv
      simp only [Except.ok.injEq] at h
      subst h
      unfold parsedHeader
      rw [hv]
      simp only [readHeader, readV2, readV3, readV4, headerCommonBytes, headerV2Bytes, headerV3Bytes, headerV4Bytes,
        List.append_assoc, rd32_le32, rd16_le16, rd64_le64, fromRaw_raw, bind, Except.bind,
        rdBytes_append _ _ _ m1, rdBytes_append _ _ _ m2, rdBytes_append _ _ _ m3, rdBytes_append _ _ _ m4,
        rdBytes_append _ _ _ m5, rdBytes_append _ _ _ m6,
        ne_eq, not_true_eq_false, if_false, Nat.lt_irrefl, pure, Except.pure]
      rfl

theorem writeHeader_length (version : FormatVersion) (blockSize : U16) (p : HeaderParams) (bytes : List Byte)
    (hv4 : ∀ v, p.v4Data = some v → v.Sized) (h : writeHeader version blockSize p = .ok bytes) :
    bytes.length = version.headerSize.toNat := by
  cases version with
  | v1 =>
    simp only [writeHeader, Except.ok.injEq] at h
    subst h; simp [headerCommonBytes]; rfl
  | v2 =>
    simp only [writeHeader, Except.ok.injEq] at h
    subst h; simp [headerCommonBytes, headerV2Bytes]; rfl
  | v3 =>
    simp only [writeHeader, Except.ok.injEq] at h
    subst h; simp [headerCommonBytes, headerV2Bytes, headerV3Bytes]; rfl
  | v4 =>
    simp only [writeHeader] at h
    cases hv : p.v4Data with
    | none => rw [hv] at h; cases h
    | some v =>
      rw [hv] at h
      obtain ⟨m1, m2, m3, m4, m5, m6⟩ := hv4 v hv
      simp only [Except.ok.injEq] at h
      subst h
      simp [headerCommonBytes, headerV2Bytes, headerV3Bytes, headerV4Bytes, m1, m2, m3, m4, m5, m6]; rfl

theorem rdBytes_total (n : Nat) (r : List Byte) : (∃ x, rdBytes n r = .ok x) ∨ rdBytes n r = .error .io := by
  unfold rdBytes; split
  · exact Or.inl ⟨_, rfl⟩
  · exact Or.inr rfl
theorem rd16_total (r : List Byte) : (∃ x, rd16 r = .ok x) ∨ rd16 r = .error .io := by
  unfold rd16; rcases rdBytes_total 2 r with ⟨x, h⟩ | h <;> rw [h]
  · exact Or.inl ⟨_, rfl⟩
  · exact Or.inr rfl
theorem rd32_total (r : List Byte) : (∃ x, rd32 r = .ok x) ∨ rd32 r = .error .io := by
  unfold rd32; rcases rdBytes_total 4 r with ⟨x, h⟩ | h <;> rw [h]
  · exact Or.inl ⟨_, rfl⟩
  · exact Or.inr rfl
theorem rd64_total (r : List Byte) : (∃ x, rd64 r = .ok x) ∨ rd64 r = .error .io := by
  unfold rd64; rcases rdBytes_total 8 r with ⟨x, h⟩ | h <;> rw [h]
  · exact Or.inl ⟨_, rfl⟩
  · exact Or.inr rfl

/-- The result is a value or one of the listed errors. -/
def Fails {α : Type} (r : Res α) (errs : List Err) : Prop := ∀ e, r = .error e → e ∈ errs

theorem Fails.bind {α β : Type} {r : Res α} {g : α → Res β} {errs : List Err} (h : Fails r errs)
    (hg : ∀ a, r = .ok a → Fails (g a) errs) : Fails (r >>= g) errs := by
  intro e he
  cases hr : r with
  | error e' =>
    rw [hr] at he
    simp only [Bind.bind, Except.bind, Except.error.injEq] at he
    subst he
    exact h _ hr
  | ok a =>
    rw [hr] at he
    exact hg a hr e he

theorem Fails.ok {α : Type} (a : α) (errs : List Err) : Fails (.ok a : Res α) errs := by
  intro e h; cases h
theorem Fails.pure {α : Type} (a : α) (errs : List Err) : Fails (Pure.pure a : Res α) errs := by
  intro e h; cases h
theorem Fails.throw {α : Type} (e : Err) (errs : List Err) (h : e ∈ errs) : Fails (throw e : Res α) errs := by
  intro e' h'; cases h'; exact h
theorem Fails.error {α : Type} (e : Err) (errs : List Err) (h : e ∈ errs) : Fails (.error e : Res α) errs := by
  intro e' h'; cases h'; exact h
theorem Fails.mono {α : Type} {r : Res α} {a b : List Err} (h : Fails r a) (hab : ∀ e ∈ a, e ∈ b) : Fails r b :=
  fun e he => hab e (h e he)
theorem Fails.map {α β : Type} {r : Res α} {g : α → β} {errs : List Err} (h : Fails r errs) :
    Fails (r.map g) errs := by
  intro e he
  cases hr : r with
  | error e' => rw [hr] at he; simp only [Except.map, Except.error.injEq] at he; subst he; exact h _ hr
  | ok a => rw [hr] at he; cases he

theorem rdBytes_fails (n : Nat) (r : List Byte) : Fails (rdBytes n r) [.io] := by
  intro e h; rcases rdBytes_total n r with ⟨x, h'⟩ | h' <;> rw [h'] at h <;> cases h; simp
theorem rd16_fails (r : List Byte) : Fails (rd16 r) [.io] := by
  intro e h; rcases rd16_total r with ⟨x, h'⟩ | h' <;> rw [h'] at h <;> cases h; simp
theorem rd32_fails (r : List Byte) : Fails (rd32 r) [.io] := by
  intro e h; rcases rd32_total r with ⟨x, h'⟩ | h' <;> rw [h'] at h <;> cases h; simp
theorem rd64_fails (r : List Byte) : Fails (rd64 r) [.io] := by
  intro e h; rcases rd64_total r with ⟨x, h'⟩ | h' <;> rw [h'] at h <;> cases h; simp

theorem readV2_fails (r : List Byte) : Fails (readV2 r) [.io] := by
  unfold readV2
  exact .bind (rd64_fails _) fun _ _ => .bind (rd16_fails _) fun _ _ => .bind (rd16_fails _) fun _ _ => .pure _ _
theorem readV3_fails (r : List Byte) : Fails (readV3 r) [.io] := by
  unfold readV3
  exact .bind (rd64_fails _) fun _ _ => .bind (rd64_fails _) fun _ _ => .bind (rd64_fails _) fun _ _ => .pure _ _
theorem readV4_fails (r : List Byte) : Fails (readV4 r) [.io] := by
  unfold readV4
  exact .bind (rd64_fails _) fun _ _ => .bind (rd64_fails _) fun _ _ => .bind (rd64_fails _) fun _ _ =>
    .bind (rd64_fails _) fun _ _ => .bind (rd64_fails _) fun _ _ => .bind (rd32_fails _) fun _ _ =>
    .bind (rdBytes_fails _ _) fun _ _ => .bind (rdBytes_fails _ _) fun _ _ => .bind (rdBytes_fails _ _) fun _ _ =>
    .bind (rdBytes_fails _ _) fun _ _ => .bind (rdBytes_fails _ _) fun _ _ => .bind (rdBytes_fails _ _) fun _ _ =>
    .pure _ _

theorem readHeader_fails (r : List Byte) : Fails (readHeader r) [.io, .invalidFormat, .unsupportedVersion] := by
  have m : ∀ e ∈ [Err.io], e ∈ [Err.io, .invalidFormat, .unsupportedVersion] := by simp
  unfold readHeader
  refine .bind ((rd32_fails _).mono m) fun ⟨_, _⟩ _ => ?_
  dsimp only
  split
  · exact .throw _ _ (by simp)
  refine .bind ((rd32_fails _).mono m) fun ⟨_, _⟩ _ => ?_
  refine .bind ((rd32_fails _).mono m) fun ⟨_, _⟩ _ => ?_
  refine .bind ((rd16_fails _).mono m) fun ⟨_, _⟩ _ => ?_
  refine .bind ((rd16_fails _).mono m) fun ⟨_, _⟩ _ => ?_
  refine .bind ((rd32_fails _).mono m) fun ⟨_, _⟩ _ => ?_
  refine .bind ((rd32_fails _).mono m) fun ⟨_, _⟩ _ => ?_
  refine .bind ((rd32_fails _).mono m) fun ⟨_, _⟩ _ => ?_
  refine .bind ((rd32_fails _).mono m) fun ⟨_, _⟩ _ => ?_
  try dsimp only
  split
  · exact .throw _ _ (by simp)
  try dsimp only
  split
  · exact .throw _ _ (by simp)
  try dsimp only
  split
  · exact .pure _ _
  refine .bind ((readV2_fails _).mono m) fun ⟨_, _⟩ _ => ?_
  try dsimp only
  split
  · exact .pure _ _
  refine .bind ((readV3_fails _).mono m) fun ⟨_, _⟩ _ => ?_
  try dsimp only
  split
  · exact .pure _ _
  exact .bind ((readV4_fails _).mono m) fun _ _ => .pure _ _

end Mopaq
