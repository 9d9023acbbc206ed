import Verif.Model.Basic

/-! # Lemmas about little-endian bytes, slices and positioned reads -/

namespace Mopaq

@[simp] theorem leBytes_length (n v : Nat) : (leBytes n v).length = n := by
  induction n generalizing v with
  | zero => rfl
  | succ n ih => simp [leBytes, ih]

theorem leNat_leBytes (n v : Nat) : leNat (leBytes n v) = v % 256 ^ n := by
  induction n generalizing v with
  | zero => simp [leBytes, leNat, Nat.mod_one]
  | succ n ih =>
    simp only [leBytes, leNat, ih, BitVec.toNat_ofNat]
    rw [show 256 ^ (n + 1) = 2 ^ 8 * 256 ^ n from by rw [Nat.pow_succ, Nat.mul_comm], Nat.mod_mul]

theorem leNat_lt (bs : List Byte) : leNat bs < 256 ^ bs.length := by
  induction bs with
  | nil => simp [leNat]
  | cons b bs ih =>
    have := b.isLt
    simp only [leNat, List.length_cons, Nat.pow_succ]
    omega

theorem leBytes_leNat (bs : List Byte) : leBytes bs.length (leNat bs) = bs := by
  induction bs with
  | nil => rfl
  | cons b bs ih =>
    have hb := b.isLt
    have h1 : (b.toNat + 256 * leNat bs) / 256 = leNat bs := by omega
    simp only [List.length_cons, leBytes, leNat, h1, ih, List.cons.injEq, and_true]
    apply BitVec.eq_of_toNat_eq
    simp only [BitVec.toNat_ofNat]; omega

theorem leBytes_leNat' (bs : List Byte) (n : Nat) (h : bs.length = n) :
    leBytes n (leNat bs) = bs := by subst h; exact leBytes_leNat bs

@[simp] theorem le16_length (v : U16) : (le16 v).length = 2 := leBytes_length ..
@[simp] theorem le32_length (v : U32) : (le32 v).length = 4 := leBytes_length ..
@[simp] theorem le64_length (v : U64) : (le64 v).length = 8 := leBytes_length ..

@[simp] theorem ofLe16_le16 (v : U16) : ofLe16 (le16 v) = v := by
  apply BitVec.eq_of_toNat_eq
  have := v.isLt
  simp only [ofLe16, le16, leNat_leBytes, BitVec.toNat_ofNat]; omega

@[simp] theorem ofLe32_le32 (v : U32) : ofLe32 (le32 v) = v := by
  apply BitVec.eq_of_toNat_eq
  have := v.isLt
  simp only [ofLe32, le32, leNat_leBytes, BitVec.toNat_ofNat]; omega

@[simp] theorem ofLe64_le64 (v : U64) : ofLe64 (le64 v) = v := by
  apply BitVec.eq_of_toNat_eq
  have := v.isLt
  simp only [ofLe64, le64, leNat_leBytes, BitVec.toNat_ofNat]; omega

theorem le32_ofLe32 (bs : List Byte) (h : bs.length = 4) : le32 (ofLe32 bs) = bs := by
  have := leNat_lt bs
  rw [h] at this
  simp only [le32, ofLe32, BitVec.toNat_ofNat]
  rw [Nat.mod_eq_of_lt (by omega), leBytes_leNat' bs 4 h]

/-! ## Slices and reads -/

theorem slice_append_right (a b : List Byte) (off n : Nat) (h : a.length ≤ off) :
    slice (a ++ b) off n = slice b (off - a.length) n := by
  simp [slice, List.drop_append, List.drop_eq_nil_of_le h]

theorem slice_append_left (a b : List Byte) (off n : Nat) (h : off + n ≤ a.length) :
    slice (a ++ b) off n = slice a off n := by
  have h1 : n - (a.length - off) = 0 := by omega
  simp [slice, List.drop_append, List.take_append, h1]

theorem slice_zero_length (a : List Byte) : slice a 0 a.length = a := by simp [slice]

theorem slice_mid (a b c : List Byte) : slice (a ++ b ++ c) a.length b.length = b := by
  simp [slice, List.append_assoc]

theorem slice_length (a : List Byte) (off n : Nat) (h : off + n ≤ a.length) :
    (slice a off n).length = n := by
  simp [slice]; omega

theorem readAt_ok {f : List Byte} {off n : Nat} (h : off + n ≤ f.length) :
    readAt f off n = .ok (slice f off n) := by
  unfold readAt
  split
  · rename_i h0; subst h0; simp [slice]
  · simp

/-- Reading exactly a middle segment. -/
theorem readAt_mid (a b c : List Byte) (off n : Nat) (ho : off = a.length) (hn : n = b.length) :
    readAt (a ++ b ++ c) off n = .ok b := by
  subst ho; subst hn
  rw [readAt_ok (by simp), slice_mid]

/-- A buffer of less than `isize::MAX` bytes is allocated; what is read then is what is there. -/
theorem readVec_eq (f : List Byte) (off n : Nat) (hn : n < 2 ^ 63) : readVec f off n = readAt f off n := by
  unfold readVec
  rw [if_neg (fun h => absurd h.2 (Nat.not_le.2 hn))]

theorem readVec_ok {f : List Byte} {off n : Nat} {bs : List Byte} (h : readVec f off n = .ok bs) :
    readAt f off n = .ok bs := by
  unfold readVec at h
  split at h
  · cases h
  · exact h

theorem readAt_length {f : List Byte} {off n : Nat} {bs : List Byte} (h : readAt f off n = .ok bs) :
    bs.length = n := by
  unfold readAt at h
  split at h
  · cases h; simp_all
  · split at h
    · cases h; rename_i h2; exact slice_length _ _ _ h2
    · cases h

theorem readAt_eq_ok_iff {f : List Byte} {off n : Nat} {bs : List Byte} :
    readAt f off n = .ok bs ↔ (n = 0 ∧ bs = []) ∨ (n ≠ 0 ∧ off + n ≤ f.length ∧ bs = slice f off n) := by
  unfold readAt
  split
  · simp_all [eq_comm]
  · split
    · simp_all [eq_comm]
    · simp_all; omega

/-! ## Dwords -/

@[simp] theorem toDwords_ofDwords_append (vs : List U32) (tail : List Byte) (h : tail.length < 4) :
    toDwords (ofDwords vs ++ tail) = vs := by
  induction vs with
  | nil =>
    match tail, h with
    | [], _ => rfl
    | [_], _ => rfl
    | [_, _], _ => rfl
    | [_, _, _], _ => rfl
  | cons v vs ih =>
    have h4 : ofDwords (v :: vs) ++ tail = le32 v ++ (ofDwords vs ++ tail) := by
      simp [ofDwords, List.append_assoc]
    rw [h4]
    have : le32 v = [BitVec.ofNat 8 v.toNat, BitVec.ofNat 8 (v.toNat / 256),
        BitVec.ofNat 8 (v.toNat / 256 / 256), BitVec.ofNat 8 (v.toNat / 256 / 256 / 256)] := rfl
    conv => lhs; rw [this]
    simp only [List.cons_append, List.nil_append, toDwords, ih, List.cons.injEq, and_true]
    rw [← this, ofLe32_le32]

@[simp] theorem toDwords_ofDwords (vs : List U32) : toDwords (ofDwords vs) = vs := by
  simpa using toDwords_ofDwords_append vs [] (by simp)

@[simp] theorem ofDwords_length (vs : List U32) : (ofDwords vs).length = 4 * vs.length := by
  induction vs with
  | nil => rfl
  | cons v vs ih => simp only [ofDwords, List.length_append, le32_length, ih, List.length_cons]; omega

theorem toDwords_length (bs : List Byte) : (toDwords bs).length = bs.length / 4 := by
  fun_induction toDwords bs with
  | case1 a b c d rest ih => simp only [List.length_cons, ih]; omega
  | case2 l h =>
    match l, h with
    | [], _ => rfl
    | [_], _ => simp
    | [_, _], _ => simp
    | [_, _, _], _ => simp
    | a :: b :: c :: d :: r, h => exact absurd rfl (h a b c d r)

theorem ofDwords_toDwords (bs : List Byte) : ofDwords (toDwords bs) = bs.take (bs.length / 4 * 4) := by
  fun_induction toDwords bs with
  | case1 a b c d rest ih =>
    have h : (a :: b :: c :: d :: rest).length / 4 * 4 = rest.length / 4 * 4 + 4 := by
      simp only [List.length_cons]; omega
    rw [h]
    simp only [ofDwords, ih, List.take_succ_cons]
    rw [le32_ofLe32 _ rfl]; rfl
  | case2 l h =>
    match l, h with
    | [], _ => rfl
    | [_], _ => simp [ofDwords]
    | [_, _], _ => simp [ofDwords]
    | [_, _, _], _ => simp [ofDwords]
    | a :: b :: c :: d :: r, h => exact absurd rfl (h a b c d r)

theorem ofDwords_append (xs ys : List U32) : ofDwords (xs ++ ys) = ofDwords xs ++ ofDwords ys := by
  induction xs with
  | nil => rfl
  | cons x xs ih => simp [ofDwords, ih, List.append_assoc]

end Mopaq
