import Verif.Model.Crypto
import Verif.Spec.Crypto
import Verif.Lemmas.Bytes
import Verif.Lemmas.Table

/-! # Lemmas about the cipher and the hashes -/

namespace Mopaq

/-! ## Round trip -/

theorem xor_cancel {n : Nat} (a b : BitVec n) : (a ^^^ b) ^^^ b = a := by
  rw [BitVec.xor_assoc, BitVec.xor_self, BitVec.xor_zero]

theorem decryptLoop_encryptLoop (data : List U32) (key seed : U32) :
    decryptLoop key seed (encryptLoop key seed data) = data := by
  induction data generalizing key seed with
  | nil => rfl
  | cons ch rest ih => simp only [encryptLoop, decryptLoop, xor_cancel, ih]

theorem encryptLoop_decryptLoop (data : List U32) (key seed : U32) :
    encryptLoop key seed (decryptLoop key seed data) = data := by
  induction data generalizing key seed with
  | nil => rfl
  | cons v rest ih => simp only [encryptLoop, decryptLoop, xor_cancel, ih]

theorem encryptLoop_length (data : List U32) (key seed : U32) :
    (encryptLoop key seed data).length = data.length := by
  induction data generalizing key seed with
  | nil => rfl
  | cons ch rest ih => simp [encryptLoop, ih]

theorem decryptLoop_length (data : List U32) (key seed : U32) :
    (decryptLoop key seed data).length = data.length := by
  induction data generalizing key seed with
  | nil => rfl
  | cons ch rest ih => simp [decryptLoop, ih]

@[simp] theorem decryptBlock_encryptBlock (data : List U32) (key : U32) :
    decryptBlock (encryptBlock data key) key = data := by
  unfold decryptBlock encryptBlock; split
  · rfl
  · exact decryptLoop_encryptLoop ..

@[simp] theorem encryptBlock_decryptBlock (data : List U32) (key : U32) :
    encryptBlock (decryptBlock data key) key = data := by
  unfold decryptBlock encryptBlock; split
  · rfl
  · exact encryptLoop_decryptLoop ..

@[simp] theorem encryptBlock_length (data : List U32) (key : U32) :
    (encryptBlock data key).length = data.length := by
  unfold encryptBlock; split
  · rfl
  · exact encryptLoop_length ..

@[simp] theorem decryptBlock_length (data : List U32) (key : U32) :
    (decryptBlock data key).length = data.length := by
  unfold decryptBlock; split
  · rfl
  · exact decryptLoop_length ..

/-! ## Byte-level wrappers -/

theorem leNat_append (a b : List Byte) : leNat (a ++ b) = leNat a + 256 ^ a.length * leNat b := by
  induction a with
  | nil => simp [leNat]
  | cons x xs ih =>
    simp only [List.cons_append, leNat, ih, List.length_cons, Nat.pow_succ]
    rw [Nat.mul_add, ← Nat.mul_assoc, Nat.mul_comm 256 (256 ^ xs.length)]
    omega

/-- Byte-wise XOR of little-endian bytes. -/
theorem leBytes_xor (n a b : Nat) : leBytes n (a ^^^ b) = List.zipWith (· ^^^ ·) (leBytes n a) (leBytes n b) := by
  induction n generalizing a b with
  | zero => rfl
  | succ n ih =>
    simp only [leBytes, List.zipWith_cons_cons, List.cons.injEq]
    constructor
    · apply BitVec.eq_of_toNat_eq
      simp only [BitVec.toNat_ofNat, BitVec.toNat_xor, Nat.xor_mod_two_pow]
    · rw [← ih]
      congr 1
      have := @Nat.xor_div_two_pow a b 8
      simpa using this

theorem zipWith_take' {α β γ : Type} (f : α → β → γ) (n : Nat) (as : List α) (bs : List β) :
    (List.zipWith f as bs).take n = List.zipWith f (as.take n) (bs.take n) := by
  rw [List.take_zipWith]

theorem le32_xor (a b : U32) : le32 (a ^^^ b) = List.zipWith (· ^^^ ·) (le32 a) (le32 b) := by
  simp [le32, leBytes_xor, BitVec.toNat_xor]

theorem padDword_le32 (tail : List Byte) (h : tail.length ≤ 4) :
    le32 (padDword tail) = tail ++ List.replicate (4 - tail.length) 0 := by
  unfold padDword
  rw [le32_ofLe32]; simp; omega

theorem zipWith_xor_xor : ∀ (as bs : List Byte), as.length ≤ bs.length →
    List.zipWith (· ^^^ ·) (List.zipWith (· ^^^ ·) as bs) bs = as
  | [], _, _ => by simp
  | a :: as, b :: bs, h => by
    simp only [List.zipWith_cons_cons, xor_cancel, List.cons.injEq, true_and]
    exact zipWith_xor_xor as bs (by simpa using h)
  | _ :: _, [], h => by simp at h

/-- The tail path: pad, mask, truncate, pad, mask, truncate is the identity. -/
theorem tail_roundtrip (tail : List Byte) (h : tail.length ≤ 4) (m : U32) :
    (le32 (padDword ((le32 (padDword tail ^^^ m)).take tail.length) ^^^ m)).take tail.length = tail := by
  have hl : ((le32 (padDword tail ^^^ m)).take tail.length).length = tail.length := by simp; omega
  rw [le32_xor (padDword _) m, padDword_le32 _ (by omega), zipWith_take', hl]
  rw [List.take_left' hl]
  rw [le32_xor, padDword_le32 tail h, zipWith_take', List.take_left' rfl]
  apply zipWith_xor_xor
  simp; omega

theorem encryptBlock_single (v key : U32) :
    encryptBlock [v] key = [if key = 0 then v else v ^^^ (key + seedAdd key 0xEEEEEEEE)] := by
  unfold encryptBlock; split <;> simp_all [encryptLoop]

theorem encryptBlock_single_xor (key : U32) :
    ∃ m : U32, (∀ v, encryptBlock [v] key = [v ^^^ m]) ∧ (∀ v, decryptDword v key = v ^^^ m) := by
  by_cases h : key = 0
  · exact ⟨0, fun v => by simp [encryptBlock, h], fun v => by simp [decryptDword, h]⟩
  · exact ⟨key + seedAdd key 0xEEEEEEEE, fun v => by rw [encryptBlock, if_neg h]; rfl,
      fun v => by rw [decryptDword, if_neg h]⟩

theorem encryptData_eq (data : List Byte) (key : U32) (h : key ≠ 0) :
    encryptData data key =
      ofDwords (encryptBlock (toDwords (data.take (data.length / 4 * 4))) key) ++
      (ofDwords (encryptBlock [padDword (data.drop (data.length / 4 * 4))]
        (key + BitVec.ofNat 32 (data.length / 4)))).take (data.length % 4) := by
  have hr : (data.drop (data.length / 4 * 4)).length = data.length % 4 := by simp; omega
  unfold encryptData
  split
  · rename_i h'
    rcases h' with h' | h'
    · subst h'; simp [toDwords, encryptBlock, encryptLoop, ofDwords]
    · exact absurd h' h
  · simp only []
    split
    · rename_i he
      have : data.length % 4 = 0 := by rw [← hr, he]; rfl
      simp [this]
    · rw [hr]

theorem encryptData_length (data : List Byte) (key : U32) : (encryptData data key).length = data.length := by
  by_cases h : key = 0
  · simp [encryptData, h]
  · rw [encryptData_eq data key h]
    simp [toDwords_length]
    omega

theorem decryptFileData_eq (data : List Byte) (key : U32) (h : key ≠ 0) :
    decryptFileData data key =
      ofDwords (decryptBlock (toDwords (data.take (data.length / 4 * 4))) key) ++
      (le32 (decryptDword (padDword (data.drop (data.length / 4 * 4)))
        (key + BitVec.ofNat 32 (data.length / 4)))).take (data.length % 4) := by
  have hr : (data.drop (data.length / 4 * 4)).length = data.length % 4 := by simp; omega
  unfold decryptFileData
  split
  · rename_i h'
    rcases h' with h' | h'
    · subst h'; simp [toDwords, decryptBlock, decryptLoop, ofDwords]
    · exact absurd h' h
  · simp only []
    have hhead : (if data.length / 4 > 0 then
          ofDwords (decryptBlock (toDwords (data.take (data.length / 4 * 4))) key) else [])
        = ofDwords (decryptBlock (toDwords (data.take (data.length / 4 * 4))) key) := by
      split
      · rfl
      · rename_i h0
        have : data.length / 4 = 0 := by omega
        simp [this, toDwords, decryptBlock, decryptLoop, ofDwords]
    rw [hhead]
    split
    · rw [hr]
    · rename_i h0
      have : data.length % 4 = 0 := by omega
      simp [this]

theorem decryptFileData_length (data : List Byte) (key : U32) :
    (decryptFileData data key).length = data.length := by
  by_cases h : key = 0
  · simp [decryptFileData, h]
  · rw [decryptFileData_eq data key h]
    simp [toDwords_length]
    omega

theorem decryptFileData_encryptData (data : List Byte) (key : U32) :
    decryptFileData (encryptData data key) key = data := by
  by_cases h : key = 0
  · simp [decryptFileData, encryptData, h]
  · have hlen := encryptData_length data key
    rw [decryptFileData_eq _ key h, hlen, encryptData_eq data key h]
    have hhl : (ofDwords (encryptBlock (toDwords (data.take (data.length / 4 * 4))) key)).length
        = data.length / 4 * 4 := by simp [toDwords_length]; omega
    rw [List.take_left' hhl, List.drop_left' hhl, toDwords_ofDwords, decryptBlock_encryptBlock,
      ofDwords_toDwords]
    obtain ⟨m, hm1, hm2⟩ := encryptBlock_single_xor (key + BitVec.ofNat 32 (data.length / 4))
    rw [hm1, hm2]
    simp only [ofDwords, List.append_nil]
    have hr : (data.drop (data.length / 4 * 4)).length = data.length % 4 := by simp; omega
    have := tail_roundtrip (data.drop (data.length / 4 * 4)) (by omega) m
    rw [hr] at this
    rw [this]
    have hmin : (data.take (data.length / 4 * 4)).length / 4 * 4 = data.length / 4 * 4 := by
      simp; omega
    rw [hmin, List.take_take, Nat.min_self, List.take_append_drop]

theorem encryptData_decryptFileData (data : List Byte) (key : U32) :
    encryptData (decryptFileData data key) key = data := by
  by_cases h : key = 0
  · simp [decryptFileData, encryptData, h]
  · have hlen := decryptFileData_length data key
    rw [encryptData_eq _ key h, hlen, decryptFileData_eq data key h]
    have hhl : (ofDwords (decryptBlock (toDwords (data.take (data.length / 4 * 4))) key)).length
        = data.length / 4 * 4 := by simp [toDwords_length]; omega
    rw [List.take_left' hhl, List.drop_left' hhl, toDwords_ofDwords, encryptBlock_decryptBlock,
      ofDwords_toDwords]
    obtain ⟨m, hm1, hm2⟩ := encryptBlock_single_xor (key + BitVec.ofNat 32 (data.length / 4))
    rw [hm1, hm2]
    simp only [ofDwords, List.append_nil]
    have hr : (data.drop (data.length / 4 * 4)).length = data.length % 4 := by simp; omega
    have := tail_roundtrip (data.drop (data.length / 4 * 4)) (by omega) m
    rw [hr] at this
    rw [this]
    have hmin : (data.take (data.length / 4 * 4)).length / 4 * 4 = data.length / 4 * 4 := by
      simp; omega
    rw [hmin, List.take_take, Nat.min_self, List.take_append_drop]

/-! ## Agreement with the published algorithms -/

theorem and_ff (k : U32) : (k &&& 0xFF).toNat = k.toNat % 256 := by
  have : (0xFF : U32).toNat = 2 ^ 8 - 1 := rfl
  rw [BitVec.toNat_and, this, Nat.and_two_pow_sub_one_eq_mod]

theorem nextKey_toNat (k : U32) : (nextKey k).toNat = Spec.keySchedule k.toNat := by
  have hk := k.isLt
  unfold nextKey Spec.keySchedule Spec.M32
  rw [BitVec.toNat_or, BitVec.toNat_add, BitVec.toNat_shiftLeft, BitVec.toNat_not,
    BitVec.toNat_ushiftRight, Nat.shiftLeft_eq, Nat.shiftRight_eq_div_pow]
  rfl

theorem seedAdd_toNat (k s : U32) :
    (seedAdd k s).toNat = (Spec.Stream.mixed ⟨k.toNat, s.toNat⟩) := by
  unfold seedAdd Spec.Stream.mixed Spec.M32
  rw [BitVec.toNat_add, and_ff, encT_toNat _ (by omega)]

theorem mask_toNat (k s : U32) :
    (k + seedAdd k s).toNat = Spec.Stream.mask ⟨k.toNat, s.toNat⟩ := by
  rw [BitVec.toNat_add, seedAdd_toNat]; rfl

theorem nextSeed_toNat (p s : U32) :
    (nextSeed p s).toNat = (p.toNat + s.toNat + s.toNat * 32 + 3) % Spec.M32 := by
  unfold nextSeed Spec.M32
  simp only [BitVec.toNat_add, BitVec.toNat_shiftLeft, Nat.shiftLeft_eq, BitVec.reduceToNat]
  omega

theorem encryptLoop_spec (data : List U32) (key seed : U32) :
    Spec.Encrypts ⟨key.toNat, seed.toNat⟩ (data.map BitVec.toNat)
      ((encryptLoop key seed data).map BitVec.toNat) := by
  induction data generalizing key seed with
  | nil => exact .nil _
  | cons ch rest ih =>
    simp only [encryptLoop, List.map_cons, BitVec.toNat_xor, mask_toNat]
    apply Spec.Encrypts.cons
    have := ih (nextKey key) (nextSeed ch (seedAdd key seed))
    rw [nextKey_toNat, nextSeed_toNat, seedAdd_toNat] at this
    exact this

theorem decryptLoop_spec (data : List U32) (key seed : U32) :
    Spec.Encrypts ⟨key.toNat, seed.toNat⟩ ((decryptLoop key seed data).map BitVec.toNat)
      (data.map BitVec.toNat) := by
  have := encryptLoop_spec (decryptLoop key seed data) key seed
  rwa [encryptLoop_decryptLoop] at this

theorem encrypts_head {s : Spec.Stream} {p c : Nat} {ps cs : List Nat}
    (h : Spec.Encrypts s (p :: ps) (c :: cs)) : c = p ^^^ s.mask := by
  generalize hc : c :: cs = cc at h
  cases h with
  | cons s p ps cs h => exact (List.cons.inj hc).1

theorem encrypts_unique {s : Spec.Stream} {p c c' : List Nat}
    (h : Spec.Encrypts s p c) (h' : Spec.Encrypts s p c') : c = c' := by
  induction h generalizing c' with
  | nil s => cases h'; rfl
  | cons s p ps cs h ih => cases h' with | cons _ _ _ cs' h' => rw [ih h']

theorem foldUpper_toNat (b : Byte) : (foldUpper b).toNat = Spec.upper b.toNat := by
  have : ∀ n, n < 256 → (foldUpper (BitVec.ofNat 8 n)).toNat = Spec.upper n := by decide +kernel
  have h := this b.toNat b.isLt
  simpa using h

theorem foldLower_toNat (b : Byte) : (foldLower b).toNat = Spec.lower b.toNat := by
  have : ∀ n, n < 256 → (foldLower (BitVec.ofNat 8 n)).toNat = Spec.lower n := by decide +kernel
  have h := this b.toNat b.isLt
  simpa using h

theorem hashLoop_spec (t : Nat) (ht : t < 5) (name : List Byte) (s : U32 × U32) :
    ((hashLoop t s name).1.toNat, (hashLoop t s name).2.toNat)
      = (name.map BitVec.toNat).foldl (Spec.hashStep t) (s.1.toNat, s.2.toNat) := by
  induction name generalizing s with
  | nil => rfl
  | cons b rest ih =>
    obtain ⟨s1, s2⟩ := s
    simp only [hashLoop, List.map_cons, List.foldl_cons]
    rw [ih]
    refine congrArg (fun z => List.foldl (Spec.hashStep t) z (rest.map BitVec.toNat)) ?_
    have hb := (foldUpper b).isLt
    have e1 : (encT (t * 0x100 + (foldUpper b).toNat) ^^^ (s1 + s2)).toNat
        = Spec.cryptTable (t * 256 + Spec.upper b.toNat) ^^^ ((s1.toNat + s2.toNat) % Spec.M32) := by
      rw [BitVec.toNat_xor, encT_toNat _ (by omega), BitVec.toNat_add, foldUpper_toNat]; rfl
    unfold Spec.hashStep
    simp only [Prod.mk.injEq]
    refine ⟨e1, ?_⟩
    rw [← e1]
    generalize encT (t * 0x100 + (foldUpper b).toNat) ^^^ (s1 + s2) = x
    rw [← foldUpper_toNat]
    simp only [BitVec.toNat_add, BitVec.toNat_shiftLeft, Nat.shiftLeft_eq, BitVec.reduceToNat,
      BitVec.toNat_setWidth, Spec.M32]
    omega

theorem hashString_spec (t : Nat) (ht : t < 5) (name : List Byte) :
    (hashString name t).toNat = Spec.nameHash t (name.map BitVec.toNat) := by
  have := hashLoop_spec t ht name (0x7FED7FED, 0xEEEEEEEE)
  unfold hashString Spec.nameHash
  exact congrArg Prod.fst this

theorem xor_shr (h k : Nat) : h ^^^ h >>> k = h ^^^ (h / 2 ^ k) := by
  rw [Nat.shiftRight_eq_div_pow]

theorem jenkinsLoop_spec (name : List Byte) (h : U64) :
    (jenkinsLoop h name).toNat = (name.map BitVec.toNat).foldl Spec.jenkinsStep h.toNat := by
  induction name generalizing h with
  | nil => rfl
  | cons b rest ih =>
    simp only [jenkinsLoop, List.map_cons, List.foldl_cons]
    rw [ih]
    refine congrArg (fun z => List.foldl Spec.jenkinsStep z (rest.map BitVec.toNat)) ?_
    have hb := (foldLower b).isLt
    have e1 : (h + (foldLower b).setWidth 64).toNat = (h.toNat + Spec.lower b.toNat) % Spec.M64 := by
      rw [BitVec.toNat_add, BitVec.toNat_setWidth, foldLower_toNat, Spec.M64]
      rw [foldLower_toNat] at hb
      omega
    have e2 : ∀ x : U64, (x + x <<< 10).toNat = (x.toNat + x.toNat * 2 ^ 10) % Spec.M64 := by
      intro x
      rw [BitVec.toNat_add, BitVec.toNat_shiftLeft, Nat.shiftLeft_eq, Spec.M64]; omega
    unfold Spec.jenkinsStep
    simp only [BitVec.toNat_xor, BitVec.toNat_ushiftRight, Nat.shiftRight_eq_div_pow, e2, e1]

theorem jenkinsHash_spec (name : List Byte) :
    (jenkinsHash name).toNat = Spec.jenkins (name.map BitVec.toNat) := by
  have e2 : ∀ (k : Nat) (x : U64), (x + x <<< k).toNat = (x.toNat + x.toNat * 2 ^ k) % Spec.M64 := by
    intro k x
    rw [BitVec.toNat_add, BitVec.toNat_shiftLeft, Nat.shiftLeft_eq, Spec.M64]; omega
  unfold jenkinsHash Spec.jenkins
  simp only [e2, BitVec.toNat_xor, BitVec.toNat_ushiftRight, Nat.shiftRight_eq_div_pow, jenkinsLoop_spec]
  rfl

/-! ## Case and separator insensitivity -/

theorem upper_sameChar {a b : Nat} (h : Spec.sameChar a b) : Spec.upper a = Spec.upper b := by
  unfold Spec.sameChar at h; unfold Spec.upper; split <;> split <;> (try split) <;> (try split) <;> omega

theorem lower_sameChar {a b : Nat} (h : Spec.sameChar a b) : Spec.lower a = Spec.lower b := by
  unfold Spec.sameChar at h; unfold Spec.lower; split <;> split <;> (try split) <;> (try split) <;> omega

theorem nameHash_sameName (t : Nat) : ∀ (xs ys : List Nat) (s : Nat × Nat), Spec.sameName xs ys →
    xs.foldl (Spec.hashStep t) s = ys.foldl (Spec.hashStep t) s
  | [], [], _, _ => rfl
  | a :: as, b :: bs, s, h => by
    simp only [List.foldl_cons]
    have : Spec.hashStep t s a = Spec.hashStep t s b := by
      unfold Spec.hashStep; rw [upper_sameChar h.1]
    rw [this]; exact nameHash_sameName t as bs _ h.2
  | [], _ :: _, _, h => h.elim
  | _ :: _, [], _, h => h.elim

theorem jenkins_sameName : ∀ (xs ys : List Nat) (s : Nat), Spec.sameName xs ys →
    xs.foldl Spec.jenkinsStep s = ys.foldl Spec.jenkinsStep s
  | [], [], _, _ => rfl
  | a :: as, b :: bs, s, h => by
    simp only [List.foldl_cons]
    have : Spec.jenkinsStep s a = Spec.jenkinsStep s b := by
      unfold Spec.jenkinsStep; rw [lower_sameChar h.1]
    rw [this]; exact jenkins_sameName as bs _ h.2
  | [], _ :: _, _, h => h.elim
  | _ :: _, [], _, h => h.elim

/-! ## Bounds checks -/

theorem asciiToUpper_get (b : Byte) : asciiToUpper[b.toNat]? = some (asciiToUpper[b.toNat]?.getD 0) := by
  have hl : asciiToUpper.length = 256 := by decide +kernel
  have := b.isLt
  rw [List.getElem?_eq_getElem (by omega)]; rfl

theorem encryptLoopChecked_ok (data : List U32) (key seed : U32) :
    encryptLoopChecked key seed data = .ok (encryptLoop key seed data) := by
  induction data generalizing key seed with
  | nil => rfl
  | cons ch rest ih =>
    have h := encTChecked_ok (0x400 + (key &&& 0xFF).toNat) (by rw [and_ff]; omega)
    simp only [encryptLoopChecked, h, ih]
    rfl

theorem decryptLoopChecked_ok (data : List U32) (key seed : U32) :
    decryptLoopChecked key seed data = .ok (decryptLoop key seed data) := by
  induction data generalizing key seed with
  | nil => rfl
  | cons ch rest ih =>
    have h := encTChecked_ok (0x400 + (key &&& 0xFF).toNat) (by rw [and_ff]; omega)
    simp only [decryptLoopChecked, h, ih]
    rfl

theorem hashLoopChecked_ok (oc : Bool) (t : U32) (ht : t.toNat < 5) (name : List Byte) (s : U32 × U32) :
    hashLoopChecked oc t s name = .ok (hashLoop t.toNat s name) := by
  induction name generalizing s with
  | nil => rfl
  | cons b rest ih =>
    obtain ⟨s1, s2⟩ := s
    have hb := (foldUpper b).isLt
    have h1 := asciiToUpper_get (if b = 0x2F then 0x5C else b)
    have h2 : hashIndex oc t (foldUpper b) = .ok (t.toNat * 0x100 + (foldUpper b).toNat) := by
      unfold hashIndex; simp only []; rw [if_pos (by omega)]
    have h3 := encTChecked_ok (t.toNat * 0x100 + (foldUpper b).toNat) (by omega)
    unfold hashLoopChecked
    simp only []
    rw [h1]
    simp only []
    show (match hashIndex oc t (foldUpper b) with | .error e => _ | .ok i => _) = _
    rw [h2]; simp only []; rw [h3]; simp only []
    rw [ih]; rfl

theorem hashLoopChecked_panic (oc : Bool) (t : U32) (b : Byte) (rest : List Byte) (s : U32 × U32)
    (h : (hashIndex oc t (foldUpper b) = .error .panic) ∨
      ∃ i, hashIndex oc t (foldUpper b) = .ok i ∧ 0x500 ≤ i) :
    hashLoopChecked oc t s (b :: rest) = .error .panic := by
  obtain ⟨s1, s2⟩ := s
  have h1 := asciiToUpper_get (if b = 0x2F then 0x5C else b)
  unfold hashLoopChecked
  simp only []
  rw [h1]
  simp only []
  show (match hashIndex oc t (foldUpper b) with | .error e => _ | .ok i => _) = _
  rcases h with h | ⟨i, h, hi⟩
  · rw [h]
  · rw [h]; simp only []; rw [encTChecked_panic i hi]

end Mopaq
