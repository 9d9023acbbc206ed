import Verif.Lemmas.Crypto
import Verif.Lemmas.CryptoEval
import Verif.Model.Tables

/-! # Lemmas: reading back the tables the builder writes -/

namespace Mopaq

theorem HashEntry.toBytes_length (e : HashEntry) : e.toBytes.length = 16 := by simp [HashEntry.toBytes]
theorem BlockEntry.toBytes_length (e : BlockEntry) : e.toBytes.length = 16 := by simp [BlockEntry.toBytes]

theorem HashEntry.fromBytes_toBytes (e : HashEntry) : HashEntry.fromBytes e.toBytes = .ok e := by
  unfold HashEntry.fromBytes
  rw [if_neg (by rw [HashEntry.toBytes_length]; omega)]
  unfold HashEntry.toBytes
  simp [slice, List.drop_append, List.drop_eq_nil_of_le, List.take_of_length_le]

theorem BlockEntry.fromBytes_toBytes (e : BlockEntry) : BlockEntry.fromBytes e.toBytes = .ok e := by
  unfold BlockEntry.fromBytes
  rw [if_neg (by rw [BlockEntry.toBytes_length]; omega)]
  unfold BlockEntry.toBytes
  simp [slice, List.drop_append, List.drop_eq_nil_of_le, List.take_of_length_le]

theorem flatMap_length_16 {α : Type} (f : α → List Byte) (hf : ∀ x, (f x).length = 16) (xs : List α) :
    (xs.flatMap f).length = 16 * xs.length := by
  induction xs with
  | nil => rfl
  | cons x xs ih => simp [List.flatMap_cons, hf, ih]; omega

theorem parseEntries_flatMap {α : Type} (parse : List Byte → Res α) (f : α → List Byte)
    (hf : ∀ x, (f x).length = 16) (hp : ∀ x, parse (f x) = .ok x) (xs : List α) :
    parseEntries parse xs.length (xs.flatMap f) = .ok xs := by
  induction xs with
  | nil => rfl
  | cons x xs ih =>
    simp only [List.flatMap_cons, List.length_cons, parseEntries]
    rw [List.take_left' (hf x), List.drop_left' (hf x), hp, ih]

theorem parseEntries_length {α : Type} {parse : List Byte → Res α} {n : Nat} {raw : List Byte} {xs : List α}
    (h : parseEntries parse n raw = .ok xs) : xs.length = n := by
  induction n generalizing raw xs with
  | zero => simp only [parseEntries, Except.ok.injEq] at h; subst h; rfl
  | succ n ih =>
    simp only [parseEntries] at h
    split at h
    · cases h
    · split at h
      · cases h
      · cases h; rename_i h1; simp [ih h1]

/-- Decrypting whole dwords of what `encryptData` wrote gives the plain bytes back. -/
theorem decrypt_dwords_encryptData (data : List Byte) (key : U32) (hk : key ≠ 0) (h4 : data.length % 4 = 0) :
    ofDwords (decryptBlock (toDwords (encryptData data key)) key) = data := by
  rw [encryptData_eq data key hk, h4, List.take_zero, List.append_nil, toDwords_ofDwords, decryptBlock_encryptBlock,
    ofDwords_toDwords]
  have : data.length / 4 * 4 = data.length := by omega
  rw [this, List.take_length, this, List.take_length]

theorem hashTableKey_eq : hashTableKey = 0xC3AF3770 := by
  unfold hashTableKey htFileKey; rw [hashString_lit _ (by decide)]; decide +kernel

theorem blockTableKey_eq : blockTableKey = 0xEC83B3A3 := by
  unfold blockTableKey htFileKey; rw [hashString_lit _ (by decide)]; decide +kernel

theorem hashTableBytes_length (t : HashTable) : (hashTableBytes t).length = 16 * t.length := by
  unfold hashTableBytes
  rw [encryptData_length, flatMap_length_16 _ HashEntry.toBytes_length]

theorem blockTableBytes_length (t : List BlockEntry) : (blockTableBytes t).length = 16 * t.length := by
  unfold blockTableBytes
  rw [encryptData_length, flatMap_length_16 _ BlockEntry.toBytes_length]

theorem hiBlockTableBytes_length (t : List U16) : (hiBlockTableBytes t).length = 2 * t.length := by
  unfold hiBlockTableBytes
  induction t with
  | nil => rfl
  | cons x xs ih => simp [List.flatMap_cons, ih]; omega

theorem readHashTable_written (pre post : List Byte) (t : HashTable) (hn : t.length < 2 ^ 32)
    (hp : isPowerOfTwo (BitVec.ofNat 32 t.length) = true) :
    readHashTable (pre ++ hashTableBytes t ++ post) pre.length (BitVec.ofNat 32 t.length) = .ok t := by
  have hl : (BitVec.ofNat 32 t.length).toNat = t.length := by
    rw [BitVec.toNat_ofNat, Nat.mod_eq_of_lt hn]
  unfold readHashTable
  rw [hp, hl, readAt_mid pre _ post _ _ rfl (by rw [hashTableBytes_length]; omega)]
  simp only [Bool.not_true, Bool.false_eq_true, if_false]
  unfold hashTableBytes
  rw [decrypt_dwords_encryptData _ _ (by rw [hashTableKey_eq]; decide)
    (by rw [flatMap_length_16 _ HashEntry.toBytes_length]; omega)]
  exact parseEntries_flatMap _ _ HashEntry.toBytes_length HashEntry.fromBytes_toBytes t

theorem readBlockTable_written (pre post : List Byte) (t : List BlockEntry) (hn : t.length < 2 ^ 32) :
    readBlockTable (pre ++ blockTableBytes t ++ post) pre.length (BitVec.ofNat 32 t.length) = .ok t := by
  have hl : (BitVec.ofNat 32 t.length).toNat = t.length := by
    rw [BitVec.toNat_ofNat, Nat.mod_eq_of_lt hn]
  unfold readBlockTable
  rw [hl, readAt_mid pre _ post _ _ rfl (by rw [blockTableBytes_length]; omega)]
  simp only []
  unfold blockTableBytes
  rw [decrypt_dwords_encryptData _ _ (by rw [blockTableKey_eq]; decide)
    (by rw [flatMap_length_16 _ BlockEntry.toBytes_length]; omega)]
  exact parseEntries_flatMap _ _ BlockEntry.toBytes_length BlockEntry.fromBytes_toBytes t

theorem readHiBlockTable_written (t : List U16) : ∀ (pre post : List Byte),
    readHiBlockTable (pre ++ hiBlockTableBytes t ++ post) pre.length t.length = .ok t := by
  induction t with
  | nil => intros; rfl
  | cons x xs ih =>
    intro pre post
    simp only [List.length_cons, readHiBlockTable]
    have e1 : pre ++ hiBlockTableBytes (x :: xs) ++ post = pre ++ le16 x ++ (hiBlockTableBytes xs ++ post) := by
      simp [hiBlockTableBytes, List.flatMap_cons, List.append_assoc]
    rw [e1, readAt_mid pre (le16 x) _ _ _ rfl (by simp)]
    have e2 : pre ++ le16 x ++ (hiBlockTableBytes xs ++ post) = (pre ++ le16 x) ++ hiBlockTableBytes xs ++ post := by
      simp [List.append_assoc]
    have := ih (pre ++ le16 x) post
    rw [show (pre ++ le16 x).length = pre.length + 2 by simp] at this
    simp only []
    rw [e2, this]
    simp

/-- The dword view of a hash entry on disk. -/
theorem toDwords_le32_append (v : U32) (rest : List Byte) : toDwords (le32 v ++ rest) = v :: toDwords rest := by
  have h : (le32 v).length = 4 := le32_length v
  match hb : le32 v, h with
  | [a, b, c, d], _ =>
    show toDwords (a :: b :: c :: d :: rest) = _
    rw [toDwords, ← hb, ofLe32_le32]

theorem le16_le16 (a b : U16) : le16 a ++ le16 b = le32 (BitVec.ofNat 32 (a.toNat + 65536 * b.toNat)) := by
  have ha := a.isLt
  have hb := b.isLt
  simp only [le16, le32, leBytes, BitVec.toNat_ofNat, List.cons_append, List.nil_append]
  rw [Nat.mod_eq_of_lt (by omega)]
  simp only [List.cons.injEq, and_true]
  refine ⟨?_, ?_, ?_, ?_⟩ <;> apply BitVec.eq_of_toNat_eq <;> simp only [BitVec.toNat_ofNat] <;> omega

end Mopaq
