import Verif.Model.HetBet
import Verif.Spec.HetBet
import Verif.Lemmas.Bytes

/-!
# Bit-level facts about byte strings
-/

namespace Mopaq
open Spec (bitAt field)

theorem bitAt_nil (j : Nat) : bitAt [] j = false := by simp [bitAt]

theorem bitAt_cons (b : Byte) (bs : List Byte) (j : Nat) :
    bitAt (b :: bs) j = if j < 8 then b.getLsbD j else bitAt bs (j - 8) := by
  unfold bitAt
  by_cases h : j < 8
  · have h1 : j / 8 = 0 := by omega
    have h2 : j % 8 = j := by omega
    simp [h, h1, h2]
  · have h1 : j / 8 = (j - 8) / 8 + 1 := by omega
    have h2 : j % 8 = (j - 8) % 8 := by omega
    simp [h, h1, h2]

theorem leNat_testBit : ∀ (bs : List Byte) (j : Nat), (leNat bs).testBit j = bitAt bs j
  | [], j => by simp [leNat, bitAt_nil]
  | b :: bs, j => by
    rw [bitAt_cons, leNat]
    have h256 : (256 : Nat) = 2 ^ 8 := rfl
    rw [Nat.add_comm, h256, Nat.testBit_two_pow_mul_add _ (by simpa using b.isLt)]
    split
    · rfl
    · exact leNat_testBit bs (j - 8)

theorem bitAt_leBytes : ∀ (n v j : Nat), bitAt (leBytes n v) j = (decide (j < 8 * n) && v.testBit j)
  | 0, v, j => by simp [leBytes, bitAt_nil]
  | n + 1, v, j => by
    rw [leBytes, bitAt_cons]
    split
    · rename_i h
      have : j < 8 * (n + 1) := by omega
      rw [BitVec.getLsbD_ofNat]
      simp [h, this]
    · rename_i h
      rw [bitAt_leBytes n]
      have h1 : (v / 256).testBit (j - 8) = v.testBit j := by
        have h256 : (256 : Nat) = 2 ^ 8 := rfl
        rw [h256, Nat.testBit_div_two_pow]
        congr 1; omega
      rw [h1]
      congr 1
      simp only [decide_eq_decide]; omega

theorem bitAt_length (bs : List Byte) (j : Nat) (h : 8 * bs.length ≤ j) : bitAt bs j = false := by
  unfold bitAt
  rw [List.getD_eq_getElem?_getD, List.getElem?_eq_none (by omega)]
  simp

theorem bitAt_append (a b : List Byte) (j : Nat) :
    bitAt (a ++ b) j = if j < 8 * a.length then bitAt a j else bitAt b (j - 8 * a.length) := by
  unfold bitAt
  split
  · rename_i h
    rw [List.getD_eq_getElem?_getD, List.getD_eq_getElem?_getD, List.getElem?_append_left (by omega)]
  · rename_i h
    rw [List.getD_eq_getElem?_getD, List.getD_eq_getElem?_getD, List.getElem?_append_right (by omega)]
    have h1 : j / 8 - a.length = (j - 8 * a.length) / 8 := by omega
    have h2 : j % 8 = (j - 8 * a.length) % 8 := by omega
    rw [h1, h2]

theorem bitAt_drop (bs : List Byte) (n j : Nat) : bitAt (bs.drop n) j = bitAt bs (8 * n + j) := by
  unfold bitAt
  rw [List.getD_eq_getElem?_getD, List.getD_eq_getElem?_getD, List.getElem?_drop]
  have h1 : n + j / 8 = (8 * n + j) / 8 := by omega
  have h2 : j % 8 = (8 * n + j) % 8 := by omega
  rw [h1, h2]

theorem bitAt_take (bs : List Byte) (n j : Nat) : bitAt (bs.take n) j = (decide (j < 8 * n) && bitAt bs j) := by
  unfold bitAt
  rw [List.getD_eq_getElem?_getD, List.getD_eq_getElem?_getD, List.getElem?_take]
  by_cases h : j < 8 * n
  · have h1 : j / 8 < n := by omega
    simp [h, h1]
  · have h1 : ¬ j / 8 < n := by omega
    simp [h, h1]

theorem bitAt_slice (bs : List Byte) (off n j : Nat) :
    bitAt (slice bs off n) j = (decide (j < 8 * n) && bitAt bs (8 * off + j)) := by
  rw [slice, bitAt_take, bitAt_drop]

theorem bitAt_replicate_zero (n j : Nat) : bitAt (List.replicate n 0#8) j = false := by
  unfold bitAt
  rw [List.getD_eq_getElem?_getD, List.getElem?_replicate]
  split <;> simp

/-- Two byte strings of the same length with the same bits are equal. -/
theorem eq_of_bitAt {a b : List Byte} (hl : a.length = b.length) (h : ∀ j, bitAt a j = bitAt b j) : a = b := by
  apply List.ext_getElem hl
  intro i hi hi'
  apply BitVec.eq_of_getLsbD_eq
  intro k hk
  have := h (8 * i + k)
  unfold bitAt at this
  have h1 : (8 * i + k) / 8 = i := by omega
  have h2 : (8 * i + k) % 8 = k := by omega
  rw [h1, h2, List.getD_eq_getElem?_getD, List.getD_eq_getElem?_getD, List.getElem?_eq_getElem hi,
    List.getElem?_eq_getElem hi'] at this
  simpa using this

theorem lowMask_getLsbD (n i : Nat) : (lowMask n).getLsbD i = (decide (i < 64) && decide (i < n)) := by
  unfold lowMask
  by_cases h : n ≥ 64
  · rw [if_pos h, BitVec.getLsbD_allOnes]
    by_cases hi : i < 64
    · have : i < n := by omega
      simp [hi, this]
    · simp [hi]
  · rw [if_neg h]
    have hn : n < 64 := by omega
    have hpow : 2 ^ n < 2 ^ 64 := Nat.pow_lt_pow_right (by omega) hn
    have : ((1#64 <<< n) - 1#64).toNat = 2 ^ n - 1 := by
      have h1 : (1#64 <<< n).toNat = 2 ^ n := by
        rw [BitVec.toNat_shiftLeft, BitVec.toNat_ofNat, Nat.shiftLeft_eq]
        rw [Nat.mod_eq_of_lt (by omega : 1 < 2 ^ 64), Nat.one_mul, Nat.mod_eq_of_lt hpow]
      have hpos : 0 < 2 ^ n := Nat.two_pow_pos n
      rw [BitVec.toNat_sub_of_le (by rw [BitVec.le_def, h1]; exact hpos), h1]
      rfl
    rw [← BitVec.testBit_toNat, this, Nat.testBit_two_pow_sub_one]
    by_cases hi : i < n
    · have : i < 64 := by omega
      simp [hi, this]
    · simp [hi]

theorem loadLe_getLsbD (data : List Byte) (off n j : Nat) (hn : n ≤ 8) :
    (loadLe data off n).getLsbD j = (decide (j < 8 * n) && bitAt data (8 * off + j)) := by
  unfold loadLe
  rw [BitVec.getLsbD_ofNat, leNat_testBit, bitAt_slice]
  by_cases h : j < 8 * n
  · have : j < 64 := by omega
    simp [h, this]
  · simp [h]

theorem storeLe_length (data : List Byte) (off n : Nat) (v : U64) (h : off + n ≤ data.length) :
    (storeLe data off n v).length = data.length := by
  have := leBytes_length n v.toNat
  simp only [storeLe, List.length_append, List.length_take, List.length_drop, this]
  omega

theorem bitAt_storeLe (data : List Byte) (off n : Nat) (v : U64) (h : off + n ≤ data.length) (j : Nat) :
    bitAt (storeLe data off n v) j =
      if 8 * off ≤ j ∧ j < 8 * (off + n) then v.getLsbD (j - 8 * off) else bitAt data j := by
  have hl := leBytes_length n v.toNat
  have ht : (data.take off).length = off := by rw [List.length_take]; omega
  rw [storeLe, List.append_assoc, bitAt_append, ht]
  by_cases h1 : j < 8 * off
  · rw [if_pos h1, if_neg (by omega), bitAt_take]
    simp [h1]
  · rw [if_neg h1, bitAt_append, hl]
    by_cases h2 : j < 8 * (off + n)
    · rw [if_pos (by omega), if_pos ⟨by omega, h2⟩, bitAt_leBytes]
      have : j - 8 * off < 8 * n := by omega
      simp [this, BitVec.testBit_toNat]
    · rw [if_neg (by omega), if_neg (by omega), bitAt_drop]
      congr 1; omega

/-- What `write_bit_entry` does, bit by bit. -/
theorem writeBitEntry_bits (data : List Byte) (index : Nat) (value : U64) (w : Nat) (out : List Byte)
    (h : writeBitEntry data index value w = .ok out) (j : Nat) :
    bitAt out j = if index * w ≤ j ∧ j < index * w + w ∧ j < index * w / 8 * 8 + 64 then value.getLsbD (j - index * w)
      else bitAt data j := by
  unfold writeBitEntry at h
  dsimp only at h
  split at h
  · cases h
  rename_i hlen
  cases h
  have hlen' : index * w / 8 + (index * w % 8 + w + 7) / 8 ≤ data.length := by omega
  rw [bitAt_storeLe _ _ _ _ (by omega)]
  generalize hb : index * w = b at *
  by_cases hin : 8 * (b / 8) ≤ j ∧ j < 8 * (b / 8 + min ((b % 8 + w + 7) / 8) 8)
  · rw [if_pos hin]
    simp only [BitVec.getLsbD_or, BitVec.getLsbD_and, BitVec.getLsbD_not, BitVec.getLsbD_shiftLeft, lowMask_getLsbD]
    rw [loadLe_getLsbD _ _ _ _ (by omega)]
    have e0 : 8 * (b / 8) + (j - 8 * (b / 8)) = j := by omega
    have e1 : j - 8 * (b / 8) - b % 8 = j - b := by omega
    have c64 : j - 8 * (b / 8) < 64 := by omega
    have cin : j - 8 * (b / 8) < 8 * min ((b % 8 + w + 7) / 8) 8 := by omega
    rw [e0, e1]
    by_cases hlo : b ≤ j
    · have s1 : ¬ (j - 8 * (b / 8) < b % 8) := by omega
      have s2 : j - b < 64 := by omega
      by_cases hhi : j < b + w
      · have s3 : j - b < w := by omega
        rw [if_pos ⟨hlo, hhi, by omega⟩]
        simp [c64, cin, s1, s2, s3]
      · have s3 : ¬ (j - b < w) := by omega
        rw [if_neg (by omega)]
        simp [c64, cin, s1, s2, s3]
    · have s1 : j - 8 * (b / 8) < b % 8 := by omega
      rw [if_neg (by omega)]
      simp [c64, cin, s1]
  · rw [if_neg hin, if_neg]
    intro hc
    apply hin
    omega

theorem writeBitEntry_length (data : List Byte) (index : Nat) (value : U64) (w : Nat) (out : List Byte)
    (h : writeBitEntry data index value w = .ok out) : out.length = data.length := by
  unfold writeBitEntry at h
  dsimp only at h
  split at h
  · cases h
  rename_i hlen
  cases h
  exact storeLe_length _ _ _ _ (by omega)

/-- Refusal is exactly being out of bounds. -/
theorem writeBitEntry_ok_iff (data : List Byte) (index : Nat) (value : U64) (w : Nat) :
    (∃ out, writeBitEntry data index value w = .ok out) ↔
      index * w / 8 + (index * w % 8 + w + 7) / 8 ≤ data.length := by
  unfold writeBitEntry
  dsimp only
  split
  · simp; omega
  · simp; omega

theorem field_lt (data : List Byte) : ∀ (w s : Nat), field data s w < 2 ^ w
  | 0, s => by simp [field]
  | w + 1, s => by
    have := field_lt data w (s + 1)
    rw [field, Nat.pow_succ]
    split <;> omega

theorem field_testBit (data : List Byte) : ∀ (w s j : Nat), (field data s w).testBit j = (decide (j < w) && bitAt data (s + j))
  | 0, s, j => by simp [field]
  | w + 1, s, j => by
    rw [field, Nat.add_comm, show (2 : Nat) = 2 ^ 1 from rfl, Nat.testBit_two_pow_mul_add _ (by split <;> omega)]
    cases j with
    | zero => simp; cases bitAt data s <;> simp
    | succ j =>
      rw [if_neg (by omega), Nat.add_sub_cancel, field_testBit data w]
      have : s + 1 + j = s + (j + 1) := by omega
      rw [this]
      simp

end Mopaq
