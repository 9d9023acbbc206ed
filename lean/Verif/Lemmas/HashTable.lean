import Verif.Model.Tables
import Verif.Lemmas.Crypto

/-! # Linear probing: what the two loops compute -/

namespace Mopaq

/-- Slot visited after `j` steps from `s` in a table of `n` slots. -/
def probe (n s j : Nat) : Nat := (s + j) % n

/-- Entry of a slot; outside the table it is the empty entry (never used there). -/
def HashTable.at (t : HashTable) (i : Nat) : HashEntry := t[i]?.getD .empty

theorem HashTable.get_at {t : HashTable} {i : Nat} (h : i < t.length) : t[i]? = some (t.at i) := by
  unfold HashTable.at; rw [List.getElem?_eq_getElem h]; rfl

theorem HashTable.at_set (t : HashTable) (i j : Nat) (e : HashEntry) (h : i < t.length) :
    HashTable.at (t.set i e) j = if j = i then e else t.at j := by
  unfold HashTable.at
  rw [List.getElem?_set]
  split
  · subst_vars; simp_all
  · rename_i hne; rw [if_neg (Ne.symm hne)]

theorem mask_eq (x k : Nat) : x &&& (2 ^ k - 1) = x % 2 ^ k := Nat.and_two_pow_sub_one_eq_mod x k

theorem probe_lt {n s j : Nat} (h : 0 < n) : probe n s j < n := Nat.mod_lt _ h

theorem probe_succ (n s j : Nat) (_h : 0 < n) : (probe n s j + 1) % n = probe n s (j + 1) := by
  unfold probe; rw [Nat.mod_add_mod, Nat.add_assoc]

theorem probe_zero {n s : Nat} (h : s < n) : probe n s 0 = s := by
  unfold probe; simp [Nat.mod_eq_of_lt h]

theorem probe_eq_start {n s j : Nat} (hs : s < n) (hj : j ≤ n) (h0 : 0 < j) : probe n s j = s ↔ j = n := by
  unfold probe
  constructor
  · intro h
    by_cases hlt : s + j < n
    · rw [Nat.mod_eq_of_lt hlt] at h; omega
    · rw [Nat.mod_eq_sub_mod (by omega), Nat.mod_eq_of_lt (by omega)] at h; omega
  · intro h; subst h; rw [Nat.add_mod_right, Nat.mod_eq_of_lt hs]

theorem probe_inj {n s i j : Nat} (hi : i < n) (hj : j < n) (h : probe n s i = probe n s j) : i = j := by
  unfold probe at h
  have h1 := Nat.div_add_mod (s + i) n
  have h2 := Nat.div_add_mod (s + j) n
  rw [h] at h1
  have h3 : n * ((s + i) / n) + j = n * ((s + j) / n) + i := by omega
  rcases Nat.lt_trichotomy ((s + i) / n) ((s + j) / n) with hl | he | hl
  · have := Nat.mul_le_mul_left n hl
    rw [Nat.mul_succ] at this; omega
  · rw [he] at h3; omega
  · have := Nat.mul_le_mul_left n hl
    rw [Nat.mul_succ] at this; omega

/-- Every slot is visited. -/
theorem probe_surj {n s i : Nat} (hs : s < n) (hi : i < n) : ∃ j, j < n ∧ probe n s j = i := by
  by_cases h : s ≤ i
  · exact ⟨i - s, by omega, by unfold probe; rw [Nat.mod_eq_of_lt] <;> omega⟩
  · refine ⟨n + i - s, by omega, ?_⟩
    unfold probe
    rw [show s + (n + i - s) = i + n by omega, Nat.add_mod_right, Nat.mod_eq_of_lt hi]

/-- What `findLoop` computes: search the visited slots for the first that is a hit or empty. -/
theorem findLoop_eq (t : HashTable) (k : Nat) (hn : t.length = 2 ^ k) (a b : U32) (l : U16) (s : Nat)
    (hs : s < t.length) (fuel j : Nat) (hj : j + fuel = t.length) (hf : 0 < fuel) :
    findLoop t a b l s fuel (probe t.length s j) =
      .ok (match (List.range' j fuel).find? (fun j =>
              (t.at (probe t.length s j)).isHit a b l || (t.at (probe t.length s j)).isEmpty) with
        | none => none
        | some j => if (t.at (probe t.length s j)).isHit a b l then
            some (probe t.length s j, t.at (probe t.length s j)) else none) := by
  induction fuel generalizing j with
  | zero => omega
  | succ fuel ih =>
    have hpos : 0 < t.length := by omega
    rw [List.range'_succ, List.find?_cons]
    unfold findLoop
    rw [HashTable.get_at (probe_lt hpos)]
    simp only []
    by_cases hh : (t.at (probe t.length s j)).isHit a b l
    · simp [hh]
    · by_cases he : (t.at (probe t.length s j)).isEmpty
      · simp [hh, he]
      · simp only [hh, he, Bool.false_eq_true, if_false, Bool.or_self]
        have hm : (probe t.length s j + 1) &&& (t.length - 1) = probe t.length s (j + 1) := by
          rw [← probe_succ _ _ _ hpos]
          conv => lhs; rw [hn, mask_eq]
          rw [hn]
        rw [hm]
        by_cases hlast : j + 1 = t.length
        · rw [if_pos ((probe_eq_start hs (by omega) (by omega)).2 hlast)]
          have : fuel = 0 := by omega
          subst this; rfl
        · rw [if_neg (fun h => hlast ((probe_eq_start hs (by omega) (by omega)).1 h))]
          exact ih (j + 1) (by omega) (by omega)

/-- What `addLoop` computes, for any fuel. -/
theorem addLoop_eq (t : HashTable) (k : Nat) (hn : t.length = 2 ^ k) (a b : U32) (l : U16) (blk : U32) (s : Nat)
    (fuel j : Nat) :
    addLoop t a b l blk fuel (probe t.length s j) =
      match (List.range' j fuel).find? (fun j =>
          (t.at (probe t.length s j)).isEmpty ||
          ((t.at (probe t.length s j)).name1 == a && (t.at (probe t.length s j)).name2 == b &&
            (t.at (probe t.length s j)).locale == l)) with
        | none => .error .diverge
        | some j => if (t.at (probe t.length s j)).isEmpty then
            .ok (t.set (probe t.length s j) ⟨a, b, l, 0, blk⟩) else .error .invalidFormat := by
  induction fuel generalizing j with
  | zero => simp [addLoop]
  | succ fuel ih =>
    have hpos : 0 < t.length := by rw [hn]; exact Nat.two_pow_pos k
    rw [List.range'_succ, List.find?_cons]
    unfold addLoop
    rw [HashTable.get_at (probe_lt hpos)]
    simp only []
    by_cases he : (t.at (probe t.length s j)).isEmpty
    · simp [he]
    · by_cases hd : ((t.at (probe t.length s j)).name1 == a && (t.at (probe t.length s j)).name2 == b &&
            (t.at (probe t.length s j)).locale == l)
      · simp only [hd, he, Bool.or_true, Bool.false_eq_true, if_false, if_true]
      · simp only [hd, he, Bool.false_eq_true, if_false, Bool.or_self]
        have hm : (probe t.length s j + 1) &&& (t.length - 1) = probe t.length s (j + 1) := by
          rw [← probe_succ _ _ _ hpos]
          conv => lhs; rw [hn, mask_eq]
          rw [hn]
        rw [hm]
        exact ih (j + 1)

/-- Start slot of a name in a table of `n` slots. -/
def startOf (n : Nat) (name : List Byte) : Nat := (hashString name htTableOffset).toNat % n

theorem findFileHash_eq (t : HashTable) (k : Nat) (hn : t.length = 2 ^ k) (name : List Byte) (l : U16) :
    findFileHash t name l =
      .ok (match (List.range t.length).find? (fun j =>
              (t.at (probe t.length (startOf t.length name) j)).isHit (hashString name htNameA) (hashString name htNameB) l
              || (t.at (probe t.length (startOf t.length name) j)).isEmpty) with
        | none => none
        | some j => if (t.at (probe t.length (startOf t.length name) j)).isHit (hashString name htNameA)
              (hashString name htNameB) l then
            some (probe t.length (startOf t.length name) j, t.at (probe t.length (startOf t.length name) j))
            else none) := by
  have hpos : 0 < t.length := by rw [hn]; exact Nat.two_pow_pos k
  unfold findFileHash
  simp only []
  rw [if_neg (by omega)]
  have hs : (hashString name htTableOffset).toNat &&& (t.length - 1) = startOf t.length name := by
    unfold startOf
    conv => lhs; rw [hn, mask_eq]
    rw [hn]
  have hlt : startOf t.length name < t.length := Nat.mod_lt _ hpos
  rw [hs]
  have := findLoop_eq t k hn (hashString name htNameA) (hashString name htNameB) l _ hlt t.length 0 (by omega) hpos
  rw [probe_zero hlt] at this
  rw [this, List.range_eq_range']

theorem addToHashTableFuel_eq (fuel : Nat) (t : HashTable) (k : Nat) (hn : t.length = 2 ^ k) (name : List Byte)
    (blk : U32) (l : U16) :
    addToHashTableFuel fuel t name blk l =
      match (List.range fuel).find? (fun j =>
          (t.at (probe t.length (startOf t.length name) j)).isEmpty ||
          ((t.at (probe t.length (startOf t.length name) j)).name1 == hashString name htNameA &&
           (t.at (probe t.length (startOf t.length name) j)).name2 == hashString name htNameB &&
            (t.at (probe t.length (startOf t.length name) j)).locale == l)) with
        | none => .error .diverge
        | some j => if (t.at (probe t.length (startOf t.length name) j)).isEmpty then
            .ok (t.set (probe t.length (startOf t.length name) j)
              ⟨hashString name htNameA, hashString name htNameB, l, 0, blk⟩) else .error .invalidFormat := by
  have hpos : 0 < t.length := by rw [hn]; exact Nat.two_pow_pos k
  unfold addToHashTableFuel
  simp only []
  rw [if_neg (by omega)]
  have hs : (hashString name htTableOffset).toNat &&& (t.length - 1) = startOf t.length name := by
    unfold startOf
    conv => lhs; rw [hn, mask_eq]
    rw [hn]
  have hlt : startOf t.length name < t.length := Nat.mod_lt _ hpos
  rw [hs]
  have := addLoop_eq t k hn (hashString name htNameA) (hashString name htNameB) l blk (startOf t.length name) fuel 0
  rw [probe_zero hlt] at this
  rw [this, List.range_eq_range']

end Mopaq
