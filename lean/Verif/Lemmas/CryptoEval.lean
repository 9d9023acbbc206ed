import Verif.Lemmas.Crypto

/-! # Evaluating hashes on literals

`Spec.nameHash` with the crypt table replaced by checked literals, so that the kernel can evaluate the
hash of a literal name. Used only for examples and concrete witnesses. -/

namespace Mopaq

/-- One hash step on literals. -/
def hashStepLit (hashType : Nat) (s1 s2 b : Nat) : Nat × Nat :=
  let c := Spec.upper b
  let x := Nat.xor (entryLit (hashType * 256 + c)) ((s1 + s2) % 4294967296)
  (x, (c + x + s2 + s2 * 32 + 3) % 4294967296)

/-- Forces a number before continuing (the kernel evaluates the comparison to a literal). -/
def forceNat {α : Type} (n : Nat) (k : Nat → α) : α :=
  match n with
  | 0 => k 0
  | m + 1 => k (m + 1)

theorem forceNat_eq {α : Type} (n : Nat) (k : Nat → α) : forceNat n k = k n := by
  cases n <;> rfl

/-- Hash of a literal name. -/
def hashLit (hashType : Nat) : Nat → Nat → List Nat → Nat
  | s1, _, [] => s1
  | s1, s2, b :: bs =>
    forceNat (hashStepLit hashType s1 s2 b).1 fun x =>
    forceNat (hashStepLit hashType s1 s2 b).2 fun y => hashLit hashType x y bs

theorem hashLit_eq (t : Nat) (ht : t < 5) (name : List Nat) (hn : ∀ b ∈ name, b < 256) (s1 s2 : Nat) :
    hashLit t s1 s2 name = (name.foldl (Spec.hashStep t) (s1, s2)).1 := by
  induction name generalizing s1 s2 with
  | nil => rfl
  | cons b bs ih =>
    have hb : Spec.upper b < 256 := by
      have := hn b (by simp)
      unfold Spec.upper; split
      · omega
      · split <;> omega
    have hstep : hashStepLit t s1 s2 b = Spec.hashStep t (s1, s2) b := by
      unfold hashStepLit Spec.hashStep Spec.M32
      simp only []
      rw [entryLit_eq _ (by omega)]
      rfl
    simp only [hashLit, forceNat_eq, List.foldl_cons, hstep]
    exact ih (fun b hb => hn b (by simp [hb])) _ _

/-- Bytes of an ASCII literal. -/
def ascii (s : String) : List Byte := s.toList.map fun c => BitVec.ofNat 8 c.toNat

theorem hashString_lit (t : Nat) (ht : t < 5) (name : List Byte) :
    hashString name t = BitVec.ofNat 32 (hashLit t 0x7FED7FED 0xEEEEEEEE (name.map BitVec.toNat)) := by
  rw [hashLit_eq t ht _ (by simp; intro a _; exact a.isLt)]
  apply BitVec.eq_of_toNat_eq
  rw [hashString_spec t ht]
  unfold Spec.nameHash
  have := (hashString name t).isLt
  rw [hashString_spec t ht, Spec.nameHash] at this
  rw [BitVec.toNat_ofNat, Nat.mod_eq_of_lt this]

end Mopaq
