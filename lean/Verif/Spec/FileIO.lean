import Verif.Spec.Compression

/-!
# Specification: sectors, lossless methods, Adler-32

Nothing here refers to the model.
-/

namespace Spec

/-- `x` is one of the sectors of `d`: the `ss` bytes (or what is left) from a multiple of `ss` on. -/
def IsSector (ss : Nat) (d x : List (BitVec 8)) : Prop :=
  ∃ i, i * ss < d.length ∧ x = (d.drop (i * ss)).take ss

/-- The methods that lose nothing of `d`: no audio bits, not PKWARE or BZip2 together with implode; for run-length
encoding of zeros (alone or with implode) no non-zero byte after 127 zeros. Not more data than memory can hold. -/
def LosslessMethod (m : BitVec 8) (d : List (BitVec 8)) : Prop :=
  m.toNat < 64 ∧ m ≠ 0x0C#8 ∧ m ≠ 0x14#8 ∧ (m = 0x20#8 ∨ m = 0x24#8 → NoLongZeroRun d) ∧
    d.length < 2 ^ 61

/-- The two sums of Adler-32 (RFC 1950), starting from `(a, b)`. -/
def adlerSums : Nat × Nat → List (BitVec 8) → Nat × Nat
  | s, [] => s
  | (a, b), x :: xs =>
    let a' := (a + x.toNat) % 65521
    adlerSums (a', (b + a') % 65521) xs

/-- Adler-32 (RFC 1950). -/
def adler32 (d : List (BitVec 8)) : Nat :=
  let (a, b) := adlerSums (1, 0) d
  b * 65536 + a

end Spec
