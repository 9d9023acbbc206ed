/-! # Specification: regions of a file -/

namespace Spec

/-- A region is given by its start and its length. The regions divide the bytes from `first` up to `last`: each lies
inside, and every byte belongs to exactly one of them. -/
def divides (first : Nat) (regions : List (Nat × Nat)) (last : Nat) : Prop :=
  (∀ r ∈ regions, first ≤ r.1 ∧ r.1 + r.2 ≤ last) ∧
  ∀ x, first ≤ x → x < last →
    ∃ i start len : Nat, regions[i]? = some (start, len) ∧ start ≤ x ∧ x < start + len ∧
      ∀ j start' len' : Nat, regions[j]? = some (start', len') → start' ≤ x → x < start' + len' → j = i

/-- The bytes a stored file occupies: the stored size, and one checksum of four bytes per sector (one for a file of at
most one sector) if it has checksums, which the stored size does not count. -/
def occupied (sectorSize storedSize fileSize : Nat) (checksums : Bool) : Nat :=
  storedSize + if checksums then 4 * (if fileSize ≤ sectorSize then 1 else (fileSize + sectorSize - 1) / sectorSize) else 0

end Spec
