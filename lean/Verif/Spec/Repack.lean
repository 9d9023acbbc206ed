import Verif.Spec.Paths

/-!
# The files of a directory
-/

namespace Spec

/-- A relative path as a listing of a directory gives it: names separated by single slashes, none of them `.` or `..`. -/
def plain (rel : List (BitVec 8)) : Prop :=
  ∀ part ∈ rel.splitOn 0x2F#8, part ≠ [] ∧ part ≠ [0x2E#8] ∧ part ≠ [0x2E#8, 0x2E#8]

/-- `found` are the files below a directory, each once, in any order, with their contents. -/
structure FilesBelow (disk : Disk) (dir : List (BitVec 8)) (found : List (List (BitVec 8) × List (BitVec 8))) : Prop where
  once : (found.map (·.1)).Pairwise (· ≠ ·)
  plain : ∀ x ∈ found, plain x.1
  all : ∀ rel, Spec.plain rel → ∀ data, (rel, data) ∈ found ↔ disk (under dir rel) = some data

end Spec
