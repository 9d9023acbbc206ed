/-!
# Bit arrays: specification

Independent of the model.
-/

namespace Spec

/-- Bit `j` of a byte string; bytes in order, each from its least significant bit; zero beyond the end. -/
def bitAt (data : List (BitVec 8)) (j : Nat) : Bool := (data.getD (j / 8) 0#8).getLsbD (j % 8)

/-- The `width` bits starting at bit `start`, as a number. -/
def field (data : List (BitVec 8)) (start : Nat) : Nat → Nat
  | 0 => 0
  | width + 1 => (if bitAt data start then 1 else 0) + 2 * field data (start + 1) width

end Spec
