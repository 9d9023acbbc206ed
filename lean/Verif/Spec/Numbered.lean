/-! # Specification: names for files whose name is unknown -/

namespace Spec

/-- "file_", the number in decimal with zeros in front up to eight digits, ".dat". -/
def numbered (i : Nat) : List (BitVec 8) :=
  ("file_".toList ++ List.leftpad 8 '0' (Nat.toDigits 10 i) ++ ".dat".toList).map fun c => BitVec.ofNat 8 c.toNat

end Spec
