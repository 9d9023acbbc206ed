import Verif.Model.Figures

/-! # What a size says that is written for people -/

namespace Spec
open Mopaq

/-- The units, each 1024 times the one before. -/
def units : List (List Byte) := [word "B", word "KB", word "MB", word "GB", word "TB"]

/-- The text is a number with two decimals, `h` hundredths, and the name of unit `u`. -/
def SaysSize (text : List Byte) (h u : Nat) : Prop :=
  ∃ a b c name, b < 10 ∧ c < 10 ∧ h = 100 * a + 10 * b + c ∧ units[u]? = some name ∧
    text = decimal a ++ word "." ++ [BitVec.ofNat 8 (48 + b), BitVec.ofNat 8 (48 + c)] ++ word " " ++ name

end Spec
