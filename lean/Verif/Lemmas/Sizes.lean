import Verif.Model.Compression

/-! # Declared sizes that fit into memory -/

namespace Mopaq

/-- A declared size of less than 2^61 bytes makes no decompression panic. -/
theorem fits (m : Byte) {size : Nat} (h : size < 2 ^ 61) : ¬ sizePanics m size = true := by
  unfold sizePanics
  split
  all_goals try (simp only [decide_eq_true_eq]; omega)
  · split
    · simp only [decide_eq_true_eq]; omega
    · split
      · simp only [decide_eq_true_eq]; omega
      · split
        · simp only [decide_eq_true_eq]; omega
        · decide
  · decide

end Mopaq
