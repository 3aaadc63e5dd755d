import Mathlib.Analysis.Real.Sqrt

/-!
# Vocabulary for C198
-/

namespace Verif.Spec.UtmNato

/-- `m` whole metres is where `x` is in its square: `x` is in the metre that begins `m` metres after the beginning of
a square. -/
def MetreInSquare (x : ℝ) (m : Int) : Prop :=
  0 ≤ m ∧ m < 100000 ∧ ∃ k : Int, (100000 * k + m : ℝ) ≤ x ∧ x < 100000 * k + m + 1

end Verif.Spec.UtmNato
