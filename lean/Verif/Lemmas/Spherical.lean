import Verif.Spec.Spherical
import Mathlib.Tactic.Linarith
import Mathlib.Tactic.NormNum
import Mathlib.Tactic.Push
import Mathlib.Tactic.Ring

namespace Verif.Lemmas.Spherical
open Verif.Spherical Verif.Spec.Spherical

variable {K : Type} [Field K] [LinearOrder K] [IsStrictOrderedRing K]

/-- The latitudes of the hull are those of the points, ordered. -/
theorem hull_latitudes (a b : K × K) :
    (hull a b).south = min a.2 b.2 ∧ (hull a b).north = max a.2 b.2 := by
  have key : ∀ w e : K, (extent (w, a.2) (e, b.2)).south = min a.2 b.2 ∧
      (extent (w, a.2) (e, b.2)).north = max a.2 b.2 := by
    intro w e
    unfold extent
    by_cases h : a.2 < b.2
    · simp [h, h.le]
    · simp [h, not_lt.1 h]
  unfold hull
  split_ifs <;> exact key _ _

/-- The longitudes of the hull are those of the points. -/
theorem hull_longitudes (a b : K × K) :
    ((hull a b).west = a.1 ∧ (hull a b).east = b.1 ∨ (hull a b).west = b.1 ∧ (hull a b).east = a.1) := by
  unfold hull extent
  split_ifs <;> simp

/-- How far it is from the west of the hull to its east. -/
theorem hull_width (a b : K × K) (h : |a.1 - b.1| ≤ 360) :
    ∃ d, 0 ≤ d ∧ d ≤ 180 ∧ East (hull a b).west d (hull a b).east ∧
      (|a.1 - b.1| = d ∨ |a.1 - b.1| = 360 - d) := by
  unfold hull
  by_cases h1 : 180 < |a.1 - b.1|
  · refine ⟨360 - |a.1 - b.1|, by linarith, by linarith, ?_, .inr (by ring)⟩
    simp only [if_pos h1]
    split_ifs with h2 <;> refine ⟨-1, ?_⟩ <;> simp only [extent]
    · rw [abs_of_neg (by linarith)]; push_cast; ring
    · rw [abs_of_nonneg (by linarith)]; push_cast; ring
  · refine ⟨|a.1 - b.1|, abs_nonneg _, not_lt.1 h1, ?_, .inl rfl⟩
    simp only [if_neg h1]
    split_ifs with h2 <;> refine ⟨0, ?_⟩ <;> simp only [extent]
    · rw [abs_of_pos (by linarith)]; push_cast; ring
    · rw [abs_of_nonpos (by linarith)]; push_cast; ring

end Verif.Lemmas.Spherical
