import Verif.Model.UtmNato
import Verif.Spec.UtmNato
import Mathlib.Tactic.Linarith
import Mathlib.Tactic.NormNum

/-!
# Lemmas on the metres in a square
-/

namespace Verif.Lemmas.UtmNato
open Verif.Utm Verif.Spec.UtmNato

theorem metre_of_nonneg {x : ℝ} (h : 0 ≤ x) : MetreInSquare x ((toInt x).tmod x50) := by
  unfold toInt x50
  rw [if_pos h]
  have h0 : 0 ≤ ⌊x⌋ := Int.floor_nonneg.2 h
  rw [Int.tmod_eq_emod_of_nonneg h0]
  refine ⟨Int.emod_nonneg _ (by norm_num), Int.emod_lt_of_pos _ (by norm_num), ⌊x⌋ / 100000, ?_⟩
  have e : (100000 * (⌊x⌋ / 100000) + ⌊x⌋ % 100000 : Int) = ⌊x⌋ := Int.mul_ediv_add_emod _ _
  have e' : (100000 * ((⌊x⌋ / 100000 : Int) : ℝ) + ((⌊x⌋ % 100000 : Int) : ℝ)) = (⌊x⌋ : ℝ) := by
    exact_mod_cast e
  rw [show (10 ^ 5 : Int) = 100000 by norm_num, e']
  exact ⟨Int.floor_le x, Int.lt_floor_add_one x⟩

/-- The metres are the only ones. -/
theorem metre_unique {x : ℝ} {m n : Int} (h : MetreInSquare x m) (h' : MetreInSquare x n) : m = n := by
  obtain ⟨a1, a2, k, a3, a4⟩ := h
  obtain ⟨b1, b2, l, b3, b4⟩ := h'
  have c1 : (100000 * k + m : ℝ) < 100000 * l + n + 1 := by linarith
  have c2 : (100000 * l + n : ℝ) < 100000 * k + m + 1 := by linarith
  have d1 : 100000 * k + m < 100000 * l + n + 1 := by exact_mod_cast c1
  have d2 : 100000 * l + n < 100000 * k + m + 1 := by exact_mod_cast c2
  omega

end Verif.Lemmas.UtmNato
