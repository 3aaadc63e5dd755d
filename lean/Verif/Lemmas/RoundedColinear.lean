import Verif.Model.RoundedColinear
import Verif.Lemmas.RoundedArea

/-!
# Lemmas for colinear lines in floats
-/

namespace Verif.Lemmas.RoundedColinear
open Verif Verif.Rounded Verif.Spec.Rounded Verif.Spec.RoundedArea Verif.Lemmas.Rounded

/-- The answer is that `denom` is zero and an end of the second line is in the box of the first. -/
theorem colinear_iff (a b c d : Pt ℚ) : areLinesColinear (a, b) (c, d) = true ↔
    colinearDenom (a, b) (c, d) = 0 ∧ ∃ p, (p = c ∨ p = d) ∧
      min a.1 b.1 ≤ p.1 ∧ p.1 ≤ max a.1 b.1 ∧ min a.2 b.2 ≤ p.2 ∧ p.2 ≤ max a.2 b.2 := by
  have q : ∀ x y : ℚ, (if x > y then (y, x) else (x, y)) = (min x y, max x y) := by
    intro x y
    split
    · rename_i h; rw [min_eq_right h.le, max_eq_left h.le]
    · rename_i h; rw [min_eq_left (not_lt.1 h), max_eq_right (not_lt.1 h)]
  unfold areLinesColinear
  rw [q, q]
  split
  · rename_i h; simp [h]
  · rename_i h
    simp only [Bool.or_eq_true, Bool.and_eq_true, decide_eq_true_eq, not_not.1 h, true_and, and_assoc]
    constructor
    · rintro (h | h)
      · exact ⟨c, .inl rfl, h⟩
      · exact ⟨d, .inr rfl, h⟩
    · rintro ⟨p, rfl | rfl, hp⟩
      · exact .inl hp
      · exact .inr hp

theorem denom_zero (a b c d : Pt ℚ) : colinearDenom (a, b) (c, d) = 0 ↔
    mul 53 (sub 53 a.1 b.1) (sub 53 c.2 d.2) = mul 53 (sub 53 a.2 b.2) (sub 53 c.1 d.1) := by
  unfold colinearDenom
  rw [show ∀ x y, sub 53 x y = roundTo 53 (x - y) from fun _ _ => rfl, roundTo_eq_zero (by norm_num), sub_eq_zero]

theorem denom_parallel {a b c d : Pt ℚ} (h1 : Fits 53 (a.1 - b.1)) (h2 : Fits 53 (a.2 - b.2))
    (h3 : Fits 53 (c.1 - d.1)) (h4 : Fits 53 (c.2 - d.2))
    (h : (a.1 - b.1) * (c.2 - d.2) = (a.2 - b.2) * (c.1 - d.1)) : colinearDenom (a, b) (c, d) = 0 := by
  rw [denom_zero]
  have e : ∀ {x y : ℚ}, Fits 53 (x - y) → sub 53 x y = x - y := fun h => roundTo_fits (by norm_num) h
  rw [e h1, e h2, e h3, e h4]
  unfold mul
  rw [h]

theorem denom_grid {s : Int} {a b c d : Pt ℚ} (ha : OnGrid s (2 ^ 25) a) (hb : OnGrid s (2 ^ 25) b)
    (hc : OnGrid s (2 ^ 25) c) (hd : OnGrid s (2 ^ 25) d) : colinearDenom (a, b) (c, d) = 0 ↔
    (a.1 - b.1) * (c.2 - d.2) = (a.2 - b.2) * (c.1 - d.1) := by
  rw [denom_zero]
  have e : ∀ {x y : ℚ}, Multiple s (2 ^ 25) x → Multiple s (2 ^ 25) y →
      sub 53 x y = x - y ∧ Multiple s (2 ^ 26) (x - y) := fun hx hy =>
    ⟨sub_grid (by norm_num) hx hy (by norm_num), multiple_mono (multiple_sub hx hy) (by norm_num)⟩
  obtain ⟨e1, m1⟩ := e ha.1 hb.1
  obtain ⟨e2, m2⟩ := e ha.2 hb.2
  obtain ⟨e3, m3⟩ := e hc.1 hd.1
  obtain ⟨e4, m4⟩ := e hc.2 hd.2
  rw [e1, e2, e3, e4, mul_grid (by norm_num) m1 m4 (by norm_num), mul_grid (by norm_num) m2 m3 (by norm_num)]

end Verif.Lemmas.RoundedColinear
