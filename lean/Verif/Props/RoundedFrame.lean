import Verif.Lemmas.RoundedFrame
import Verif.Spec.RoundedArea

/-!
# C192: the triangle around points, in floats
-/

namespace Verif.Props
open Verif Verif.Spec.Rounded Verif.Spec.RoundedArea Verif.Spec.Subdivision
open Verif.Lemmas.Rounded

/-- C192, in full: the triangle made for some points is not flat and has all of them inside of it, not on a side. -/
def C192_full : Prop :=
  ∀ ps : List (Pt ℚ), ps ≠ [] → (∀ p ∈ ps, Float64Point p) →
    ∃ t, Rounded.triangleContaining ps = some t ∧ area2 t.1 t.2.1 t.2.2 ≠ 0 ∧
      ∀ p ∈ ps, InsideTriangle p t.1 t.2.1 t.2.2

/-- C192, violated: the triangle for one point far out, where floats are 256 apart, is flat. -/
theorem C192_violated : ¬ C192_full := by
  intro h
  obtain ⟨t, ht, hp, -⟩ := h [((2 : ℚ) ^ 60, 0)] (by simp) (by
    simp only [List.mem_singleton, forall_eq]
    exact ⟨⟨1, 60, by norm_num, by norm_num, by norm_num, by norm_num⟩,
      ⟨0, 0, by norm_num, by norm_num, by norm_num, by norm_num⟩⟩)
  have e : Rounded.triangleContaining [((2 : ℚ) ^ 60, 0)] = some ((2 ^ 60, -10), (2 ^ 60, 10), (2 ^ 60, -10)) := by
    decide +kernel
  rw [e] at ht
  obtain rfl := Option.some.inj ht
  exact hp (by norm_num [area2])

/-- C192: for points with coordinates of up to `2 ^ 44` the triangle is there, is clockwise, and has all the points
inside. -/
theorem C192_inside_partial (ps : List (Pt ℚ)) (hne : ps ≠ []) (hp : ∀ p ∈ ps, |p.1| ≤ 2 ^ 44 ∧ |p.2| ≤ 2 ^ 44) :
    ∃ t, Rounded.triangleContaining ps = some t ∧ area2 t.1 t.2.1 t.2.2 < 0 ∧
      ∀ p ∈ ps, InsideTriangle p t.1 t.2.1 t.2.2 := by
  obtain ⟨e, he, e1, e2, e3, b0, b1, b2, b3⟩ := extent_bounded hne hp
  refine ⟨_, by rw [Rounded.triangleContaining, he]; rfl, frame_area b0 b1 b2 b3 e1 e2, fun p hp => ?_⟩
  obtain ⟨q1, q2, q3, q4⟩ := e3 p hp
  exact frame_holds b0 b1 b2 b3 e1 e2 p q1 q2 q3 q4

/-- Non-vacuous: two points in Web Mercator. -/
example : ∃ t, Rounded.triangleContaining [(-20037508.34, 1 / 8), (20037508.34, 6000000)] = some t ∧
    area2 t.1 t.2.1 t.2.2 < 0 ∧
    ∀ p ∈ [((-20037508.34, 1 / 8) : Pt ℚ), (20037508.34, 6000000)], InsideTriangle p t.1 t.2.1 t.2.2 :=
  C192_inside_partial _ (by simp) (by
    simp only [List.mem_cons, List.not_mem_nil, or_false, forall_eq_or_imp, forall_eq]
    norm_num [abs_le])

/-- C192: without points there is a panic. -/
theorem C192_no_points_partial (ps : List (Pt ℚ)) : Rounded.triangleContaining ps = none ↔ ps = [] := by
  cases ps <;> simp [Rounded.triangleContaining, Verif.Delaunay.extentOf]

/-- Non-vacuous: no points. -/
example : Rounded.triangleContaining [] = none := (C192_no_points_partial []).2 rfl

/-- C192: for an extent of up to `2 ^ 44` the corners are within a half of the ones without rounding: ten and five
times the width to the left and to the right, ten and ten times the height below, and ten and twenty times the height
above in the middle. -/
theorem C192_corners_partial (e0 e1 e2 e3 : ℚ) (h0 : |e0| ≤ 2 ^ 44) (h1 : |e1| ≤ 2 ^ 44) (h2 : |e2| ≤ 2 ^ 44)
    (h3 : |e3| ≤ 2 ^ 44) (hx : e0 ≤ e2) (hy : e1 ≤ e3) :
    let t := Rounded.triangleForExtent e0 e1 e2 e3 10
    |t.1.1 - (e0 - 5 * (e2 - e0) - 10)| ≤ 1 / 2 ∧ |t.2.1.1 - (e0 + e2) / 2| ≤ 1 / 2 ∧
      |t.2.2.1 - (e2 + 5 * (e2 - e0) + 10)| ≤ 1 / 2 ∧ |t.1.2 - (e1 - 10 * (e3 - e1) - 10)| ≤ 1 / 2 ∧
      t.2.2.2 = t.1.2 ∧ |t.2.1.2 - (e3 + 20 * (e3 - e1) + 10)| ≤ 1 / 2 := by
  obtain ⟨nx, cx, xx, ny, xy, e, k1, k2, k3, k4, k5⟩ := frame_near h0 h1 h2 h3 hx hy
  simp only [e]
  exact ⟨k1, k2, k3, k4, trivial, k5⟩

/-- Non-vacuous: an extent of a third. -/
example : |(Rounded.triangleForExtent 0 0 (1 / 3) (1 / 3) 10).2.1.1 - (0 + 1 / 3) / 2| ≤ 1 / 2 :=
  (C192_corners_partial 0 0 (1 / 3) (1 / 3) (by norm_num) (by norm_num) (by norm_num [abs_le]) (by norm_num [abs_le])
    (by norm_num) (by norm_num)).2.1

end Verif.Props
