import Verif.Lemmas.RoundedArea

/-!
# C188-C190: the area and the centre of a triangle and the circle test, in floats
-/

namespace Verif.Props
open Verif Verif.Spec.Rounded Verif.Spec.RoundedArea
open Verif.Rounded (triangleArea triangleCenter)
open Verif.Lemmas.Rounded

/-! ## C188: the sign of the area of a triangle -/

/-- C188, in full: the area of a triangle is positive, negative or zero exactly if the corners wind
counter-clockwise, clockwise, or are on one line. -/
def C188_full : Prop :=
  ∀ a b c : Pt ℚ, Float64Point a → Float64Point b → Float64Point c →
    (0 < triangleArea a b c ↔ 0 < area2 a b c) ∧ (triangleArea a b c < 0 ↔ area2 a b c < 0)

/-- The corners of a long thin triangle. -/
def thinA : Pt ℚ := (3 / 2, 3 / 4)
/-- The second corner. -/
def thinB : Pt ℚ := (9007199254740991, 9007199254740986)
/-- The third corner. -/
def thinC : Pt ℚ := (9007199254740990, 9007199254740985)

/-- C188, violated: the area of the thin triangle comes out as `2 ^ 53`, while it is `-17 / 4`. -/
theorem C188_violated : ¬ C188_full := by
  intro h
  have h1 := (h thinA thinB thinC
    ⟨⟨3, -1, by norm_num, by norm_num, by norm_num, by norm_num [thinA]⟩,
      ⟨3, -2, by norm_num, by norm_num, by norm_num, by norm_num [thinA]⟩⟩
    ⟨⟨9007199254740991, 0, by norm_num, by norm_num, by norm_num, by norm_num [thinB]⟩,
      ⟨9007199254740986, 0, by norm_num, by norm_num, by norm_num, by norm_num [thinB]⟩⟩
    ⟨⟨9007199254740990, 0, by norm_num, by norm_num, by norm_num, by norm_num [thinC]⟩,
      ⟨9007199254740985, 0, by norm_num, by norm_num, by norm_num, by norm_num [thinC]⟩⟩).1
  have e1 : triangleArea thinA thinB thinC = 2 ^ 53 := by decide +kernel
  have e2 : area2 thinA thinB thinC = -17 / 4 := by norm_num [area2, thinA, thinB, thinC]
  rw [e1, e2] at h1
  norm_num at h1

/-- C188, what holds if the differences to the first corner are floats: the sign is never the opposite one, and
corners on one line have the area zero. -/
theorem C188_never_opposite_partial (a b c : Pt ℚ) (h1 : Fits 53 (b.1 - a.1)) (h2 : Fits 53 (b.2 - a.2))
    (h3 : Fits 53 (c.1 - a.1)) (h4 : Fits 53 (c.2 - a.2)) :
    (0 < triangleArea a b c → 0 < area2 a b c) ∧ (triangleArea a b c < 0 → area2 a b c < 0) ∧
      (area2 a b c = 0 → triangleArea a b c = 0) :=
  ⟨(area_sign h1 h2 h3 h4).1, (area_sign h1 h2 h3 h4).2, area_flat h1 h2 h3 h4⟩

/-- Even then a triangle may come out flat. -/
example : triangleArea (0, 0) (2 ^ 27, 2 ^ 27 - 1) (2 ^ 27 + 1, 2 ^ 27) = 0 ∧
    area2 (0, 0) (2 ^ 27, 2 ^ 27 - 1) (2 ^ 27 + 1, 2 ^ 27) = 1 ∧
    Fits 53 ((2 : ℚ) ^ 27 + 1 - 0) ∧ triangleArea (0, 0) (4, 1) (3, 2) = 5 := by
  refine ⟨by decide +kernel, by norm_num [area2], ⟨2 ^ 27 + 1, 0, by norm_num, by norm_num⟩, by decide +kernel⟩

/-- C188 for corners that are whole multiples, at most `2 ^ 25`, of a power of two: the area is exact. -/
theorem C188_exact_partial (s : Int) (a b c : Pt ℚ) (ha : OnGrid s (2 ^ 25) a) (hb : OnGrid s (2 ^ 25) b)
    (hc : OnGrid s (2 ^ 25) c) : triangleArea a b c = area2 a b c :=
  (area_grid (by norm_num) (by norm_num) ha hb hc).1

example : OnGrid (-1) (2 ^ 25) (3 / 2, 5) ∧ triangleArea (3 / 2, 5) (0, 1) (1, 1) = 4 :=
  ⟨⟨⟨3, by norm_num, by norm_num⟩, ⟨10, by norm_num, by norm_num⟩⟩, by decide +kernel⟩

/-- C188, what holds of all floats: with the last two corners swapped the area is the opposite; a triangle with two
corners the same has the area zero; scaled by a power of two, the area is scaled by its square. -/
theorem C188_symmetry_partial (a b c : Pt ℚ) (k : Int) :
    triangleArea a c b = -triangleArea a b c ∧ triangleArea a a c = 0 ∧ triangleArea a b a = 0 ∧
      triangleArea a b b = 0 ∧
      triangleArea (2 ^ k * a.1, 2 ^ k * a.2) (2 ^ k * b.1, 2 ^ k * b.2) (2 ^ k * c.1, 2 ^ k * c.2) =
        2 ^ (k + k) * triangleArea a b c := by
  refine ⟨area_swap a b c, ?_, ?_, ?_, area_scale k a b c⟩
  · simp [triangleArea, sub_self_zero, mul_zero_left]
  · simp [triangleArea, sub_self_zero, mul_zero_right]
  · have := area_swap a b b
    linarith

example : triangleArea thinA thinB thinC ≠ 0 := by decide +kernel

/-! ## C189: the circle test -/

/-- C189, in full: for three points that wind counter-clockwise, a point is said to be within the circle through
them exactly if it is. -/
def C189_full : Prop :=
  ∀ p a b c : Pt ℚ, Float64Point p → Float64Point a → Float64Point b → Float64Point c → 0 < area2 a b c →
    (Rounded.withinCircle p a b c = true ↔ InCircle p a b c)

/-- A point whose coordinates are those of `(x, y)`, shifted by `2 ^ 26`. -/
def far26 (x y : Int) : Pt ℚ := ((2 ^ 26 + x : Int), (2 ^ 26 + y : Int))

theorem far26_float (x y : Int) (hx : |x| ≤ 2 ^ 26) (hy : |y| ≤ 2 ^ 26) : Float64Point (far26 x y) := by
  rw [abs_le] at hx hy
  refine ⟨⟨2 ^ 26 + x, 0, ?_, by norm_num, by norm_num, by simp [far26]⟩,
    ⟨2 ^ 26 + y, 0, ?_, by norm_num, by norm_num, by simp [far26]⟩⟩
  · rw [abs_lt]; constructor <;> omega
  · rw [abs_lt]; constructor <;> omega

/-- C189, violated: whole coordinates next to `2 ^ 26`, and a point outside of the circle that is said to be
inside. -/
theorem C189_violated : ¬ C189_full := by
  intro h
  have h0 : 0 < area2 (far26 16 10) (far26 1 19) (far26 6 6) := by norm_num [area2, far26]
  have h1 := h (far26 11 6) (far26 16 10) (far26 1 19) (far26 6 6) (far26_float _ _ (by norm_num) (by norm_num))
    (far26_float _ _ (by norm_num) (by norm_num)) (far26_float _ _ (by norm_num) (by norm_num))
    (far26_float _ _ (by norm_num) (by norm_num)) h0
  rw [inCircle_iff h0] at h1
  have h2 : Rounded.withinCircle (far26 11 6) (far26 16 10) (far26 1 19) (far26 6 6) = true := by decide +kernel
  have h3 := h1.1 h2
  norm_num [circleDet, area2, far26] at h3

/-- C189, violated the other way round: the centre of a circle that is said to be outside of it. -/
theorem C189_violated_centre :
    Rounded.withinCircle (far26 1 1) (far26 2 1) (far26 1 2) (far26 0 1) = false ∧
      InCircle (far26 1 1) (far26 2 1) (far26 1 2) (far26 0 1) := by
  refine ⟨by decide +kernel, far26 1 1, ?_⟩
  norm_num [dist2, far26]

/-- C189 for coordinates that are whole multiples, at most `3000`, of a power of two. -/
theorem C189_grid_partial (s : Int) (p a b c : Pt ℚ) (hp : OnGrid s 3000 p) (ha : OnGrid s 3000 a)
    (hb : OnGrid s 3000 b) (hc : OnGrid s 3000 c) (h : 0 < area2 a b c) :
    Rounded.withinCircle p a b c = true ↔ InCircle p a b c := by
  rw [circle_grid (by norm_num) (by norm_num) hp ha hb hc, inCircle_iff h, decide_eq_true_eq]

/-- C189 for coordinates that are such multiples, of three points that wind clockwise: the answer is the opposite
one, but for the points on the circle. -/
theorem C189_clockwise_partial (s : Int) (p a b c : Pt ℚ) (hp : OnGrid s 3000 p) (ha : OnGrid s 3000 a)
    (hb : OnGrid s 3000 b) (hc : OnGrid s 3000 c) (h : area2 a b c < 0) (o : Pt ℚ) (h1 : dist2 o a = dist2 o b)
    (h2 : dist2 o b = dist2 o c) : Rounded.withinCircle p a b c = true ↔ dist2 o a < dist2 o p := by
  rw [circle_grid (by norm_num) (by norm_num) hp ha hb hc, decide_eq_true_eq, circleDet_eq p h1 h2]
  constructor
  · intro hd
    by_contra hc
    push Not at hc
    have : area2 a b c * (dist2 o a - dist2 o p) ≤ 0 := mul_nonpos_of_nonpos_of_nonneg h.le (sub_nonneg.2 hc)
    linarith
  · intro hd
    exact mul_pos_of_neg_of_neg h (sub_neg.2 hd)

/-- C189, what holds of all floats: scaled by a power of two, the answer stays the same. -/
theorem C189_scale_partial (k : Int) (p a b c : Pt ℚ) :
    Rounded.withinCircle (2 ^ k * p.1, 2 ^ k * p.2) (2 ^ k * a.1, 2 ^ k * a.2) (2 ^ k * b.1, 2 ^ k * b.2)
      (2 ^ k * c.1, 2 ^ k * c.2) = Rounded.withinCircle p a b c := circle_scale k p a b c

/-- The circle around the origin, a point inside, one on it and one outside. -/
example : OnGrid 0 3000 (-5, 0) ∧ 0 < area2 (5, 0) (0, 5) (-5, 0) ∧ area2 (-5, 0) (0, 5) (5, 0) < 0 ∧
    dist2 (0, 0) (5, 0) = dist2 (0, 0) (0, 5) ∧ dist2 (0, 0) (0, 5) = dist2 (0, 0) (-5, 0) ∧
    Rounded.withinCircle (3, -3) (5, 0) (0, 5) (-5, 0) = true ∧
    Rounded.withinCircle (3, -4) (5, 0) (0, 5) (-5, 0) = false ∧
    Rounded.withinCircle (4, -4) (5, 0) (0, 5) (-5, 0) = false := by
  refine ⟨⟨⟨-5, by norm_num, by norm_num⟩, ⟨0, by norm_num, by norm_num⟩⟩, by norm_num [area2], by norm_num [area2],
    by norm_num [dist2], by norm_num [dist2], by decide +kernel, by decide +kernel, by decide +kernel⟩

/-! ## C190: the centre of a triangle -/

/-- C190, in full: the centre of a triangle is not outside of the box around its corners. -/
def C190_full : Prop :=
  ∀ a b c : Pt ℚ, Float64Point a → Float64Point b → Float64Point c → InBox (triangleCenter a b c) a b c

/-- C190, violated: the centre is left of all three corners. -/
theorem C190_violated : ¬ C190_full := by
  intro h
  have h1 := (h (9007199254740975, 0) (9007199254740974, 3) (9007199254740974, 6)
    ⟨⟨9007199254740975, 0, by norm_num, by norm_num, by norm_num, by norm_num⟩,
      ⟨0, 0, by norm_num, by norm_num, by norm_num, by norm_num⟩⟩
    ⟨⟨9007199254740974, 0, by norm_num, by norm_num, by norm_num, by norm_num⟩,
      ⟨3, 0, by norm_num, by norm_num, by norm_num, by norm_num⟩⟩
    ⟨⟨9007199254740974, 0, by norm_num, by norm_num, by norm_num, by norm_num⟩,
      ⟨6, 0, by norm_num, by norm_num, by norm_num, by norm_num⟩⟩).1
  revert h1
  decide +kernel

/-- C190 for corners that are whole multiples, at most `2 ^ 51`, of a power of two: the centre is the float next to
the centroid, and in the box around the corners. -/
theorem C190_grid_partial (s : Int) (a b c : Pt ℚ) (ha : OnGrid s (2 ^ 51) a) (hb : OnGrid s (2 ^ 51) b)
    (hc : OnGrid s (2 ^ 51) c) :
    Nearest 53 (centroid a b c).1 (triangleCenter a b c).1 ∧ Nearest 53 (centroid a b c).2 (triangleCenter a b c).2 ∧
      InBox (triangleCenter a b c) a b c := by
  have e1 : (triangleCenter a b c).1 = _ := mid3_grid ha.1 hb.1 hc.1
  have e2 : (triangleCenter a b c).2 = _ := mid3_grid ha.2 hb.2 hc.2
  have b1 := mid3_box ha.1 hb.1 hc.1
  have b2 := mid3_box ha.2 hb.2 hc.2
  refine ⟨?_, ?_, b1.1, b1.2, b2.1, b2.2⟩
  · rw [e1]; exact roundTo_nearest (by norm_num) _
  · rw [e2]; exact roundTo_nearest (by norm_num) _

/-- C190 for all floats: the centre is as near to the centroid as three times the largest coordinate over
`2 ^ 53`. -/
theorem C190_near_partial (a b c : Pt ℚ) (B : ℚ) (h : ∀ p ∈ [a, b, c], |p.1| ≤ B ∧ |p.2| ≤ B) :
    |(triangleCenter a b c).1 - (centroid a b c).1| ≤ 3 * B / 2 ^ 53 ∧
      |(triangleCenter a b c).2 - (centroid a b c).2| ≤ 3 * B / 2 ^ 53 := by
  have ha := h a (by simp)
  have hb := h b (by simp)
  have hc := h c (by simp)
  exact ⟨mid3_near ha.1 hb.1 hc.1, mid3_near ha.2 hb.2 hc.2⟩

example : OnGrid (-2) (2 ^ 51) (1 / 4, 5) ∧ triangleCenter (1 / 4, 5) (1 / 2, 6) (3 / 4, 7) = (1 / 2, 6) ∧
    (∀ p ∈ [((1 / 4, 5) : Pt ℚ), (1 / 2, 6), (3 / 4, 7)], |p.1| ≤ 7 ∧ |p.2| ≤ 7) ∧
    triangleCenter (0, 0) (1, 0) (0, 1) ≠ centroid (0, 0) (1, 0) (0, 1) := by
  refine ⟨⟨⟨1, by norm_num, by norm_num⟩, ⟨20, by norm_num, by norm_num⟩⟩, by decide +kernel, by decide +kernel, ?_⟩
  decide +kernel

end Verif.Props
