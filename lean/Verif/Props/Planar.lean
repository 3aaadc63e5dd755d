import Verif.Lemmas.Planar

/-!
# Planar formulas: C37, C44, C69, C73, C74, C75, C76, C77

Exact arithmetic (an ordered field, or the reals where a square root is
taken); the rounding of float64 is outside the model.  Specification
vocabulary: `Verif/Spec/Planar.lean`.
-/

namespace Verif.Props
open Verif.Planar Verif.Spec.Planar

section Field
variable {K : Type} [Field K] [LinearOrder K] [IsStrictOrderedRing K]

/-- **C37**.  `SegmentIntersect` reports the point `p` exactly if the segments
are not parallel and `p` lies on both. -/
theorem C37_segment_intersect (a b c d p : Pt K) :
    segmentIntersect (a, b) (c, d) = (p, true) ↔
      ¬ Parallel a b c d ∧ OnSegment p a b ∧ OnSegment p c d :=
  segmentIntersect_iff a b c d p

/-- **C37** (no report).  Nothing is reported exactly if the segments are
parallel or share no point. -/
theorem C37_no_report (a b c d : Pt K) :
    (segmentIntersect (a, b) (c, d)).2 = false ↔
      Parallel a b c d ∨ ∀ p, ¬ (OnSegment p a b ∧ OnSegment p c d) := by
  constructor
  · intro h
    by_cases hp : Parallel a b c d
    · exact Or.inl hp
    · refine Or.inr fun p hp' => ?_
      have := (C37_segment_intersect a b c d p).mpr ⟨hp, hp'⟩
      rw [this] at h
      cases h
  · intro h
    cases hb : (segmentIntersect (a, b) (c, d)).2 with
    | false => rfl
    | true =>
      have := (C37_segment_intersect a b c d (segmentIntersect (a, b) (c, d)).1).mp
        (Prod.ext rfl hb)
      rcases h with h | h
      · exact absurd h this.1
      · exact absurd this.2 (h _)

end Field

example : segmentIntersect (((0, 0), (4, 4)) : Line ℚ) ((0, 2), (2, 0)) = ((1, 1), true) := by
  norm_num [segmentIntersect]
example : (segmentIntersect (((0, 0), (1, 1)) : Line ℚ) ((0, 4), (4, 0))).2 = false := by
  norm_num [segmentIntersect]
example : ¬ Parallel ((0, 0) : Pt ℚ) (4, 4) (0, 2) (2, 0) := by norm_num [Parallel]

section Field
variable {K : Type} [Field K] [LinearOrder K] [IsStrictOrderedRing K]

/-- **C73**.  `LineIntersect` reports `p` exactly if the lines are not parallel
and `p` lies on both (anywhere on the infinite lines). -/
theorem C73_line_intersect (a b c d p : Pt K) :
    lineIntersect (a, b) (c, d) = (p, true) ↔
      ¬ Parallel a b c d ∧ OnLine p a b ∧ OnLine p c d :=
  lineIntersect_iff a b c d p

/-- **C73** (no report).  Nothing is reported exactly for parallel lines. -/
theorem C73_no_report (a b c d : Pt K) :
    (lineIntersect (a, b) (c, d)).2 = false ↔ Parallel a b c d := by
  rw [parallel_iff]
  unfold lineIntersect
  simp only []
  by_cases hD : (a.1 - b.1) * (c.2 - d.2) - (a.2 - b.2) * (c.1 - d.1) = 0
  · simp [hD]
  · simp [hD]

end Field

example : lineIntersect (((0, 0), (1, 1)) : Line ℚ) ((0, 4), (1, 3)) = ((2, 2), true) := by
  norm_num [lineIntersect]

/-! ### C75: points on lines -/

section Field
variable {K : Type} [Field K] [LinearOrder K] [IsStrictOrderedRing K]

/-- **C75**.  With exact comparison `IsPointOnLineSegment` is true exactly for
the points of the segment, degenerate segments included. -/
theorem C75_on_segment (p a b : Pt K) :
    isPointOnLineSegment (fun x y => decide (x = y)) p (a, b) = true ↔ OnSegment p a b :=
  isPointOnLineSegment_iff p a b

/-- **C75** (infinite line).  With exact comparison `IsPointOnLine` is true
exactly for the points of the line through two distinct points. -/
theorem C75_on_line (p a b : Pt K) (hab : a ≠ b) :
    isPointOnLine (fun x y => decide (x = y)) p a b = true ↔ OnLine p a b :=
  isPointOnLine_iff p a b hab

end Field

example : isPointOnLineSegment (fun x y => decide (x = y)) ((1, 2) : Pt ℚ) ((0, 1), (3, 4))
    = true := by norm_num [isPointOnLineSegment, isPointOnLine, slope]
example : isPointOnLineSegment (fun x y => decide (x = y)) ((1, 1) : Pt ℚ) ((0, 1), (3, 4))
    = false := by norm_num [isPointOnLineSegment, isPointOnLine, slope]
example : ((0, 1) : Pt ℚ) ≠ (3, 4) := by norm_num

/-! ### C74: colinear lines -/

/-- **C74**, full statement: `AreLinesColinear` is true exactly if the lines
are on one straight line and share a point. -/
def C74_full : Prop := ∀ a b c d : Pt ℚ, areLinesColinear (a, b) (c, d) = true ↔
  OneLine a b c d ∧ ∃ p, OnSegment p a b ∧ OnSegment p c d

/-- **C74** fails: two parallel lines side by side whose boxes overlap are
called colinear. -/
theorem C74_violated : ¬ C74_full := by
  intro h
  have h1 := (h (0, 0) (2, 2) (1, 0) (3, 2)).mp (by norm_num [areLinesColinear])
  obtain ⟨p, ⟨t, _, _, rfl⟩, s, _, _, h2⟩ := h1.2
  rw [Prod.ext_iff] at h2
  norm_num at h2
  obtain ⟨h3, h4⟩ := h2
  linarith

/-- **C74** fails in the other direction too: a line that covers the first one
is not called colinear. -/
theorem C74_violated_missed :
    ∃ a b c d : Pt ℚ, OneLine a b c d ∧ (∃ p, OnSegment p a b ∧ OnSegment p c d) ∧
      areLinesColinear (a, b) (c, d) = false := by
  refine ⟨(1, 1), (2, 2), (0, 0), (3, 3), ⟨(0, 0), (1, 1), ?_⟩,
    ⟨(1, 1), ⟨0, by norm_num, by norm_num, by norm_num⟩,
      ⟨1 / 3, by norm_num, by norm_num, by norm_num⟩⟩, by norm_num [areLinesColinear]⟩
  intro p hp
  simp only [List.mem_cons, List.not_mem_nil, or_false] at hp
  rcases hp with rfl | rfl | rfl | rfl
  · exact ⟨1, by norm_num⟩
  · exact ⟨2, by norm_num⟩
  · exact ⟨0, by norm_num⟩
  · exact ⟨3, by norm_num⟩

section Field
variable {K : Type} [Field K] [LinearOrder K] [IsStrictOrderedRing K]

/-- **C74**, what holds: the test is exactly "parallel, and an end of the
second line is in the box of the first". -/
theorem C74_exact_partial (a b c d : Pt K) :
    areLinesColinear (a, b) (c, d) = true ↔
      Parallel a b c d ∧ (InBox c a b ∨ InBox d a b) := by
  rw [parallel_iff]
  unfold areLinesColinear InBox
  simp only []
  have hmin : ∀ x y : K, (if x > y then y else x) = min x y := by
    intro x y
    by_cases h : x > y
    · rw [if_pos h, min_eq_right h.le]
    · rw [if_neg h, min_eq_left (not_lt.mp h)]
  have hmax : ∀ x y : K, (if x > y then x else y) = max x y := by
    intro x y
    by_cases h : x > y
    · rw [if_pos h, max_eq_left h.le]
    · rw [if_neg h, max_eq_right (not_lt.mp h)]
  rw [hmin, hmin, hmax, hmax]
  by_cases hD : (a.1 - b.1) * (c.2 - d.2) - (a.2 - b.2) * (c.1 - d.1) = 0
  · simp [hD]
  · simp [hD]

end Field

example : areLinesColinear (((0, 0), (2, 2)) : Line ℚ) ((1, 1), (3, 3)) = true := by
  norm_num [areLinesColinear]

/-! ### C44, C69, C76: distances -/

/-- **C44**.  `DistanceToLineSegment` is the distance of the point of the
segment that is nearest. -/
theorem C44_segment_distance (p v w : Pt ℝ) :
    IsDistanceTo (distanceToLineSegment p v w) p (fun q => OnSegment q v w) :=
  distanceToLineSegment_min p v w

example : distanceToLineSegment (3, 4) (0, 0) (0, 0) = 5 := by
  have : pointDistance (3, 4) (0, 0) = 5 := by
    unfold pointDistance pointDistance2
    rw [show ((3 - 0) * (3 - 0) + (4 - 0) * (4 - 0) : ℝ) = 5 ^ 2 by norm_num,
      Real.sqrt_sq (by norm_num)]
  simp [distanceToLineSegment, pointDistance2, this]

/-- **C69**, full statement: `PerpendicularDistance` is the distance from the
point to the nearest point of the line through the two given points (the
default distance of the simplifier). -/
def C69_full : Prop := ∀ p a b : Pt ℝ,
  IsDistanceTo (perpendicularDistance (a, b) p) p (fun q => OnLine q a b)

/-- **C69** fails when the two points coincide: the distance is reported as
0. -/
theorem C69_violated : ¬ C69_full := by
  intro h
  obtain ⟨⟨q, ⟨t, rfl⟩, hq⟩, _⟩ := h (3, 4) (0, 0) (0, 0)
  simp only [perpendicularDistance, eucl] at hq
  norm_num at hq

/-- **C69**, what holds: for two different points it is the distance to the
line. -/
theorem C69_line_distance_partial (p a b : Pt ℝ) (hab : a ≠ b) :
    IsDistanceTo (perpendicularDistance (a, b) p) p (fun q => OnLine q a b) :=
  perpendicularDistance_min p a b hab

example : ((0, 0) : Pt ℝ) ≠ (4, 0) := by norm_num
example : perpendicularDistance ((0, 0), (4, 0)) (1, 3) = 3 := by
  unfold perpendicularDistance
  have h : √((0 - 0) * (0 - 0) + (4 - 0) * (4 - 0) : ℝ) = 4 := by
    rw [show ((0 - 0) * (0 - 0) + (4 - 0) * (4 - 0) : ℝ) = 4 ^ 2 by norm_num,
      Real.sqrt_sq (by norm_num)]
  simp only [h]
  norm_num

/-- **C76**.  `PointOnLineAt` returns the point of the line at the given
distance from its start, on the side of its end for a positive distance. -/
theorem C76_point_on_line_at (a b : Pt ℝ) (d : ℝ) (hab : a ≠ b) :
    eucl a (pointOnLineAt (a, b) d) = |d| ∧
    ∃ t : ℝ, pointOnLineAt (a, b) d = (a.1 + t * (b.1 - a.1), a.2 + t * (b.2 - a.2)) ∧
      (0 ≤ d → 0 ≤ t) ∧ (d ≤ 0 → t ≤ 0) := by
  refine ⟨pointOnLineAt_spec a b d hab, d / √(lengthSquared (a, b)), rfl, ?_, ?_⟩
  · intro h; exact div_nonneg h (Real.sqrt_nonneg _)
  · intro h; exact div_nonpos_of_nonpos_of_nonneg h (Real.sqrt_nonneg _)

example : ((1, 1) : Pt ℝ) ≠ (4, 5) := by norm_num

/-! ### C77: centre of points -/

/-- **C77**, full statement: the centre of a closed triangle is the mean of
its corners. -/
def C77_full : Prop := ∀ a b c : Pt ℚ, area2 [a, b, c, a] ≠ 0 →
  pointsCentriod [a, b, c, a] = ((a.1 + b.1 + c.1) / 3, (a.2 + b.2 + c.2) / 3)

/-- **C77** fails: the sums are divided by the last term of the area sum
instead of by the area. -/
theorem C77_violated : ¬ C77_full := by
  intro h
  have := h (1, 1) (4, 1) (1, 4) (by norm_num [area2])
  norm_num [pointsCentriod, centriodLoop, centriodStep] at this

section Field
variable {K : Type} [Field K] [LinearOrder K] [IsStrictOrderedRing K]

/-- The textbook centroid of a closed triangle is the mean of its corners. -/
theorem C77_centroid_is_mean (a b c : Pt K) (h : area2 [a, b, c, a] ≠ 0) :
    centroid [a, b, c, a] = ((a.1 + b.1 + c.1) / 3, (a.2 + b.2 + c.2) / 3) := by
  unfold centroid
  simp only [area2, moment6, add_zero] at h ⊢
  have h3 : (3 : K) ≠ 0 := three_ne_zero
  apply Prod.ext
  · simp only []
    rw [div_eq_div_iff (mul_ne_zero h3 h) h3]
    ring
  · simp only []
    rw [div_eq_div_iff (mul_ne_zero h3 h) h3]
    ring

/-- **C77**, what holds: for at least two points the result is the textbook
centroid scaled by (area / last term of the area sum), so it is the centroid
when those agree; a single point is its own centre. -/
theorem C77_scaled_partial (ps : List (Pt K)) (p q : Pt K)
    (ha : area2 (ps ++ [p, q]) ≠ 0) (hl : p.1 * q.2 - q.1 * p.2 ≠ 0) :
    pointsCentriod (ps ++ [p, q]) =
      ((centroid (ps ++ [p, q])).1 * (area2 (ps ++ [p, q]) / (p.1 * q.2 - q.1 * p.2)),
       (centroid (ps ++ [p, q])).2 * (area2 (ps ++ [p, q]) / (p.1 * q.2 - q.1 * p.2))) ∧
    pointsCentriod [p] = p := by
  have hlast : ∀ l : List (Pt K), lastTerm (l ++ [p, q]) = p.1 * q.2 - q.1 * p.2 := by
    intro l
    induction l with
    | nil => rfl
    | cons x xs ih =>
      rw [← ih]
      cases xs with
      | nil => rfl
      | cons y ys => cases ys <;> rfl
  refine ⟨?_, rfl⟩
  rw [pointsCentriod_eq _ (by simp), hlast]
  unfold centroid
  have h3 : (3 : K) ≠ 0 := three_ne_zero
  apply Prod.ext <;> simp only [] <;> field_simp

end Field

example : area2 ([(1, 1), (4, 1), (1, 4)] ++ [(1, 1)] : List (Pt ℚ)) ≠ 0 ∧
    ((1 : ℚ) * 1 - 1 * 4) ≠ 0 := by norm_num [area2]

end Verif.Props
