import Verif.Lemmas.Shapes
import Verif.Props.Planar

/-!
# Triangles, circles, single lines: C45, C46, C78, C79, C80, C81, C82, C83

Exact arithmetic; the rounding of float64 is outside the model.
Specification vocabulary: `Verif/Spec/Planar.lean`.
-/

namespace Verif.Props
open Verif.Shapes Verif.Spec.Planar

/-! ### C45: the triangle around an extent -/

/-- **C45**, full statement: the triangle built for an extent with a positive
buffer contains the four corners of the extent. -/
def C45_full : Prop := ∀ e0 e1 e2 e3 buff : ℚ, e0 ≤ e2 → e1 ≤ e3 → 0 < buff →
  let t := triangleForExtent e0 e1 e2 e3 buff
  ∀ p ∈ [(e0, e1), (e2, e1), (e2, e3), (e0, e3)], InTriangle p t.1 t.2.1 t.2.2

/-- **C45** fails for small buffers: with a buffer of 1/4 the top corners of
the extent [0,0,20,20] stick out. -/
theorem C45_violated : ¬ C45_full := by
  intro h
  have := h 0 0 20 20 (1 / 4) (by norm_num) (by norm_num) (by norm_num) (20, 20) (by simp)
  obtain ⟨u, v, w, hu, hv, hw, hs, he⟩ := this
  rw [Prod.ext_iff] at he
  simp only [triangleForExtent] at he
  norm_num at he
  obtain ⟨h1, h2⟩ := he
  have hv' : v = 1 - u - w := by linarith
  subst hv'
  nlinarith

section Field
variable {K : Type} [Field K] [LinearOrder K] [IsStrictOrderedRing K]

/-- **C45**, what holds: with a buffer of at least 1 (the library uses 10) the
triangle contains every point of the extent. -/
theorem C45_covers_partial (e0 e1 e2 e3 buff : K) (hx : e0 ≤ e2) (hy : e1 ≤ e3)
    (hb : 1 ≤ buff) (p : Pt K) (hp : InBox p (e0, e1) (e2, e3)) :
    InTriangle p (triangleForExtent e0 e1 e2 e3 buff).1
      (triangleForExtent e0 e1 e2 e3 buff).2.1 (triangleForExtent e0 e1 e2 e3 buff).2.2 :=
  triangleForExtent_covers e0 e1 e2 e3 buff hx hy hb p hp

end Field

example : triangleForExtent (0 : ℚ) 0 20 20 10 = ((-110, -210), (10, 430), (130, -210)) := by
  norm_num [triangleForExtent]
example : InBox ((20, 20) : Pt ℚ) (0, 0) (20, 20) := by norm_num [InBox]

/-! ### C46: the circle through three points -/

section Field
variable {K : Type} [Field K] [LinearOrder K] [IsStrictOrderedRing K]

/-- **C46** (ordered field).  `CircleFromPoints` reports colinear points
exactly for points on one line; otherwise its centre is equally far from the
three points. -/
theorem C46_circle (a b c : Pt K) :
    (circleFromPoints a b c = .colinear ↔ Colinear a b c) ∧
    (¬ Colinear a b c → ∃ o f, circleFromPoints a b c = .circle o f ∧
      dist2 o a = dist2 o f ∧ dist2 o b = dist2 o f ∧ dist2 o c = dist2 o f) := by
  obtain ⟨h1, h2⟩ := circleFromPoints_spec a b c
  refine ⟨⟨fun h => ?_, h1⟩, h2⟩
  by_contra hn
  obtain ⟨o, f, e, _⟩ := h2 hn
  rw [h] at e
  cases e

/-- **C46** (termination).  The rotation loop always ends. -/
theorem C46_never_loops (a b c : Pt K) : circleFromPoints a b c ≠ .loops := by
  obtain ⟨h1, h2⟩ := circleFromPoints_spec a b c
  by_cases h : Colinear a b c
  · rw [h1 h]; exact fun h => by cases h
  · obtain ⟨o, f, e, _⟩ := h2 h
    rw [e]; exact fun h => by cases h

end Field

/-- **C46** (with the radius).  For points not on one line the circle's radius
is the distance of its centre to each of the three points, and the circle
contains them (for any tolerant comparison of floats that is reflexive). -/
theorem C46_radius (a b c : Pt ℝ) (h : ¬ Colinear a b c) :
    ∃ o r, circleOf (circleFromPoints a b c) = some (o, r) ∧
      eucl o a = r ∧ eucl o b = r ∧ eucl o c = r ∧
      ∀ feq : ℝ → ℝ → Bool, (∀ x, feq x x = true) →
        ∀ p ∈ [a, b, c], circleContains feq (o, r) p := by
  obtain ⟨o, f, e, h1, h2, h3⟩ := (circleFromPoints_spec a b c).2 h
  have hr : √((o.1 - f.1) * (o.1 - f.1) + (o.2 - f.2) * (o.2 - f.2)) = eucl o f := by
    unfold eucl; congr 1; ring
  have hd : ∀ p, dist2 o p = dist2 o f → eucl o p = eucl o f := by
    intro p hp; unfold eucl; unfold dist2 at hp; rw [hp]
  refine ⟨o, eucl o f, by rw [e]; simp only [circleOf, hr], hd a h1, hd b h2, hd c h3, ?_⟩
  intro feq hf p hp
  unfold circleContains
  simp only []
  left
  have : √((o.1 - p.1) * (o.1 - p.1) + (o.2 - p.2) * (o.2 - p.2)) = eucl o f := by
    have : eucl o p = eucl o f := by
      simp only [List.mem_cons, List.not_mem_nil, or_false] at hp
      rcases hp with rfl | rfl | rfl
      · exact hd _ h1
      · exact hd _ h2
      · exact hd _ h3
    rw [← this]; unfold eucl; congr 1; ring
  rw [this]
  exact hf _

/-- **C46** (containment).  With exact comparison a circle contains exactly the
points at most the radius away from its centre. -/
theorem C46_contains (o p : Pt ℝ) (r : ℝ) :
    circleContains (fun x y => decide (x = y)) (o, r) p ↔ eucl o p ≤ r := by
  unfold circleContains
  have : √((o.1 - p.1) * (o.1 - p.1) + (o.2 - p.2) * (o.2 - p.2)) = eucl o p := by
    unfold eucl; congr 1; ring
  simp only [this, decide_eq_true_eq, gt_iff_lt]
  rw [le_iff_eq_or_lt, eq_comm]

example : ¬ Colinear ((0, 0) : Pt ℚ) (4, 0) (0, 2) := by norm_num [Colinear]
example : ¬ Colinear ((0, 0) : Pt ℝ) (4, 0) (0, 2) := by norm_num [Colinear]
example : circleFromPoints ((0, 0) : Pt ℚ) (4, 0) (0, 2) = .circle (2, 1) (0, 0) := by
  norm_num [circleFromPoints, rotateLoop, circleCenter]
example : circleFromPoints ((0, 0) : Pt ℚ) (0, 2) (4, 0) = .circle (2, 1) (0, 2) := by
  norm_num [circleFromPoints, rotateLoop, circleCenter]

/-! ### C78: the in-circle test -/

section Field
variable {K : Type} [Field K] [LinearOrder K] [IsStrictOrderedRing K]

/-- **C78**.  For a counterclockwise triangle `WithinCircle` is true exactly
for the points strictly inside the circle through its corners (`o` is the
centre of that circle). -/
theorem C78_within_circle (p a b c o : Pt K) (h : Ccw a b c)
    (h1 : dist2 o a = dist2 o b) (h2 : dist2 o b = dist2 o c) :
    withinCircle p a b c = true ↔ dist2 o p < dist2 o a :=
  withinCircle_iff p a b c o h h1 h2

/-- **C78** (the centre exists).  Every counterclockwise triangle has such a
centre, the one `CircleFromPoints` returns; so `WithinCircle` and
`CircleFromPoints` agree. -/
theorem C78_agrees_with_circle (a b c : Pt K) (h : Ccw a b c) :
    ∃ o f, circleFromPoints a b c = .circle o f ∧
      ∀ p, withinCircle p a b c = true ↔ dist2 o p < dist2 o f := by
  have hn : ¬ Colinear a b c := by
    intro hc; unfold Ccw at h; unfold Colinear at hc; rw [hc] at h; exact lt_irrefl _ h
  obtain ⟨o, f, e, h1, h2, h3⟩ := (circleFromPoints_spec a b c).2 hn
  refine ⟨o, f, e, fun p => ?_⟩
  rw [C78_within_circle p a b c o h (h1.trans h2.symm) (h2.trans h3.symm), h1]

end Field

example : Ccw ((0, 0) : Pt ℚ) (4, 0) (0, 2) ∧ dist2 ((2, 1) : Pt ℚ) (0, 0) = dist2 (2, 1) (4, 0) ∧
    dist2 ((2, 1) : Pt ℚ) (4, 0) = dist2 (2, 1) (0, 2) := by norm_num [Ccw, dist2]
example : withinCircle ((2, 1) : Pt ℚ) (0, 0) (4, 0) (0, 2) = true := by
  norm_num [withinCircle, area]
example : withinCircle ((4, 2) : Pt ℚ) (0, 0) (4, 0) (0, 2) = false := by
  norm_num [withinCircle, area]

/-! ### C79: a circle as segments, C82: a circle as points -/

/-- **C82**.  `AsPoints(k)` returns `k` points (30 if `k` is below 3), each at
the radius from the centre, the first one to the right of the centre. -/
theorem C82_as_points (o : Pt ℝ) (r : ℝ) (hr : 0 ≤ r) (k : Nat) :
    (asPoints (o, r) k).length = (if k < 3 then 30 else k) ∧
    (∀ p ∈ asPoints (o, r) k, eucl o p = r) ∧
    (asPoints (o, r) k).head? = some (o.1 + r, o.2) := by
  refine ⟨by simp [asPoints], ?_, ?_⟩
  · intro p hp
    unfold asPoints at hp
    simp only [List.mem_map] at hp
    obtain ⟨i, _, rfl⟩ := hp
    unfold eucl
    simp only []
    generalize 2 * Real.pi * ((i : ℝ) / ((if k < 3 then 30 else k : Nat) : ℝ)) = t
    have : (o.1 - (o.1 + r * Real.cos t)) ^ 2 + (o.2 - (o.2 + r * Real.sin t)) ^ 2 = r ^ 2 := by
      have := Real.sin_sq_add_cos_sq t
      linear_combination r ^ 2 * this
    rw [this, Real.sqrt_sq hr]
  · have hpos : 0 < (if k < 3 then 30 else k) := by split <;> omega
    obtain ⟨n, hn⟩ : ∃ n, (if k < 3 then 30 else k) = n + 1 := ⟨_, (Nat.succ_pred_eq_of_pos hpos).symm⟩
    unfold asPoints
    simp only [hn, List.range_succ_eq_map, List.map_cons, List.head?_cons]
    simp

example : (0 : ℝ) ≤ 2 := by norm_num

/-- **C79**, full statement: for every `k`, `AsSegments(k)` returns the closed
chain through the points of `AsPoints(k)`. -/
def C79_full : Prop := ∀ (c : Circle) (k : Nat),
  ∃ segs, asSegments (asPoints c k) k = some segs ∧ ClosedChain (asPoints c k) segs

/-- **C79** fails: with 0 (documented as "use the default") the call panics. -/
theorem C79_violated : ¬ C79_full := by
  intro h
  obtain ⟨segs, e, _⟩ := h ((0, 0), 1) 0
  have : asSegments (asPoints ((0, 0), 1) 0) 0 = none := by
    unfold asSegments
    have : (asPoints ((0, 0), 1) 0).length = 29 + 1 := by simp [asPoints]
    rw [this]
    rfl
  rw [this] at e
  cases e

/-- **C79**, what holds: the closed chain for every `k` from 3 on. -/
theorem C79_closed_partial (c : Circle) (k : Nat) (hk : 3 ≤ k) :
    ∃ segs, asSegments (asPoints c k) k = some segs ∧ ClosedChain (asPoints c k) segs := by
  have hl : (asPoints c k).length = k := by
    have : ¬ k < 3 := by omega
    simp [asPoints, this]
  generalize asPoints c k = pts at *
  subst hl
  obtain ⟨segs, e, h1, h2⟩ := segmentsFrom_spec pts pts.length 0 (by omega)
  refine ⟨segs, e, h1, fun i hi hi' h'' => ?_⟩
  have := h2 i hi
  rw [Nat.zero_add, segmentAt_spec pts i hi'] at this
  exact Option.some.inj this

example : asSegments [10, 20, 30, 40] 4 = some [(40, 10), (10, 20), (20, 30), (30, 40)] := by
  decide

/-! ### C83: the centre of a triangle -/

section Field
variable {K : Type} [Field K] [LinearOrder K] [IsStrictOrderedRing K]

/-- **C83**.  `Triangle.Center` lies in the triangle, does not depend on the
order of the corners, and for a triangle with an area it is the centroid of
its outline; `Triangle.Area` is twice the signed area of that outline. -/
theorem C83_center (a b c : Pt K) :
    InTriangle (center (a, b, c)) a b c ∧
    center (b, c, a) = center (a, b, c) ∧ center (b, a, c) = center (a, b, c) ∧
    (area2 [a, b, c, a] ≠ 0 → center (a, b, c) = centroid [a, b, c, a]) ∧
    area (a, b, c) = area2 [a, b, c, a] := by
  have h3 : (3 : K) ≠ 0 := three_ne_zero
  have h30 : (0 : K) ≤ 1 / 3 := by positivity
  refine ⟨⟨1 / 3, 1 / 3, 1 / 3, h30, h30, h30, by norm_num, ?_⟩, ?_, ?_, ?_, ?_⟩
  · apply Prod.ext <;> simp only [center] <;> ring
  · apply Prod.ext <;> simp only [center] <;> ring
  · apply Prod.ext <;> simp only [center] <;> ring
  · intro h
    rw [C77_centroid_is_mean a b c h]
    rfl
  · simp only [area, area2]; ring

end Field

example : area2 [((0, 0) : Pt ℚ), (3, 0), (0, 3), (0, 0)] ≠ 0 ∧
    center (((0, 0) : Pt ℚ), (3, 0), (0, 3)) = (1, 1) := by norm_num [area2, center]

/-! ### C80: the third corner -/

/-- **C80**.  For a triangle with three corners that are pairwise different
(for the tolerant comparison used), `ThirdPoint` of two corners, in either
order, is the remaining corner. -/
theorem C80_third_point {P : Type} (peq : P → P → Bool) (hrefl : ∀ x, peq x x = true)
    (a b c : P) (hab : peq a b = false ∧ peq b a = false)
    (hac : peq a c = false ∧ peq c a = false) (hbc : peq b c = false ∧ peq c b = false) :
    thirdPoint peq (a, b, c) a b = c ∧ thirdPoint peq (a, b, c) b a = c ∧
    thirdPoint peq (a, b, c) a c = b ∧ thirdPoint peq (a, b, c) c a = b ∧
    thirdPoint peq (a, b, c) b c = a ∧ thirdPoint peq (a, b, c) c b = a := by
  simp [thirdPoint, hrefl, hab, hac, hbc]

example : (fun x y : Nat => decide (x = y)) 1 2 = false ∧
    thirdPoint (fun x y : Nat => decide (x = y)) (1, 2, 3) 3 1 = 2 := by decide

/-! ### C81: a point on a line -/

/-- **C81**, full statement: `Line.ContainsPoint` is true exactly for the
points of the segment. -/
def C81_full : Prop := ∀ a b p : Pt ℚ, lineContainsPoint (a, b) p = true ↔ OnSegment p a b

/-- **C81** fails: every point of the bounding box counts. -/
theorem C81_violated : ¬ C81_full := by
  intro h
  obtain ⟨t, _, _, h⟩ := (h (0, 0) (2, 2) (1, 0)).mp (by norm_num [lineContainsPoint])
  rw [Prod.ext_iff] at h
  norm_num at h
  linarith [h.1, h.2]

section Field
variable {K : Type} [Field K] [LinearOrder K] [IsStrictOrderedRing K]

/-- **C81**, what holds: it is exactly the box test; every point of the
segment passes; and for horizontal and vertical lines it is exact. -/
theorem C81_box_partial (a b p : Pt K) :
    (lineContainsPoint (a, b) p = true ↔ InBox p a b) ∧
    (OnSegment p a b → lineContainsPoint (a, b) p = true) ∧
    (a.1 = b.1 ∨ a.2 = b.2 → (lineContainsPoint (a, b) p = true ↔ OnSegment p a b)) := by
  refine ⟨lineContainsPoint_iff a b p,
    fun h => (lineContainsPoint_iff a b p).mpr (inBox_of_onSegment h), fun hv => ?_⟩
  refine ⟨fun h => ?_, fun h => (lineContainsPoint_iff a b p).mpr (inBox_of_onSegment h)⟩
  exact onSegment_of_axis hv h

end Field

example : lineContainsPoint (((0, 3), (5, 3)) : Planar.Line ℚ) (2, 3) = true := by
  norm_num [lineContainsPoint]

end Verif.Props
