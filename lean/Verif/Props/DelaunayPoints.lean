import Mathlib.Data.Rat.Floor
import Verif.Lemmas.DelaunayPoints
import Verif.Props.Triangles

/-!
# Properties C138, C139 and C140: triangulating given points

`NewForPoints` of `planar/triangulate/delaunay/subdivision` and `Triangles` of `planar/triangulate/delaunay`
(constraints not enabled), in exact arithmetic.
-/

namespace Verif.Props
open Verif.Quad Verif.Spec.Quad Verif.Subdivision Verif.Spec.Subdivision Verif.Spec.Planar Verif.Delaunay
open Verif.Lemmas.SubTriangles Verif.Lemmas.SubNew Verif.Lemmas.DelaunayPoints

variable {K : Type} [Field K] [LinearOrder K] [IsStrictOrderedRing K] [FloorRing K]

/-- **C138, rounding**: the points are moved by at most half a thousandth in each direction, to a multiple of a
thousandth. -/
theorem C138_rounds (p : Pt K) : |(roundPt p).1 - p.1| ≤ 1 / 2000 ∧ |(roundPt p).2 - p.2| ≤ 1 / 2000 ∧
    (∃ i j : Int, roundPt p = ((i : K) / 1000, (j : K) / 1000)) := by
  have key : ∀ x : K, |roundAway (x * 1000) / 1000 - x| ≤ 1 / 2000 ∧ ∃ i : Int, roundAway (x * 1000) = (i : K) := by
    intro x
    have near : ∀ y : K, |(⌊y + 1 / 2⌋ : K) - y| ≤ 1 / 2 := by
      intro y
      have h1 := Int.floor_le (y + 1 / 2)
      have h2 := Int.lt_floor_add_one (y + 1 / 2)
      rw [abs_le]; constructor <;> linarith
    unfold roundAway
    split_ifs with h
    · refine ⟨?_, _, rfl⟩
      have := near (x * 1000)
      rw [abs_le] at *
      constructor <;> linarith
    · refine ⟨?_, -⌊-(x * 1000) + 1 / 2⌋, by push_cast; rfl⟩
      have := near (-(x * 1000))
      rw [abs_le] at *
      constructor <;> linarith
  obtain ⟨i, hi⟩ := (key p.1).2
  obtain ⟨j, hj⟩ := (key p.2).2
  exact ⟨(key p.1).1, (key p.2).1, i, j, by unfold roundPt; rw [hi, hj]⟩

/-- **C138**: `NewForPoints`, given at least one point, makes a subdivision for all of them, unless the context
is cancelled; it does not fail or panic.  The frame is the triangle made for the rounded points, all of which are
inside of it; the points of the subdivision are its corners and the rounded points.  The subdivision is a
triangulation of the frame and Delaunay. -/
theorem C138_newForPoints (yd : Bool) (cancelled : Nat → Bool) (points : List (Pt K)) (hne : points ≠ []) :
    ∃ a b c sd, triangleContaining (points.map roundPt) = some (a, b, c) ∧
      (∀ p ∈ points.map roundPt, InsideTriangle p a b c) ∧ sd.frame = (a, b, c) ∧
      Triangulates yd a b c sd ∧ Delaunay sd.store sd.start ∧
      (∀ p, Vertex sd.store sd.start p ↔ p = a ∨ p = b ∨ p = c ∨ p ∈ points.map roundPt) ∧
      ((∃ i < points.length, cancelled i = true) → (newForPoints yd cancelled points).1 = .cancelled) ∧
      ((∀ i < points.length, cancelled i = false) → (newForPoints yd cancelled points).1 = .ok sd) := by
  obtain ⟨e, he, e1, e2, e3⟩ := extentOf_spec (ps := points.map roundPt) (by simpa using hne)
  have hin : ∀ p ∈ points.map roundPt, _ := fun p hp =>
    frame_inside e.1 e.2.1 e.2.2.1 e.2.2.2 e1 e2 p (e3 p hp).1 (e3 p hp).2.1 (e3 p hp).2.2.1 (e3 p hp).2.2.2
  have hw := frame_wedge yd e.1 e.2.1 e.2.2.1 e.2.2.2 e1 e2
  have ht : triangleContaining (points.map roundPt) =
      some (Shapes.triangleForExtent e.1 e.2.1 e.2.2.1 e.2.2.2 10) := by
    unfold triangleContaining; rw [he]; rfl
  obtain ⟨⟨a, b, c⟩, hT⟩ : ∃ T, T = Shapes.triangleForExtent e.1 e.2.1 e.2.2.1 e.2.2.2 10 := ⟨_, rfl⟩
  rw [← hT] at ht hw hin
  simp only at hin hw
  obtain ⟨sd0, h0⟩ : ∃ sd0, newSub yd a b c = some sd0 := by
    rw [newSub_eq]
    rcases lt_trichotomy (Spec.Resolve.wedge yd (Spec.Resolve.arrow a b) (Spec.Resolve.arrow a c)) 0 with h | h | h
    · exact ⟨_, by rw [if_neg h.not_gt, if_pos h]⟩
    · exact absurd h hw
    · exact ⟨_, by rw [if_pos h]⟩
  have mf : ∀ p, p ∈ fresh [c, b, a] (points.map roundPt) → p ∈ points.map roundPt :=
    fun p hp => ((mem_fresh _ _ _).1 hp).1
  obtain ⟨rs, sd, h1, h2, h3, h4, h5⟩ := C134_accepts_partial yd a b c sd0 h0 (fresh [c, b, a] (points.map roundPt))
    (fun x hx => not_on_sides (hin x (mf x hx)) hw)
  have hall : ∀ r ∈ rs, r = true := by
    have : ∀ (xs : List (Pt K)) (rs : List Bool), List.Forall₂ (fun x r => r = true ↔ InsideTriangle x a b c) xs rs →
        (∀ x ∈ xs, InsideTriangle x a b c) → ∀ r ∈ rs, r = true := by
      intro xs rs h
      induction h with
      | nil => simp
      | cons h _ ih =>
        intro hx r hr
        rcases List.mem_cons.1 hr with rfl | hr
        · exact h.2 (hx _ List.mem_cons_self)
        · exact ih (fun x hx' => hx x (List.mem_cons_of_mem _ hx')) r hr
    exact this _ _ h2 (fun x hx => hin x (mf x hx))
  have hnew : (newForPoints yd cancelled points).1 =
      insertPoints yd cancelled 0 [c, b, a] sd0 (points.map roundPt) := by
    unfold newForPoints
    simp only [ht, h0]
  have hrun := insertPoints_eq yd cancelled (points.map roundPt) 0 [c, b, a] sd0 sd rs h1 hall
  rw [← hnew] at hrun
  refine ⟨a, b, c, sd, ht, hin, ?_, h4, h5, ?_, ?_, ?_⟩
  · rw [insertAll_frame h1]
    rw [newSub_eq] at h0
    split_ifs at h0 <;> rw [← Option.some.inj h0]
  · intro p
    rw [h3 p, mem_fresh]
    constructor
    · rintro (h | h | h | ⟨⟨h, _⟩, _⟩)
      · exact Or.inl h
      · exact Or.inr (Or.inl h)
      · exact Or.inr (Or.inr (Or.inl h))
      · exact Or.inr (Or.inr (Or.inr h))
    · rintro (h | h | h | h)
      · exact Or.inl h
      · exact Or.inr (Or.inl h)
      · exact Or.inr (Or.inr (Or.inl h))
      · by_cases hc : p ∈ [c, b, a]
        · simp only [List.mem_cons, List.not_mem_nil, or_false] at hc
          rcases hc with h | h | h <;> simp [h]
        · exact Or.inr (Or.inr (Or.inr ⟨⟨h, hc⟩, hin p h⟩))
  · rintro ⟨i, hi, hc⟩
    rw [hrun, if_pos ⟨i, by simpa using hi, by simpa using hc⟩]
  · intro hc
    rw [hrun, if_neg]
    rintro ⟨j, hj, hj'⟩
    have := hc j (by simpa using hj)
    simp [this] at hj'

/-- A list of points with two that round to the same, and a cancelled context. -/
example :
    (newForPoints false (fun _ => false) [((0 : ℚ), (0 : ℚ)), (1, 1 / 3), (1, 3333 / 10000), (-7, 5)]).2 =
      [(0, 0), (1, 333 / 1000), (1, 333 / 1000), (-7, 5)] ∧
    (newForPoints false (fun i => decide (i = 2)) [((0 : ℚ), (0 : ℚ)), (1, 1 / 3), (-7, 5)]).1 matches .cancelled := by
  decide +kernel

/-- The full claim of **C139**: every point of a triangle of three of the rounded points is in one of the
triangles that are listed, so that these cover the convex hull. -/
def C139_full : Prop :=
  ∀ (yd : Bool) (points : List (Pt ℚ)) (spare : Nat) (constraints : List (Pt ℚ × Pt ℚ)),
    points ++ constraints.flatMap (fun c => [c.1, c.2]) ≠ [] →
    ∃ ts, (constrainedTriangles yd (fun _ => false) points spare constraints false).1 = .ok ts ∧
      ∀ o ∈ points.map roundPt, ∀ d ∈ points.map roundPt, ∀ t ∈ points.map roundPt, ¬ Colinear o d t →
        ∀ p, InTriangle p o d t → ∃ T ∈ ts, InTriangle p T.1 T.2.1 T.2.2

/-- **C139 is violated**: for three points that are no more than nearly on one line no triangle is listed,
because the corners of the frame are in its circle. -/
theorem C139_violated : ¬ C139_full := by
  intro h
  obtain ⟨ts, h1, h2⟩ := h false [(0, 0), (100, 0), (50, 1 / 20)] 0 [] (by simp)
  have h3 : (constrainedTriangles false (fun _ => false) [((0 : ℚ), (0 : ℚ)), (100, 0), (50, 1 / 20)] 0 [] false).1 =
      .ok [] := by decide +kernel
  rw [h1] at h3
  obtain rfl := Res.ok.inj h3
  obtain ⟨T, hT, _⟩ := h2 (0, 0) (by decide +kernel) (100, 0) (by decide +kernel) (50, 1 / 20) (by decide +kernel)
    (by unfold Colinear; norm_num) (0, 0) ⟨1, 0, 0, by norm_num, le_rfl, le_rfl, by norm_num, by norm_num⟩
  cases hT

/-- What is said of triangles listed for points `vs` with the frame `a b c`: they turn counterclockwise to the
eye, their corners are points, no point is inside the circle of one of them, and no two of them have a point in
common but on their sides.  Three points the circle of which has no other point and no corner of the frame in it
or on it are listed. -/
def GoodTriangles (yd : Bool) (a b c : Pt K) (vs : List (Pt K)) (ts : List (Pt K × Pt K × Pt K)) : Prop :=
  (∀ T ∈ ts, Turns yd T.1 T.2.1 T.2.2 ∧ T.1 ∈ vs ∧ T.2.1 ∈ vs ∧ T.2.2 ∈ vs ∧
    ∀ v ∈ vs, ¬ InsideCircle T.1 T.2.1 T.2.2 v) ∧
  ts.Pairwise (fun T T' => ∀ p, ¬ (InsideTriangle p T.1 T.2.1 T.2.2 ∧ InsideTriangle p T'.1 T'.2.1 T'.2.2)) ∧
  ∀ o ∈ vs, ∀ d ∈ vs, ∀ t ∈ vs, Turns yd o d t → ∀ m, dist2 m o = dist2 m d → dist2 m o = dist2 m t →
    (∀ v ∈ vs, v ≠ o → v ≠ d → v ≠ t → dist2 m o < dist2 m v) →
    (∀ f ∈ [a, b, c], dist2 m o < dist2 m f) → ∃ T ∈ ts, SameTriangle T (o, d, t)

theorem C139_points_partial (yd : Bool) (points : List (Pt K)) (hne : points ≠ []) :
    ∃ a b c ts, triangleContaining (points.map roundPt) = some (a, b, c) ∧
      trianglesOf false (newForPoints yd (fun _ => false) points).1 = .ok ts ∧
      GoodTriangles yd a b c (points.map roundPt) ts := by
  obtain ⟨a, b, c, sd, h1, h2, h3, h4, h5, h6, _, h8⟩ := C138_newForPoints yd (fun _ => false) points hne
  obtain ⟨l1, T, l2, g1, g2, g3, g4, g5⟩ := triangles_good h4 h5 h3
  refine ⟨a, b, c, (l1 ++ l2).filter fun T : _ × _ × _ => decide (∀ v ∈ [T.1, T.2.1, T.2.2], v ≠ a ∧ v ≠ b ∧ v ≠ c),
    h1, ?_, ?_, ?_, ?_⟩
  · rw [h8 (fun _ _ => rfl)]
    unfold trianglesOf
    simp only
    rw [g5]
  · intro S hS
    rw [List.mem_filter, decide_eq_true_eq] at hS
    obtain ⟨hS, hn⟩ := hS
    have corner : ∀ p ∈ [S.1, S.2.1, S.2.2], p ∈ points.map roundPt := by
      intro p hp
      have hv : Vertex sd.store sd.start p := (g4.corners p).2 ⟨S, hS, by simpa using hp⟩
      obtain ⟨n1, n2, n3⟩ := hn p hp
      rcases (h6 p).1 hv with h | h | h | h
      · exact absurd h n1
      · exact absurd h n2
      · exact absurd h n3
      · exact h
    refine ⟨g4.turns S hS, corner _ (by simp), corner _ (by simp), corner _ (by simp), fun v hv => ?_⟩
    exact g4.delaunay S hS v ((h6 v).2 (Or.inr (Or.inr (Or.inr hv))))
  · exact g4.apart.filter _
  · intro o ho d hd t ht hturn m m1 m2 hm hf
    have vert : ∀ p ∈ points.map roundPt, Vertex sd.store sd.start p := fun p hp =>
      (h6 p).2 (Or.inr (Or.inr (Or.inr hp)))
    have cornerIn : InTriangle a a b c ∧ InTriangle b a b c ∧ InTriangle c a b c :=
      ⟨⟨1, 0, 0, zero_le_one, le_rfl, le_rfl, by ring, by ext <;> simp⟩,
       ⟨0, 1, 0, le_rfl, zero_le_one, le_rfl, by ring, by ext <;> simp⟩,
       ⟨0, 0, 1, le_rfl, le_rfl, zero_le_one, by ring, by ext <;> simp⟩⟩
    obtain ⟨S, hS, hs⟩ := listed_of_empty g4 (fun v hv => by
      rcases (h6 v).1 hv with rfl | rfl | rfl | h
      · exact cornerIn.1
      · exact cornerIn.2.1
      · exact cornerIn.2.2
      · obtain ⟨u, v, w, hu, hv, hw, hs, e⟩ := h2 _ h
        exact ⟨u, v, w, hu.le, hv.le, hw.le, hs, e⟩) hturn (vert o ho) (vert d hd) (vert t ht) m1 m2 (by
      intro v hv n1 n2 n3
      rcases (h6 v).1 hv with rfl | rfl | rfl | h
      · exact hf _ (by simp)
      · exact hf _ (by simp)
      · exact hf _ (by simp)
      · exact hm v h n1 n2 n3)
    refine ⟨S, List.mem_filter.2 ⟨hS, ?_⟩, hs⟩
    rw [decide_eq_true_eq]
    have off : ∀ p ∈ [o, d, t], p ≠ a ∧ p ≠ b ∧ p ≠ c := by
      have e : ∀ p ∈ [o, d, t], dist2 m o = dist2 m p := by
        intro p hp
        simp only [List.mem_cons, List.not_mem_nil, or_false] at hp
        rcases hp with rfl | rfl | rfl
        · rfl
        · exact m1
        · exact m2
      intro p hp
      refine ⟨?_, ?_, ?_⟩ <;> rintro rfl
      · exact absurd (e _ hp) (hf _ (by simp)).ne
      · exact absurd (e _ hp) (hf _ (by simp)).ne
      · exact absurd (e _ hp) (hf _ (by simp)).ne
    intro v hv
    apply off
    rcases hs with rfl | rfl | rfl <;> simp only [List.mem_cons, List.not_mem_nil, or_false] at hv ⊢
    · exact hv
    · rcases hv with h | h | h
      · exact Or.inr (Or.inl h)
      · exact Or.inr (Or.inr h)
      · exact Or.inl h
    · rcases hv with h | h | h
      · exact Or.inr (Or.inr h)
      · exact Or.inl h
      · exact Or.inr (Or.inl h)

/-- **C139, `Constrained`**: `Triangles(false)` does not fail or panic, and what it lists is good for the rounded
points and end points of constraints. -/
theorem C139_constrained_partial (yd : Bool) (points : List (Pt K)) (spare : Nat) (constraints : List (Pt K × Pt K))
    (hne : points ++ constraints.flatMap (fun c => [c.1, c.2]) ≠ []) :
    ∃ a b c ts,
      triangleContaining ((points ++ constraints.flatMap (fun c => [c.1, c.2])).map roundPt) = some (a, b, c) ∧
      (constrainedTriangles yd (fun _ => false) points spare constraints false).1 = .ok ts ∧
      GoodTriangles yd a b c ((points ++ constraints.flatMap (fun c => [c.1, c.2])).map roundPt) ts := by
  obtain ⟨a, b, c, ts, h1, h2, h3⟩ := C139_points_partial yd _ hne
  refine ⟨a, b, c, ts, h1, ?_, h3⟩
  unfold constrainedTriangles
  simp only
  rw [if_neg hne]
  exact h2

/-- **C139, `GeomConstrained`**: as for `Constrained`; constraints that are too short are left out.  `vs` are the
points that are triangulated: just the given ones and the ends of the other constraints, none of them twice. -/
theorem C139_geom_partial (yd : Bool) (short : Pt K → Pt K → Bool) (points : List (Pt K))
    (constraints : List (Pt K × Pt K))
    (hne : points ≠ [] ∨ ∃ c ∈ constraints, short c.1 c.2 = false) :
    ∃ (vs : List (Pt K)) (a b c : Pt K) (ts : List (Pt K × Pt K × Pt K)), vs.Nodup ∧
      (∀ p, p ∈ vs ↔ p ∈ points ∨ ∃ e ∈ constraints, short e.1 e.2 = false ∧ (p = e.1 ∨ p = e.2)) ∧
      triangleContaining (vs.map roundPt) = some (a, b, c) ∧
      geomTriangles yd (fun _ => false) short points constraints false = .ok ts ∧
      GoodTriangles yd a b c (vs.map roundPt) ts := by
  obtain ⟨vs, hvs⟩ : ∃ vs, vs = constraints.foldl
      (fun pts c => if short c.1 c.2 then pts else addPoint (addPoint pts c.1) c.2) (points.foldl addPoint []) :=
    ⟨_, rfl⟩
  have hmem : ∀ p, p ∈ vs ↔ p ∈ points ∨ ∃ e ∈ constraints, short e.1 e.2 = false ∧ (p = e.1 ∨ p = e.2) := by
    intro p
    rw [hvs, mem_foldl_ends, mem_foldl_addPoint]
    simp
  have hn : vs ≠ [] := by
    intro h
    rw [h] at hmem
    rcases hne with hne | ⟨c, hc, hs⟩
    · obtain ⟨q, hq⟩ := List.exists_mem_of_ne_nil points hne
      have := (hmem q).2 (Or.inl hq)
      cases this
    · have := (hmem c.1).2 (Or.inr ⟨c, hc, hs, Or.inl rfl⟩)
      cases this
  obtain ⟨a, b, c, ts, h1, h2, h3⟩ := C139_points_partial yd vs hn
  refine ⟨vs, a, b, c, ts, ?_, hmem, h1, ?_, h3⟩
  · rw [hvs]
    exact nodup_foldl_ends _ (nodup_foldl_addPoint _ List.nodup_nil)
  · unfold geomTriangles
    simp only
    rw [← hvs, if_neg hn]
    exact h2

/-- Five points with a constraint, and what is listed. -/
example : (constrainedTriangles false (fun _ => false) [((0 : ℚ), (0 : ℚ)), (10, 0), (10, 10), (0, 10)] 0
      [((5, 4), (0, 0))] false).1 =
    .ok [((10, 10), (0, 10), (5, 4)), ((10, 10), (5, 4), (10, 0)), ((10, 0), (5, 4), (0, 0)),
      ((5, 4), (0, 10), (0, 0))] := by
  decide +kernel

/-- The full claim of **C140**: `Constrained.Triangles` leaves `Points` as they are. -/
def C140_full : Prop :=
  ∀ (yd : Bool) (cancelled : Nat → Bool) (points : List (Pt ℚ)) (spare : Nat) (constraints : List (Pt ℚ × Pt ℚ))
    (includeFrame : Bool), (constrainedTriangles yd cancelled points spare constraints includeFrame).2 = points

/-- **C140**: `Constrained.Triangles` leaves `Points` as they are just if the end points of the constraints do not
fit into the array behind them, or if all of the points are multiples of a thousandth; else they are rounded. -/
theorem C140_points_partial (yd : Bool) (cancelled : Nat → Bool) (points : List (Pt K)) (spare : Nat)
    (constraints : List (Pt K × Pt K)) (includeFrame : Bool) :
    let after := (constrainedTriangles yd cancelled points spare constraints includeFrame).2
    (after = points ↔ spare < 2 * constraints.length ∨ ∀ p ∈ points, roundPt p = p) ∧
      (after = points ∨ after = points.map roundPt) := by
  have hmap : points.map roundPt = points ↔ ∀ p ∈ points, roundPt p = p := by
    conv_lhs => rhs; rw [← List.map_id points]
    rw [List.map_inj_left]
    rfl
  unfold constrainedTriangles
  simp only
  split_ifs with h1 h2
  · have : points = [] := (List.append_eq_nil_iff.1 h1).1
    subst this
    simp
  · have : (newForPoints yd cancelled (points ++ constraints.flatMap fun c => [c.1, c.2])).2.take points.length =
        points.map roundPt := by
      unfold newForPoints
      simp only
      rw [List.map_append, List.take_left' (by simp)]
    rw [this, hmap]
    exact ⟨⟨Or.inr, fun h => h.resolve_left (by omega)⟩, Or.inr rfl⟩
  · exact ⟨⟨fun _ => Or.inl (by omega), fun _ => rfl⟩, Or.inl rfl⟩

/-- **C140 is violated**: a third becomes 333 thousandths. -/
theorem C140_violated : ¬ C140_full := by
  intro h
  have := ((C140_points_partial false (fun _ => false) [((1 / 3 : ℚ), (0 : ℚ))] 0 [] false).1).1 (h _ _ _ _ _ _)
  rcases this with h | h
  · simp at h
  · have := h (1 / 3, 0) (by simp)
    exact absurd this (by decide +kernel)

end Verif.Props
