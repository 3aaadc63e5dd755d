import Verif.Lemmas.WalkerMulti
import Mathlib.Algebra.Order.Ring.Rat

/-!
# From triangles to polygons

In exact arithmetic with exact comparison of coordinates.
-/

set_option linter.unusedSectionVars false

namespace Verif.Props
open Verif.Walker Verif.Spec.Walker
open Verif.Spec.Winding (area2)
open Verif.Winding (orientation clockwise counterClockwise)
open Verif.Simplify (Ctx)
open Verif.Shapes (Triangle)

variable {K : Type} [Field K] [LinearOrder K] [IsStrictOrderedRing K]

/-! ## Checking the hypotheses on examples -/

/-- All the orders of the corners. -/
def cornerOrders {P : Type} (t : P × P × P) : List (P × P × P) :=
  [(t.1, t.2.1, t.2.2), (t.1, t.2.2, t.2.1), (t.2.1, t.1, t.2.2), (t.2.2, t.1, t.2.1), (t.2.1, t.2.2, t.1),
    (t.2.2, t.2.1, t.1)]

theorem corners_orders {P : Type} {t : P × P × P} {p q w : P} (h : Corners t p q w) :
    (p, q, w) ∈ cornerOrders t := by
  rcases h with rfl | rfl | rfl | rfl | rfl | rfl <;> simp [cornerOrders]

theorem opposite_of_check (ts : List (Triangle K))
    (h : ∀ a ∈ ts.zipIdx, ∀ b ∈ ts.zipIdx, a.2 ≠ b.2 →
      ∀ x ∈ cornerOrders a.1, ∀ y ∈ cornerOrders b.1, x.1 = y.1 → x.2.1 = y.2.1 →
        area2 [x.1, x.2.1, x.2.2] * area2 [y.1, y.2.1, y.2.2] < 0) : OppositeSides ts := by
  intro i j t u p q w w' hij ht hu h1 h2
  exact h (t, i) (by simpa [List.mem_zipIdx_iff_getElem?] using ht) (u, j)
    (by simpa [List.mem_zipIdx_iff_getElem?] using hu) hij
    _ (corners_orders h1) _ (corners_orders h2) rfl rfl

/-- Two triangles that make a square, and a third away from them. -/
def square3 : List (Triangle ℚ) :=
  [((0, 0), (2, 0), (2, 2)), ((5, 0), (6, 0), (6, 1)), ((0, 0), (2, 2), (0, 2))]

theorem square3_opposite : OppositeSides square3 := opposite_of_check _ (by decide +kernel)

/-! ## C108 -/

/-- C108: where no edge belongs to three triangles, a walk that is not stopped marks the triangles
that can be reached over common edges, each once, and no others; the ring has a corner for each of
them and two more, and its points are corners of them. -/
theorem C108_walk (ctx : Ctx) (hctx : ∀ k, ctx k = false) (ts : List (Triangle K)) (h2 : AtMostTwo ts)
    (idx : Nat) (hidx : idx < ts.length) (seen : List Nat)
    (hseen : ∀ j ∈ seen, Linked ts idx j → j = idx) :
    ∃ rng walked, ringForTriangle (fun p q => decide (p = q)) ctx ts idx seen = some (rng, walked ++ seen) ∧
      walked.Nodup ∧ (∀ j, j ∈ walked ↔ Linked ts idx j) ∧ rng.length = walked.length + 2 ∧
      ∀ x ∈ rng, ∃ j ∈ walked, ∃ t y z, ts[j]? = some t ∧ Corners t x y z := by
  obtain ⟨σ, s, wk, hσ, hI, hring, hend⟩ := Lemmas.Walker.ringForTriangle_inv ctx ts idx seen hidx
  have hend : s.cidxs = [] := by
    rcases hend with h | ⟨k, hk⟩
    · exact h
    · rw [hctx] at hk; simp at hk
  refine ⟨s.rng, wk, ?_, hI.nodup, Lemmas.Walker.walk_group hI hend h2 hseen, hI.len, hI.pts⟩
  rw [← hI.seen]
  exact hring

example : AtMostTwo square3 ∧ 0 < square3.length ∧
    ringForTriangle (fun p q => decide (p = q)) (fun _ => false) square3 0 []
      = some ([(0, 0), (2, 0), (2, 2), (0, 2)], [2, 0]) :=
  ⟨Lemmas.Walker.two_of_opposite square3_opposite, by decide, by decide +kernel⟩

/-- C108: if the walk is told to stop it has marked some of the triangles of the group, each once. -/
theorem C108_stopped (ctx : Ctx) (ts : List (Triangle K)) (idx : Nat) (hidx : idx < ts.length) (seen : List Nat) :
    ∃ rng walked, ringForTriangle (fun p q => decide (p = q)) ctx ts idx seen = some (rng, walked ++ seen) ∧
      walked.Nodup ∧ idx ∈ walked ∧ (∀ j ∈ walked, Linked ts idx j ∧ (j = idx ∨ j ∉ seen)) := by
  obtain ⟨σ, s, wk, hσ, hI, hring, -⟩ := Lemmas.Walker.ringForTriangle_inv ctx ts idx seen hidx
  refine ⟨s.rng, wk, ?_, hI.nodup, hI.start, fun j hj => ⟨hI.linked j hj, hI.fresh j hj⟩⟩
  rw [← hI.seen]
  exact hring

example : ringForTriangle (fun p q => decide (p = q)) (fun n => decide (n = 0)) square3 0 [1]
    = some ([(0, 0), (2, 0), (2, 2)], [0, 1]) := by decide +kernel

/-! ## C109 -/

/-- C109: where triangles with a common edge lie on its two sides, the area of the ring is the area
of the triangles that were marked, whether or not the walk was stopped. -/
theorem C109_area (ctx : Ctx) (ts : List (Triangle K)) (ho : OppositeSides ts)
    (idx : Nat) (hidx : idx < ts.length) (seen : List Nat) :
    ∃ rng walked, ringForTriangle (fun p q => decide (p = q)) ctx ts idx seen = some (rng, walked ++ seen) ∧
      |area2 rng| = (walked.map (fun j => ((ts[j]?).map size2).getD 0)).sum := by
  obtain ⟨σ, s, wk, hσ, hI, hring, -⟩ := Lemmas.Walker.ringForTriangle_inv ctx ts idx seen hidx
  refine ⟨s.rng, wk, ?_, ?_⟩
  · rw [← hI.seen]; exact hring
  · have hnn : 0 ≤ (wk.map (Lemmas.Walker.sizeAt ts)).sum := by
      apply List.sum_nonneg
      intro x hx
      obtain ⟨j, -, rfl⟩ := List.mem_map.1 hx
      unfold Lemmas.Walker.sizeAt
      cases ts[j]? with
      | none => simp
      | some t => simp [size2]
    rw [hI.area ho]
    rcases hσ with rfl | rfl
    · rw [one_mul, abs_of_nonneg hnn]; rfl
    · rw [neg_one_mul, abs_neg, abs_of_nonneg hnn]; rfl

example : OppositeSides square3 ∧ |area2 [((0, 0) : Pt ℚ), (2, 0), (2, 2), (0, 2)]| = 8 ∧
    ([2, 0].map (fun j => ((square3[j]?).map size2).getD 0)).sum = 8 :=
  ⟨square3_opposite, by decide +kernel, by decide +kernel⟩

/-! ## C110 -/

/-- C110: where triangles with a common edge lie on its two sides, the polygons that `MultiPolygon`
returns, if it is not stopped, have together the area of the triangles. -/
def C110_full : Prop :=
  ∀ (yd : Bool) (ts : List (Triangle ℚ)), OppositeSides ts →
    ∃ mp, multiPolygon (fun x y => decide (x = y)) (fun p q => decide (p = q)) yd (fun _ => false)
        (fun _ _ => false) (fun _ _ => false) ts = some mp ∧
      (mp.map net2).sum = (ts.map size2).sum

/-- What `PolygonForRing` makes of the ring is an outer ring with holes: the first ring is turned one
way, the others the other way, and they are not larger together than the first. -/
def OuterFirst (rng : List (Pt K)) : Prop :=
  ∃ f os, polygonForRing (fun x y => decide (x = y)) (fun _ => false) rng = .poly (f :: os) ∧
    (∀ o ∈ os, area2 f * area2 o ≤ 0) ∧ (os.map (fun h => |area2 h|)).sum ≤ |area2 f|

/-- C110 when the rings that are walked become outer rings with holes. -/
theorem C110_area_partial (yd : Bool) (ts : List (Triangle K)) (ho : OppositeSides ts)
    (hout : ∀ i seen rng seen',
      ringForTriangle (fun p q => decide (p = q)) (fun _ => false) ts i seen = some (rng, seen') →
        OuterFirst rng) :
    ∃ mp, multiPolygon (fun x y => decide (x = y)) (fun p q => decide (p = q)) yd (fun _ => false)
        (fun _ _ => false) (fun _ _ => false) ts = some mp ∧
      (mp.map net2).sum = (ts.map size2).sum := by
  obtain ⟨mp, h1, h2⟩ := Lemmas.Walker.multiLoop_area yd (fun _ => false) (fun _ _ => false) (fun _ _ => false) ts
    (fun _ => rfl) (fun _ _ => rfl) ho hout ts.length 0 [] [] [] (by omega) (by simp) (by simp) (by simp) (by simp)
    (by simp) (by simp)
  exact ⟨mp, h1, by rw [h2, Lemmas.Walker.sum_sizeAt]⟩

/-- C110 when no ring that is walked comes to a point twice. -/
theorem C110_simple_partial (yd : Bool) (ts : List (Triangle K)) (ho : OppositeSides ts)
    (hout : ∀ i seen rng seen',
      ringForTriangle (fun p q => decide (p = q)) (fun _ => false) ts i seen = some (rng, seen') → rng.Nodup) :
    ∃ mp, multiPolygon (fun x y => decide (x = y)) (fun p q => decide (p = q)) yd (fun _ => false)
        (fun _ _ => false) (fun _ _ => false) ts = some mp ∧
      (mp.map net2).sum = (ts.map size2).sum := by
  refine C110_area_partial yd ts ho ?_
  intro i seen rng seen' h
  have hnd := hout i seen rng seen' h
  have hlen : 3 ≤ rng.length := by
    have hi : i < ts.length := by
      by_contra hc
      unfold ringForTriangle at h
      rw [List.getElem?_eq_none (by omega)] at h
      simp at h
    obtain ⟨σ, s, wk, -, hI, hring, -⟩ := Lemmas.Walker.ringForTriangle_inv (fun _ => false) ts i seen hi
    have hring : ringForTriangle (fun p q => decide (p = q)) (fun _ => false) ts i seen = some (s.rng, s.seen) := hring
    rw [hring] at h
    cases h
    have := hI.len
    have := List.length_pos_iff.2 (List.ne_nil_of_mem hI.start)
    omega
  exact ⟨_, [], Lemmas.Walker.polygonForRing_nodup (fun _ => false) (fun _ => rfl) rng hnd hlen, by simp, by simp⟩

theorem square3_nodup : ∀ i seen rng seen',
    ringForTriangle (fun p q => decide (p = q)) (fun _ => false) square3 i seen = some (rng, seen') → rng.Nodup := by
  intro i seen rng seen' h
  have hi : i < 3 := by
    by_contra hc
    unfold ringForTriangle at h
    rw [List.getElem?_eq_none (by simp [square3]; omega)] at h
    simp at h
  obtain ⟨seen'', h'⟩ := Lemmas.Walker.ringForTriangle_congr (fun p q => decide (p = q)) (fun _ => false) square3 i seen
    ((List.range 3).filter (fun j => decide (j ∈ seen))) (by
      intro j hj
      have : j < 3 := hj
      simp [this]) h
  have hall : ∀ l ∈ (List.range 3).sublists, ∀ i < 3,
      ∀ x ∈ ringForTriangle (fun p q => decide (p = q)) (fun _ => false) square3 i l, x.1.Nodup := by
    decide +kernel
  exact hall _ (List.mem_sublists.2 List.filter_sublist) i hi _ h'

example : OppositeSides square3 ∧ ∀ i seen rng seen',
    ringForTriangle (fun p q => decide (p = q)) (fun _ => false) square3 i seen = some (rng, seen') → rng.Nodup :=
  ⟨square3_opposite, square3_nodup⟩

/-- Five triangles round a hole that touches the outside at the leftmost point. -/
def pinched : List (Triangle ℚ) :=
  [((0, 0), (4, -4), (3, -1)), ((4, -4), (8, 0), (3, -1)), ((3, -1), (8, 0), (3, 1)), ((8, 0), (4, 4), (3, 1)),
    ((0, 0), (3, 1), (4, 4))]

/-- C110 does not hold in full: for these triangles the hole is returned as the outer ring and the
outside as a hole in it. -/
theorem C110_violated : ¬ C110_full := by
  intro h
  obtain ⟨mp, h1, h2⟩ := h false pinched (opposite_of_check _ (by decide +kernel))
  have : multiPolygon (fun x y => decide (x = y)) (fun p q => decide (p = q)) false (fun _ => false)
      (fun _ _ => false) (fun _ _ => false) pinched
      = some [[[(0, 0), (3, 1), (3, -1)], [(0, 0), (4, -4), (8, 0), (4, 4)]]] := by decide +kernel
  rw [this] at h1
  cases h1
  revert h2
  decide +kernel

/-! ## C111 -/

/-- C111: for triangles with three different corners `MultiPolygon` does not panic; every polygon it
returns has a first ring, which is clockwise, its other rings are counter-clockwise, and every ring
has at least three points, all of them corners of the triangles. -/
theorem C111_polygons (yd : Bool) (ctx : Ctx) (cr cp : Nat → Ctx) (ts : List (Triangle K))
    (h3 : ∀ t ∈ ts, ThreeCorners t) :
    ∃ mp, multiPolygon (fun x y => decide (x = y)) (fun p q => decide (p = q)) yd ctx cr cp ts = some mp ∧
      ∀ p ∈ mp, (∃ first others, p = first :: others ∧ orientation yd first = clockwise ∧
          ∀ r ∈ others, orientation yd r = counterClockwise) ∧
        ∀ r ∈ p, 3 ≤ r.length ∧ ∀ x ∈ r, ∃ t ∈ ts, ∃ y z, Corners t x y z := by
  obtain ⟨mp, h1, h2⟩ := Lemmas.Walker.multiLoop_shape yd ctx cr cp ts h3 ts.length 0 [] [] (by omega) (by simp)
  refine ⟨mp, h1, ?_⟩
  intro p hp
  obtain ⟨hne, hr, rs, rfl⟩ := h2 p hp
  refine ⟨?_, hr⟩
  have hw := C32_rectify_windings yd rs
  cases hc : Winding.rectifyPolygon yd rs with
  | nil => exact absurd hc hne
  | cons first others =>
    rw [hc] at hw
    exact ⟨first, others, rfl, hw.1 first (by simp), hw.2⟩

example : (∀ t ∈ pinched, ThreeCorners t) ∧ (∀ t ∈ square3, ThreeCorners t) := by
  unfold ThreeCorners; decide +kernel

end Verif.Props
