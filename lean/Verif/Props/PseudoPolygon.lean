import Verif.Lemmas.PseudoPolygonMain
import Mathlib.Algebra.Order.Ring.Rat

/-!
# C124 - C127: triangulating a pseudo-polygon
-/

set_option linter.unusedSectionVars false
set_option linter.unusedTactic false
set_option linter.unreachableTactic false

namespace Verif.Props
open Verif.PseudoPolygon Verif.Spec.PseudoPolygon Verif.Lemmas.PseudoPolygon
open Verif.Planar (Line)
open Verif.Spec.Winding (area2)
open Verif.Spec.Walker (HasEdge Corners)

variable {K : Type} [Field K] [LinearOrder K]

/-! ### C124 -/

/-- A ring with at least three points, none of which comes back later: if `Triangulate` returns lines,
they are exactly the edges of a triangulation of the ring; there are two triangles fewer than points,
their corners are points of the ring, and their signed areas add up to that of the ring. -/
theorem C124_triangulation (yd : Bool) (inCircle : Pt K → Pt K → Pt K → Pt K → Bool) (o : List (Pt K))
    (hn : (squeeze o).Nodup) (h3 : 3 ≤ (squeeze o).length) (lines : List (Line K))
    (h : triangulate yd inCircle o = .ok lines) :
    ∃ T, Triangulates (squeeze o) T ∧ EdgesOf lines T ∧ T.length + 2 = (squeeze o).length ∧
      (T.map (fun t => area2 [t.1, t.2.1, t.2.2])).sum = area2 (squeeze o) ∧
      ∀ t ∈ T, t.1 ∈ squeeze o ∧ t.2.1 ∈ squeeze o ∧ t.2.2 ∈ squeeze o := by
  unfold triangulate at h
  rw [triangulateN_squeeze yd inCircle _ o hn] at h
  obtain ⟨T, hT, hE⟩ := triangulateN_tri yd inCircle _ _ hn h3 lines h
  exact ⟨T, hT, hE, tri_length hT, tri_area hT, tri_corner hT⟩

/-- Two points give the line between them. -/
theorem C124_line (yd : Bool) (inCircle : Pt K → Pt K → Pt K → Pt K → Bool) (o : List (Pt K)) (a b : Pt K)
    (hab : a ≠ b) (h : squeeze o = [a, b]) : triangulate yd inCircle o = .ok [(a, b)] := by
  unfold triangulate
  rw [triangulateN_squeeze yd inCircle _ o (by rw [h]; simp [hab]), h]
  exact triangulateN_two yd inCircle _ a b hab

/-- A pentagon with a notch, one point given twice. -/
def notched : List (Pt ℚ) := [(0, 0), (4, 0), (4, 0), (4, 4), (2, 1), (0, 4)]

example : (squeeze notched).Nodup ∧ 3 ≤ (squeeze notched).length ∧ triangulate false circleTest notched =
    .ok [((2, 1), (0, 4)), ((0, 4), (0, 0)), ((0, 0), (2, 1)), ((0, 0), (4, 0)), ((2, 1), (0, 0)), ((2, 1), (4, 0)),
      ((4, 0), (4, 4)), ((4, 4), (2, 1))] := by
  decide +kernel

example : squeeze [((1 : ℚ), (2 : ℚ)), (1, 2), (3, 4)] = [(1, 2), (3, 4)] := by decide +kernel

/-! ### C125 -/

/-- The whole claim: every simple ring with three points or more is triangulated. -/
def C125_full : Prop := ∀ (yd : Bool) (o : List (Pt ℚ)), 3 ≤ o.length → Simple o →
  ∃ lines, triangulate yd circleTest o = .ok lines

/-- A triangle, nearly: the point (20, 11) in front of its top makes it a simple pentagon. -/
def spiked : List (Pt ℚ) := [(0, 0), (20, 11), (20, 10), (30, 5), (40, 0)]

theorem spiked_simple : Simple spiked := by
  constructor
  · decide +kernel
  · intro p q r s h1 h2 hne x hx hy
    have e : spiked.zip (spiked.rotate 1) = [((0, 0), (20, 11)), ((20, 11), (20, 10)), ((20, 10), (30, 5)),
      ((30, 5), (40, 0)), ((40, 0), (0, 0))] := by decide +kernel
    unfold Side at h1 h2
    rw [e] at h1 h2
    simp only [List.mem_cons, List.not_mem_nil, or_false, Prod.mk.injEq] at h1 h2
    obtain ⟨t, ht0, ht1, rfl⟩ := hx
    obtain ⟨u, hu0, hu1, hu⟩ := hy
    have key : ∀ a b : ℚ, t = a → u = b → (a = 0 ∨ a = 1) → (b = 0 ∨ b = 1) →
        (((p.1 + t * (q.1 - p.1), p.2 + t * (q.2 - p.2)) = p ∨ (p.1 + t * (q.1 - p.1), p.2 + t * (q.2 - p.2)) = q) ∧
        ((p.1 + t * (q.1 - p.1), p.2 + t * (q.2 - p.2)) = r ∨ (p.1 + t * (q.1 - p.1), p.2 + t * (q.2 - p.2)) = s)) := by
      intro a b hta hub ha hb
      constructor
      · subst hta
        rcases ha with h | h
        · left; rw [h]; ext <;> simp
        · right; rw [h]; ext <;> simp
      · rw [hu]
        subst hub
        rcases hb with h | h
        · left; rw [h]; ext <;> simp
        · right; rw [h]; ext <;> simp
    rcases h1 with ⟨rfl, rfl⟩ | ⟨rfl, rfl⟩ | ⟨rfl, rfl⟩ | ⟨rfl, rfl⟩ | ⟨rfl, rfl⟩ <;>
    rcases h2 with ⟨rfl, rfl⟩ | ⟨rfl, rfl⟩ | ⟨rfl, rfl⟩ | ⟨rfl, rfl⟩ | ⟨rfl, rfl⟩ <;>
    first
    | exact absurd rfl hne
    | (simp only [Prod.mk.injEq] at hu
       obtain ⟨u1, u2⟩ := hu
       first
       | (exfalso; linarith)
       | exact key 0 0 (by linarith) (by linarith) (by simp) (by simp)
       | exact key 0 1 (by linarith) (by linarith) (by simp) (by simp)
       | exact key 1 0 (by linarith) (by linarith) (by simp) (by simp)
       | exact key 1 1 (by linarith) (by linarith) (by simp) (by simp))

/-- It does not hold: the simple ring above is cut so that three of its points on one line remain, and
the error is that all points are colinear. -/
theorem C125_violated : ¬ C125_full := by
  intro h
  obtain ⟨l, hl⟩ := h false spiked (by decide) spiked_simple
  have : triangulate false circleTest spiked = .colinear := by decide +kernel
  rw [this] at hl
  cases hl

/-- Part of C125: a ring without repeated points, of which no part has area 0, is triangulated - whatever the
answers of the test for points in a circle.  Missing: simple rings of which some part has area 0. -/
theorem C125_sound_partial (yd : Bool) (inCircle : Pt K → Pt K → Pt K → Pt K → Bool) (o : List (Pt K))
    (hn : (squeeze o).Nodup) (h2 : 2 ≤ (squeeze o).length) (hs : NoFlatPart (squeeze o)) :
    ∃ lines, triangulate yd inCircle o = .ok lines := by
  unfold triangulate
  rw [triangulateN_squeeze yd inCircle _ o hn]
  exact triangulateN_sound yd inCircle _ _ (Nat.lt_succ_of_le (squeeze_length o)) hn h2 (sound_of _ hs)

/-- In particular one that is strictly convex. -/
theorem C125_convex_partial [IsStrictOrderedRing K] (yd : Bool) (inCircle : Pt K → Pt K → Pt K → Pt K → Bool)
    (o : List (Pt K)) (hn : (squeeze o).Nodup) (h2 : 2 ≤ (squeeze o).length) (hc : StrictlyConvex (squeeze o)) :
    ∃ lines, triangulate yd inCircle o = .ok lines :=
  C125_sound_partial yd inCircle o hn h2 (convex_noFlat hc)

/-- A convex pentagon. -/
def pentagon : List (Pt ℚ) := [(0, 0), (4, 0), (6, 3), (3, 6), (0, 4)]

example : (squeeze pentagon).Nodup ∧ 2 ≤ (squeeze pentagon).length := by decide +kernel

example : StrictlyConvex (squeeze pentagon) := by
  intro a b c h
  have hm := List.mem_sublists'.2 h
  have e : ∀ s ∈ (squeeze pentagon).sublists', s.length = 3 →
      0 < (s[1]!.1 - s[0]!.1) * (s[2]!.2 - s[0]!.2) - (s[1]!.2 - s[0]!.2) * (s[2]!.1 - s[0]!.1) := by decide +kernel
  exact e _ hm rfl

/-- With the notch no part is flat either. -/
example : NoFlatPart (squeeze notched) := by
  intro s h
  have hm := List.mem_sublists'.2 h
  have e : ∀ s ∈ (squeeze notched).sublists', 3 ≤ s.length → area2 s ≠ 0 := by decide +kernel
  exact e _ hm

/-! ### C126 -/

/-- `Triangulate` never panics, whatever the points and however often they are repeated, and every line
it returns joins two of the points it was given. -/
theorem C126_total (yd : Bool) (inCircle : Pt K → Pt K → Pt K → Pt K → Bool) (o : List (Pt K)) :
    triangulate yd inCircle o ≠ .panic ∧
      ∀ lines, triangulate yd inCircle o = .ok lines → ∀ l ∈ lines, l.1 ∈ o ∧ l.2 ∈ o :=
  triangulateN_good yd inCircle _ o (Nat.lt_succ_self _)

example : triangulate false circleTest [((0 : ℚ), (0 : ℚ)), (4, 0), (4, 4), (4, 0), (0, 4)] =
    .ok [((4, 0), (4, 4)), ((0, 0), (4, 0)), ((4, 0), (0, 4)), ((0, 4), (0, 0))] := by decide +kernel

/-! ### C127 -/

/-- The whole claim: every side of the ring is among the lines, except for a point that is given twice in
a row. -/
def C127_full : Prop := ∀ (yd : Bool) (o : List (Pt ℚ)) (lines : List (Line ℚ)),
  triangulate yd circleTest o = .ok lines → ∀ p q, Side o p q → p ≠ q → Joins lines p q

/-- It does not hold: a triangle with a tail is taken for the tail alone. -/
theorem C127_violated : ¬ C127_full := by
  intro h
  have e : triangulate false circleTest [((0 : ℚ), (0 : ℚ)), (4, 0), (5, 3), (2, 5), (4, 0)] = .ok [((0, 0), (4, 0))] := by
    decide +kernel
  have := h false _ _ e (4, 0) (5, 3) (by unfold Side; decide +kernel) (by decide +kernel)
  revert this
  unfold Joins
  decide +kernel

/-- Part of C127: it holds when no point of the ring comes back later.  Missing: rings that visit a point
again. -/
theorem C127_sides_partial (yd : Bool) (inCircle : Pt K → Pt K → Pt K → Pt K → Bool) (o : List (Pt K))
    (hn : (squeeze o).Nodup) (lines : List (Line K)) (h : triangulate yd inCircle o = .ok lines) :
    ∀ p q, Side o p q → p ≠ q → Joins lines p q := by
  intro p q hpq hne
  have hs := side_squeeze hne hpq
  by_cases h3 : 3 ≤ (squeeze o).length
  · obtain ⟨T, hT, hE, -⟩ := C124_triangulation yd inCircle o hn h3 lines h
    exact (hE p q).2 (tri_sides hT p q hs)
  · match ho : squeeze o, h3 with
    | [], _ => rw [ho] at hs; simp [Side] at hs
    | [a], _ => rw [ho] at hs; simp [Side] at hs; exact absurd (hs.1.trans hs.2.symm) hne
    | [a, b], _ =>
      rw [ho] at hs hn
      have hab : a ≠ b := by rintro rfl; simp at hn
      rw [C124_line yd inCircle o a b hab ho] at h
      cases h
      simp [Side] at hs
      unfold Joins
      simp
      tauto
    | a :: b :: c :: l, h3 => exact absurd (by simp) h3

example : (squeeze notched).Nodup ∧ Side notched (4, 0) (4, 4) ∧ ((4 : ℚ), (0 : ℚ)) ≠ (4, 4) := by
  unfold Side
  decide +kernel

end Verif.Props
