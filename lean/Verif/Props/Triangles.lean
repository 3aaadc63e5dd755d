import Verif.Lemmas.DelaunayPoints
import Verif.Props.Delaunay

/-!
# Property C137: the triangles of a subdivision

`Triangles` of `planar/triangulate/delaunay/subdivision` after `New` and calls of `InsertSite`, in exact
arithmetic.
-/

namespace Verif.Props
open Verif.Quad Verif.Spec.Quad Verif.Subdivision Verif.Spec.Subdivision Verif.Spec.Planar
open Verif.Lemmas.SubTriangles Verif.Lemmas.SubNew Verif.Lemmas.DelaunayPoints

variable {K : Type} [Field K] [LinearOrder K] [IsStrictOrderedRing K]

/-- The full claim of **C137**: after any points inside the frame have been put in, `Triangles(true)` lists a
Delaunay triangulation of the frame with the points, and `Triangles(false)` those of its triangles that have no
corner of the frame. -/
def C137_full : Prop :=
  ∀ (yd : Bool) (a b c : Pt ℚ) (sd : Subdiv ℚ), newSub yd a b c = some sd →
    ∀ xs : List (Pt ℚ), (∀ x ∈ xs, InsideTriangle x a b c) →
      ∃ rs sd' ts, insertAll yd sd xs = some (rs, sd') ∧ sd'.triangles true = some ts ∧
        DelaunayTriangulation yd a b c (fun p => p = a ∨ p = b ∨ p = c ∨ p ∈ xs) ts ∧
        sd'.triangles false = some (ts.filter fun T : _ × _ × _ => decide (∀ v ∈ [T.1, T.2.1, T.2.2], v ≠ a ∧ v ≠ b ∧ v ≠ c))

/-- **C137 is violated**: `Triangles(true)` of a new subdivision lists the frame and the frame backwards. -/
theorem C137_violated : ¬ C137_full := by
  intro h
  have hn : newSub false ((0 : ℚ), (0 : ℚ)) (30, 0) (0, 30) =
      some ⟨newStore (0, 0) (30, 0) (0, 30), ⟨0, 0⟩, 3, ((0, 0), (30, 0), (0, 30))⟩ := by
    rw [newSub_eq, if_pos (by decide +kernel)]
  obtain ⟨rs, sd', ts, h1, h2, h3, _⟩ := h false (0, 0) (30, 0) (0, 30) _ hn [] (by simp)
  simp only [insertAll, Option.some.injEq, Prod.mk.injEq] at h1
  obtain ⟨_, rfl⟩ := h1
  have h4 : Subdiv.triangles ⟨newStore ((0 : ℚ), (0 : ℚ)) (30, 0) (0, 30), ⟨0, 0⟩, 3, ((0, 0), (30, 0), (0, 30))⟩ true =
      some [((0, 0), (30, 0), (0, 30)), ((0, 0), (0, 30), (30, 0))] := by decide +kernel
  rw [h2] at h4
  obtain rfl := Option.some.inj h4
  have h5 := h3.turns ((0, 0), (0, 30), (30, 0)) (by simp)
  unfold Turns Spec.Resolve.wedge Spec.Resolve.arrow at h5
  norm_num at h5

/-- **C137**: beginning with `New`, `InsertSite` is called for any points that are not on a side of the frame.
`Triangles(true)` then lists a Delaunay triangulation of the frame with the points inside the frame, and the
frame itself once more, the wrong way round.  `Triangles(false)` lists just those triangles of the triangulation
that have no corner of the frame, in the same order. -/
theorem C137_triangles_partial (yd : Bool) (a b c : Pt K) (sd : Subdiv K) (h : newSub yd a b c = some sd)
    (xs : List (Pt K)) (hx : ∀ x ∈ xs, ¬ OnSegment x a b ∧ ¬ OnSegment x b c ∧ ¬ OnSegment x c a) :
    ∃ rs sd' l1 T l2, insertAll yd sd xs = some (rs, sd') ∧ sd'.triangles true = some (l1 ++ T :: l2) ∧
      (SameTriangle T (a, b, c) ∨ SameTriangle T (b, a, c)) ∧ ¬ Turns yd T.1 T.2.1 T.2.2 ∧
      DelaunayTriangulation yd a b c
        (fun p => p = a ∨ p = b ∨ p = c ∨ (p ∈ xs ∧ InsideTriangle p a b c)) (l1 ++ l2) ∧
      sd'.triangles false =
        some ((l1 ++ l2).filter fun T : _ × _ × _ => decide (∀ v ∈ [T.1, T.2.1, T.2.2], v ≠ a ∧ v ≠ b ∧ v ≠ c)) := by
  obtain ⟨rs, sd', h1, _, h3, h4, h5⟩ := C134_accepts_partial yd a b c sd h xs hx
  have frame : sd'.frame = (a, b, c) := by
    rw [insertAll_frame h1]
    rw [newSub_eq] at h
    split_ifs at h <;> rw [← Option.some.inj h]
  obtain ⟨l1, T, l2, g1, g2, g3, g4, g5⟩ := triangles_good h4 h5 frame
  have : Vertex sd'.store sd'.start = fun p => p = a ∨ p = b ∨ p = c ∨ (p ∈ xs ∧ InsideTriangle p a b c) :=
    funext fun p => propext (h3 p)
  rw [this] at g4
  exact ⟨rs, sd', l1, T, l2, h1, g1, g2, g3, g4, g5⟩

/-- The points of the example of C134, and what is listed. -/
example : let xs : List (Pt ℚ) := [(10, 10), (9, 1), (12, 2), (100, 100), (11, 9)]
    newSub false ((0 : ℚ), (0 : ℚ)) (30, 0) (0, 30) ≠ none ∧
    (∀ x ∈ xs, ¬ OnSegment x (0, 0) (30, 0) ∧ ¬ OnSegment x (30, 0) (0, 30) ∧ ¬ OnSegment x (0, 30) (0, 0)) ∧
    (((newSub false ((0 : ℚ), (0 : ℚ)) (30, 0) (0, 30)).bind fun sd => insertAll false sd xs).bind fun r =>
      (r.2.triangles true).bind fun ts => (r.2.triangles false).map fun ts' => (ts.length, ts')) =
      some (10, [((10, 10), (9, 1), (11, 9)), ((11, 9), (9, 1), (12, 2))]) := by
  refine ⟨?_, ?_, ?_⟩
  · rw [newSub_eq, if_pos (by decide +kernel)]; nofun
  · simp only [← Verif.Planar.isPointOnLineSegment_iff]
    decide +kernel
  · rw [newSub_eq, if_pos (by decide +kernel)]
    decide +kernel

end Verif.Props
