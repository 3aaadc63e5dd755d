import Verif.Lemmas.CrossWalk
import Verif.Props.Delaunay

/-!
# Property C160: the edges that a segment crosses

`FindIntersectingEdges` of `planar/triangulate/delaunay/subdivision`, after `New` and calls of `InsertSite`, in
exact arithmetic.
-/

namespace Verif.Props
open Verif.Quad Verif.Spec.Quad Verif.Subdivision Verif.Spec.Subdivision Verif.Spec.Planar
open Verif.Lemmas.SubNew Verif.Constrained Verif.Spec.Constrained

variable {K : Type} [Field K] [LinearOrder K] [IsStrictOrderedRing K]

/-- The full claim of **C160**: beginning with `New`, `InsertSite` has been called for any points.  For an edge
from a point of the subdivision and an edge from another one, `FindIntersectingEdges` returns the edges that are
crossed by the segment from the one point to the other, each once, in the order in which they are crossed. -/
def C160_full : Prop :=
  ∀ (yd : Bool) (a b c : Pt ℚ) (sd : Subdiv ℚ), newSub yd a b c = some sd →
    ∀ xs : List (Pt ℚ), (∀ x ∈ xs, ¬ OnSegment x a b ∧ ¬ OnSegment x b c ∧ ¬ OnSegment x c a) →
      ∀ rs sd', insertAll yd sd xs = some (rs, sd') →
        ∀ (se ee : E) (p q : Pt ℚ), Connected sd'.store sd'.start se → Connected sd'.store sd'.start ee →
          orig sd'.store se = some p → orig sd'.store ee = some q → p ≠ q →
          ∃ l, CrossedInOrder yd sd'.store sd'.start p q l ∧ findIntersectingEdges yd sd'.store se ee = .edges l

/-- Going on from an edge: to the next one around the origin, or to the other direction of the edge. -/
def follow (s : Store (Pt K)) : List Bool → E → E
  | [], e => e
  | false :: l, e => follow s l (onext s e)
  | true :: l, e => follow s l (sym e)

omit [Field K] [LinearOrder K] [IsStrictOrderedRing K] in
theorem follow_connected {s : Store (Pt K)} {z : E} (l : List Bool) : ∀ {e : E}, Connected s z e → Connected s z (follow s l e) := by
  induction l with
  | nil => exact fun h => h
  | cons b l ih =>
    intro e h
    cases b
    · exact ih h.next
    · exact ih h.sym

/-- Edges as points, two for each. -/
def ends (s : Store (Pt K)) : List E → List (Option (Pt K))
  | [] => []
  | e :: l => orig s e :: dest s e :: ends s l

/-- The points that two edges go from, and the edges found from one to the other. -/
def foundEnds (yd : Bool) (sd : Subdiv K) (l l' : List Bool) : List (Option (Pt K)) :=
  orig sd.store (follow sd.store l sd.start) :: orig sd.store (follow sd.store l' sd.start) ::
    match findIntersectingEdges yd sd.store (follow sd.store l sd.start) (follow sd.store l' sd.start) with
    | .edges l => ends sd.store l
    | _ => [none]

/-- **C160 is violated**: with the points (0,0), (20,0) and (40,0), four edges are returned for the segment from the
first to the last, among them the one from (0,150) to (20,0), which the segment does not cross. -/
theorem C160_violated : ¬ C160_full := by
  intro h
  have hn : newSub false ((-100 : ℚ), (-100 : ℚ)) (100, -100) (0, 150) =
      some ⟨newStore (-100, -100) (100, -100) (0, 150), ⟨0, 0⟩, 3, ((-100, -100), (100, -100), (0, 150))⟩ := by
    rw [newSub_eq, if_pos (by decide +kernel)]
  have hx : ∀ x ∈ [((0 : ℚ), (0 : ℚ)), (20, 0), (40, 0)], ¬ OnSegment x (-100, -100) (100, -100) ∧
      ¬ OnSegment x (100, -100) (0, 150) ∧ ¬ OnSegment x (0, 150) (-100, -100) := by
    simp only [← Verif.Planar.isPointOnLineSegment_iff]
    decide +kernel
  obtain ⟨rs, sd', h1, _⟩ := C134_accepts_partial false _ _ _ _ hn [((0 : ℚ), (0 : ℚ)), (20, 0), (40, 0)] hx
  have he : foundEnds false sd' [false, true] [true, false, false, true] = [some (0, 0), some (40, 0),
      some (0, 150), some (20, 0), some (0, 150), some (40, 0), some (100, -100), some (40, 0), some (100, -100),
      some (20, 0)] := by
    have : ((insertAll false ⟨newStore ((-100 : ℚ), (-100 : ℚ)) (100, -100) (0, 150), ⟨0, 0⟩, 3,
        ((-100, -100), (100, -100), (0, 150))⟩ [((0 : ℚ), (0 : ℚ)), (20, 0), (40, 0)]).map fun r =>
          foundEnds false r.2 [false, true] [true, false, false, true]) = some [some (0, 0), some (40, 0),
      some (0, 150), some (20, 0), some (0, 150), some (40, 0), some (100, -100), some (40, 0), some (100, -100),
      some (20, 0)] := by decide +kernel
    rw [h1] at this
    exact Option.some.inj this
  unfold foundEnds at he
  simp only [List.cons.injEq] at he
  obtain ⟨l, hl, hf⟩ := h false _ _ _ _ hn _ hx rs sd' h1 _ _ (0, 0) (40, 0)
    (follow_connected [false, true] Connected.refl) (follow_connected [true, false, false, true] Connected.refl)
    he.1 he.2.1 (by decide)
  have he := he.2.2
  rw [hf] at he
  match l, hl, he with
  | y :: l, hl, he =>
    simp only [ends, List.cons.injEq] at he
    obtain ⟨_, ⟨t, ht⟩, _⟩ := hl.sound y (List.mem_cons_self ..)
    rw [Lemmas.CrossGeom.crossesAt_iff false he.1 he.2.1] at ht
    have := ht.1
    unfold Lemmas.SubCover.area Spec.Resolve.wedge Spec.Resolve.arrow at this
    norm_num at this

/-- **C160**: beginning with `New`, `InsertSite` has been called for any points that are not on a side of the
frame.  Two points of the subdivision are given by edges from them, and no other point is between them on the
segment.  `FindIntersectingEdges` then returns just the edges that the segment crosses, each once, in the order in
which they are crossed and as they go from the left of the segment to its right, if they are not more than 21;
if there are more, it returns an error with the first 21 of them.  Missing for the full claim: points on the
segment, and more than 21 edges. -/
theorem C160_crossed_partial (yd : Bool) (a b c : Pt K) (sd : Subdiv K) (h : newSub yd a b c = some sd)
    (xs : List (Pt K)) (hx : ∀ x ∈ xs, ¬ OnSegment x a b ∧ ¬ OnSegment x b c ∧ ¬ OnSegment x c a) :
    ∃ rs sd', insertAll yd sd xs = some (rs, sd') ∧
      ∀ (se ee : E) (p q : Pt K), Connected sd'.store sd'.start se → Connected sd'.store sd'.start ee →
        orig sd'.store se = some p → orig sd'.store ee = some q → p ≠ q → Clear sd'.store sd'.start p q →
        ∃ l, CrossedInOrder yd sd'.store sd'.start p q l ∧
          findIntersectingEdges yd sd'.store se ee = if l.length ≤ 21 then .edges l else .infinite (l.take 21) := by
  obtain ⟨rs, sd', h1, _, _, h4, _⟩ := C134_accepts_partial yd a b c sd h xs hx
  refine ⟨rs, sd', h1, fun se ee p q h5 h6 h7 h8 h9 h10 => ?_⟩
  rcases h4 with hT | hT
  · exact Lemmas.CrossWalk.find_edges hT h5 h6 h7 h8 h9 h10
  · exact Lemmas.CrossWalk.find_edges hT h5 h6 h7 h8 h9 h10

/-- Six points; the segment from (0,0) to (50,3) crosses three edges and no point is on it. -/
example : let xs : List (Pt ℚ) := [(0, 0), (20, 5), (40, 1), (22, -9), (50, 3), (12, -7)]
    newSub false ((-100 : ℚ), (-100 : ℚ)) (100, -100) (0, 150) ≠ none ∧
    (∀ x ∈ xs, ¬ OnSegment x (-100, -100) (100, -100) ∧ ¬ OnSegment x (100, -100) (0, 150) ∧
      ¬ OnSegment x (0, 150) (-100, -100)) ∧
    ((newSub false ((-100 : ℚ), (-100 : ℚ)) (100, -100) (0, 150)).bind fun sd =>
      (insertAll false sd xs).map fun r => foundEnds false r.2 [false, false, false, true] [true, false, false, true]) =
      some [some (0, 0), some (50, 3), some (20, 5), some (12, -7), some (20, 5), some (22, -9), some (20, 5),
        some (40, 1)] ∧
    ∀ p : Pt ℚ, p = (-100, -100) ∨ p = (100, -100) ∨ p = (0, 150) ∨ p ∈ xs →
      ¬ ∃ t : ℚ, 0 < t ∧ t < 1 ∧ Spec.Resolve.AtParam p (0, 0) (50, 3) t := by
  refine ⟨?_, ?_, ?_, ?_⟩
  · rw [newSub_eq, if_pos (by decide +kernel)]; nofun
  · simp only [← Verif.Planar.isPointOnLineSegment_iff]
    decide +kernel
  · rw [newSub_eq, if_pos (by decide +kernel)]
    decide +kernel
  · rintro p hp ⟨t, t0, t1, h⟩
    unfold Spec.Resolve.AtParam at h
    have h1 : p.1 = t * 50 := by rw [h]; simp
    have h2 : p.2 = t * 3 := by rw [h]; simp
    simp only [List.mem_cons, List.not_mem_nil, or_false] at hp
    rcases hp with rfl | rfl | rfl | rfl | rfl | rfl | rfl | rfl | rfl <;> simp only at h1 h2 <;> linarith

end Verif.Props
