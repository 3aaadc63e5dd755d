import Verif.Spec.Intersect
import Verif.Spec.Clip
import Mathlib.Data.List.Rotate

/-!
# What cutting into segments is for
-/

namespace Verif.Spec.Destructure
open Verif.KdTree (Box)
open Verif.Spec.Planar Verif.Spec.Clip

variable {K : Type} [Field K] [LinearOrder K]

/-- `p` is a vertex of the multipolygon. -/
def Vertex (mp : List (List (List (Pt K)))) (p : Pt K) : Prop := ∃ poly ∈ mp, ∃ ring ∈ poly, p ∈ ring

/-- The edges of a ring of three points or more: from each point to the next, from the last to the
first. -/
def ringEdges (ring : List (Pt K)) : List (Pt K × Pt K) :=
  if 3 ≤ ring.length then ring.zip (ring.rotate 1) else []

/-- The edges of the rings of the multipolygon. -/
def edgesOf (mp : List (List (List (Pt K)))) : List (Pt K × Pt K) := mp.flatten.flatMap ringEdges

/-- `a b` is one of the four sides of the box, in one of the two directions. -/
def Side (e : Box K) (a b : Pt K) : Prop :=
  Corner e a ∧ Corner e b ∧ ((a.1 = b.1 ∧ a.2 ≠ b.2) ∨ (a.1 ≠ b.1 ∧ a.2 = b.2))

/-- The point is on the border of the box. -/
def OnBoxBorder (e : Box K) (p : Pt K) : Prop :=
  Inside e p ∧ (p.1 = e.minx ∨ p.1 = e.maxx ∨ p.2 = e.miny ∨ p.2 = e.maxy)

/-- There is nothing to clip: no box, or a box that has the whole (not empty) multipolygon in it. -/
def NotClipped (clip : Option (Box K)) (mp : List (List (List (Pt K)))) : Prop :=
  ∀ e, clip = some e → (∃ p, Vertex mp p) ∧ ∀ p, Vertex mp p → Inside e p

/-- What is cut: the edges of the multipolygon, and the sides of the box if there is something to
clip. -/
def Cut (clip : Option (Box K)) (mp : List (List (List (Pt K)))) (a b : Pt K) : Prop :=
  (a, b) ∈ edgesOf mp ∨ (¬ NotClipped clip mp ∧ ∃ e, clip = some e ∧ Side e a b)

/-- `p` comes before `q` from left to right, from the bottom up where they are above one another. -/
def Before (p q : Pt K) : Prop := p.1 < q.1 ∨ (p.1 = q.1 ∧ p.2 < q.2)

/-- The segment comes before the other: by its first point, or else by its second. -/
def LineBefore (l m : Pt K × Pt K) : Prop := Before l.1 m.1 ∨ (l.1 = m.1 ∧ Before l.2 m.2)

/-- The point is an end of the segment. -/
def EndOf (p : Pt K) (l : Pt K × Pt K) : Prop := p = l.1 ∨ p = l.2

/-- The segments have at most one point in common. -/
def Apart (a b c d : Pt K) : Prop :=
  ∀ x y, OnSegment x a b → OnSegment x c d → OnSegment y a b → OnSegment y c d → x = y

/-- No two edges of the multipolygon have more than one point in common, and, if there is something
to clip, no edge has more than one point in common with a side of the box. -/
def NoOverlap (clip : Option (Box K)) (mp : List (List (List (Pt K)))) : Prop :=
  (edgesOf mp).Pairwise (fun s t => Apart s.1 s.2 t.1 t.2) ∧
  (¬ NotClipped clip mp → ∀ e, clip = some e → ∀ a b, Side e a b →
    ∀ s ∈ edgesOf mp, Apart a b s.1 s.2)

end Verif.Spec.Destructure
