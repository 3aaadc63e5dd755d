import Verif.Spec.QuadEdge
import Verif.Spec.Resolve
import Verif.Spec.Planar

/-!
# Vocabulary for the properties of subdivisions
-/

namespace Verif.Spec.Subdivision
open Verif.Quad Verif.Spec.Quad

variable {P : Type}

/-- `y` can be come by from `x`, turning round at an origin and going to the other end of an edge. -/
inductive Connected (s : Store P) (x : E) : E → Prop
  | refl : Connected s x x
  | next {y} : Connected s x y → Connected s x (onext s y)
  | sym {y} : Connected s x y → Connected s x (Quad.sym y)

/-- The left face of `e` has three edges. -/
def ThreeSided (s : Store P) (e : E) : Prop :=
  lnext s (lnext s (lnext s e)) = e ∧ lnext s e ≠ e

variable {K : Type} [Field K] [LinearOrder K]

/-- `e` goes from `o` to `d`, and the left face of `e` is a triangle with the third corner `t`. -/
def FaceOf (s : Store (Pt K)) (e : E) (o d t : Pt K) : Prop :=
  ThreeSided s e ∧ orig s e = some o ∧ orig s (lnext s e) = some d ∧
    orig s (lnext s (lnext s e)) = some t

/-- `x` lies in the triangle `o d t`, not on the sides `d t` and `t o`: on the inside or on the side from
`o` to `d`, its ends left out. -/
def InsideOrOnFirst (x o d t : Pt K) : Prop :=
  ∃ u v w : K, 0 < u ∧ 0 < v ∧ 0 ≤ w ∧ u + v + w = 1 ∧
    x = (u * o.1 + v * d.1 + w * t.1, u * o.2 + v * d.2 + w * t.2)

/-- `a b c` turns counterclockwise to the eye. -/
def Turns (yd : Bool) (a b c : Pt K) : Prop :=
  0 < Resolve.wedge yd (Resolve.arrow a b) (Resolve.arrow a c)

/-- `y` is one of the three edges round the triangle to the right of `z`. -/
def Outside (s : Store (Pt K)) (z y : E) : Prop :=
  y = Quad.sym z ∨ y = lnext s (Quad.sym z) ∨ y = lnext s (lnext s (Quad.sym z))

/-- The edges connected to `z` make triangles.  The one to the right of `z` is the outside of the triangle
`f0 f1 f2`; all others are counterclockwise. -/
structure Triangulated (yd : Bool) (f0 f1 f2 : Pt K) (s : Store (Pt K)) (z : E) : Prop where
  reached : Reached s
  agree : OriginsAgree s
  alloc : Allocated s z
  primal : Primal z
  frame : Turns yd f0 f1 f2
  outer : FaceOf s (Quad.sym z) f1 f0 f2
  face : ∀ y, Connected s z y → ∃ o d t, FaceOf s y o d t ∧ (Turns yd o d t ∨ Outside s z y)

/-- The points of a subdivision. -/
def Vertex (s : Store (Pt K)) (z : E) (p : Pt K) : Prop := ∃ e, Connected s z e ∧ orig s e = some p

/-- `p` is inside the triangle `a b c`, not on a side. -/
def InsideTriangle (p a b c : Pt K) : Prop :=
  ∃ u v w : K, 0 < u ∧ 0 < v ∧ 0 < w ∧ u + v + w = 1 ∧
    p = (u * a.1 + v * b.1 + w * c.1, u * a.2 + v * b.2 + w * c.2)

/-- The same triangle with the same sense, begun at any of its corners. -/
def SameTriangle (x y : Pt K × Pt K × Pt K) : Prop :=
  x = y ∨ x = (y.2.1, y.2.2, y.1) ∨ x = (y.2.2, y.1, y.2.1)

instance (x y : Pt K × Pt K × Pt K) : Decidable (SameTriangle x y) := inferInstanceAs (Decidable (_ ∨ _ ∨ _))

/-- `p` is inside the circle through `a`, `b` and `c`, not on it. -/
def InsideCircle (a b c p : Pt K) : Prop :=
  ∃ m : Pt K, Planar.dist2 m a = Planar.dist2 m b ∧ Planar.dist2 m a = Planar.dist2 m c ∧
    Planar.dist2 m p < Planar.dist2 m a

/-- No point of the subdivision is inside the circle of one of its triangles, the outside left out. -/
def Delaunay (s : Store (Pt K)) (z : E) : Prop :=
  ∀ y o d t, Connected s z y → ¬ Outside s z y → FaceOf s y o d t → ∀ p, Vertex s z p → ¬ InsideCircle o d t p

/-- The triangles `ts` are a Delaunay triangulation of the triangle `a b c` with the points `vs`: they turn
counterclockwise to the eye and together are `a b c`, no two of them have a point in common but on their sides,
their corners are just the points `vs`, and none of these is inside the circle of a triangle. -/
structure DelaunayTriangulation (yd : Bool) (a b c : Pt K) (vs : Pt K → Prop) (ts : List (Pt K × Pt K × Pt K)) :
    Prop where
  turns : ∀ T ∈ ts, Turns yd T.1 T.2.1 T.2.2
  cover : ∀ p, Planar.InTriangle p a b c ↔ ∃ T ∈ ts, Planar.InTriangle p T.1 T.2.1 T.2.2
  apart : ts.Pairwise fun T T' => ∀ p, ¬ (InsideTriangle p T.1 T.2.1 T.2.2 ∧ InsideTriangle p T'.1 T'.2.1 T'.2.2)
  corners : ∀ p, vs p ↔ ∃ T ∈ ts, p = T.1 ∨ p = T.2.1 ∨ p = T.2.2
  delaunay : ∀ T ∈ ts, ∀ p, vs p → ¬ InsideCircle T.1 T.2.1 T.2.2 p

/-- Looking up points with `get` works for the edges `live`: what is found for a point is one of the edges,
and its origin rounds as the point does; and if the point rounds as the origin of one of the edges does,
something is found. -/
def Finds (rnd : Pt K → Pt K) (s : Store (Pt K)) (live : E → Prop) (get : Pt K → Option E) : Prop :=
  (∀ p e, get p = some e → live e ∧ ∃ o, orig s e = some o ∧ rnd o = rnd p) ∧
  ∀ p e o, live e → orig s e = some o → rnd p = rnd o → get p ≠ none

end Verif.Spec.Subdivision
