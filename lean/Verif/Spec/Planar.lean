import Mathlib.Algebra.Order.Field.Basic
import Mathlib.Analysis.Real.Sqrt
import Verif.Model.Geom

/-!
# Plane geometry

Points, lines and distances as a textbook has them; nothing here refers to the
model of the code.
-/

namespace Verif.Spec.Planar

section Field
variable {K : Type} [Field K] [LinearOrder K]

/-- `p` is a point of the straight line through `a` and `b`. -/
def OnLine (p a b : Pt K) : Prop :=
  ∃ t : K, p = (a.1 + t * (b.1 - a.1), a.2 + t * (b.2 - a.2))

/-- `p` is a point of the segment from `a` to `b`, ends included. -/
def OnSegment (p a b : Pt K) : Prop :=
  ∃ t : K, 0 ≤ t ∧ t ≤ 1 ∧ p = (a.1 + t * (b.1 - a.1), a.2 + t * (b.2 - a.2))

/-- The directions `a → b` and `c → d` are parallel (or one is zero). -/
def Parallel (a b c d : Pt K) : Prop :=
  (b.1 - a.1) * (d.2 - c.2) = (b.2 - a.2) * (d.1 - c.1)

/-- All four points lie on one line. -/
def OneLine (a b c d : Pt K) : Prop :=
  ∃ o v : Pt K, ∀ p ∈ [a, b, c, d], ∃ t : K, p = (o.1 + t * v.1, o.2 + t * v.2)

/-- The box spanned by two points. -/
def InBox (p a b : Pt K) : Prop :=
  min a.1 b.1 ≤ p.1 ∧ p.1 ≤ max a.1 b.1 ∧ min a.2 b.2 ≤ p.2 ∧ p.2 ≤ max a.2 b.2

/-- `p` lies in the triangle with corners `a`, `b`, `c`: it is a mean of the
corners with non-negative weights. -/
def InTriangle (p a b c : Pt K) : Prop :=
  ∃ u v w : K, 0 ≤ u ∧ 0 ≤ v ∧ 0 ≤ w ∧ u + v + w = 1 ∧
    p = (u * a.1 + v * b.1 + w * c.1, u * a.2 + v * b.2 + w * c.2)

/-- Squared distance. -/
def dist2 (p q : Pt K) : K := (p.1 - q.1) ^ 2 + (p.2 - q.2) ^ 2

/-- `a`, `b`, `c` turn counterclockwise (`y` upwards). -/
def Ccw (a b c : Pt K) : Prop := 0 < (b.1 - a.1) * (c.2 - a.2) - (b.2 - a.2) * (c.1 - a.1)

/-- `a`, `b`, `c` lie on one line. -/
def Colinear (a b c : Pt K) : Prop := (b.1 - a.1) * (c.2 - a.2) - (b.2 - a.2) * (c.1 - a.1) = 0

/-- Twice the signed area of the ring given by the list, the closing edge not
added (the list repeats its first point if it is closed). -/
def area2 : List (Pt K) → K
  | p :: q :: ps => (p.1 * q.2 - q.1 * p.2) + area2 (q :: ps)
  | _ => 0

/-- The x moment and the y moment of the area, each times six. -/
def moment6 : List (Pt K) → K × K
  | p :: q :: ps =>
    ((p.1 + q.1) * (p.1 * q.2 - q.1 * p.2) + (moment6 (q :: ps)).1,
     (p.2 + q.2) * (p.1 * q.2 - q.1 * p.2) + (moment6 (q :: ps)).2)
  | _ => (0, 0)

/-- The centroid of a closed ring: moments over area. -/
def centroid (ps : List (Pt K)) : Pt K :=
  ((moment6 ps).1 / (3 * area2 ps), (moment6 ps).2 / (3 * area2 ps))

end Field

/-- The segments of a closed chain through `pts`: segment `i` runs from point
`i - 1` (cyclically) to point `i`. -/
def ClosedChain {P : Type} (pts : List P) (segs : List (P × P)) : Prop :=
  segs.length = pts.length ∧ ∀ i (h : i < segs.length) (h' : i < pts.length)
    (h'' : (i + (pts.length - 1)) % pts.length < pts.length),
      segs[i] = (pts[(i + (pts.length - 1)) % pts.length], pts[i])

/-- Euclidean distance. -/
noncomputable def eucl (p q : Pt ℝ) : ℝ := √((p.1 - q.1) ^ 2 + (p.2 - q.2) ^ 2)

/-- `d` is the least distance from `p` to a point of the set `S`. -/
def IsDistanceTo (d : ℝ) (p : Pt ℝ) (S : Pt ℝ → Prop) : Prop :=
  (∃ q, S q ∧ eucl p q = d) ∧ ∀ q, S q → d ≤ eucl p q

end Verif.Spec.Planar
