import Verif.Spec.Rounded

/-!
# What the area of a triangle and the circle test should tell
-/

namespace Verif.Spec.RoundedArea
open Verif

/-- Twice the signed area of the triangle, by the shoelace formula. -/
def area2 (a b c : Pt ℚ) : ℚ :=
  (a.1 * b.2 - b.1 * a.2) + (b.1 * c.2 - c.1 * b.2) + (c.1 * a.2 - a.1 * c.2)

/-- The square of the distance. -/
def dist2 (p q : Pt ℚ) : ℚ := (p.1 - q.1) ^ 2 + (p.2 - q.2) ^ 2

/-- The point is strictly inside of the circle through the three points. -/
def InCircle (p a b c : Pt ℚ) : Prop :=
  ∃ o, dist2 o a = dist2 o b ∧ dist2 o b = dist2 o c ∧ dist2 o p < dist2 o a

/-- The centroid of a triangle. -/
def centroid (a b c : Pt ℚ) : Pt ℚ := ((a.1 + b.1 + c.1) / 3, (a.2 + b.2 + c.2) / 3)

/-- The point is not left of, right of, above or below of all three. -/
def InBox (p a b c : Pt ℚ) : Prop :=
  min (min a.1 b.1) c.1 ≤ p.1 ∧ p.1 ≤ max (max a.1 b.1) c.1 ∧
    min (min a.2 b.2) c.2 ≤ p.2 ∧ p.2 ≤ max (max a.2 b.2) c.2

end Verif.Spec.RoundedArea
