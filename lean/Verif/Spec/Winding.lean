import Verif.Model.Geom
import Mathlib.Algebra.Order.Ring.Defs

/-!
# Specification vocabulary for winding: the surveyor's formula
-/

namespace Verif.Spec.Winding
open Verif

variable {α : Type} [CommRing α]

/-- `x₁y₂ − x₂y₁`. -/
def cross (p q : Pt α) : α := p.1 * q.2 - q.1 * p.2

/-- Twice the signed area of the ring `p₀ p₁ … pₙ` (closed implicitly):
the sum of `cross pᵢ pᵢ₊₁` over all cyclically consecutive pairs. -/
def area2 (ps : List (Pt α)) : α :=
  ((ps.zip (ps.drop 1 ++ ps.take 1)).map (fun e => cross e.1 e.2)).sum

/-- The ring in the direction with positive (`true`) or negative signed area. -/
def turn [LinearOrder α] (positive : Bool) (r : List (Pt α)) : List (Pt α) :=
  if decide (0 < area2 r) = positive then r else r.reverse

end Verif.Spec.Winding
