import Verif.Spec.Rounded

/-!
# Specification vocabulary for finite `float64`s
-/

namespace Verif.Spec.Float64
open Verif Verif.Spec.Rounded

/-- `y` is a `float64` and no other is nearer to `x`. -/
def Nearest64 (x y : ℚ) : Prop := IsFloat64 y ∧ ∀ z, IsFloat64 z → |y - x| ≤ |z - x|

/-- The point is in the box, edges included. -/
def Inside (minx miny maxx maxy : ℚ) (p : Pt ℚ) : Prop := minx ≤ p.1 ∧ p.1 ≤ maxx ∧ miny ≤ p.2 ∧ p.2 ≤ maxy

end Verif.Spec.Float64
