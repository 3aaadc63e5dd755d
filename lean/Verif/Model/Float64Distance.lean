import Verif.Model.Float64

/-!
# The square of a distance in `float64`s, with their exponents
-/

namespace Verif.Float64
open Verif

/-- planar/distance.go:20-24 `PointDistance2` of points with finite coordinates; `none` is `+Inf`: a difference or a
square that is too large makes the sum infinite, and there is no way to a NaN. Products are rounded before they are
added (no fused multiply-add). -/
def pointDistance2 (p q : Pt ℚ) : Option ℚ :=
  (toFloat64 (p.1 - q.1)).bind fun v1 => (toFloat64 (p.2 - q.2)).bind fun v2 =>
    (toFloat64 (v1 * v1)).bind fun a => (toFloat64 (v2 * v2)).bind fun b => toFloat64 (a + b)

end Verif.Float64
