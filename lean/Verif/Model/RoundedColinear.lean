import Verif.Model.Rounded

/-!
# Whether two lines are colinear, with the rounding of floats

As in `Verif.Model.Rounded`.
-/

namespace Verif.Rounded
open Verif

/-- planar/line_intersect.go:24, `denom` of `AreLinesColinear`. -/
def colinearDenom (l1 l2 : Pt ℚ × Pt ℚ) : ℚ :=
  sub 53 (mul 53 (sub 53 l1.1.1 l1.2.1) (sub 53 l2.1.2 l2.2.2)) (mul 53 (sub 53 l1.1.2 l1.2.2) (sub 53 l2.1.1 l2.2.1))

/-- planar/line_intersect.go:18-42 `AreLinesColinear`. -/
def areLinesColinear (l1 l2 : Pt ℚ × Pt ℚ) : Bool :=
  if colinearDenom l1 l2 ≠ 0 then false
  else
    let (xmin, xmax) := if l1.1.1 > l1.2.1 then (l1.2.1, l1.1.1) else (l1.1.1, l1.2.1)
    let (ymin, ymax) := if l1.1.2 > l1.2.2 then (l1.2.2, l1.1.2) else (l1.1.2, l1.2.2)
    (decide (xmin ≤ l2.1.1) && decide (l2.1.1 ≤ xmax) && decide (ymin ≤ l2.1.2) && decide (l2.1.2 ≤ ymax)) ||
      (decide (xmin ≤ l2.2.1) && decide (l2.2.1 ≤ xmax) && decide (ymin ≤ l2.2.2) && decide (l2.2.2 ≤ ymax))

end Verif.Rounded
