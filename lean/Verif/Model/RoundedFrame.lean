import Verif.Model.Rounded
import Verif.Model.Delaunay

/-!
# The triangle around points, with the rounding of floats

As in `Verif.Model.Rounded`: a finite `float64` is the rational number it stands for, each operation rounds to 53
bits, nothing over- or underflows and no multiplication is fused with an addition.
-/

namespace Verif.Rounded
open Verif

/-- triangle.go:101-123 `NewTriangleForExtent` for a non-nil extent `[minx, miny, maxx, maxy]`. -/
def triangleForExtent (e0 e1 e2 e3 buff : ℚ) : Pt ℚ × Pt ℚ × Pt ℚ :=
  let xlen := sub 53 e2 e0
  let ylen := sub 53 e3 e1
  let x2len := quo 53 xlen 2
  let nx := sub 53 (sub 53 e0 (mul 53 x2len buff)) buff
  let cx := add 53 e0 x2len
  let xx := add 53 (add 53 e2 (mul 53 x2len buff)) buff
  let ny := sub 53 (sub 53 e1 (mul 53 ylen buff)) buff
  let xy := add 53 (add 53 e3 (mul 53 (mul 53 2 ylen) buff)) buff
  ((nx, ny), (cx, xy), (xx, ny))

/-- triangle.go:91-99 `NewTriangleContainingPoints`, and triangle.go:81-89 `NewTriangleContaining`, which differs in
the type of its points alone; `none` is a panic. The extent is found by comparisons, without rounding. -/
def triangleContaining (ps : List (Pt ℚ)) : Option (Pt ℚ × Pt ℚ × Pt ℚ) :=
  (Delaunay.extentOf ps).map fun e => triangleForExtent e.1 e.2.1 e.2.2.1 e.2.2.2 10

end Verif.Rounded
