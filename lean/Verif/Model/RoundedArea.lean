import Verif.Model.Rounded

/-!
# The area of a triangle and the circle test, with the rounding of floats

As in `Verif.Model.Rounded`: a finite `float64` is the rational number it stands for, each operation rounds to 53
bits, nothing over- or underflows and no multiplication is fused with an addition.
-/

namespace Verif.Rounded
open Verif

/-- triangle.go:74-77 `Triangle.Area`. -/
def triangleArea (a b c : Pt ℚ) : ℚ :=
  sub 53 (mul 53 (sub 53 b.1 a.1) (sub 53 c.2 a.2)) (mul 53 (sub 53 b.2 a.2) (sub 53 c.1 a.1))

/-- The square of the distance from the origin, as it is taken of the corners in `Point.WithinCircle`
(point.go:97-100). -/
def norm2 (p : Pt ℚ) : ℚ := add 53 (mul 53 p.1 p.1) (mul 53 p.2 p.2)

/-- point.go:91-102 `Point.WithinCircle`. -/
def withinCircle (p a b c : Pt ℚ) : Bool :=
  decide (sub 53 (add 53 (sub 53 (mul 53 (norm2 a) (triangleArea b c p)) (mul 53 (norm2 b) (triangleArea a c p)))
    (mul 53 (norm2 c) (triangleArea a b p))) (mul 53 (norm2 p) (triangleArea a b c)) > 0)

/-- triangle.go:34-38 `Triangle.Center`. -/
def triangleCenter (a b c : Pt ℚ) : Pt ℚ :=
  (quo 53 (add 53 (add 53 a.1 b.1) c.1) 3, quo 53 (add 53 (add 53 a.2 b.2) c.2) 3)

end Verif.Rounded
