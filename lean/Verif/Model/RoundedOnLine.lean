import Verif.Model.Rounded

/-!
# Whether a point is on a line, with the rounding of floats

As in `Verif.Model.Rounded`: a finite `float64` is the rational number it stands for, each operation rounds to 53
bits, nothing over- or underflows and no multiplication is fused with an addition.
-/

namespace Verif.Rounded
open Verif
open Verif.Planar (Line)

/-- planar/planar.go:35-46 `Slope`: `(m, b, defined)`. -/
def slope (l : Line ℚ) : ℚ × ℚ × Bool :=
  let dx := sub 53 l.2.1 l.1.1
  let dy := sub 53 l.2.2 l.1.2
  if dx = 0 ∨ dy = 0 then (0, l.1.2, decide (dx ≠ 0))
  else
    let m := quo 53 dy dx
    let b := sub 53 l.1.2 (mul 53 m l.1.1)
    (m, b, true)

/-- planar/planar.go:49-62 `IsPointOnLine`; `feq` is `compare.Float`. -/
def isPointOnLine (feq : ℚ → ℚ → Bool) (pt l1 l2 : Pt ℚ) : Bool :=
  let r := slope (l1, l2)
  if r.2.2 = false then feq pt.1 l1.1
  else if r.1 = 0 then feq pt.2 l1.2
  else feq pt.2 (add 53 (mul 53 r.1 pt.1) r.2.1)

/-- planar/planar.go:65-79 `IsPointOnLineSegment`. -/
def isPointOnLineSegment (feq : ℚ → ℚ → Bool) (pt : Pt ℚ) (seg : Line ℚ) : Bool :=
  let minx := if seg.1.1 > seg.2.1 then seg.2.1 else seg.1.1
  let maxx := if seg.1.1 > seg.2.1 then seg.1.1 else seg.2.1
  let miny := if seg.1.2 > seg.2.2 then seg.2.2 else seg.1.2
  let maxy := if seg.1.2 > seg.2.2 then seg.1.2 else seg.2.2
  if minx > pt.1 ∨ maxx < pt.1 ∨ miny > pt.2 ∨ maxy < pt.2 then false
  else isPointOnLine feq pt seg.1 seg.2

end Verif.Rounded
