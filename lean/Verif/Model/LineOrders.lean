import Verif.Model.Planar

/-!
# The orders of lines (planar/line_helpers.go)

In exact arithmetic (an ordered field); `peq` is `cmp.PointEqual`.
-/

namespace Verif.LineOrders
open Verif.Planar (Line)

variable {K : Type} [Field K] [LinearOrder K]

/-- `cmp.PointLess` (cmp/compare.go:106-111), which compares exactly. -/
def pointLess (p q : Pt K) : Bool :=
  if p.1 ≠ q.1 then decide (p.1 < q.1) else decide (p.2 < q.2)

/-- line.go:82-85 `Line.LengthSquared`. -/
def lengthSquared (l : Line K) : K :=
  let deltax := l.2.1 - l.1.1
  let deltay := l.2.2 - l.1.2
  deltax * deltax + deltay * deltay

/-- planar/line_helpers.go:22-27 `LinesByXY.Less` of two lines. -/
def byXY (peq : Pt K → Pt K → Bool) (a b : Line K) : Bool :=
  if !peq a.1 b.1 then pointLess a.1 b.1 else pointLess a.2 b.2

/-- planar/line_helpers.go:45-55 `LinesByLength.Less` of two lines. -/
def byLength (peq : Pt K → Pt K → Bool) (a b : Line K) : Bool :=
  if lengthSquared a = lengthSquared b then
    if peq a.1 b.1 then pointLess a.2 b.2 else pointLess a.1 b.1
  else decide (lengthSquared a < lengthSquared b)

end Verif.LineOrders
