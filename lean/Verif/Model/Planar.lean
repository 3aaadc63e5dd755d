import Mathlib.Algebra.Order.Field.Basic
import Mathlib.Analysis.Real.Sqrt
import Verif.Model.Geom

/-!
# Planar formulas

planar/planar.go, planar/line_intersect.go, planar/distance.go,
planar/centriod.go.  Float64 arithmetic is replaced by exact arithmetic in a
linearly ordered field `K` (in `ℝ` where the code takes square roots); rounding,
overflow, NaN and the sign of zero are not modelled.  In particular the lines
`if x == -0 { x = 0 }` of the code change nothing here and are left out.
-/

namespace Verif.Planar

/-- geom.Line, line.go:15: two points. -/
abbrev Line (K : Type) := Pt K × Pt K

section Field
variable {K : Type} [Field K] [LinearOrder K]

/-- planar/planar.go:35-46 `Slope`: `(m, b, defined)`. -/
def slope (l : Line K) : K × K × Bool :=
  let dx := l.2.1 - l.1.1
  let dy := l.2.2 - l.1.2
  if dx = 0 ∨ dy = 0 then (0, l.1.2, decide (dx ≠ 0))
  else
    let m := dy / dx
    let b := l.1.2 - m * l.1.1
    (m, b, true)

/-- planar/planar.go:49-62 `IsPointOnLine`; `feq` is `compare.Float`. -/
def isPointOnLine (feq : K → K → Bool) (pt l1 l2 : Pt K) : Bool :=
  let r := slope (l1, l2)
  if r.2.2 = false then feq pt.1 l1.1
  else if r.1 = 0 then feq pt.2 l1.2
  else feq pt.2 (r.1 * pt.1 + r.2.1)

/-- planar/planar.go:65-79 `IsPointOnLineSegment`. -/
def isPointOnLineSegment (feq : K → K → Bool) (pt : Pt K) (seg : Line K) : Bool :=
  let minx := if seg.1.1 > seg.2.1 then seg.2.1 else seg.1.1
  let maxx := if seg.1.1 > seg.2.1 then seg.1.1 else seg.2.1
  let miny := if seg.1.2 > seg.2.2 then seg.2.2 else seg.1.2
  let maxy := if seg.1.2 > seg.2.2 then seg.1.2 else seg.2.2
  if minx > pt.1 ∨ maxx < pt.1 ∨ miny > pt.2 ∨ maxy < pt.2 then false
  else isPointOnLine feq pt seg.1 seg.2

/-- planar/line_intersect.go:18-42 `AreLinesColinear`. -/
def areLinesColinear (l1 l2 : Line K) : Bool :=
  let x1 := l1.1.1; let y1 := l1.1.2
  let x2 := l1.2.1; let y2 := l1.2.2
  let x3 := l2.1.1; let y3 := l2.1.2
  let x4 := l2.2.1; let y4 := l2.2.2
  let denom := (x1 - x2) * (y3 - y4) - (y1 - y2) * (x3 - x4)
  if denom ≠ 0 then false
  else
    let xmin := if x1 > x2 then x2 else x1
    let xmax := if x1 > x2 then x1 else x2
    let ymin := if y1 > y2 then y2 else y1
    let ymax := if y1 > y2 then y1 else y2
    decide ((xmin ≤ x3 ∧ x3 ≤ xmax ∧ ymin ≤ y3 ∧ y3 ≤ ymax) ∨
      (xmin ≤ x4 ∧ x4 ≤ xmax ∧ ymin ≤ y4 ∧ y4 ≤ ymax))

/-- planar/line_intersect.go:47-71 `LineIntersect`.  `LineIntersectBigFloat`
(78-135) evaluates the same formula with 110-bit floats, so in exact arithmetic
it is the same function. -/
def lineIntersect (l1 l2 : Line K) : Pt K × Bool :=
  let x1 := l1.1.1; let y1 := l1.1.2
  let x2 := l1.2.1; let y2 := l1.2.2
  let x3 := l2.1.1; let y3 := l2.1.2
  let x4 := l2.2.1; let y4 := l2.2.2
  let denom := (x1 - x2) * (y3 - y4) - (y1 - y2) * (x3 - x4)
  if denom = 0 then ((0, 0), false)
  else
    let xnom := (x1 * y2 - y1 * x2) * (x3 - x4) - (x1 - x2) * (x3 * y4 - y3 * x4)
    let ynom := (x1 * y2 - y1 * x2) * (y3 - y4) - (y1 - y2) * (x3 * y4 - y3 * x4)
    ((xnom / denom, ynom / denom), true)

/-- planar/line_intersect.go:141-178 `SegmentIntersect`. -/
def segmentIntersect (l1 l2 : Line K) : Pt K × Bool :=
  let x1 := l1.1.1; let y1 := l1.1.2
  let x2 := l1.2.1; let y2 := l1.2.2
  let x3 := l2.1.1; let y3 := l2.1.2
  let x4 := l2.2.1; let y4 := l2.2.2
  let deltaX12 := x1 - x2
  let deltaX13 := x1 - x3
  let deltaX34 := x3 - x4
  let deltaY12 := y1 - y2
  let deltaY13 := y1 - y3
  let deltaY34 := y3 - y4
  let denom := deltaX12 * deltaY34 - deltaY12 * deltaX34
  if denom = 0 then ((0, 0), false)
  else
    let xnom := (x1 * y2 - y1 * x2) * deltaX34 - deltaX12 * (x3 * y4 - y3 * x4)
    let ynom := (x1 * y2 - y1 * x2) * deltaY34 - deltaY12 * (x3 * y4 - y3 * x4)
    let bx := xnom / denom
    let byy := ynom / denom
    let t := (deltaX13 * deltaY34 - deltaY13 * deltaX34) / denom
    let u := -(deltaX12 * deltaY13 - deltaY12 * deltaX13) / denom
    ((bx, byy), decide (u ≥ 0 ∧ u ≤ 1 ∧ t ≥ 0 ∧ t ≤ 1))

/-- planar/distance.go:20-24 `PointDistance2`. -/
def pointDistance2 (p1 p2 : Pt K) : K :=
  let v1 := p1.1 - p2.1
  let v2 := p1.2 - p2.2
  v1 * v1 + v2 * v2

/-- planar/centriod.go:11-17: one round of the loop of `PointsCentriod` over
the state `(a, aa, cx, cy)`. -/
def centriodStep (s : K × K × K × K) (pt npt : Pt K) : K × K × K × K :=
  let aa := pt.1 * npt.2 - npt.1 * pt.2
  (s.1 + aa, aa, s.2.2.1 + (pt.1 + npt.1) * aa, s.2.2.2 + (pt.2 + npt.2) * aa)

/-- planar/centriod.go:11-17: the loop of `PointsCentriod`. -/
def centriodLoop (s : K × K × K × K) : List (Pt K) → K × K × K × K
  | [] => s
  | [_] => s
  | p :: q :: ps => centriodLoop (centriodStep s p q) (q :: ps)

/-- planar/centriod.go:4-22 `PointsCentriod`.  Division by zero, NaN or an
infinity in Go, is 0 here. -/
def pointsCentriod (pts : List (Pt K)) : Pt K :=
  match pts with
  | [] => (0, 0)
  | [p] => p
  | ps =>
    let s := centriodLoop (0, 0, 0, 0) ps
    (s.2.2.1 / (3 * s.2.1), s.2.2.2 / (3 * s.2.1))

end Field

noncomputable section

/-- planar/distance.go:10-12 `PointDistance`. -/
def pointDistance (p1 p2 : Pt ℝ) : ℝ := √(pointDistance2 p1 p2)

/-- planar/distance.go:32-50 `DistanceToLineSegment`. -/
def distanceToLineSegment (p v w : Pt ℝ) : ℝ :=
  let l2 := pointDistance2 v w
  if l2 = 0 then pointDistance p v
  else
    let t := ((p.1 - v.1) * (w.1 - v.1) + (p.2 - v.2) * (w.2 - v.2)) / l2
    let t := max 0 (min 1 t)
    pointDistance p (v.1 + t * (w.1 - v.1), v.2 + t * (w.2 - v.2))

/-- planar/planar.go:19-32 `PerpendicularDistance`. -/
def perpendicularDistance (line : Line ℝ) (point : Pt ℝ) : ℝ :=
  let deltaX := line.2.1 - line.1.1
  let deltaY := line.2.2 - line.1.2
  let deltaXSq := deltaX * deltaX
  let deltaYSq := deltaY * deltaY
  let num := |deltaY * point.1 - deltaX * point.2 + line.2.1 * line.1.2 - line.2.2 * line.1.1|
  let denom := √(deltaYSq + deltaXSq)
  if denom = 0 then 0 else num / denom

/-- line.go:82-88 `Line.LengthSquared`. -/
def lengthSquared (l : Line ℝ) : ℝ :=
  let deltax := l.2.1 - l.1.1
  let deltay := l.2.2 - l.1.2
  deltax * deltax + deltay * deltay

/-- planar/planar.go:83-92 `PointOnLineAt`.  A zero-length line divides by
zero: NaN in Go, the first point here. -/
def pointOnLineAt (ln : Line ℝ) (distance : ℝ) : Pt ℝ :=
  let lineDist := √(lengthSquared ln)
  let ratio := distance / lineDist
  (ln.1.1 + ratio * (ln.2.1 - ln.1.1), ln.1.2 + ratio * (ln.2.2 - ln.1.2))

end

end Verif.Planar
