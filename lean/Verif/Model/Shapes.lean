import Mathlib.Analysis.Real.Sqrt
import Mathlib.Analysis.SpecialFunctions.Trigonometric.Basic
import Verif.Model.Planar

/-!
# Triangles, circles and single lines

triangle.go, circle.go, point.go, line.go of package geom, in exact
arithmetic (an ordered field, the reals where a root or a sine is taken).
-/

namespace Verif.Shapes
open Verif.Planar (Line)

section Field
variable {K : Type} [Field K] [LinearOrder K]

/-- triangle.go:31 `Triangle`. -/
abbrev Triangle (K : Type) := Pt K × Pt K × Pt K

/-- triangle.go:46-57 `Triangle.ThirdPoint`; `peq` is `pointEqual`
(triangle.go:28). -/
def thirdPoint {P : Type} (peq : P → P → Bool) (t : P × P × P) (p1 p2 : P) : P :=
  if (peq t.1 p1 && peq t.2.1 p2) || (peq t.2.1 p1 && peq t.1 p2) then t.2.2
  else if (peq t.1 p1 && peq t.2.2 p2) || (peq t.2.2 p1 && peq t.1 p2) then t.2.1
  else t.1

/-- triangle.go:34-38 `Triangle.Center`. -/
def center (t : Triangle K) : Pt K :=
  ((t.1.1 + t.2.1.1 + t.2.2.1) / 3, (t.1.2 + t.2.1.2 + t.2.2.2) / 3)

/-- triangle.go:74-77 `Triangle.Area`. -/
def area (t : Triangle K) : K :=
  let a := t.1; let b := t.2.1; let c := t.2.2
  (b.1 - a.1) * (c.2 - a.2) - (b.2 - a.2) * (c.1 - a.1)

/-- triangle.go:101-123 `NewTriangleForExtent` for a non-nil extent
`[minx, miny, maxx, maxy]`. -/
def triangleForExtent (e0 e1 e2 e3 buff : K) : Triangle K :=
  let xlen := e2 - e0
  let ylen := e3 - e1
  let x2len := xlen / 2
  let nx := e0 - x2len * buff - buff
  let cx := e0 + x2len
  let xx := e2 + x2len * buff + buff
  let ny := e1 - ylen * buff - buff
  let xy := e3 + 2 * ylen * buff + buff
  ((nx, ny), (cx, xy), (xx, ny))

/-- point.go:91-102 `Point.WithinCircle`. -/
def withinCircle (p a b c : Pt K) : Bool :=
  decide ((a.1 * a.1 + a.2 * a.2) * area (b, c, p)
    - (b.1 * b.1 + b.2 * b.2) * area (a, c, p)
    + (c.1 * c.1 + c.2 * c.2) * area (a, b, p)
    - (p.1 * p.1 + p.2 * p.2) * area (a, b, c) > 0)

/-- circle.go:18-21 `IsColinear`. -/
def isColinear (a b c : Pt K) : Bool :=
  decide ((b.2 - a.2) * (c.1 - b.1) = (c.2 - b.2) * (b.1 - a.1))

/-- circle.go:35-38: the loop that rotates the three points until the first
two steps are not vertical.  `none` if `fuel` rounds do not suffice. -/
def rotateLoop : Nat → Pt K → Pt K → Pt K → Option (Pt K × Pt K × Pt K)
  | 0, _, _, _ => none
  | fuel + 1, a, b, c =>
    if b.1 - a.1 = 0 ∨ c.1 - b.1 = 0 then rotateLoop fuel b c a else some (a, b, c)

/-- circle.go:40-82: the centre, from rotated points. -/
def circleCenter (a b c : Pt K) : Pt K :=
  let xA := a.1; let yA := a.2
  let xB := b.1; let yB := b.2
  let xC := c.1; let yC := c.2
  let xDeltaA := xB - xA; let xDeltaB := xC - xB
  let yDeltaA := yB - yA; let yDeltaB := yC - yB
  let midAB : Pt K := ((xA + xB) / 2, (yA + yB) / 2)
  let midBC : Pt K := ((xB + xC) / 2, (yB + yC) / 2)
  if yDeltaA = 0 ∧ xDeltaB = 0 then (midAB.1, midBC.2)
  else if yDeltaA = 0 ∧ xDeltaB ≠ 0 then
    let slopeB := yDeltaB / xDeltaB
    let x := midAB.1
    (x, midBC.2 + (midBC.1 - x) / slopeB)
  else if yDeltaB = 0 ∧ xDeltaA = 0 then (midBC.1, midAB.2)
  else if yDeltaB = 0 ∧ xDeltaA ≠ 0 then
    let slopeA := yDeltaA / xDeltaA
    let x := midBC.1
    (x, midAB.2 + (midAB.1 - x) / slopeA)
  else if xDeltaA = 0 then
    let slopeB := yDeltaB / xDeltaB
    let y := midBC.2
    (slopeB * (midBC.2 - y) + midBC.1, y)
  else if xDeltaB = 0 then
    let slopeA := yDeltaA / xDeltaA
    let y := midBC.2
    (slopeA * (midAB.2 - y) + midAB.1, y)
  else
    let slopeA := yDeltaA / xDeltaA
    let slopeB := yDeltaB / xDeltaB
    let x := (slopeA * slopeB * (yA - yC) + slopeB * (xA + xB) - slopeA * (xB + xC))
      / (2 * (slopeB - slopeA))
    -- 0.5 is written 1 / 2
    (x, (-1 / slopeA) * (x - (xA + xB) * (1 / 2)) + (yA + yB) * (1 / 2))

/-- What `CircleFromPoints` returns (circle.go:25-93). -/
inductive CircleRes (K : Type) where
  /-- centre and the rotated first point, whose distance to the centre is the
  radius (circle.go:86-87) -/
  | circle (center first : Pt K)
  /-- `ErrPointsAreCoLinear` -/
  | colinear
  /-- the loop of circle.go:35-38 does not end within the model's bound -/
  | loops

/-- circle.go:25-93 `CircleFromPoints`, up to the square root.  The loop bound
3 is enough (C46_never_loops). -/
def circleFromPoints (a b c : Pt K) : CircleRes K :=
  if (b.2 - a.2) * (c.1 - b.1) = (c.2 - b.2) * (b.1 - a.1) then .colinear
  else
    match rotateLoop 3 a b c with
    | none => .loops
    | some (a, b, c) => .circle (circleCenter a b c) a

/-- line.go:35-50 `Line.ContainsPoint`. -/
def lineContainsPoint (l : Line K) (pt : Pt K) : Bool :=
  let minx := if l.1.1 > l.2.1 then l.2.1 else l.1.1
  let maxx := if l.1.1 > l.2.1 then l.1.1 else l.2.1
  let miny := if l.1.2 > l.2.2 then l.2.2 else l.1.2
  let maxy := if l.1.2 > l.2.2 then l.1.2 else l.2.2
  decide (minx ≤ pt.1 ∧ pt.1 ≤ maxx ∧ miny ≤ pt.2 ∧ pt.2 ≤ maxy)

end Field

/-- circle.go:157-162: segment `i` of `AsSegments(k)`, from the points
`AsPoints` returned; `none` is the index panic of `pts[j]`. -/
def segmentAt {P : Type} (pts : List P) (k i : Nat) : Option (P × P) :=
  let j : Int := if (i : Int) - 1 < 0 then (k : Int) - 1 else (i : Int) - 1
  if j < 0 then none
  else
    match pts[j.toNat]?, pts[i]? with
    | some a, some b => some (a, b)
    | _, _ => none

/-- circle.go:156-163: the loop over the points, `n` rounds left. -/
def segmentsFrom {P : Type} (pts : List P) (k : Nat) : (n i : Nat) → Option (List (P × P))
  | 0, _ => some []
  | n + 1, i =>
    match segmentAt pts k i with
    | none => none
    | some s =>
      match segmentsFrom pts k n (i + 1) with
      | none => none
      | some ss => some (s :: ss)

/-- circle.go:153-165 `Circle.AsSegments`, from the points `AsPoints(k)`
returned. -/
def asSegments {P : Type} (pts : List P) (k : Nat) : Option (List (P × P)) :=
  segmentsFrom pts k pts.length 0

noncomputable section

/-- circle.go:12-15 `Circle`. -/
abbrev Circle := Pt ℝ × ℝ

/-- circle.go:86-92: the circle with the radius. -/
def circleOf : CircleRes ℝ → Option Circle
  | .circle o a => some (o, √((o.1 - a.1) * (o.1 - a.1) + (o.2 - a.2) * (o.2 - a.2)))
  | _ => none

/-- circle.go:119-126 `Circle.ContainsPoint`; `feq` is `cmpFloat`. -/
def circleContains (feq : ℝ → ℝ → Bool) (c : Circle) (pt : Pt ℝ) : Prop :=
  let v1 := c.1.1 - pt.1
  let v2 := c.1.2 - pt.2
  let d := √(v1 * v1 + v2 * v2)
  feq c.2 d = true ∨ c.2 > d

/-- circle.go:128-140 `Circle.AsPoints`. -/
def asPoints (c : Circle) (k : Nat) : List (Pt ℝ) :=
  let k := if k < 3 then 30 else k
  (List.range k).map fun (i : Nat) =>
    let t := (2 * Real.pi) * ((i : ℝ) / (k : ℝ))
    (c.1.1 + c.2 * Real.cos t, c.1.2 + c.2 * Real.sin t)

end

end Verif.Shapes
