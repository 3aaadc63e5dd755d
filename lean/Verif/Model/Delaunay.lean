import Mathlib.Algebra.Order.Floor.Ring
import Verif.Model.Shapes
import Verif.Model.Subdivision

/-!
# Triangulations of given points

`NewForPoints` of `planar/triangulate/delaunay/subdivision` and the two `Triangles` of
`planar/triangulate/delaunay`, in exact arithmetic, with `EnableConstraints` false (it is false unless the
environment variable `TEGOLA_MAKEVALID` is set, constrained.go:24-31).
-/

namespace Verif.Delaunay
open Verif.Quad Verif.Subdivision

variable {K : Type} [Field K] [LinearOrder K] [FloorRing K]

/-- `math.Round` of package math: the nearest integer, halves away from zero
(used at subdivision/subdivision_constrained.go:21-22). -/
def roundAway (x : K) : K := if 0 ≤ x then (⌊x + 1 / 2⌋ : K) else -(⌊-x + 1 / 2⌋ : K)

/-- subdivision_constrained.go:19-25 `roundGeomPoint`; `RoundingFactor` (subdivision.go:26) is 1000. -/
def roundPt (p : Pt K) : Pt K := (roundAway (p.1 * 1000) / 1000, roundAway (p.2 * 1000) / 1000)

/-- bbox.go:190-201: the two switches of `NewExtent`. -/
def extendBy (e : K × K × K × K) (p : Pt K) : K × K × K × K :=
  ( if p.1 < e.1 then p.1 else e.1,
    if p.2 < e.2.1 then p.2 else e.2.1,
    if p.1 < e.1 then e.2.2.1 else if p.1 > e.2.2.1 then p.1 else e.2.2.1,
    if p.2 < e.2.1 then e.2.2.2 else if p.2 > e.2.2.2 then p.2 else e.2.2.2 )

/-- bbox.go:176-204 `NewExtent`, exact. -/
def extentOf : List (Pt K) → Option (K × K × K × K)
  | [] => none
  | p :: ps => some (ps.foldl extendBy (p.1, p.2, p.1, p.2))

/-- triangle.go:91-99 `NewTriangleContainingPoints`; `none` is a panic. -/
def triangleContaining (ps : List (Pt K)) : Option (Pt K × Pt K × Pt K) :=
  (extentOf ps).map fun e => Shapes.triangleForExtent e.1 e.2.1 e.2.2.1 e.2.2.2 10

/-- What `NewForPoints` and `Triangles` come to
(subdivision/subdivision.go:99-194, constrained.go:33, 121). -/
inductive Res (α : Type) where
  | ok (x : α)
  /-- the context's error -/
  | cancelled
  /-- "Failed to insert point" -/
  | failed
  /-- a panic, or a loop that does not end -/
  | panic
  deriving Repr, DecidableEq

/-- subdivision.go:139-170: the loop over the points.  `cancelled i` says whether the context is cancelled when
it is asked for the `i`-th time; `seen` are the points seen. -/
def insertPoints (yd : Bool) (cancelled : Nat → Bool) : Nat → List (Pt K) → Subdiv K → List (Pt K) → Res (Subdiv K)
  | _, _, sd, [] => .ok sd
  | i, seen, sd, p :: ps =>
    if cancelled i then .cancelled
    else if p ∈ seen then insertPoints yd cancelled (i + 1) seen sd ps
    else
      match insertSite yd sd p with
      | none => .panic
      | some (false, _) => .failed
      | some (true, sd') => insertPoints yd cancelled (i + 1) (p :: seen) sd' ps

/-- subdivision.go:99-190 `NewForPoints`: the subdivision, and what the slice given holds afterwards (the points
are rounded in place, lines 109-111).  Points are compared exactly, as the keys of a Go map are. -/
def newForPoints (yd : Bool) (cancelled : Nat → Bool) (points : List (Pt K)) : Res (Subdiv K) × List (Pt K) :=
  let points := points.map roundPt
  let r := match triangleContaining points with
    | none => .panic
    | some (a, b, c) =>
      match newSub yd a b c with
      | none => .panic
      | some sd => insertPoints yd cancelled 0 [c, b, a] sd points
  (r, points)

/-- The triangles of a subdivision that has been made (constrained.go:33-119, 121-148). -/
def trianglesOf (includeFrame : Bool) : Res (Subdiv K) → Res (List (Pt K × Pt K × Pt K))
  | .ok sd =>
    match sd.triangles includeFrame with
    | none => .panic
    | some ts => .ok ts
  | .cancelled => .cancelled
  | .failed => .failed
  | .panic => .panic

/-- constrained.go:121-148 `Constrained.Triangles` with `EnableConstraints` false: the triangles, and what
`Points` holds afterwards.  `spare` is how many more points fit into the array behind `Points`: if the end points
of the constraints do, the slice that is given to `NewForPoints` shares that array, else it is a copy. -/
def constrainedTriangles (yd : Bool) (cancelled : Nat → Bool) (points : List (Pt K)) (spare : Nat)
    (constraints : List (Pt K × Pt K)) (includeFrame : Bool) : Res (List (Pt K × Pt K × Pt K)) × List (Pt K) :=
  let pts := points ++ constraints.flatMap fun c => [c.1, c.2]
  if pts = [] then (.ok [], points)
  else
    let r := newForPoints yd cancelled pts
    (trianglesOf includeFrame r.1,
      if 2 * constraints.length ≤ spare then r.2.take points.length else points)

/-- constrained.go:37-47 and 49-67: one point is added to the points, if it is new. -/
def addPoint (pts : List (Pt K)) (p : Pt K) : List (Pt K) := if p ∈ pts then pts else pts ++ [p]

/-- constrained.go:33-113 `GeomConstrained.Triangles` with `EnableConstraints` false; `short` says whether the
length of a constraint compares as zero (constrained.go:54). -/
def geomTriangles (yd : Bool) (cancelled : Nat → Bool) (short : Pt K → Pt K → Bool) (points : List (Pt K))
    (constraints : List (Pt K × Pt K)) (includeFrame : Bool) : Res (List (Pt K × Pt K × Pt K)) :=
  let pts := points.foldl addPoint []
  let pts := constraints.foldl (fun pts c => if short c.1 c.2 then pts else addPoint (addPoint pts c.1) c.2) pts
  if pts = [] then .ok [] else trianglesOf includeFrame (newForPoints yd cancelled pts).1

end Verif.Delaunay
