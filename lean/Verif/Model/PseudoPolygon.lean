import Verif.Model.Winding
import Verif.Model.Intersect
import Verif.Model.Shapes

/-!
# Triangulating a pseudo-polygon (subdivision/pseudopolygon)

planar/triangulate/delaunay/subdivision/pseudopolygon, in exact arithmetic.  `yd` is the
`YPositiveDown` of the winding order; `inCircle a b c d` tells whether the circle through `a`, `b`
and `c` contains `d` (circle.go), and may be any test.
-/

namespace Verif.PseudoPolygon
open Verif.Planar (Line)
open Verif.Winding (orientation colinear)

variable {K : Type} [Field K] [LinearOrder K]

/-- What `Triangulate` does: return a value, `ErrInvalidPseudoPolygonSize` (errors.go:7),
`ErrAllPointsColinear` (errors.go:9), or panic. -/
inductive Res (α : Type) where
  | ok (a : α)
  | size
  | colinear
  | panic
  deriving DecidableEq, Repr

/-- The variables of `triangulateSubRings` (pseudo_polygon.go:13-22): the points, the map `seenPts`
(nothing for a missing key) and the edges. -/
structure SubState (K : Type) where
  points : List (Pt K)
  seen : Pt K → Option (Nat × Nat)
  edges : List (Line K)

/-- `seenPts[pt] = v` (pseudo_polygon.go:28, 59, 62). -/
def setSeen (m : Pt K → Option (Nat × Nat)) (p : Pt K) (v : Nat × Nat) : Pt K → Option (Nat × Nat) :=
  fun q => if q = p then some v else m q

/-- The loop with `delete(seenPts, pt)` (pseudo_polygon.go:56-58). -/
def delSeen (m : Pt K → Option (Nat × Nat)) (npts : List (Pt K)) : Pt K → Option (Nat × Nat) :=
  fun q => if q ∈ npts then none else m q

/-- The loop of `triangulateSubRings` (pseudo_polygon.go:23-64) from index `i` on; `o` are the points
it was given, `tri` is `Triangulate`. -/
def subLoop (tri : List (Pt K) → Res (List (Line K))) (o : List (Pt K)) :
    Nat → List (Pt K) → SubState K → Res (SubState K)
  | _, [], s => .ok s
  | i, pt :: pts, s =>
    match s.seen pt with
    | some (k, j) =>
      if k + 1 = i then subLoop tri o (i + 1) pts { s with seen := setSeen s.seen pt (i, j) }
      else
        let npts := (o.drop k).take (i - k)
        let points := s.points.take (j + 1)
        match tri npts with
        | .ok newEdges =>
          subLoop tri o (i + 1) pts
            ⟨points, setSeen (delSeen s.seen npts) pt (i, points.length - 1), s.edges ++ newEdges⟩
        | .size => .size
        | .colinear => .colinear
        | .panic => .panic
    | none =>
      subLoop tri o (i + 1) pts ⟨s.points ++ [pt], setSeen s.seen pt (i, s.points.length), s.edges⟩

/-- `triangulateSubRings` (pseudo_polygon.go:13-71). -/
def subRings (tri : List (Pt K) → Res (List (Line K))) (o : List (Pt K)) : Res (SubState K) :=
  subLoop tri o 0 o ⟨[], fun _ => none, []⟩

/-- `cmp.PointLess` (cmp/compare.go:106-111). -/
def pointLess (p q : Pt K) : Bool :=
  if p.1 ≠ q.1 then decide (p.1 < q.1) else decide (p.2 < q.2)

/-- `normalizeLine` (edgemap.go:32-36). -/
def normalizeLine (l : Line K) : Line K := if pointLess l.1 l.2 then (l.2, l.1) else l

/-- `newEdgeMap` (edgemap.go:17-20, 38-47), as the list of its keys. -/
def newEdgeMap (points : List (Pt K)) : List (Line K) :=
  (Intersect.ringSegs points).map normalizeLine

/-- `edgeMap.Contains` (edgemap.go:12-16). -/
def contains (em : List (Line K)) (p q : Pt K) : Bool := decide (normalizeLine (p, q) ∈ em)

/-- `points[i]`; the default is never used (pseudo_polygon.go:75-340). -/
def at' (points : List (Pt K)) (i : Nat) : Pt K := points.getD i (0, 0)

/-- The square of `planar.PointDistance` (planar/planar.go:26-28), which is compared in its place. -/
def dist2 (p q : Pt K) : K := (q.1 - p.1) ^ 2 + (q.2 - p.2) ^ 2

/-- The loop that looks for the points nearest to `cpoint` (pseudo_polygon.go:134-145): the candidates
from index `i` on; `p1` and `p2` are nothing for -1, `dist` is nothing for +Inf. -/
def nearLoop (yd : Bool) (first last cpoint : Pt K) :
    Nat → List (Pt K) → Option Nat → Option Nat → Option K → Option Nat × Option Nat
  | _, [], p1, p2, _ => (p1, p2)
  | i, c :: cs, p1, p2, dist =>
    let d := dist2 cpoint c
    let closer := match dist with
      | none => true
      | some dist => decide (d < dist)
    if closer && decide (orientation yd [first, c, last] ≠ colinear) then
      nearLoop yd first last cpoint (i + 1) cs (some i) p1 (some d)
    else nearLoop yd first last cpoint (i + 1) cs p1 p2 dist

/-- The loop that turns the triangle until the edge from `pe` to `p1` is not one of the polygon
(pseudo_polygon.go:234-265): `pe`, `p1` and `ps`.  If that takes more than three turns, `secondCount`
is set and whatever else happens there is a panic, `none`. -/
def turnLoop (has : Nat → Nat → Bool) : Nat → Nat → Nat → Nat → Option (Nat × Nat × Nat)
  | 0, _, _, _ => none
  | n + 1, pe, p1, ps => if has pe p1 then turnLoop has n ps pe p1 else some (pe, p1, ps)

/-- The loop that collects the points after index `i` up to index `j`, going round
(pseudo_polygon.go:292-301, 317-326); it runs at most once round. -/
def collect (points : List (Pt K)) (j : Nat) : Nat → Nat → List (Pt K)
  | 0, _ => []
  | n + 1, i =>
    let i' := if i + 1 ≥ points.length then 0 else i + 1
    at' points i' :: (if i' = j then [] else collect points j n i')

/-- `p2` (pseudo_polygon.go:155-161), if there was no second point. -/
def secondPoint (plen p1 : Nat) : Option Nat → Nat
  | some p2 => p2
  | none => if p1 - 1 = 0 ∨ p1 - 1 = plen - 1 then p1 + 1 else p1 - 1

/-- The choice of the edge to cut at (pseudo_polygon.go:121-265): the indices `pe`, `p1`, `ps` and
`p2`; `none` is a panic. -/
def chord (yd : Bool) (inCircle : Pt K → Pt K → Pt K → Pt K → Bool) (points : List (Pt K)) :
    Option (Nat × Nat × Nat × Nat) :=
  let p := at' points
  let plen := points.length
  let em := newEdgeMap points
  let cpoint : Pt K := (((p 0).1 + (p (plen - 1)).1) / 2, ((p 0).2 + (p (plen - 1)).2) / 2)
  match nearLoop yd (p 0) (p (plen - 1)) cpoint 1 ((points.take (plen - 1)).drop 1) none none none with
  | (none, _) => none
  | (some p1, q2) =>
    let p2 := secondPoint plen p1 q2
    let p2IsCol := decide (orientation yd [p 0, p p2, p (plen - 1)] = colinear)
    let has := fun a b => contains em (p a) (p b)
    if !p2IsCol && inCircle (p p1) (p 0) (p (plen - 1)) (p p2) then
      (turnLoop has 4 0 p2 (plen - 1)).map (fun t => (t.1, t.2.1, t.2.2, p1))
    else (turnLoop has 4 (plen - 1) p1 0).map (fun t => (t.1, t.2.1, t.2.2, p2))

/-- What `Triangulate` does after `triangulateSubRings` (pseudo_polygon.go:90-340); `tri` is
`Triangulate`. -/
def triRest (yd : Bool) (inCircle : Pt K → Pt K → Pt K → Pt K → Bool)
    (tri : List (Pt K) → Res (List (Line K))) (points : List (Pt K)) (edges : List (Line K)) :
    Res (List (Line K)) :=
  let p := at' points
  let plen := points.length
  if plen ≤ 1 then .size
  else if plen = 2 then .ok [(p 0, p 1)]
  else if orientation yd points = colinear then .colinear
  else if plen = 3 then .ok (edges ++ [(p 0, p 1), (p 1, p 2), (p 2, p 0)])
  else
    match chord yd inCircle points with
    | none => .panic
    | some (pe, p1, ps, p2) =>
      if plen = 4 then
        .ok (edges ++ [(p ps, p p1), (p pe, p ps), (p pe, p p1), (p p1, p p2), (p p2, p pe)])
      else
        match tri (p pe :: collect points p1 plen pe) with
        | .size => .size
        | .colinear => .colinear
        | .panic => .panic
        | .ok newEdges =>
          match tri (p p1 :: collect points pe plen p1) with
          | .size => .size
          | .colinear => .colinear
          | .panic => .panic
          | .ok newEdges' => .ok ((edges ++ newEdges) ++ newEdges')

/-- `Triangulate` (pseudo_polygon.go:75-340) for fewer than `n` points; it calls itself with fewer
points than it was given. -/
def triangulateN (yd : Bool) (inCircle : Pt K → Pt K → Pt K → Pt K → Bool) :
    Nat → List (Pt K) → Res (List (Line K))
  | 0, _ => .panic
  | n + 1, o =>
    match subRings (triangulateN yd inCircle n) o with
    | .size => .size
    | .colinear => .colinear
    | .panic => .panic
    | .ok s => triRest yd inCircle (triangulateN yd inCircle n) s.points s.edges

/-- `Triangulate` (pseudo_polygon.go:75-340). -/
def triangulate (yd : Bool) (inCircle : Pt K → Pt K → Pt K → Pt K → Bool) (o : List (Pt K)) :
    Res (List (Line K)) := triangulateN yd inCircle (o.length + 1) o

/-- The test of pseudo_polygon.go:178, 196: `CircleFromPoints` (circle.go:25-93) and `ContainsPoint`
(circle.go:119-126), comparing squares and without the tolerance of `cmpFloat`.  With colinear points
the error is ignored and the circle is the zero one. -/
def circleTest (a b c d : Pt K) : Bool :=
  match Shapes.circleFromPoints a b c with
  | .circle o first => decide (dist2 o d ≤ dist2 o first)
  | _ => decide (dist2 (0, 0) d ≤ 0)

end Verif.PseudoPolygon
