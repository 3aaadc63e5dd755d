import Verif.Model.QuadEdge
import Verif.Model.Winding
import Verif.Model.Shapes

/-!
# Where a point lies around a vertex (quadedge/resolve_edge.go, qtype.go, topo.go)

planar/triangulate/delaunay/quadedge, in exact arithmetic.  `yd` is the `YPositiveDown` of the winding
order, `peq` the `GeomPointEqual` of the package's comparer.
-/

namespace Verif.Resolve
open Verif.Quad
open Verif.Winding (orientation clockwise counterClockwise colinear)

variable {K : Type} [Field K] [LinearOrder K]

/-- What the functions of resolve_edge.go:46-64 set: `Next`, `A`, `ErrA`, `ErrB`, `ErrEdge`. -/
inductive Step
  | next | a | errA | errB | errEdge
  deriving DecidableEq, Repr

/-- resolve_edge.go:121-171 `resolveEdgeYUp`.  Where no case applies, candidate and error stay nil as
after `Next`.  `contains` is `ContainsDest`. -/
def resolveEdgeYUp (ab da db : Int) (contains : Bool) : Step :=
  if ab = counterClockwise then
    if da = counterClockwise then .next
    else if da = clockwise ∧ db = counterClockwise then .a
    else if da = clockwise ∧ db = clockwise then .next
    else if da = clockwise ∧ db = colinear then .errB
    else if da = colinear ∧ db = counterClockwise then .errA
    else if da = colinear ∧ db = clockwise then .next
    else .next
  else if ab = clockwise then
    if da = clockwise then .a
    else if da = counterClockwise ∧ db = counterClockwise then .a
    else if da = counterClockwise ∧ db = clockwise then .next
    else if da = counterClockwise ∧ db = colinear then .errB
    else if da = colinear ∧ db = counterClockwise then .a
    else if da = colinear ∧ db = clockwise then .errA
    else .next
  else if ab = colinear then
    if da = counterClockwise ∧ db = clockwise then .next
    else if da = clockwise ∧ db = counterClockwise then .a
    else if (da = clockwise ∧ db = clockwise) ∨ (da = counterClockwise ∧ db = counterClockwise) then .a
    else if da = colinear ∧ db = colinear then (if contains then .errA else .errB)
    else .next
  else .errEdge

/-- resolve_edge.go:172-226 `resolveEdgeYDown`. -/
def resolveEdgeYDown (ab da db : Int) (contains : Bool) : Step :=
  if ab = counterClockwise ∧ da = counterClockwise then .next
  else if ab = counterClockwise ∧ da = clockwise ∧ db = clockwise then .next
  else if ab = counterClockwise ∧ da = clockwise ∧ db = counterClockwise then .a
  else if ab = counterClockwise ∧ da = clockwise ∧ db = colinear then .errB
  else if ab = counterClockwise ∧ da = colinear ∧ db = counterClockwise then .errA
  else if ab = counterClockwise ∧ da = colinear ∧ db = clockwise then .next
  else if ab = clockwise ∧ da = counterClockwise ∧ db = counterClockwise then .a
  else if ab = clockwise ∧ da = counterClockwise ∧ db = clockwise then .next
  else if ab = clockwise ∧ da = counterClockwise ∧ db = colinear then .errB
  else if ab = clockwise ∧ da = clockwise then .a
  else if ab = clockwise ∧ da = colinear ∧ db = counterClockwise then .a
  else if ab = clockwise ∧ da = colinear ∧ db = clockwise then .errA
  else if ab = colinear ∧ da = counterClockwise ∧ db = clockwise then .next
  else if ab = colinear ∧ da = clockwise ∧ db = counterClockwise then .a
  else if ab = colinear ∧ da = colinear ∧ db = colinear then (if contains then .errA else .errB)
  else if ab = colinear ∧ da = counterClockwise ∧ db = counterClockwise then .a
  else if ab = colinear ∧ da = clockwise ∧ db = clockwise then .a
  else .errEdge

/-- What `ResolveEdge` returns: nil and nil, an edge, or an edge with `ErrPointsAreCoLinear` or
`ErrCoincidentalEdges`; nil with `ErrInvalidEndVertex`; or a panic, on an edge without end points
(resolve_edge.go:71-119, 267-277). -/
inductive Resolved
  | nothing
  | edge (e : E)
  | colinear (e : E)
  | coincident (e : E)
  | invalidEnd
  | panic
  deriving DecidableEq, Repr

/-- The edge that is returned; nil otherwise (resolve_edge.go:118). -/
def Resolved.candidate : Resolved → Option E
  | .edge e => some e
  | .colinear e => some e
  | .coincident e => some e
  | _ => none

/-- The windings that are compared (resolve_edge.go:83-106) and the table (resolve_edge.go:272-277), for
the origin `o`, the ends `apt` and `bpt` of an edge and the next, and the point `d`. -/
def resolveStep (yd : Bool) (o apt bpt d : Pt K) : Step :=
  let dest := (d.1 - o.1, d.2 - o.2)
  let ao := (apt.1 - o.1, apt.2 - o.2)
  let bo := (bpt.1 - o.1, bpt.2 - o.2)
  let oo : Pt K := (0, 0)
  let ab := orientation yd [ao, bo, oo]
  let da := orientation yd [dest, ao, oo]
  let db := orientation yd [dest, bo, oo]
  let contains := Shapes.lineContainsPoint (o, apt) d
  if yd then resolveEdgeYDown ab da db contains else resolveEdgeYUp ab da db contains

/-- The walk of `resolveEdge` (resolve_edge.go:83-116) by `WalkAllONext` (edge.go:209-219): `seen` are the
quad-edges met so far; the fuel is their number. -/
def resolveLoop (yd : Bool) (s : Store (Pt K)) (o d : Pt K) : Nat → List Nat → E → Resolved
  | 0, _, _ => .nothing
  | fuel + 1, seen, e =>
    if e.q ∈ seen then .nothing
    else
      match dest s e, dest s (onext s e) with
      | some apt, some bpt =>
        match resolveStep yd o apt bpt d with
        | .next => resolveLoop yd s o d fuel (e.q :: seen) (onext s e)
        | .a => .edge e
        | .errA => .colinear e
        | .errB => .colinear (onext s e)
        | .errEdge => .coincident e
      | _, _ => .panic

/-- resolve_edge.go:71-119, 272-277 `ResolveEdge`. -/
def resolveEdge (peq : Pt K → Pt K → Bool) (yd : Bool) (s : Store (Pt K)) (gse : E) (d : Pt K) : Resolved :=
  match orig s gse with
  | none => .panic
  | some o => if peq o d then .invalidEnd else resolveLoop yd s o d s.size [] gse

/-- topo.go:165-189 `RightOf`. -/
def rightOf (yd : Bool) (s : Store (Pt K)) (x : Pt K) (e : E) : Bool :=
  match orig s e, dest s e with
  | some o, some d => orientation yd [o, d, x] == clockwise
  | _, _ => false

/-- qtype.go:9-27 `QType`. -/
inductive QType
  | left | right | beyond | behind | between | origin | destination
  deriving DecidableEq, Repr

/-- qtype.go:51-73 `Classify`, with point.go:63-86; squared magnitudes are compared. -/
def classify (peq : Pt K → Pt K → Bool) (a b c : Pt K) : QType :=
  let aa := (c.1 - b.1, c.2 - b.2)
  let bb := (a.1 - b.1, a.2 - b.2)
  let sa := aa.1 * bb.2 - aa.2 * bb.1
  let ab := (aa.1 * bb.1, aa.2 * bb.2)
  if sa > 0 then .left
  else if sa < 0 then .right
  else if ab.1 < 0 ∨ ab.2 < 0 then .behind
  else if aa.1 * aa.1 + aa.2 * aa.2 < bb.1 * bb.1 + bb.2 * bb.2 then .beyond
  else if peq a b then .origin
  else if peq a c then .destination
  else .between

end Verif.Resolve
