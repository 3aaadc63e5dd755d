import Verif.Model.Constrained
import Verif.Model.Delaunay

/-!
# Triangulations with constraints (planar/triangulate/delaunay/constrained.go)

The two `Triangles` of `planar/triangulate/delaunay` with `EnableConstraints` true, in exact arithmetic.
-/

namespace Verif.ConstrainedTriangles
open Verif.Quad Verif.Subdivision Verif.Delaunay Verif.Constrained

variable {K : Type} [Field K] [LinearOrder K] [FloorRing K]

/-- What the `Triangles` with constraints come to: triangles, the context's error, "Failed to insert point", the
error of `InsertConstraint`, or a panic or a loop that does not end (constrained.go:33, 121). -/
inductive Res (α : Type) where
  | ok (x : α)
  | cancelled
  | failed
  | constraint (e : Err)
  | panic
  deriving Repr, DecidableEq

/-- constrained.go:137-145: the constraints are put in one after the other, up to the first error. -/
def insertUntil (yd : Bool) : List (Pt K × Pt K) → Subdiv K → VertexIndex K → Res (Subdiv K)
  | [], sd, _ => .ok sd
  | c :: cs, sd, vx =>
    match insertConstraint roundPt yd sd vx c.1 c.2 with
    | none => .panic
    | some (some e, _, _) => .constraint e
    | some (none, sd', vx') => insertUntil yd cs sd' vx'

/-- constrained.go:87-95: the constraints are put in one after the other; an error is logged, and what the call
has made of the subdivision until then is kept. -/
def insertLogged (yd : Bool) : List (Pt K × Pt K) → Subdiv K → VertexIndex K → Res (Subdiv K)
  | [], sd, _ => .ok sd
  | c :: cs, sd, vx =>
    match insertConstraint roundPt yd sd vx c.1 c.2 with
    | none => .panic
    | some (_, sd', vx') => insertLogged yd cs sd' vx'

/-- constrained.go:69-82 and 129-132, 99-102 and 147: a subdivision is made for the points, changed, and its
triangles are listed. -/
def trianglesWith (f : Subdiv K → VertexIndex K → Res (Subdiv K)) (includeFrame : Bool) :
    Delaunay.Res (Subdiv K) → Res (List (Pt K × Pt K × Pt K))
  | .ok sd =>
    match newVertexIndex roundPt sd.store sd.start with
    | none => .panic
    | some vx =>
      match f sd vx with
      | .ok sd' =>
        match sd'.triangles includeFrame with
        | none => .panic
        | some ts => .ok ts
      | .cancelled => .cancelled
      | .failed => .failed
      | .constraint e => .constraint e
      | .panic => .panic
  | .cancelled => .cancelled
  | .failed => .failed
  | .panic => .panic

/-- constrained.go:121-148 `Constrained.Triangles` with `EnableConstraints` true; what becomes of `Points` is in
Model/Delaunay.lean. -/
def constrainedTriangles (yd : Bool) (cancelled : Nat → Bool) (points : List (Pt K))
    (constraints : List (Pt K × Pt K)) (includeFrame : Bool) : Res (List (Pt K × Pt K × Pt K)) :=
  let pts := points ++ constraints.flatMap fun c => [c.1, c.2]
  if pts = [] then .ok []
  else trianglesWith (insertUntil yd constraints) includeFrame (newForPoints yd cancelled pts).1

/-- constrained.go:33-113 `GeomConstrained.Triangles` with `EnableConstraints` true; `short` says whether the
length of a constraint compares as zero (constrained.go:52). -/
def geomTriangles (yd : Bool) (cancelled : Nat → Bool) (short : Pt K → Pt K → Bool) (points : List (Pt K))
    (constraints : List (Pt K × Pt K)) (includeFrame : Bool) : Res (List (Pt K × Pt K × Pt K)) :=
  let pts := points.foldl addPoint []
  let pts := constraints.foldl (fun pts c => if short c.1 c.2 then pts else addPoint (addPoint pts c.1) c.2) pts
  if pts = [] then .ok []
  else trianglesWith (insertLogged yd (constraints.filter fun c => !short c.1 c.2)) includeFrame
    (newForPoints yd cancelled pts).1

end Verif.ConstrainedTriangles
