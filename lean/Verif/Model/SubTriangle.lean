import Verif.Model.Subdivision

/-!
# Triangles of a subdivision (planar/triangulate/delaunay/subdivision/triangle.go)

A `Triangle` is an edge; its triangle is walked with `RNext`.  As in `Verif.Model.Subdivision`, in exact arithmetic
and without the tolerances of the comparer.  `none` is a panic, on an edge that names no point.
-/

namespace Verif.Subdivision
open Verif.Quad Verif.Resolve

variable {K : Type} [Field K] [LinearOrder K]

/-- triangle.go:22-33, the loop of `IntersectsPoint`, with the rounds that are left. -/
def intersectsLoop (s : Store (Pt K)) (pt : Pt K) : Nat → E → Option Bool
  | 0, _ => some true
  | n + 1, e =>
    match orig s e, dest s e with
    | some o, some d =>
      match classify (fun p q => p == q) pt o d with
      | .origin | .destination | .between => some true
      | .left | .behind | .beyond => some false
      | .right => intersectsLoop s pt n (rnext s e)
    | _, _ => none

/-- triangle.go:16-36 `IntersectsPoint`; `none` as argument is a nil starting edge. -/
def intersectsPoint (s : Store (Pt K)) (e : Option E) (pt : Pt K) : Option Bool :=
  match e with
  | none => some false
  | some e => intersectsLoop s pt 3 e

/-- triangle.go:103-104: the points of `ae` are those of `be`, turned round.  The second comparison is made only
if the first one holds. -/
def turnedRound (s : Store (Pt K)) (ae be : E) : Option Bool :=
  match orig s ae, dest s be with
  | some ao, some bd =>
    if ao == bd then
      match orig s be, dest s ae with
      | some bo, some ad => some (bo == ad)
      | _, _ => none
    else some false
  | _, _ => none

/-- triangle.go:102-107, the inner loop of `SharedEdge`: whether it returned, and where `be` is afterwards. -/
def sharedInner (s : Store (Pt K)) (ae : E) : Nat → E → Option (Bool × E)
  | 0, be => some (false, be)
  | n + 1, be =>
    match turnedRound s ae be with
    | none => none
    | some true => some (true, be)
    | some false => sharedInner s ae n (rnext s be)

/-- triangle.go:101-108, the outer loop of `SharedEdge`; `be` is not set back between the rounds. -/
def sharedOuter (s : Store (Pt K)) : Nat → E → E → Option (Option E)
  | 0, _, _ => some none
  | n + 1, ae, be =>
    match sharedInner s ae 3 be with
    | none => none
    | some (true, _) => some (some ae)
    | some (false, be') => sharedOuter s n (rnext s ae) be'

/-- triangle.go:97-110 `SharedEdge`; `some none` is nil. -/
def sharedEdge (s : Store (Pt K)) (t other : E) : Option (Option E) := sharedOuter s 3 t other

/-- triangle.go:50-56 `OppositeVertex`; `some none` is nil. -/
def oppositeVertex (s : Store (Pt K)) (t other : E) : Option (Option (Pt K)) :=
  match sharedEdge s t other with
  | none => none
  | some none => some none
  | some (some ae) => some (dest s (onext s (sym ae)))

/-- triangle.go:73-78, the loop of `OppositeTriangle`, with what is returned after it; `some none` is the error.  The
fuel stands for the `for`. -/
def oppositeLoop (s : Store (Pt K)) (p : Pt K) (start : E) : Nat → E → Option (Option E)
  | 0, _ => some none
  | n + 1, edge =>
    match orig s edge with
    | none => none
    | some o =>
      if o == p then some (some (sym (rnext s (rnext s edge))))
      else if rnext s edge = start then some none
      else oppositeLoop s p start n (rnext s edge)

/-- triangle.go:70-80 `OppositeTriangle`. -/
def oppositeTriangle (s : Store (Pt K)) (t : E) (p : Pt K) : Option (Option E) :=
  oppositeLoop s p t (4 * s.size) t

/-- subdivision/geom.go:17-19, the loop of `AsGeom`: the points that are yet to come. -/
def asGeomLoop (s : Store (Pt K)) : Nat → E → Option (List (Pt K))
  | 0, _ => some []
  | n + 1, e =>
    match orig s e with
    | none => none
    | some o => (asGeomLoop s n (rnext s e)).map (o :: ·)

/-- subdivision/geom.go:15-21 `AsGeom`: the three points in their order. -/
def asGeom (s : Store (Pt K)) (t : E) : Option (List (Pt K)) := asGeomLoop s 3 t

end Verif.Subdivision
