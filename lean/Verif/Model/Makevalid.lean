import Verif.Model.Destructure
import Verif.Model.HitMap
import Verif.Model.WalkerRing

/-!
# Making polygons valid (planar/makevalid)

The triangulation and the clipper are taken as given: `triangulate` is what
`delaunay.GeomConstrained.Triangles` returns for the segments, `clipper` what the `Clipper` returns.
-/

namespace Verif.Makevalid
open Verif.Planar (Line)
open Verif.Shapes (Triangle center)
open Verif.HitMap (Label)
open Verif.Simplify (Ctx)

/-- The errors that `Makevalid` returns: that of the context, one of the triangulation or the clipper,
`ErrUnknownGeometry` (planar/makevalid/makevalid.go:167-235). -/
inductive Err (E : Type) where
  | context
  | inner (e : E)
  | unknownGeometry
  deriving DecidableEq, Repr

/-- A `geom.Geometry` that `Makevalid` returns: one that it was given or the clipper made, or a
`*geom.MultiPolygon`, which may be nil (`none`) though the interface holding it then is not
(planar/makevalid/makevalid.go:190-235). -/
inductive Result (K : Type) where
  | geom (g : Geom K)
  | multiPolygon (mp : Option (List (List (List (Pt K)))))

variable {K E : Type} [Field K] [LinearOrder K]

/-- The loop over the triangles (triangulate.go:42-50), after `n` polls of the context. -/
def labelLoop (ctx : Ctx) (label : Pt K → Label) : Nat → List (Triangle K) → List (Triangle K) →
    Except (Err E) (List (Triangle K))
  | _, [], triangles => .ok triangles
  | n, t :: ts, triangles =>
    if ctx n then .error .context
    else if label (center t) = .outside then labelLoop ctx label (n + 1) ts triangles
    else labelLoop ctx label (n + 1) ts (triangles ++ [t])

/-- `InsideTrianglesForSegments` (triangulate.go:16-56). -/
def insideForSegments (triangulate : List (Line K) → Except E (List (Triangle K))) (ctx : Ctx)
    (label : Pt K → Label) (segs : List (Line K)) : Except (Err E) (List (Triangle K)) :=
  match triangulate segs with
  | .error e => .error (.inner e)
  | .ok all => if all.length = 0 then .ok [] else labelLoop ctx label 0 all []

/-- `InsideTrianglesForMultiPolygon` (triangulate.go:59-84); `segs` is what `Destructure` returned,
`none` being `(nil, nil)`. -/
def insideForMultiPolygon (triangulate : List (Line K) → Except E (List (Triangle K))) (ctx : Ctx)
    (label : Pt K → Label) (segs : Option (List (Line K))) : Except (Err E) (List (Triangle K)) :=
  match segs with
  | none => .ok []
  | some [] => .ok []
  | some (s :: segs) => insideForSegments triangulate ctx label (s :: segs)

/-- `makevalidPolygon` (makevalid.go:167-188); the outer `none` is a panic, the inner one a nil
`*geom.MultiPolygon`.  `walk` is `walker.New(·).MultiPolygon`, `label` the `LabelFor` of
`NewFromPolygons`, which gives no error. -/
def makevalidPolygon (triangulate : List (Line K) → Except E (List (Triangle K))) (ctx : Ctx)
    (walk : List (Triangle K) → Option (List (List (List (Pt K))))) (label : Pt K → Label)
    (segs : Option (List (Line K))) : Option (Except (Err E) (Option (List (List (List (Pt K)))))) :=
  match insideForMultiPolygon triangulate ctx label segs with
  | .error e => some (.error e)
  | .ok [] => some (.ok none)
  | .ok (t :: ts) => (walk (t :: ts)).map fun mp => .ok (some mp)

/-- `Makevalid.Makevalid` (makevalid.go:190-235): the geometry and `didClip`, or an error.  `clipper`
is `none` if there is no `Clipper`; `destructure` is `Destructure` with the context and the clip box,
`label` makes the hit map. -/
def makevalid (clipper : Option (Geom K → Except E (Geom K)))
    (destructure : List (List (List (Pt K))) → Option (List (Line K)))
    (triangulate : List (Line K) → Except E (List (Triangle K))) (ctx : Ctx)
    (walk : List (Triangle K) → Option (List (List (List (Pt K)))))
    (label : List (List (List (Pt K))) → Pt K → Label) (g : Geom K) :
    Option (Except (Err E) (Result K × Bool)) :=
  let lines := match clipper with
    | none => some (.ok (.geom g, false))
    | some clip =>
      match clip g with
      | .error e => some (.error (.inner e))
      | .ok gg => some (.ok (.geom gg, true))
  let polygons (mp : List (List (List (Pt K)))) :=
    match makevalidPolygon triangulate ctx walk (label mp) (destructure mp) with
    | none => none
    | some (.error e) => some (.error e)
    | some (.ok vmp) => some (.ok (.multiPolygon vmp, true))
  match g with
  | .lineString _ => lines
  | .multiLineString _ => lines
  | .point _ => lines
  | .multiPoint _ => lines
  | .polygon rs => polygons [rs]
  | .multiPolygon ps => polygons ps
  | .collection _ => some (.error .unknownGeometry)
  | .other => some (.error .unknownGeometry)

end Verif.Makevalid
