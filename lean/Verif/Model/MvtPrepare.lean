import Verif.Model.Winding
import Mathlib.Algebra.Order.Field.Basic

/-!
# Geometries in tile pixels (encoding/mvt/prepare.go)

Coordinates lie in a linearly ordered field: the rounding of float64 is not
modelled.  A tile without width or height divides by zero; the results (infinities
and NaN in the code, zero here) are not meant to say anything.  `feq` stands for
`cmp.HiCMP.Float` (cmp/compare.go:40-61) and may be any function.
-/

namespace Verif.MvtPrepare
open Verif

variable {K : Type} [Field K] [LinearOrder K]

/-- The tile extent handed to `PrepareGeo` (bbox.go:27-29: min x, min y, max x,
max y of a `geom.Extent`); it is not nil. -/
structure Tile (K : Type) where
  minX : K
  minY : K
  maxX : K
  maxY : K

/-- `preparept` (prepare.go:81-87) with `XSpan` and `YSpan` (bbox.go:105-118). -/
def preparePt (tile : Tile K) (px : K) (g : Pt K) : Pt K :=
  ((g.1 - tile.minX) / (tile.maxX - tile.minX) * px,
   (tile.maxY - g.2) / (tile.maxY - tile.minY) * px)

/-- `GeomPointEqual` of `cmp.HiCMP` (cmp/compare.go:101-103). -/
def ptEq (feq : K → K → Bool) (p q : Pt K) : Bool := feq p.1 q.1 && feq p.2 q.2

/-- The loop of `preparelinestr` (prepare.go:97-105): the points of `ls` so far and
the points still to come.  `i != 0` is the same as `ls` being non-empty, because
the first point is always appended. -/
def lineLoop (feq : K → K → Bool) (tile : Tile K) (px : K) : List (Pt K) → List (Pt K) → List (Pt K)
  | ls, [] => ls
  | ls, g :: gs =>
    let npt := preparePt tile px g
    match ls.getLast? with
    | some l => if ptEq feq l npt then lineLoop feq tile px ls gs
                else lineLoop feq tile px (ls ++ [preparePt tile px g]) gs
    | none => lineLoop feq tile px (ls ++ [preparePt tile px g]) gs

/-- `preparelinestr` (prepare.go:89-112); nil is the empty list. -/
def prepareLine (feq : K → K → Bool) (tile : Tile K) (px : K) (pts : List (Pt K)) : List (Pt K) :=
  if pts.length < 2 then []
  else
    let ls := lineLoop feq tile px [] pts
    if ls.length < 2 then [] else ls

/-- The loop of `preparePolygon` (prepare.go:122-143); `none` is the panic of
`ln[0]` in line 132 when `preparelinestr` gave nil.  The log lines are dropped. -/
def ringLoop (feq : K → K → Bool) (tile : Tile K) (px : K) :
    List (List (Pt K)) → List (List (Pt K)) → Option (List (List (Pt K)))
  | p, [] => some p
  | p, line :: lines =>
    if line.length < 2 then ringLoop feq tile px p lines
    else
      let ln := prepareLine feq tile px line
      match ln.head?, ln.getLast? with
      | some f, some l =>
        let ln := if ptEq feq f l then ln.take (ln.length - 1) else ln
        if ln.length < 2 then ringLoop feq tile px p lines
        else ringLoop feq tile px (p ++ [ln]) lines
      | _, _ => none

/-- `preparePolygon` (prepare.go:114-150); `none` is a panic, a nil polygon is the
empty list.  Without rings `RectifyPolygon` is not called; it would give the same. -/
def preparePolygon (feq : K → K → Bool) (tile : Tile K) (px : K) (g : List (List (Pt K))) :
    Option (List (List (Pt K))) :=
  if g.length = 0 then some []
  else (ringLoop feq tile px [] g).map (Winding.rectifyPolygon false)

/-- The `geom.Geometry` values told apart by `PrepareGeo` (prepare.go:22-76): six
value types, a pointer to a multi polygon, and everything else. -/
inductive Geo (K : Type) where
  | point (p : Pt K)
  | multiPoint (ps : List (Pt K))
  | lineString (l : List (Pt K))
  | multiLineString (ls : List (List (Pt K)))
  | polygon (p : List (List (Pt K)))
  | multiPolygon (ps : List (List (List (Pt K))))
  /-- `*geom.MultiPolygon`, possibly nil. -/
  | multiPolygonPtr (ps : Option (List (List (List (Pt K)))))
  /-- Any other type, among them nil, collections and pointers. -/
  | other
  deriving DecidableEq, Repr

/-- The loops over the polygons of a multi polygon (prepare.go:55-61, 67-73). -/
def polygonsLoop (feq : K → K → Bool) (tile : Tile K) (px : K) :
    List (List (List (Pt K))) → List (List (List (Pt K))) → Option (List (List (List (Pt K))))
  | mp, [] => some mp
  | mp, p :: ps =>
    match preparePolygon feq tile px p with
    | none => none
    | some np => polygonsLoop feq tile px (if 0 < np.length then mp ++ [np] else mp) ps

/-- The loop over the line strings of a multi line string (prepare.go:43-48). -/
def linesLoop (feq : K → K → Bool) (tile : Tile K) (px : K) :
    List (List (Pt K)) → List (List (Pt K)) → List (List (Pt K))
  | ml, [] => ml
  | ml, l :: ls =>
    let nl := prepareLine feq tile px l
    linesLoop feq tile px (if 0 < nl.length then ml ++ [nl] else ml) ls

/-- `PrepareGeo` (prepare.go:21-79): `none` is a panic, `some none` the nil
geometry.  A nil line string, polygon, … that comes back inside the interface is
the geometry of that type without points. -/
def prepareGeo (feq : K → K → Bool) (tile : Tile K) (px : K) : Geo K → Option (Option (Geo K))
  | .point p => some (some (.point (preparePt tile px p)))
  | .multiPoint ps =>
    if ps.length = 0 then some none else some (some (.multiPoint (ps.map (preparePt tile px))))
  | .lineString l => some (some (.lineString (prepareLine feq tile px l)))
  | .multiLineString ls => some (some (.multiLineString (linesLoop feq tile px [] ls)))
  | .polygon p => (preparePolygon feq tile px p).map fun q => some (.polygon q)
  | .multiPolygon ps => (polygonsLoop feq tile px [] ps).map fun q => some (.multiPolygon q)
  | .multiPolygonPtr none => some none
  | .multiPolygonPtr (some ps) => (polygonsLoop feq tile px [] ps).map fun q => some (.multiPolygonPtr (some q))
  | .other => some none

end Verif.MvtPrepare
