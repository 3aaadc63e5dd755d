/-!
# Geometries with Z, M and SRID

The files polygonz.go, polygonm.go, polygonzm.go and, with an SRID, polygons.go,
polygonzs.go, polygonms.go, polygonzms.go have the same code for points of two, three
and four coordinates; here it is one definition for points of any kind.
-/

namespace Verif.Dims

variable {P : Type}

/-- The `for j` loop of `AsSegments` (polygonz.go:59-62, polygonm.go:59-62,
polygonzm.go:59-62, polygons.go:66-69, polygonzs.go:66-69, polygonms.go:66-69,
polygonzms.go:66-69): `pj` is the point before. -/
def ringLoop : P → List P → List (P × P)
  | _, [] => []
  | pj, p :: ps => (pj, p) :: ringLoop p ps

/-- `AsSegments` of PolygonZ, PolygonM, PolygonZM (polygonz.go:38-67, polygonm.go:38-67,
polygonzm.go:38-67); it never returns an error. -/
def asSegments : List (List P) → List (List (P × P))
  | [] => []
  | r :: rs =>
    match r.getLast? with
    | none => asSegments rs
    | some last => if r.length ≤ 2 then asSegments rs else ringLoop last r :: asSegments rs

/-- A polygon with an SRID: PolygonS, PolygonZS, PolygonMS, PolygonZMS (polygons.go:20-23,
polygonzs.go:20-23, polygonms.go:20-23, polygonzms.go:20-23). -/
structure PolygonS (P : Type) where
  srid : BitVec 32
  pol : List (List P)

/-- `AsSegments` of PolygonS, PolygonZS, PolygonMS, PolygonZMS (polygons.go:45-74,
polygonzs.go:45-74, polygonms.go:45-74, polygonzms.go:45-74). -/
def PolygonS.asSegments (p : PolygonS P) : List (List (P × P)) × BitVec 32 :=
  if p.pol.length = 0 then ([], 0) else (Dims.asSegments p.pol, p.srid)

/-- `LineString` of LineStringZ, LineStringM, LineStringZM and `MultiPoint` of MultiPointZ,
MultiPointM, MultiPointZM (line_stringz.go:30-41, line_stringm.go:30-41,
line_stringzm.go:30-41, multi_pointz.go:27-38, multi_pointm.go:27-38,
multi_pointzm.go:27-38): the loop appends the first two coordinates of each point. -/
def flatten {F : Type} (xy : P → F × F) : List P → List (F × F) → List (F × F)
  | [], lsv => lsv
  | p :: ps, lsv => flatten xy ps (lsv ++ [xy p])

/-- The loop of `AsLineStringZs`, `AsLineStringMs`, `AsLineStringZMs`
(multi_line_stringz.go:27-39, multi_line_stringm.go:27-39, multi_line_stringzm.go:27-39);
a nil line is `none`, and the error of the function too. -/
def asLineStrings : List (Option (List P)) → List (List P) → Option (List (List P))
  | [], segs => some segs
  | none :: _, _ => none
  | some l :: ls, segs => asLineStrings ls (segs ++ [l])

end Verif.Dims
