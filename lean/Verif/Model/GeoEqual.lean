import Verif.Model.Cmp

/-!
# Comparing geometries of any type (cmp/compare.go, second half)
-/

namespace Verif.Cmp
open Verif

/-- The types of the library that satisfy `geom.Pointer` (geom.go:14-17): `Point`
(point.go:20), `PointZ` (pointz.go:20), `PointM` (pointm.go:19) and nil pointers to
them.  A pointer that is not nil acts as the value it points to. -/
inductive PointVal where
  | point (p : Pt F64)
  | pointZ (p : Pt F64) (z : F64)
  | pointM (p : Pt F64) (m : F64)
  | nilPoint
  | nilPointZ
  | nilPointM
  deriving DecidableEq, Repr

/-- The types of the library that satisfy `geom.LineStringer`: `LineString`
(line_string.go:33), `Line` (line.go:32), `*Extent` (bbox.go:35), nil pointers to the
first two; a nil `*Extent` is `extent none`. -/
inductive LineVal where
  | lineString (l : List (Pt F64))
  | line (a b : Pt F64)
  | extent (e : Option Ext)
  | nilLineString
  | nilLine
  deriving DecidableEq, Repr

/-- The types of the library that satisfy `geom.Polygoner`: `Polygon` (polygon.go:23),
`Triangle` (triangle.go:41) and nil pointers to them. -/
inductive PolyVal where
  | polygon (p : List (List (Pt F64)))
  | triangle (a b c : Pt F64)
  | nilPolygon
  | nilTriangle
  deriving DecidableEq, Repr

/-- A `geom.Geometry` (geom.go:11), sorted by which of the seven interfaces of the type
switch in compare.go:301-328 it satisfies; no type of the library satisfies two of
them.  `other` is a value that satisfies none: the nil interface, `PointS`, `PointZM`,
`LineStringZ` and so on.  Types of other packages are left out. -/
inductive Geo where
  | pointer (v : PointVal)
  | multiPoint (l : List (Pt F64))
  | nilMultiPoint
  | lineStringer (v : LineVal)
  | multiLine (l : List (List (Pt F64)))
  | nilMultiLine
  | polygoner (v : PolyVal)
  | multiPolygon (l : List (List (List (Pt F64))))
  | nilMultiPolygon
  | collection (l : List Geo)
  | nilCollection
  | other

/-- What a comparison leaves behind: the answer and what the two arguments hold
afterwards; `none` is a panic.  The two arguments are taken not to share memory
(cmp/compare.go:249-331). -/
abbrev Outcome (α : Type) := Option (Bool × α × α)

/-- `XY()` (point.go:20, pointz.go:20, pointm.go:19); a method with a value receiver
panics on a nil pointer. -/
def PointVal.xy : PointVal → Option (Pt F64)
  | .point p | .pointZ p _ | .pointM p _ => some p
  | .nilPoint | .nilPointZ | .nilPointM => none

/-- `PointerEqual` (compare.go:201-206); `geo1 == NilPoint` is true of a nil `*Point`
only, not of a nil `*PointZ`. -/
def pointerEqual (c : Compare) (a b : PointVal) : Option Bool :=
  if a = .nilPoint ∨ b = .nilPoint then some (decide (a = .nilPoint ∧ b = .nilPoint))
  else
    match a.xy, b.xy with
    | some p, some q => some (c.pointEqual p q)
    | _, _ => none

/-- `Vertices()` (line_string.go:33, line.go:32, bbox.go:35-42). -/
def LineVal.vertices : LineVal → Option (List (Pt F64))
  | .lineString l => some l
  | .line a b => some [a, b]
  | .extent e => some (Ext.vertices e)
  | .nilLineString | .nilLine => none

/-- `LineStringerEqual` (compare.go:230-235). -/
def lineStringerEqual (c : Compare) (a b : LineVal) : Option Bool :=
  if a = .nilLineString ∨ b = .nilLineString then some (decide (a = .nilLineString ∧ b = .nilLineString))
  else
    match a.vertices, b.vertices with
    | some p, some q => some (c.lineStringEqual p q)
    | _, _ => none

/-- `LinearRings()` (polygon.go:23, triangle.go:41-43). -/
def PolyVal.rings : PolyVal → Option (List (List (Pt F64)))
  | .polygon p => some p
  | .triangle a b c => some [[a, b, c]]
  | .nilPolygon | .nilTriangle => none

/-- A polygon after the rings handed out by `LinearRings()` were put in another order:
`Polygon` hands out its own rings (polygon.go:23-25), `Triangle` a fresh list. -/
def PolyVal.put : PolyVal → List (List (Pt F64)) → PolyVal
  | .polygon _, r => .polygon r
  | v, _ => v

/-- `PolygonerEqual` (compare.go:249-254). -/
def polygonerEqual (dflt c : Compare) (a b : PolyVal) : Outcome PolyVal :=
  if a = .nilPolygon ∨ b = .nilPolygon then some (decide (a = .nilPolygon ∧ b = .nilPolygon), a, b)
  else
    match a.rings, b.rings with
    | some p, some q => (polygonEqual dflt c p q).map (fun r => (r.1, a.put r.2.1, b.put r.2.2))
    | _, _ => none

/-- `byPolygonMainSizeXY.Less` (by_xy.go:45-57); `none` is the index panic for two
polygons whose first rings are both empty. -/
def mainLess (a b : List (List (Pt F64))) : Option Bool :=
  match a, b with
  | [], _ => some true
  | _ :: _, [] => some false
  | r :: _, s :: _ =>
    if r.length ≠ s.length then some (decide (r.length < s.length))
    else
      match r[findMinPointIdx r]?, s[findMinPointIdx s]? with
      | some p, some q => some (xyLess p q)
      | _, _ => none

/-- Inner loop of insertion sort (package sort, called at cmp/compare.go:267-268), as `insertRing`: the list is the part
already sorted, last element first. -/
def insertPoly (x : List (List (Pt F64))) :
    List (List (List (Pt F64))) → Option (List (List (List (Pt F64))))
  | [] => some [x]
  | y :: ys =>
    match mainLess x y with
    | none => none
    | some false => some (x :: y :: ys)
    | some true => (insertPoly x ys).map (y :: ·)

/-- Outer loop of insertion sort (package sort, called at cmp/compare.go:267-268). -/
def insertPolys : List (List (List (Pt F64))) → List (List (List (Pt F64))) →
    Option (List (List (List (Pt F64))))
  | acc, [] => some acc.reverse
  | acc, x :: xs =>
    match insertPoly x acc with
    | none => none
    | some acc' => insertPolys acc' xs

/-- `sort.Sort(byPolygonMainSizeXY(p))` (compare.go:268-269): insertion sort, which is
what `sort.Sort` does for up to twelve elements. -/
def sortPolys (p : List (List (List (Pt F64)))) : Option (List (List (List (Pt F64)))) := insertPolys [] p

/-- `for i := range a { if !eq(a[i], b[i]) { return false } }; return true` on lists of
equal length (compare.go:270-275), where `eq` may change what it compares. -/
def pairs {α : Type} (eq : α → α → Outcome α) : List α → List α → Outcome (List α)
  | a :: as, b :: bs =>
    match eq a b with
    | none => none
    | some (false, a', b') => some (false, a' :: as, b' :: bs)
    | some (true, a', b') => (pairs eq as bs).map (fun r => (r.1, a' :: r.2.1, b' :: r.2.2))
  | as, bs => some (true, as, bs)

/-- `MultiPolygonerEqual` on multipolygons that are not nil (compare.go:263-276). -/
def multiPolygonEqual (dflt c : Compare) (p q : List (List (List (Pt F64)))) :
    Outcome (List (List (List (Pt F64)))) :=
  if p.length ≠ q.length then some (false, p, q)
  else
    match sortPolys p, sortPolys q with
    | some p', some q' => pairs (polygonEqual dflt c) p' q'
    | _, _ => none

/-- An answer that leaves both arguments alone (cmp/compare.go:249-331). -/
def keep {α : Type} (a b : α) (r : Bool) : Bool × α × α := (r, a, b)

/-- `GeometryEqual` (compare.go:300-330) on anything but two collections, with the
comparers it calls; a nil `*MultiPoint`, `*MultiLineString`, `*MultiPolygon`,
`*Collection` equals itself only (compare.go:213-215, 241-243, 259-261, 280-282).
`s1`, `s2` are what sorting does to the points of a multipoint. -/
def leafEqual (dflt c : Compare) (s1 s2 : List (Pt F64) → List (Pt F64)) : Geo → Geo → Outcome Geo
  | .pointer a, .pointer b => (pointerEqual c a b).map (keep (.pointer a) (.pointer b))
  | .multiPoint a, .multiPoint b =>
    some (keep (.multiPoint a) (.multiPoint b) (c.multiPointEqual s1 s2 a b))
  | .nilMultiPoint, .nilMultiPoint => some (true, .nilMultiPoint, .nilMultiPoint)
  | .lineStringer a, .lineStringer b => (lineStringerEqual c a b).map (keep (.lineStringer a) (.lineStringer b))
  | .multiLine a, .multiLine b => some (keep (.multiLine a) (.multiLine b) (c.multiLineEqual a b))
  | .nilMultiLine, .nilMultiLine => some (true, .nilMultiLine, .nilMultiLine)
  | .polygoner a, .polygoner b =>
    (polygonerEqual dflt c a b).map (fun r => (r.1, .polygoner r.2.1, .polygoner r.2.2))
  | .multiPolygon a, .multiPolygon b =>
    (multiPolygonEqual dflt c a b).map (fun r => (r.1, .multiPolygon r.2.1, .multiPolygon r.2.2))
  | .nilMultiPolygon, .nilMultiPolygon => some (true, .nilMultiPolygon, .nilMultiPolygon)
  | .nilCollection, .nilCollection => some (true, .nilCollection, .nilCollection)
  | g, h => some (false, g, h)

mutual

/-- `GeometryEqual` (compare.go:300-330), on two collections `CollectionerEqual`
(compare.go:280-296). -/
def geometryEqual (dflt c : Compare) (s1 s2 : List (Pt F64) → List (Pt F64)) : Geo → Geo → Outcome Geo
  | .collection a, h =>
    match h with
    | .collection b =>
      if a.length ≠ b.length then some (false, .collection a, .collection b)
      else (geometriesEqual dflt c s1 s2 a b).map (fun r => (r.1, .collection r.2.1, .collection r.2.2))
    | h => leafEqual dflt c s1 s2 (.collection a) h
  | g, h => leafEqual dflt c s1 s2 g h

/-- The loop of `CollectionerEqual` (compare.go:289-294), `pairs` written out. -/
def geometriesEqual (dflt c : Compare) (s1 s2 : List (Pt F64) → List (Pt F64)) :
    List Geo → List Geo → Outcome (List Geo)
  | a :: as, b :: bs =>
    match geometryEqual dflt c s1 s2 a b with
    | none => none
    | some (false, a', b') => some (false, a' :: as, b' :: bs)
    | some (true, a', b') =>
      (geometriesEqual dflt c s1 s2 as bs).map (fun r => (r.1, a' :: r.2.1, b' :: r.2.2))
  | as, bs => some (true, as, bs)

end

end Verif.Cmp
