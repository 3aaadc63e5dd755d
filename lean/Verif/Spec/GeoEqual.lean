import Verif.Spec.Cmp
import Verif.Model.GeoEqual

/-!
# Specification vocabulary for comparing geometries of any type
-/

namespace Verif.Spec.GeoEqual
open Verif Verif.Cmp Verif.Spec.Extent Verif.Spec.Cmp

/-- `PolygonEqual` says yes. -/
def SamePoly (dflt c : Compare) (p q : List (List (Pt F64))) : Prop :=
  ∃ p' q', polygonEqual dflt c p q = some (true, p', q')

/-- Where a point is: at its x and y, whatever else it carries. -/
inductive At : PointVal → Pt F64 → Prop
  | point (p : Pt F64) : At (.point p) p
  | pointZ (p : Pt F64) (z : F64) : At (.pointZ p z) p
  | pointM (p : Pt F64) (m : F64) : At (.pointM p m) p

/-- The vertices of a line in order; those of an extent from the least one along the lower side, those of the
nil extent are the corners of all that floats reach. -/
inductive Along : LineVal → List (Pt F64) → Prop
  | lineString (l : List (Pt F64)) : Along (.lineString l) l
  | line (a b : Pt F64) : Along (.line a b) [a, b]
  | extent (e : Ext) : Along (.extent (some e)) [(e.minx, e.miny), (e.maxx, e.miny), (e.maxx, e.maxy), (e.minx, e.maxy)]
  | nilExtent : Along (.extent none) [(F64.negMaxFloat, F64.negMaxFloat), (F64.maxFloat, F64.negMaxFloat),
      (F64.maxFloat, F64.maxFloat), (F64.negMaxFloat, F64.maxFloat)]

/-- The rings of a polygon; a triangle is its one ring. -/
inductive Around : PolyVal → List (List (Pt F64)) → Prop
  | polygon (p : List (List (Pt F64))) : Around (.polygon p) p
  | triangle (a b c : Pt F64) : Around (.triangle a b c) [[a, b, c]]

mutual

/-- Two geometries of one kind whose parts agree: points in x and y, multipoints by
`MultiPointEqual`, lines by `LineStringEqual` on their vertices, multilines by
`MultiLineEqual`, polygons by `PolygonEqual` on their rings, the polygons of
multipolygons paired off, the members of collections in order.  A nil pointer agrees
with a nil pointer of its type. -/
inductive Agree (dflt c : Compare) (s1 s2 : List (Pt F64) → List (Pt F64)) : Geo → Geo → Prop
  | points {a b : PointVal} {p q : Pt F64} : At a p → At b q →
      c.float p.1 q.1 = true → c.float p.2 q.2 = true → Agree dflt c s1 s2 (.pointer a) (.pointer b)
  | nilPoint : Agree dflt c s1 s2 (.pointer .nilPoint) (.pointer .nilPoint)
  | multiPoints {a b : List (Pt F64)} : c.multiPointEqual s1 s2 a b = true →
      Agree dflt c s1 s2 (.multiPoint a) (.multiPoint b)
  | nilMultiPoint : Agree dflt c s1 s2 .nilMultiPoint .nilMultiPoint
  | lines {a b : LineVal} {p q : List (Pt F64)} : Along a p → Along b q →
      c.lineStringEqual p q = true → Agree dflt c s1 s2 (.lineStringer a) (.lineStringer b)
  | nilLineString : Agree dflt c s1 s2 (.lineStringer .nilLineString) (.lineStringer .nilLineString)
  | multiLines {a b : List (List (Pt F64))} : c.multiLineEqual a b = true →
      Agree dflt c s1 s2 (.multiLine a) (.multiLine b)
  | nilMultiLine : Agree dflt c s1 s2 .nilMultiLine .nilMultiLine
  | polygons {a b : PolyVal} {p q : List (List (Pt F64))} : Around a p → Around b q →
      SamePoly dflt c p q → Agree dflt c s1 s2 (.polygoner a) (.polygoner b)
  | nilPolygon : Agree dflt c s1 s2 (.polygoner .nilPolygon) (.polygoner .nilPolygon)
  | multiPolygons {a b b' : List (List (List (Pt F64)))} : b'.Perm b → List.Forall₂ (SamePoly dflt c) a b' →
      Agree dflt c s1 s2 (.multiPolygon a) (.multiPolygon b)
  | nilMultiPolygon : Agree dflt c s1 s2 .nilMultiPolygon .nilMultiPolygon
  | collections {a b : List Geo} : AgreeAll dflt c s1 s2 a b → Agree dflt c s1 s2 (.collection a) (.collection b)
  | nilCollection : Agree dflt c s1 s2 .nilCollection .nilCollection

/-- The same number of geometries, each agreeing with the one at its place. -/
inductive AgreeAll (dflt c : Compare) (s1 s2 : List (Pt F64) → List (Pt F64)) : List Geo → List Geo → Prop
  | nil : AgreeAll dflt c s1 s2 [] []
  | cons {a b : Geo} {as bs : List Geo} : Agree dflt c s1 s2 a b → AgreeAll dflt c s1 s2 as bs →
      AgreeAll dflt c s1 s2 (a :: as) (b :: bs)

end

mutual

/-- Holds of the geometry, and of every member at any depth if it is a collection. -/
inductive Throughout (P : Geo → Prop) : Geo → Prop
  | leaf {g : Geo} : (∀ l, g ≠ .collection l) → P g → Throughout P g
  | collection {l : List Geo} : P (.collection l) → ThroughoutAll P l → Throughout P (.collection l)

/-- Holds throughout each geometry of the list. -/
inductive ThroughoutAll (P : Geo → Prop) : List Geo → Prop
  | nil : ThroughoutAll P []
  | cons {g : Geo} {l : List Geo} : Throughout P g → ThroughoutAll P l → ThroughoutAll P (g :: l)

end

/-- Not a multipolygon. -/
def NotMultiPolygon (g : Geo) : Prop := ∀ l, g ≠ .multiPolygon l

/-- A geometry of one of the seven kinds. -/
def HasKind (g : Geo) : Prop := g ≠ .other

/-- At most one interior ring of the polygon is empty. -/
def FewEmpty (p : List (List (Pt F64))) : Prop := p.tail.countP (fun r => r.isEmpty) ≤ 1

/-- Nothing in the geometry makes the comparison panic: no nil `*PointZ`, `*PointM`,
`*Line`, `*Triangle`, no polygon with two empty interior rings, no multipolygon with
two polygons whose exterior rings are empty. -/
def Harmless : Geo → Prop
  | .pointer v => v ≠ .nilPointZ ∧ v ≠ .nilPointM
  | .lineStringer v => v ≠ .nilLine
  | .polygoner (.polygon p) => FewEmpty p
  | .polygoner .nilTriangle => False
  | .multiPolygon l => (∀ p ∈ l, FewEmpty p) ∧ l.countP (fun p => p.head? == some []) ≤ 1
  | _ => True

/-- The exterior ring stays, the interior ones may come in another order. -/
inductive RingsMoved : List (List (Pt F64)) → List (List (Pt F64)) → Prop
  | nil : RingsMoved [] []
  | cons {r : List (Pt F64)} {rs rs' : List (List (Pt F64))} : rs'.Perm rs → RingsMoved (r :: rs) (r :: rs')

mutual

/-- The geometry with interior rings and the polygons of multipolygons in another order,
nothing else changed. -/
inductive Moved : Geo → Geo → Prop
  | same (g : Geo) : Moved g g
  | polygon {p p' : List (List (Pt F64))} : RingsMoved p p' →
      Moved (.polygoner (.polygon p)) (.polygoner (.polygon p'))
  | multiPolygon {l l' m : List (List (List (Pt F64)))} : m.Perm l → List.Forall₂ RingsMoved m l' →
      Moved (.multiPolygon l) (.multiPolygon l')
  | collection {l l' : List Geo} : MovedAll l l' → Moved (.collection l) (.collection l')

/-- Each geometry of the list moved in itself. -/
inductive MovedAll : List Geo → List Geo → Prop
  | nil : MovedAll [] []
  | cons {g g' : Geo} {l l' : List Geo} : Moved g g' → MovedAll l l' → MovedAll (g :: l) (g' :: l')

end

/-- The Go type of a value. -/
inductive GoType where
  | point | pointZ | pointM | ptrPoint | ptrPointZ | ptrPointM
  | multiPoint | ptrMultiPoint
  | lineString | line | ptrExtent | ptrLineString | ptrLine
  | multiLineString | ptrMultiLineString
  | polygon | triangle | ptrPolygon | ptrTriangle
  | multiPolygon | ptrMultiPolygon | collection | ptrCollection | other
  deriving DecidableEq

/-- The type of a geometry (for `other` not told apart). -/
def typeOf : Geo → GoType
  | .pointer (.point _) => .point
  | .pointer (.pointZ _ _) => .pointZ
  | .pointer (.pointM _ _) => .pointM
  | .pointer .nilPoint => .ptrPoint
  | .pointer .nilPointZ => .ptrPointZ
  | .pointer .nilPointM => .ptrPointM
  | .multiPoint _ => .multiPoint
  | .nilMultiPoint => .ptrMultiPoint
  | .lineStringer (.lineString _) => .lineString
  | .lineStringer (.line _ _) => .line
  | .lineStringer (.extent _) => .ptrExtent
  | .lineStringer .nilLineString => .ptrLineString
  | .lineStringer .nilLine => .ptrLine
  | .multiLine _ => .multiLineString
  | .nilMultiLine => .ptrMultiLineString
  | .polygoner (.polygon _) => .polygon
  | .polygoner (.triangle _ _ _) => .triangle
  | .polygoner .nilPolygon => .ptrPolygon
  | .polygoner .nilTriangle => .ptrTriangle
  | .multiPolygon _ => .multiPolygon
  | .nilMultiPolygon => .ptrMultiPolygon
  | .collection _ => .collection
  | .nilCollection => .ptrCollection
  | .other => .other

/-- `v` is a vertex of the ring and none is before it. -/
def Lowest (v : Pt F64) (r : List (Pt F64)) : Prop := v ∈ r ∧ ∀ w ∈ r, ¬ before w v

/-- Every polygon that has rings has an exterior one with numeric vertices, at least one. -/
def Solid (l : List (List (List (Pt F64)))) : Prop :=
  ∀ p ∈ l, ∀ r rs, p = r :: rs → r ≠ [] ∧ ∀ v ∈ r, numPt v

/-- The exterior rings of two polygons differ in length or in their lowest vertex. -/
def Apart (p q : List (List (Pt F64))) : Prop :=
  ∀ r rs s ss, p = r :: rs → q = s :: ss → r.length = s.length → ∀ v w, Lowest v r → Lowest w s → ¬ samePt v w

end Verif.Spec.GeoEqual
