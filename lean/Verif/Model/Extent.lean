import Verif.Model.F64
import Verif.Model.Geom

/-!
# Extents (bbox.go) and the traversals they use (geom.go)
-/

namespace Verif

/-- Go `geom.Extent` (bbox.go:29): `[4]float64{minx, miny, maxx, maxy}`.  A
`*Extent` is an `Option Ext`; `nil` is the whole universe (bbox.go:28). -/
structure Ext where
  minx : F64
  miny : F64
  maxx : F64
  maxy : F64
  deriving DecidableEq, Repr

namespace Ext

/-- `(*Extent).MinX` (bbox.go:70-75). -/
def minX : Option Ext → F64
  | none => F64.negMaxFloat
  | some e => e.minx
/-- `(*Extent).MinY` (bbox.go:86-91). -/
def minY : Option Ext → F64
  | none => F64.negMaxFloat
  | some e => e.miny
/-- `(*Extent).MaxX` (bbox.go:62-67). -/
def maxX : Option Ext → F64
  | none => F64.maxFloat
  | some e => e.maxx
/-- `(*Extent).MaxY` (bbox.go:78-83). -/
def maxY : Option Ext → F64
  | none => F64.maxFloat
  | some e => e.maxy

/-- `(*Extent).Vertices` (bbox.go:35-42). -/
def vertices (e : Option Ext) : List (Pt F64) :=
  [(minX e, minY e), (maxX e, minY e), (maxX e, maxY e), (minX e, maxY e)]

/-- `(*Extent).Edges` (bbox.go:48-59); `none` is a nil ClockwiseFunc. -/
def edges (e : Option Ext) (cwfn : Option (List (Pt F64) → Bool)) : List (Pt F64 × Pt F64) :=
  let v0 := (minX e, minY e)
  let v1 := (maxX e, minY e)
  let v2 := (maxX e, maxY e)
  let v3 := (minX e, maxY e)
  match cwfn with
  | some f => if !f (vertices e) then [(v3, v2), (v2, v1), (v1, v0), (v0, v3)]
              else [(v0, v1), (v1, v2), (v2, v3), (v3, v0)]
  | none => [(v0, v1), (v1, v2), (v2, v3), (v3, v0)]

/-- `(*Extent).Extent` (bbox.go:121-123). -/
def extent (e : Option Ext) : Ext := ⟨minX e, minY e, maxX e, maxY e⟩

/-- `(*Extent).AsPolygon` (bbox.go:168). -/
def asPolygon (e : Option Ext) : List (List (Pt F64)) := [vertices e]

/-- `(*Extent).Add` (bbox.go:128-136); the argument is a MinMaxer, that is four
numbers. -/
def add (e : Option Ext) (m : Ext) : Option Ext :=
  match e with
  | none => none
  | some e => some ⟨F64.min e.minx m.minx, F64.min e.miny m.miny,
      F64.max e.maxx m.maxx, F64.max e.maxy m.maxy⟩

/-- Loop body of `(*Extent).AddPoints` (bbox.go:147-152). -/
def addPoint (e : Ext) (p : Pt F64) : Ext :=
  ⟨F64.min p.1 e.minx, F64.min p.2 e.miny, F64.max p.1 e.maxx, F64.max p.2 e.maxy⟩

/-- `(*Extent).AddPoints` (bbox.go:139-153). -/
def addPoints (e : Option Ext) (ps : List (Pt F64)) : Option Ext :=
  e.map (fun e => ps.foldl addPoint e)

/-- `(*Extent).AddPointers` (bbox.go:156-160); a Pointer is modelled by its XY. -/
def addPointers (e : Option Ext) (ps : List (Pt F64)) : Option Ext :=
  ps.foldl (fun e p => addPoints e [p]) e

/-- The two switches of `NewExtent` (bbox.go:190-201). -/
def grow (e : Ext) (p : Pt F64) : Ext :=
  let e := if p.1.lt e.minx then { e with minx := p.1 }
           else if e.maxx.lt p.1 then { e with maxx := p.1 } else e
  if p.2.lt e.miny then { e with miny := p.2 }
  else if e.maxy.lt p.2 then { e with maxy := p.2 } else e

/-- `NewExtent` (bbox.go:176-204) and `NewExtentFromPoints` (bbox.go:207-233),
which have the same body on `[2]float64` and `Point`. -/
def newExtent : List (Pt F64) → Option Ext
  | [] => none
  | p :: ps => some (ps.foldl grow ⟨p.1, p.2, p.1, p.2⟩)

/-- `(*Extent).Contains` (bbox.go:253-265); `none` as second argument is a nil
MinMaxer interface, otherwise the four numbers the MinMaxer reports. -/
def contains (e : Option Ext) (ne : Option Ext) : Bool :=
  match e with
  | none => true
  | some e =>
    match ne with
    | none => false
    | some n => e.minx.le n.minx && n.maxx.le e.maxx && e.miny.le n.miny && n.maxy.le e.maxy

/-- `(*Extent).ContainsPoint` (bbox.go:268-275). -/
def containsPoint (e : Option Ext) (p : Pt F64) : Bool :=
  match e with
  | none => true
  | some e => e.minx.le p.1 && p.1.le e.maxx && e.miny.le p.2 && p.2.le e.maxy

/-- `(*Extent).ContainsLine` (bbox.go:278-283). -/
def containsLine (e : Option Ext) (a b : Pt F64) : Bool :=
  match e with
  | none => true
  | some e => containsPoint (some e) a && containsPoint (some e) b

/-- `(*Extent).IsUniverse` (bbox.go:386-389). -/
def isUniverse (e : Option Ext) : Bool :=
  match e with
  | none => true
  | some e => e.minx.eq F64.negMaxFloat && e.maxx.eq F64.maxFloat &&
      e.miny.eq F64.negMaxFloat && e.maxy.eq F64.maxFloat

/-- `(*Extent).Clone` (bbox.go:325-330). -/
def clone (e : Option Ext) : Option Ext := e.map (fun e => ⟨e.minx, e.miny, e.maxx, e.maxy⟩)

/-- `(*Extent).Intersect` (bbox.go:347-383): extent and `does`.  `minx >= maxx` is
`maxx <= minx`. -/
def intersect (e ne : Option Ext) : Option Ext × Bool :=
  match e, ne with
  | none, ne => (clone ne, true)
  | some e, none => (clone (some e), true)
  | some e, some n =>
    let minx := if e.minx.lt n.minx then n.minx else e.minx
    let maxx := if n.maxx.lt e.maxx then n.maxx else e.maxx
    if maxx.le minx then (none, false) else
    let miny := if e.miny.lt n.miny then n.miny else e.miny
    let maxy := if n.maxy.lt e.maxy then n.maxy else e.maxy
    if maxy.le miny then (none, false) else
    (some ⟨minx, miny, maxx, maxy⟩, true)

end Ext

/-! ## Traversals (geom.go) -/

namespace Geom

mutual
/-- `getCoordinates` (geom.go:323-388): the points appended to `*pts`, and
whether `ErrUnknownGeometry` was returned (the points collected before the error
stay). -/
def coords {α : Type} : Geom α → List (Pt α) × Bool
  | .point p => ([p], false)
  | .multiPoint ps => (ps, false)
  | .lineString ps => (ps, false)
  | .multiLineString ls => (ls.flatten, false)
  | .polygon rs => (rs.flatten, false)
  | .multiPolygon ps => ((ps.map List.flatten).flatten, false)
  | .collection gs => coordsAll gs
  | .other => ([], true)
/-- The loop over the members of a collection (geom.go:378-384): stops at the
first error. -/
def coordsAll {α : Type} : List (Geom α) → List (Pt α) × Bool
  | [] => ([], false)
  | g :: gs =>
    match coords g with
    | (ps, true) => (ps, true)
    | (ps, false) => let r := coordsAll gs; (ps ++ r.1, r.2)
end

/-- `GetCoordinates` (geom.go:394-398). -/
def getCoordinates {α : Type} (g : Geom α) : List (Pt α) × Bool := coords g

end Geom

namespace Ext

mutual
/-- `getExtent` (geom.go:402-458) / `(*Extent).AddGeometry` (bbox.go:163-165):
the updated extent and whether an error was returned. -/
def addGeometry (e : Option Ext) : Geom F64 → Option Ext × Bool
  | .point p => (addPoints e [p], false)
  | .multiPoint ps => (addPoints e ps, false)
  | .lineString ps => (addPoints e ps, false)
  | .multiLineString ls => (ls.foldl addPoints e, false)
  | .polygon rs => (rs.foldl addPoints e, false)
  | .multiPolygon ps => (ps.foldl (fun e rs => rs.foldl addPoints e) e, false)
  | .collection gs => addGeometries e gs
  | .other => (e, true)
/-- The member loop of `getExtent` (geom.go:448-454). -/
def addGeometries (e : Option Ext) : List (Geom F64) → Option Ext × Bool
  | [] => (e, false)
  | g :: gs =>
    match addGeometry e g with
    | (e', true) => (e', true)
    | (e', false) => addGeometries e' gs
end

/-- `NewExtentFromGeometry` (bbox.go:236-250): `none` is a returned error. -/
def newExtentFromGeometry (g : Geom F64) : Option (Option Ext) :=
  match g.coords with
  | (_, true) => none
  | ([], false) => some none
  | (p :: ps, false) => some (some ((p :: ps).foldl addPoint ⟨p.1, p.2, p.1, p.2⟩))

/-- `(*Extent).ContainsGeom` (bbox.go:286-300): `none` is a returned error.
geom.Point is a MinMaxer (point.go:48-57) and takes the branch of lines 291-293;
the other geometry kinds are not, and go through `new(Extent)` (line 295), the
zero box.  Simplification: `.point` stands for geom.Point, not for another type
with an XY method; `*Extent` as argument is `contains`. -/
def containsGeom (e : Option Ext) (g : Geom F64) : Option Bool :=
  if isUniverse e then some true else
  match g with
  | .point p => some (contains e (some ⟨p.1, p.2, p.1, p.2⟩))
  | g =>
    match addGeometry (some ⟨F64.zero, F64.zero, F64.zero, F64.zero⟩) g with
    | (_, true) => none
    | (ne, false) => some (contains e ne)

end Ext
end Verif
