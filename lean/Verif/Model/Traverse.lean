import Verif.Model.Extent

/-!
# Traversals: line extraction, segments, ApplyToPoints, Clone
-/

namespace Verif.Geom
open Verif

/-- Go `Line` (line.go:12): two points. -/
abbrev Seg (α : Type) := Pt α × Pt α

/-- Loop `for i := 0; i < len(v)-1; i++ { append Line{v[i], v[i+1]} }` (geom.go:482-484,
line_string.go:55-58) as recursion over the remaining vertices. -/
def lineSegs {α : Type} : List (Pt α) → List (Seg α)
  | a :: b :: t => (a, b) :: lineSegs (b :: t)
  | _ => []

/-- `LineString.IsRing` (line_string.go:24-30). -/
def isRing (v : List (Pt F64)) : Bool :=
  match v.head?, v.getLast? with
  | some a, some b => decide (1 < v.length) && a.1.eq b.1 && a.2.eq b.2
  | _, _ => false

/-- Body of the ring loop of `extractLines` (geom.go:496-506). -/
def ringSegs (v : List (Pt F64)) : List (Seg F64) :=
  lineSegs v ++
    (match v.getLast?, v.head? with
     | some l, some h => if decide (2 < v.length) && !isRing v then [(l, h)] else []
     | _, _ => [])

mutual
/-- `extractLines` (geom.go:462-528): lines appended and whether an error was
returned. -/
def extract : Geom F64 → List (Seg F64) × Bool
  | .point _ => ([], false)
  | .multiPoint _ => ([], false)
  | .lineString v => (lineSegs v, false)
  | .multiLineString ls => ((ls.map lineSegs).flatten, false)
  | .polygon rs => ((rs.map ringSegs).flatten, false)
  | .multiPolygon ps => ((ps.map (fun rs => (rs.map ringSegs).flatten)).flatten, false)
  | .collection gs => extractAll gs
  | .other => ([], true)
/-- Member loop (geom.go:518-524). -/
def extractAll : List (Geom F64) → List (Seg F64) × Bool
  | [] => ([], false)
  | g :: gs =>
    match extract g with
    | (ss, true) => (ss, true)
    | (ss, false) => let r := extractAll gs; (ss ++ r.1, r.2)
end

/-- `LineString.AsSegments` (line_string.go:46-61); `none` is ErrInvalidLineString. -/
def lsSegments {α : Type} (v : List (Pt α)) : Option (List (Seg α)) :=
  match v with
  | [] => some []
  | [_] => none
  | [a, b] => some [(a, b)]
  | v => some (lineSegs v)

/-- `MultiLineString.AsSegments` (multi_line_string.go:27-40). -/
def mlsSegments {α : Type} : List (List (Pt α)) → Option (List (List (Seg α)))
  | [] => some []
  | l :: ls =>
    match lsSegments l with
    | none => none
    | some ss => (mlsSegments ls).map (ss :: ·)

/-- The `for j` loop of `Polygon.AsSegments` (polygon.go:57-61) with `pj` the
previous vertex. -/
def ringLoop {α : Type} (prev : Pt α) : List (Pt α) → List (Seg α)
  | [] => []
  | a :: t => (prev, a) :: ringLoop a t

/-- `Polygon.AsSegments` (polygon.go:38-67); it never returns an error. -/
def polySegments {α : Type} (rs : List (List (Pt α))) : List (List (Seg α)) :=
  rs.filterMap (fun r =>
    match r with
    | a :: b :: c :: t => some (ringLoop ((c :: t).getLast (by simp)) (a :: b :: c :: t))
    | _ => none)

/-- `MultiPolygon.AsSegments` (multi_polygon.go:27-41). -/
def mpolySegments {α : Type} (ps : List (List (List (Pt α)))) : List (List (List (Seg α))) :=
  ps.map polySegments

/-! ## ApplyToPoints and Clone (utils.go) -/

/-- The caller's function: may keep state, returns coordinates or an error
(utils.go:6 `f func(coords ...float64) ([]float64, error)`). -/
abbrev PointFn (σ α : Type) := σ → Pt α → Option (List α) × σ

/-- One vertex (utils.go:12-19, 25-33, 40-48): error, or too few coordinates. -/
def applyPt {σ α : Type} (f : PointFn σ α) (s : σ) (p : Pt α) : Option (Pt α) × σ :=
  match f s p with
  | (none, s') => (none, s')
  | (some (x :: y :: _), s') => (some (x, y), s')
  | (some _, s') => (none, s')

/-- A loop over elements that returns at the first error (the loops of utils.go:6-111). -/
def applyList {σ β : Type} (g : σ → β → Option β × σ) : σ → List β → Option (List β) × σ
  | s, [] => (some [], s)
  | s, x :: xs =>
    match g s x with
    | (none, s') => (none, s')
    | (some y, s') =>
      match applyList g s' xs with
      | (none, s'') => (none, s'')
      | (some ys, s'') => (some (y :: ys), s'')

/-- `ApplyToPoints` (utils.go:6-110).  Simplification: the geometry is one of the
value types geom.Point … geom.MultiPolygon the type switch lists; everything else
(including geom.Collection) is the default case. -/
def applyToPoints {σ α : Type} (f : PointFn σ α) (s : σ) : Geom α → Option (Geom α) × σ
  | .point p => let r := applyPt f s p; (r.1.map .point, r.2)
  | .multiPoint ps => let r := applyList (applyPt f) s ps; (r.1.map .multiPoint, r.2)
  | .lineString ps => let r := applyList (applyPt f) s ps; (r.1.map .lineString, r.2)
  | .multiLineString ls =>
    let r := applyList (applyList (applyPt f)) s ls; (r.1.map .multiLineString, r.2)
  | .polygon rs =>
    let r := applyList (applyList (applyPt f)) s rs; (r.1.map .polygon, r.2)
  | .multiPolygon ps =>
    let r := applyList (applyList (applyList (applyPt f))) s ps; (r.1.map .multiPolygon, r.2)
  | .collection _ => (none, s)
  | .other => (none, s)

/-- `Clone` (utils.go:113-192) on values; `none` is the unknown-geometry error. -/
def clone {α : Type} : Geom α → Option (Geom α)
  | .point p => some (.point (p.1, p.2))
  | .multiPoint ps => some (.multiPoint (ps.map id))
  | .lineString ps => some (.lineString (ps.map id))
  | .multiLineString ls => some (.multiLineString (ls.map (·.map id)))
  | .polygon rs => some (.polygon (rs.map (·.map id)))
  | .multiPolygon ps => some (.multiPolygon (ps.map (·.map (·.map id))))
  | .collection _ => none
  | .other => none

end Verif.Geom
