import Verif.Model.GeoJson
import Verif.Spec.Wkb

/-!
# Specification vocabulary for the GeoJSON properties

Uses the data types of the model (JSON values, geometry values) but none of its
functions.
-/

namespace Verif.Spec.GeoJson
open Verif Verif.GeoJson
open Verif.Spec.Wkb (samePoint)

/-- A ring as GeoJSON wants it: if its first and last vertex differ, the first
vertex is repeated at the end. -/
def closed (r : List (Pt F64)) : List (Pt F64) :=
  match r.head?, r.getLast? with
  | some a, some b => if samePoint a b then r else r ++ [a]
  | _, _ => r

/-- Neither NaN nor infinite. -/
def fin (f : F64) : Prop := f.mag < F64.infMag

/-- Both coordinates finite. -/
def finPt (p : Pt F64) : Prop := fin p.1 ∧ fin p.2

/-- All vertices finite, in a slice that may be nil. -/
def finLine (l : Sl (Pt F64)) : Prop := ∀ ps ∈ l, ∀ p ∈ ps, finPt p

mutual
/-- One of the seven geometry kinds with finite coordinates, all the way
down. -/
def Writable : G → Prop
  | .point p => finPt p
  | .multiPoint ps => finLine ps
  | .lineString ps => finLine ps
  | .multiLineString ls => ∀ l ∈ ls, ∀ ps ∈ l, finLine ps
  | .polygon rs => ∀ l ∈ rs, ∀ ps ∈ l, finLine ps
  | .multiPolygon ps => ∀ l ∈ ps, ∀ p ∈ l, ∀ m ∈ p, ∀ r ∈ m, finLine r
  | .collection none => True
  | .collection (some gs) => WritableAll gs
  | .feature _ _ _ => False
  | .features _ => False
  | .other => False
/-- Every member is writable. -/
def WritableAll : List G → Prop
  | [] => True
  | g :: gs => Writable g ∧ WritableAll gs
end

mutual
/-- The coordinate slice of the geometry, and of every geometry inside it, is
not the nil slice (slices further in may be nil). -/
def NoNil : G → Prop
  | .multiPoint ps => ps ≠ none
  | .lineString ps => ps ≠ none
  | .multiLineString ls => ls ≠ none
  | .polygon rs => rs ≠ none
  | .multiPolygon ps => ps ≠ none
  | .collection (some gs) => NoNilAll gs
  | _ => True
/-- No member has a nil coordinate slice. -/
def NoNilAll : List G → Prop
  | [] => True
  | g :: gs => NoNil g ∧ NoNilAll gs
end

mutual
/-- The same geometry with every polygon ring closed (and a nil collection
become an empty one). -/
def closedGeom : G → G
  | .polygon rs => .polygon (rs.map (·.map (·.map closed)))
  | .multiPolygon ps => .multiPolygon (ps.map (·.map (·.map (·.map (·.map closed)))))
  | .collection none => .collection (some [])
  | .collection (some gs) => .collection (some (closedGeoms gs))
  | g => g
/-- Member by member. -/
def closedGeoms : List G → List G
  | [] => []
  | g :: gs => closedGeom g :: closedGeoms gs
end

mutual
/-- Every number in a property value is finite. -/
def FinVal : Val → Prop
  | .num f => fin f
  | .arr vs => FinVals vs
  | .map kvs => FinFields kvs
  | _ => True
/-- Element by element. -/
def FinVals : List Val → Prop
  | [] => True
  | v :: vs => FinVal v ∧ FinVals vs
/-- Entry by entry. -/
def FinFields : List (Str × Val) → Prop
  | [] => True
  | (_, v) :: kvs => FinVal v ∧ FinFields kvs
end

mutual
/-- No key twice in a map (a Go map never has one). -/
def MapVal : Val → Prop
  | .arr vs => MapVals vs
  | .map kvs => MapFields kvs ∧ (kvs.map (·.1)).Nodup
  | _ => True
/-- Element by element. -/
def MapVals : List Val → Prop
  | [] => True
  | v :: vs => MapVal v ∧ MapVals vs
/-- Entry by entry. -/
def MapFields : List (Str × Val) → Prop
  | [] => True
  | (_, v) :: kvs => MapVal v ∧ MapFields kvs
end

/-- The numbers in the properties of a feature are finite. -/
def FinProps : Props → Prop
  | none => True
  | some kvs => FinVal (.map kvs)

/-- The properties of a feature are a Go map, of Go maps. -/
def MapProps : Props → Prop
  | none => True
  | some kvs => MapVal (.map kvs)

/-- A feature whose geometry and properties can be written. -/
def WritableFeature : G → Prop
  | .feature _ g props => Writable g ∧ FinProps props
  | _ => False

/-- The properties of the feature are a Go map. -/
def MapFeature : G → Prop
  | .feature _ _ props => MapProps props
  | _ => True

/-- The feature with the rings of its geometry closed. -/
def closedFeature : G → G
  | .feature id g props => .feature id (closedGeom g) props
  | g => g

/-- The geometry of a feature has no nil coordinate slice. -/
def NoNilFeature : G → Prop
  | .feature _ g _ => NoNil g
  | _ => True

/-- The members of GeoJSON objects that mean something to a reader. -/
def knownNames : List Str :=
  ["type".toList, "coordinates".toList, "geometries".toList, "id".toList, "geometry".toList,
   "properties".toList, "features".toList]

/-- A name that is none of them, in upper or lower case. -/
def Foreign (k : Str) : Prop := k.map Char.toLower ∉ knownNames

mutual
/-- Nowhere in the document is there a `null` under the names `type`,
`coordinates` or `geometries`, or in an array under `geometries`. -/
def NoNulls : Json → Prop
  | .arr js => NoNullsAll js
  | .obj kvs => NoNullsFields kvs
  | _ => True
/-- Element by element. -/
def NoNullsAll : List Json → Prop
  | [] => True
  | j :: js => NoNulls j ∧ NoNullsAll js
/-- Member by member. -/
def NoNullsFields : List (Str × Json) → Prop
  | [] => True
  | (k, j) :: kvs =>
    (k ∈ ["type".toList, "coordinates".toList, "geometries".toList] → j ≠ .null) ∧
    (k = "geometries".toList → ∀ js, j = .arr js → ∀ m ∈ js, m ≠ .null) ∧
    NoNulls j ∧ NoNullsFields kvs
end

/-- The part of memory a slice may write to: its elements and its spare
capacity. -/
def region (s : Slice) (i : Nat) : Prop := s.off ≤ i ∧ i < s.off + s.cap

/-- A slice as Go makes them: inside the memory, length within capacity. -/
def wellFormed (mem : List (Pt F64)) (s : Slice) : Prop :=
  s.len ≤ s.cap ∧ s.off + s.cap ≤ mem.length

/-- The vertices a slice shows in a memory. -/
def shows (mem : List (Pt F64)) (s : Slice) : List (Pt F64) :=
  (List.range s.len).filterMap fun i => mem[s.off + i]?

end Verif.Spec.GeoJson
