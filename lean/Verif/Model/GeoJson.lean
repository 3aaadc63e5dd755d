import Verif.Model.F64
import Verif.Model.Geom

/-!
# encoding/geojson

The package writes and reads through Go's `encoding/json`.  The text layer of
that library is not modelled: a document is a JSON *value* (`Json`), numbers in
it keep their literal text, and how a `float64` or `uint64` is formatted and
parsed is a parameter.  What `encoding/json` does with values (which fields are
written, nil slices written as `null`, `null` read into a pointer, a slice, a
number or an array, arrays of the wrong length read into `[2]float64`, field
names of structs matched without regard to case, errors of struct fields saved
while decoding goes on) is modelled explicitly below.
-/

namespace Verif.GeoJson
open Verif

/-- A JSON string, as its characters
(encoding/json, called at encoding/geojson/geojson.go:52-82, 100-125). -/
abbrev Str := List Char

/-- A JSON value (RFC 8259; what encoding/json reads and writes).  `num` keeps
the literal (called at encoding/geojson/geojson.go:52-82, 100-125). -/
inductive Json where
  | null
  | bool (b : Bool)
  | num (lit : List Byte)
  | str (s : Str)
  | arr (js : List Json)
  | obj (kvs : List (Str × Json))
  deriving Inhabited

/-- A Go value of dynamic type nil, bool, float64, string, []interface{} or
map[string]interface{}: the values `encoding/json` produces for an
`interface{}`, hence those in Feature.Properties after decoding
(geojson.go:303).  Maps are lists of pairs in the order in which
`encoding/json` writes their keys. -/
inductive Val where
  | nil
  | bool (b : Bool)
  | num (f : F64)
  | str (s : Str)
  | arr (vs : List Val)
  | map (kvs : List (Str × Val))
  deriving Inhabited

/-- A slice value: `none` is the nil slice (Go language; geojson.go:212-287). -/
abbrev Sl (α : Type) := Option (List α)

/-- What Feature.Properties holds (geojson.go:303): `none` is the nil map. -/
abbrev Props := Option (List (Str × Val))

/-- A value held by `Geometry.Geometry` (geojson.go:208-210).  One constructor
per case of MarshalJSON (geojson.go:222-284), with slices that may be nil;
`feature` (geojson.go:297-304) and `features` (geojson.go:316-319) because
UnmarshalJSON can also store those two (geojson.go:429-442); `other` is any
other value, including nil. -/
inductive G where
  | point (p : Pt F64)
  | multiPoint (ps : Sl (Pt F64))
  | lineString (ps : Sl (Pt F64))
  | multiLineString (ls : Sl (Sl (Pt F64)))
  | polygon (rs : Sl (Sl (Pt F64)))
  | multiPolygon (ps : Sl (Sl (Sl (Pt F64))))
  | collection (gs : Option (List G))
  | feature (id : Option (BitVec 64)) (g : G) (props : Props)
  | features (fs : Option (List G))
  | other
  deriving Inhabited

/-- Result of a call: a value, an error, or a run-time panic (geojson.go:52-125). -/
inductive Res (α : Type) where
  | ok (a : α)
  | err
  | panic
  deriving DecidableEq, Inhabited

/-- Sequencing with early return (`if err != nil { return err }`)
(Go idiom; e.g. geojson.go:338-349). -/
def Res.bind {α β : Type} (r : Res α) (f : α → Res β) : Res β :=
  match r with
  | .ok a => f a
  | .err => .err
  | .panic => .panic

/-- Apply a function to a successful result (Go idiom; e.g. geojson.go:338-349). -/
def Res.map {α β : Type} (f : α → β) (r : Res α) : Res β := r.bind (fun a => .ok (f a))

/-! Constants, geojson.go:26-42 and the struct tags at 298-303, 317-318. -/

/-- geojson.go:27 -/
def tPoint : Str := ['P','o','i','n','t']
/-- geojson.go:28 -/
def tMultiPoint : Str := ['M','u','l','t','i','P','o','i','n','t']
/-- geojson.go:29 -/
def tLineString : Str := ['L','i','n','e','S','t','r','i','n','g']
/-- geojson.go:30 -/
def tMultiLineString : Str := ['M','u','l','t','i','L','i','n','e','S','t','r','i','n','g']
/-- geojson.go:31 -/
def tPolygon : Str := ['P','o','l','y','g','o','n']
/-- geojson.go:32 -/
def tMultiPolygon : Str := ['M','u','l','t','i','P','o','l','y','g','o','n']
/-- geojson.go:33 -/
def tCollection : Str := ['G','e','o','m','e','t','r','y','C','o','l','l','e','c','t','i','o','n']
/-- geojson.go:34 -/
def tFeature : Str := ['F','e','a','t','u','r','e']
/-- geojson.go:35 -/
def tFeatureCollection : Str := ['F','e','a','t','u','r','e','C','o','l','l','e','c','t','i','o','n']
/-- geojson.go:39, 298, 317 -/
def kType : Str := ['t','y','p','e']
/-- geojson.go:40 -/
def kCoordinates : Str := ['c','o','o','r','d','i','n','a','t','e','s']
/-- geojson.go:41 -/
def kGeometries : Str := ['g','e','o','m','e','t','r','i','e','s']
/-- geojson.go:299 -/
def kId : Str := ['i','d']
/-- geojson.go:301 -/
def kGeometry : Str := ['g','e','o','m','e','t','r','y']
/-- geojson.go:303 -/
def kProperties : Str := ['p','r','o','p','e','r','t','i','e','s']
/-- geojson.go:318 -/
def kFeatures : Str := ['f','e','a','t','u','r','e','s']

/-! ## Closing rings -/

/-- Go `==` on `[2]float64` (used at geojson.go:332). -/
def ptEq (a b : Pt F64) : Bool := F64.eq a.1 b.1 && F64.eq a.2 b.2

/-- One iteration of closePolygon, geojson.go:326-334, on the contents of the
ring. -/
def closeRing (r : List (Pt F64)) : List (Pt F64) :=
  match r with
  | [] => []
  | a :: t => if !ptEq a ((a :: t).getLast (by simp)) then (a :: t) ++ [a] else a :: t

/-- closePolygon, geojson.go:324-336, on contents: rings stored apart from each
other.  `closePolygonMem` below models the shared memory. -/
def closeRings (rs : Sl (Sl (Pt F64))) : Sl (Sl (Pt F64)) := rs.map (·.map (·.map closeRing))

/-- A Go slice header into one backing memory (Go language; geojson.go:324-336). -/
structure Slice where
  off : Nat
  len : Nat
  cap : Nat
  deriving DecidableEq, Repr

/-- Contents of a slice (Go language; geojson.go:324-336). -/
def Slice.read (mem : List (Pt F64)) (s : Slice) : List (Pt F64) := (mem.drop s.off).take s.len

/-- Go `append(s, v)` (language spec; used at geojson.go:333): in place when
there is spare capacity, otherwise into fresh memory (here: at the end). -/
def Slice.append (mem : List (Pt F64)) (s : Slice) (v : Pt F64) : List (Pt F64) × Slice :=
  if s.len < s.cap then (mem.set (s.off + s.len) v, { s with len := s.len + 1 })
  else (mem ++ (s.read mem ++ [v]), ⟨mem.length, s.len + 1, s.len + 1⟩)

/-- One iteration of closePolygon with its memory, geojson.go:326-334. -/
def closeSlice (mem : List (Pt F64)) (s : Slice) : List (Pt F64) × Slice :=
  match s.read mem with
  | [] => (mem, s)
  | a :: t => if !ptEq a ((a :: t).getLast (by simp)) then s.append mem a else (mem, s)

/-- closePolygon with its memory, geojson.go:324-336.  The returned slices are
what the *caller's* polygon holds afterwards: `p[i] = …` at line 333 stores
into the array the caller's polygon value refers to, because
geom.Polygon.LinearRings returns the polygon itself (polygon.go:23-25). -/
def closePolygonMem : List (Pt F64) → List Slice → List (Pt F64) × List Slice
  | mem, [] => (mem, [])
  | mem, s :: ss =>
    ((closePolygonMem (closeSlice mem s).1 ss).1, (closeSlice mem s).2 :: (closePolygonMem (closeSlice mem s).1 ss).2)

/-- The loop over the polygons of a multipolygon, geojson.go:260-262, with its
memory. -/
def closeMultiMem : List (Pt F64) → List (List Slice) → List (Pt F64) × List (List Slice)
  | mem, [] => (mem, [])
  | mem, p :: ps =>
    ((closeMultiMem (closePolygonMem mem p).1 ps).1,
      (closePolygonMem mem p).2 :: (closeMultiMem (closePolygonMem mem p).1 ps).2)

/-! ## Writing -/

/-- encoding/json on a float64: NaN and the infinities are an
UnsupportedValueError (called from geojson.go:212-287). -/
def numJson (fmt : F64 → List Byte) (f : F64) : Res Json :=
  if f.isNaN || f.isInf then .err else .ok (.num (fmt f))

/-- encoding/json on `[2]float64` (called from geojson.go:212-287). -/
def posJson (fmt : F64 → List Byte) (p : Pt F64) : Res Json :=
  (numJson fmt p.1).bind fun a => (numJson fmt p.2).bind fun b => .ok (.arr [a, b])

/-- The elements of a slice, stopping at the first error
(encoding/json, called from geojson.go:212-287). -/
def listJson {α : Type} (f : α → Res Json) : List α → Res (List Json)
  | [] => .ok []
  | a :: as => (f a).bind fun j => (listJson f as).bind fun js => .ok (j :: js)

/-- encoding/json on a slice: nil is `null` (called from geojson.go:212-287). -/
def slJson {α : Type} (f : α → Res Json) : Sl α → Res Json
  | none => .ok .null
  | some l => (listJson f l).map .arr

/-- `coordinates{Type: t, Coords: c}`, geojson.go:213-216.  `omitempty` on an
interface field drops only the nil interface, so the field is always there. -/
def coordsObj (t : Str) (c : Res Json) : Res Json :=
  c.map fun j => .obj [(kType, .str t), (kCoordinates, j)]

/-- `collection{Type: …, Geometries: js}`, geojson.go:217-220 and 277-280:
`omitempty` drops the empty list. -/
def collectionObj (js : List Json) : Json :=
  match js with
  | [] => .obj [(kType, .str tCollection)]
  | j :: js => .obj [(kType, .str tCollection), (kGeometries, .arr (j :: js))]

mutual
/-- Geometry.MarshalJSON, geojson.go:212-285. -/
def marshalGeom (fmt : F64 → List Byte) : G → Res Json
  | .point p => coordsObj tPoint (posJson fmt p)
  | .multiPoint ps => coordsObj tMultiPoint (slJson (posJson fmt) ps)
  | .lineString ps => coordsObj tLineString (slJson (posJson fmt) ps)
  | .multiLineString ls => coordsObj tMultiLineString (slJson (slJson (posJson fmt)) ls)
  | .polygon rs => coordsObj tPolygon (slJson (slJson (posJson fmt)) (closeRings rs))
  | .multiPolygon ps =>
    coordsObj tMultiPolygon (slJson (slJson (slJson (posJson fmt))) (ps.map (·.map closeRings)))
  | .collection none => .ok (collectionObj [])
  | .collection (some gs) => (marshalGeoms fmt gs).map collectionObj
  | .feature _ _ _ => .err
  | .features _ => .err
  | .other => .err
/-- The members of a collection, geojson.go:272-280. -/
def marshalGeoms (fmt : F64 → List Byte) : List G → Res (List Json)
  | [] => .ok []
  | g :: gs => (marshalGeom fmt g).bind fun j => (marshalGeoms fmt gs).bind fun js => .ok (j :: js)
end

mutual
/-- encoding/json on a property value (geojson.go:303). -/
def valJson (fmt : F64 → List Byte) : Val → Res Json
  | .nil => .ok .null
  | .bool b => .ok (.bool b)
  | .num f => numJson fmt f
  | .str s => .ok (.str s)
  | .arr vs => (valsJson fmt vs).map .arr
  | .map kvs => (fieldsJson fmt kvs).map .obj
/-- Elements of a property array (encoding/json on geojson.go:297-306). -/
def valsJson (fmt : F64 → List Byte) : List Val → Res (List Json)
  | [] => .ok []
  | v :: vs => (valJson fmt v).bind fun j => (valsJson fmt vs).bind fun js => .ok (j :: js)
/-- Entries of a property map (encoding/json on geojson.go:297-306). -/
def fieldsJson (fmt : F64 → List Byte) : List (Str × Val) → Res (List (Str × Json))
  | [] => .ok []
  | (k, v) :: kvs =>
    (valJson fmt v).bind fun j => (fieldsJson fmt kvs).bind fun js => .ok ((k, j) :: js)
end

/-- Feature.Properties (geojson.go:303): a nil map is `null`. -/
def propsJson (fmt : F64 → List Byte) : Props → Res Json
  | none => .ok .null
  | some kvs => (fieldsJson fmt kvs).map .obj

/-- Feature.ID (geojson.go:299): `omitempty` on a pointer drops nil. -/
def idField (fmtU : BitVec 64 → List Byte) : Option (BitVec 64) → List (Str × Json)
  | none => []
  | some n => [(kId, .num (fmtU n))]

/-- encoding/json on a Feature, geojson.go:297-304. -/
def featureJson (fmt : F64 → List Byte) (fmtU : BitVec 64 → List Byte)
    (id : Option (BitVec 64)) (g : G) (props : Props) : Res Json :=
  (marshalGeom fmt g).bind fun gj => (propsJson fmt props).bind fun pj =>
    .ok (.obj ((kType, .str tFeature) :: (idField fmtU id ++ [(kGeometry, gj), (kProperties, pj)])))

/-- An element of FeatureCollection.Features (geojson.go:318).  A `G` that is
not a feature cannot occur there (the Go element type is Feature). -/
def memberJson (fmt : F64 → List Byte) (fmtU : BitVec 64 → List Byte) : G → Res Json
  | .feature id g props => featureJson fmt fmtU id g props
  | _ => .err

/-- encoding/json on a FeatureCollection, geojson.go:316-319. -/
def featuresJson (fmt : F64 → List Byte) (fmtU : BitVec 64 → List Byte) (fs : Sl G) : Res Json :=
  (slJson (memberJson fmt fmtU) fs).map fun j =>
    .obj [(kType, .str tFeatureCollection), (kFeatures, j)]

/-- isGeomGeometry, geojson.go:127-146. -/
def isGeom : G → Bool
  | .feature _ _ _ => false
  | .features _ => false
  | .other => false
  | _ => true

/-- What can be handed to Marshal (geojson.go:52): a Feature or
FeatureCollection or a geometry (`value`), a `Geometry` wrapper, or a slice of
geometries. -/
inductive Input where
  | value (g : G)
  | wrapped (g : G)
  | slice (gs : List G)

/-- Marshal, geojson.go:52-79. -/
def marshal (fmt : F64 → List Byte) (fmtU : BitVec 64 → List Byte) : Input → Res Json
  | .value (.feature id g props) => featureJson fmt fmtU id g props
  | .value (.features fs) => featuresJson fmt fmtU fs
  | .value g => if isGeom g then featureJson fmt fmtU none g none else .err
  | .wrapped g => featureJson fmt fmtU none g none
  | .slice gs =>
    if gs.all isGeom then featuresJson fmt fmtU (some (gs.map fun g => .feature none g none)) else .err

/-! ## Reading -/

/-- What reading a value into a `map[string]…` leaves for a key: a later member
of the same name replaces an earlier one (encoding/json, called from geojson.go:338-372). -/
def lookup (k : Str) (kvs : List (Str × Json)) : Option Json :=
  kvs.foldl (fun acc kv => if kv.1 = k then some kv.2 else acc) none

/-- encoding/json into a float64 that is zero: `null` leaves it zero, a number
out of range or any other value is an error (called from geojson.go:338-446). -/
def decNum (parse : List Byte → Option F64) : Json → Res F64
  | .num lit => match parse lit with
    | some f => .ok f
    | none => .err
  | .null => .ok F64.zero
  | _ => .err

/-- encoding/json into `[2]float64`: missing elements are zero, further ones
are skipped, `null` leaves it zero (called from geojson.go:338-446). -/
def decPos (parse : List Byte → Option F64) : Json → Res (Pt F64)
  | .null => .ok (F64.zero, F64.zero)
  | .arr [] => .ok (F64.zero, F64.zero)
  | .arr [a] => (decNum parse a).bind fun x => .ok (x, F64.zero)
  | .arr (a :: b :: _) => (decNum parse a).bind fun x => (decNum parse b).bind fun y => .ok (x, y)
  | _ => .err

/-- Elements of an array (encoding/json, called from geojson.go:338-446). -/
def decList {α : Type} (f : Json → Res α) : List Json → Res (List α)
  | [] => .ok []
  | j :: js => (f j).bind fun a => (decList f js).bind fun as => .ok (a :: as)

/-- encoding/json into a nil slice (called from geojson.go:338-446). -/
def decSl {α : Type} (f : Json → Res α) : Json → Res (Sl α)
  | .null => .ok none
  | .arr js => (decList f js).map some
  | _ => .err

/-- decodeField, geojson.go:338-346, for a field that is in the map or not:
absent is ErrMissingField; a JSON `null` has been stored as a nil
`*json.RawMessage`, and `*g` at line 340 dereferences it. -/
def decodeField {α : Type} (f : Json → Res α) : Option Json → Res α
  | none => .err
  | some .null => .panic
  | some j => f j

/-- encoding/json into a string (called from geojson.go:338-372). -/
def decStr : Json → Res Str
  | .str s => .ok s
  | .null => .ok []
  | _ => .err

/-- Setting a key of a Go map (an existing key keeps its place in the list)
(Go language; geojson.go:297-306). -/
def setKey (k : Str) (v : Val) : List (Str × Val) → List (Str × Val)
  | [] => [(k, v)]
  | (k', v') :: m => if k' = k then (k, v) :: m else (k', v') :: setKey k v m

mutual
/-- encoding/json into an empty `interface{}`; a number out of range is an
error (on geojson.go:297-306). -/
def decVal (parse : List Byte → Option F64) : Json → Res Val
  | .null => .ok .nil
  | .bool b => .ok (.bool b)
  | .num lit => match parse lit with
    | some f => .ok (.num f)
    | none => .err
  | .str s => .ok (.str s)
  | .arr js => (decVals parse js).map .arr
  | .obj kvs => (decFields parse kvs []).map .map
/-- Elements of an array (encoding/json on geojson.go:297-306). -/
def decVals (parse : List Byte → Option F64) : List Json → Res (List Val)
  | [] => .ok []
  | j :: js => (decVal parse j).bind fun v => (decVals parse js).bind fun vs => .ok (v :: vs)
/-- Members of an object, into a map that may already have keys
(encoding/json on geojson.go:297-306). -/
def decFields (parse : List Byte → Option F64) :
    List (Str × Json) → List (Str × Val) → Res (List (Str × Val))
  | [], m => .ok m
  | (k, j) :: kvs, m => (decVal parse j).bind fun v => decFields parse kvs (setKey k v m)
end

/-- How encoding/json matches a member name with the tag of a struct field:
without regard to case.  Simplification: ASCII letters only (the library also
folds U+017F and U+212A) (on geojson.go:297-306, 316-322). -/
def fold (s : Str) : Str := s.map Char.toLower

/-- A Feature being decoded: its fields, whether an error has been saved,
whether the decoder has panicked (geojson.go:297-306). -/
structure FState where
  id : Option (BitVec 64) := none
  g : G := .other
  props : Props := none
  bad : Bool := false
  crash : Bool := false

/-- The feature a decoding state stands for (geojson.go:430-435, 109-113). -/
def FState.result (s : FState) : Res G :=
  if s.crash then .panic else if s.bad then .err else .ok (.feature s.id s.g s.props)

/-- Member `id` of a Feature (geojson.go:299). -/
def setId (parseU : List Byte → Option (BitVec 64)) (j : Json) (s : FState) : FState :=
  match j with
  | .null => { s with id := none }
  | .num lit => match parseU lit with
    | some n => { s with id := some n }
    | none => { s with bad := true }
  | _ => { s with bad := true }

/-- Member `geometry` of a Feature (geojson.go:301), given what
Geometry.UnmarshalJSON returned. -/
def setGeom (r : Res G) (s : FState) : FState :=
  match r with
  | .ok g => { s with g := g }
  | .err => { s with bad := true }
  | .panic => { s with crash := true }

/-- Member `properties` of a Feature (geojson.go:303); an object is merged into
what an earlier member of the same name left. -/
def setProps (parse : List Byte → Option F64) (j : Json) (s : FState) : FState :=
  match j with
  | .null => { s with props := none }
  | .obj kvs => match decFields parse kvs (s.props.getD []) with
    | .ok m => { s with props := some m }
    | _ => { s with bad := true }
  | _ => { s with bad := true }

/-- Results of decoding array elements one after the other, errors being saved:
`none` for a panic, otherwise whether all went well, and the values
(encoding/json on geojson.go:316-322). -/
def collectFeatures : List (Res G) → Res (List G)
  | [] => .ok []
  | r :: rs => match r, collectFeatures rs with
    | .panic, _ => .panic
    | _, .panic => .panic
    | .err, _ => .err
    | _, .err => .err
    | .ok g, .ok gs => .ok (g :: gs)

/-- Type of the geometry object: decodeField for `type`, geojson.go:357-360. -/
def typeOf (kvs : List (Str × Json)) : Res Str := decodeField decStr (lookup kType kvs)

/-- Two decoding attempts one after the other where the error of the first is
saved and the second still runs (encoding/json on geojson.go:297-322). -/
def Res.after {α : Type} (first : Option (Res α)) (later : Option (Res α)) : Option (Res α) :=
  match first, later with
  | none, r => r
  | r, none => r
  | some .panic, _ => some .panic
  | some .err, some .panic => some .panic
  | some .err, some _ => some .err
  | some (.ok _), r => r

mutual
/-- Geometry.UnmarshalJSON, geojson.go:351-446. -/
def unmarshalGeom (parse : List Byte → Option F64) (parseU : List Byte → Option (BitVec 64)) :
    Json → Res G
  | .obj kvs =>
    (typeOf kvs).bind fun t =>
      if t = tPoint then (decodeField (decPos parse) (lookup kCoordinates kvs)).map .point
      else if t = tPolygon then
        (decodeField (decSl (decSl (decPos parse))) (lookup kCoordinates kvs)).map .polygon
      else if t = tLineString then
        (decodeField (decSl (decPos parse)) (lookup kCoordinates kvs)).map .lineString
      else if t = tMultiPoint then
        (decodeField (decSl (decPos parse)) (lookup kCoordinates kvs)).map .multiPoint
      else if t = tMultiLineString then
        (decodeField (decSl (decSl (decPos parse))) (lookup kCoordinates kvs)).map .multiLineString
      else if t = tMultiPolygon then
        (decodeField (decSl (decSl (decSl (decPos parse)))) (lookup kCoordinates kvs)).map .multiPolygon
      else if t = tCollection then
        match geometriesOf parse parseU kvs none with
        | none => .ok (.collection (some []))
        | some r => r.map fun gs => .collection (some gs)
      else if t = tFeature then (featureFields parse parseU kvs {}).result
      else if t = tFeatureCollection then
        match featuresOf parse parseU kvs with
        | none => .ok (.features none)
        | some r => r.map .features
      else .err
  | .null => .err
  | _ => .err
/-- Field `geometries` of a collection, geojson.go:409-423, the last one if
there are several; `acc` is what an earlier one gave.  A `null` there, or a
`null` member, is a nil `*json.RawMessage` that lines 413 and 419
dereference. -/
def geometriesOf (parse : List Byte → Option F64) (parseU : List Byte → Option (BitVec 64)) :
    List (Str × Json) → Option (Res (List G)) → Option (Res (List G))
  | [], acc => acc
  | (k, j) :: kvs, acc =>
    geometriesOf parse parseU kvs
      (if k = kGeometries then some (membersOf parse parseU j) else acc)
/-- The value of the field `geometries`, geojson.go:413-423. -/
def membersOf (parse : List Byte → Option F64) (parseU : List Byte → Option (BitVec 64)) :
    Json → Res (List G)
  | .null => .panic
  | .arr js => unmarshalGeoms parse parseU js
  | _ => .err
/-- The loop over the members, geojson.go:417-423. -/
def unmarshalGeoms (parse : List Byte → Option F64) (parseU : List Byte → Option (BitVec 64)) :
    List Json → Res (List G)
  | [] => .ok []
  | .null :: _ => .panic
  | j :: js => (unmarshalGeom parse parseU j).bind fun g =>
      (unmarshalGeoms parse parseU js).bind fun gs => .ok (g :: gs)
/-- encoding/json on the members of an object read into a Feature
(geojson.go:297-304); `type` is ignored (line 294). -/
def featureFields (parse : List Byte → Option F64) (parseU : List Byte → Option (BitVec 64)) :
    List (Str × Json) → FState → FState
  | [], s => s
  | (k, j) :: kvs, s =>
    featureFields parse parseU kvs
      (if fold k = kId then setId parseU j s
       else if fold k = kGeometry then setGeom (unmarshalGeom parse parseU j) s
       else if fold k = kProperties then setProps parse j s
       else s)
/-- encoding/json on the members of an object read into a FeatureCollection
(geojson.go:316-319): `none` when there is no member `features`.
Simplification: of several members of that name the last gives the value,
without the element reuse encoding/json does. -/
def featuresOf (parse : List Byte → Option F64) (parseU : List Byte → Option (BitVec 64)) :
    List (Str × Json) → Option (Res (Sl G))
  | [] => none
  | (k, j) :: kvs =>
    Res.after (if fold k = kFeatures then some (featureArr parse parseU j) else none)
      (featuresOf parse parseU kvs)
/-- encoding/json into `[]Feature` (on geojson.go:316-322). -/
def featureArr (parse : List Byte → Option F64) (parseU : List Byte → Option (BitVec 64)) :
    Json → Res (Sl G)
  | .null => .ok none
  | .arr js => (collectFeatures (featureElems parse parseU js)).map some
  | _ => .err
/-- encoding/json into each element of `[]Feature` (on geojson.go:316-322). -/
def featureElems (parse : List Byte → Option F64) (parseU : List Byte → Option (BitVec 64)) :
    List Json → List (Res G)
  | [] => []
  | j :: js => featureElem parse parseU j :: featureElems parse parseU js
/-- encoding/json into one Feature: `null` leaves it zero, anything but an
object is an error (on geojson.go:297-306). -/
def featureElem (parse : List Byte → Option F64) (parseU : List Byte → Option (BitVec 64)) :
    Json → Res G
  | .null => (FState.mk none .other none false false).result
  | .obj kvs => (featureFields parse parseU kvs {}).result
  | _ => .err
end

/-- The `type` member as Unmarshal reads it into a struct, geojson.go:101-106:
names matched without regard to case, `null` leaves it, another kind of value
is an error. -/
def topType (kvs : List (Str × Json)) : Res Str :=
  kvs.foldl (fun acc kv =>
    if fold kv.1 = kType then
      match kv.2 with
      | .str s => acc.bind fun _ => .ok s
      | .null => acc
      | _ => .err
    else acc) (.ok [])

/-- Unmarshal, geojson.go:100-122.  `strings.ToLower` is taken on ASCII
letters. -/
def unmarshal (parse : List Byte → Option F64) (parseU : List Byte → Option (BitVec 64)) :
    Json → Res G
  | .obj kvs => (topType kvs).bind fun t =>
      if fold t = fold tFeature then (featureFields parse parseU kvs {}).result
      else if fold t = fold tFeatureCollection then
        match featuresOf parse parseU kvs with
        | none => .ok (.features none)
        | some r => r.map .features
      else .err
  | .null => .err
  | _ => .err

end Verif.GeoJson
