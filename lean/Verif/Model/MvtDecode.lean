import Verif.Model.MvtLayer

/-!
# Reading a whole tile (encoding/mvt/decode.go:17-99)

The bytes are read by `proto.Unmarshal`, which is not modelled: the model starts
with the message it returns.  A layer without name or version is refused there,
because the two are marked `req` (vector_tile.pb.go:234-235).
-/

namespace Verif.Mvt
open Verif

/-- `vectorTile.Tile_Feature` as read from the wire
(encoding/mvt/vector_tile/vector_tile.pb.go:176-190): id and type may be missing,
the type is any number. -/
structure WireFeature where
  id : Option Nat
  tags : List Word
  type : Option Int
  geometry : List Word
  deriving DecidableEq, Repr

/-- `vectorTile.Tile_Layer` as read from the wire
(encoding/mvt/vector_tile/vector_tile.pb.go:229-246): the extent may be missing. -/
structure WireLayer where
  version : Nat
  name : String
  features : List WireFeature
  keys : List String
  values : List TileVal
  extent : Option (BitVec 32)
  deriving DecidableEq, Repr

/-- The numbers of `Tile_GeomType` (encoding/mvt/vector_tile/vector_tile.pb.go:34-39). -/
def gtypeNumber : GType → Int
  | .point => 1
  | .lineString => 2
  | .polygon => 3

/-- What the wire carries of a feature made by `VTileFeature`
(encoding/mvt/feature.go:84-90: type is always set). -/
def TileFeature.wire (f : TileFeature) : WireFeature :=
  ⟨f.id, f.tags, some (gtypeNumber f.type), f.geometry⟩

/-- What the wire carries of a layer made by `VTileLayer`
(encoding/mvt/layer.go:65-74: extent is always set). -/
def TileLayer.wire (l : TileLayer) : WireLayer :=
  ⟨l.version, l.name, l.features.map (·.wire), l.keys, l.values, some l.extent⟩

/-- A `Feature` made by the decoder (encoding/mvt/feature.go:28-33); a nil geometry
is `none`.  `tags` are the pairs of the map. -/
structure ReadFeature where
  id : Option Nat
  tags : Tags
  geometry : Option (Geom Int)

/-- A `Layer` made by the decoder (encoding/mvt/layer.go:15-22). -/
structure ReadLayer where
  name : String
  features : List ReadFeature
  extent : Option Int

/-- `DecodeGeometry` (decode.go:87-99) with the type as a number: 0 (unknown) and
all other numbers reach the panic of the default case. -/
def decodeByNumber (t : Int) (ws : List Word) : Res (Option (Geom Int)) :=
  let r :=
    if t = 2 then decodeGeometry .lineString ws
    else if t = 1 then decodeGeometry .point ws
    else if t = 3 then decodeGeometry .polygon ws
    else .error .panic
  match r with
  | .ok g => .ok g
  | .error .panic => .panic
  | .error _ => .err

/-- `decodeFeature` (decode.go:79-85): `*pb.Type` of a missing type is a nil
dereference; the tags are not read. -/
def decodeFeature (f : WireFeature) : Res ReadFeature :=
  match f.type with
  | none => .panic
  | some t =>
    match decodeByNumber t f.geometry with
    | .ok g => .ok ⟨f.id, [], g⟩
    | .err => .err
    | .panic => .panic

/-- The loop of `decodeLayer` (decode.go:69-74). -/
def decodeFeatures : List WireFeature → Res (List ReadFeature)
  | [] => .ok []
  | f :: fs =>
    match decodeFeature f with
    | .err => .err
    | .panic => .panic
    | .ok d =>
      match decodeFeatures fs with
      | .err => .err
      | .panic => .panic
      | .ok ds => .ok (d :: ds)

/-- `decodeLayer` (decode.go:63-77): `*pb.Extent` of a missing extent is a nil
dereference; `int(uint32)` keeps the value. -/
def decodeLayer (l : WireLayer) : Res ReadLayer :=
  match l.extent with
  | none => .panic
  | some e =>
    match decodeFeatures l.features with
    | .ok fs => .ok ⟨l.name, fs, some (e.toNat : Int)⟩
    | .err => .err
    | .panic => .panic

/-- `DecodeByte` (decode.go:41-61) after `proto.Unmarshal`. -/
def decodeTile : List WireLayer → Res (List ReadLayer)
  | [] => .ok []
  | l :: ls =>
    match decodeLayer l with
    | .err => .err
    | .panic => .panic
    | .ok d =>
      match decodeTile ls with
      | .err => .err
      | .panic => .panic
      | .ok ds => .ok (d :: ds)

/-- `TileGeomCollection` (decode.go:17-28); a nil geometry is kept as nil. -/
def tileGeomCollection (ls : List ReadLayer) : List (Option (Geom Int)) :=
  ls.foldl (fun acc l => l.features.foldl (fun acc f => acc ++ [f.geometry]) acc) []

end Verif.Mvt
