import Verif.Model.Mvt
import Verif.Model.F64

/-!
# MVT features, layers and tiles (encoding/mvt/feature.go, layer.go, tile.go)
-/

namespace Verif.Mvt
open Verif

/-- The Go integer types a tag value can have (encoding/mvt/feature.go:360-576). -/
inductive IntKind where
  | int | int8 | int16 | int32 | int64 | uint | uint8 | uint16 | uint32 | uint64
  deriving DecidableEq, Repr

/-- A tag value (`interface{}`), by the type switch of feature.go:376-565.
`stringer s` is a `fmt.Stringer` whose `String()` is `s` (assumed constant);
`float32` holds the float64 with the same value; integers are in the range of
their type; `unsupported` is any other non-nil value. -/
inductive TagVal where
  | nil
  | string (s : String)
  | stringer (s : String)
  | num (k : IntKind) (v : Int)
  | float32 (f : F64)
  | float64 (f : F64)
  | bool (b : Bool)
  | unsupported
  deriving DecidableEq, Repr

/-- The comparison in each case of the type switches (feature.go:384-563,
621-690): same Go type and `==` (for floats IEEE equality). -/
def sameVal : TagVal → TagVal → Bool
  | .string a, .string b => a == b
  | .stringer a, .stringer b => a == b
  | .num k a, .num k' b => k == k' && a == b
  | .float32 a, .float32 b => a.eq b
  | .float64 a, .float64 b => a.eq b
  | .bool a, .bool b => a == b
  | _, _ => false

/-- A feature's tags in one iteration order of the Go map (encoding/mvt/feature.go:28-33). -/
abbrev Tags := List (String × TagVal)

/-- One round of the tag loop of `keyvalMapsFromFeatures` (feature.go:363-570):
`none` is the error for an unsupported type.  The key is appended before the value
is looked at. -/
def addTag (t : List String × List TagVal) (kv : String × TagVal) : Option (List String × List TagVal) :=
  let keys := if t.1.any (fun mk => kv.1 == mk) then t.1 else t.1 ++ [kv.1]
  match kv.2 with
  | .nil => some (keys, t.2)
  | .unsupported => none
  | v => some (keys, if t.2.any (fun mv => sameVal mv v) then t.2 else t.2 ++ [v])

/-- The inner loop over one feature's tags (encoding/mvt/feature.go:360-576). -/
def addTags (t : List String × List TagVal) : Tags → Option (List String × List TagVal)
  | [] => some t
  | kv :: kvs =>
    match addTag t kv with
    | none => none
    | some t' => addTags t' kvs

/-- `keyvalMapsFromFeatures` (feature.go:360-573). -/
def keyvalMaps (t : List String × List TagVal) : List Tags → Option (List String × List TagVal)
  | [] => some t
  | f :: fs =>
    match addTags t f with
    | none => none
    | some t' => keyvalMaps t' fs

/-- `keyvalTagsMap` (feature.go:578-702) for a non-nil feature; `none` is an error
(key or value not found, or unsupported type). -/
def keyvalTags (keys : List String) (vals : List TagVal) : Tags → Option (List Word)
  | [] => some []
  | (k, v) :: kvs =>
    match keys.findIdx? (fun mk => mk == k) with
    | none => none
    | some ki =>
      if v = .nil then keyvalTags keys vals kvs
      else
        match vals.findIdx? (fun mv => sameVal mv v) with
        | none => none
        | some vi => (keyvalTags keys vals kvs).map (fun r => BitVec.ofNat 32 ki :: BitVec.ofNat 32 vi :: r)

/-- `vectorTile.Tile_Value`: the one field that is set
(encoding/mvt/vector_tile/vector_tile.pb.go:100). -/
inductive TileVal where
  | string (s : String)
  | float (f : F64)
  | double (f : F64)
  | int (i : Int)
  | uint (i : Int)
  | sint (i : Int)
  | bool (b : Bool)
  | empty
  deriving DecidableEq, Repr

/-- `vectorTileValue` (layer.go:133-192).  `int` and `uint` fall in the default
case, where `binary.Write` fails for them because they have no fixed size, so the
value stays empty.  (`unsupported` values never get here; nil either.) -/
def vectorTileValue : TagVal → TileVal
  | .string s => .string s
  | .stringer s => .string s
  | .bool b => .bool b
  | .num .int8 v => .sint v
  | .num .int16 v => .sint v
  | .num .int32 v => .sint v
  | .num .int64 v => .int v
  | .num .uint8 v => .sint v
  | .num .uint16 v => .sint v
  | .num .uint32 v => .sint v
  | .num .uint64 v => .uint v
  | .num .int _ => .empty
  | .num .uint _ => .empty
  | .float32 f => .float f
  | .float64 f => .double f
  | .nil => .empty
  | .unsupported => .empty

/-- A feature handed to a layer (feature.go:28-32): id, its tags as the first loop
(`keyvalMapsFromFeatures`) and as the second loop (`keyvalTagsMap`) iterate over
them, and the geometry. -/
structure Feature where
  id : Option Nat
  tags1 : Tags
  tags2 : Tags
  geometry : Geom Int

/-- `vectorTile.Tile_Feature` (encoding/mvt/vector_tile/vector_tile.pb.go:176). -/
structure TileFeature where
  id : Option Nat
  tags : List Word
  type : GType
  geometry : List Word
  deriving DecidableEq, Repr

/-- Results that may be an error or a panic (encoding/mvt/feature.go:70-92, layer.go:33-76). -/
inductive Res (α : Type) where
  | ok (a : α)
  | err
  | panic
  deriving Repr

/-- `VTileFeature` (feature.go:70-91); `ok none` is the nil feature of an empty
geometry. -/
def vtileFeature (keys : List String) (vals : List TagVal) (f : Feature) : Res (Option TileFeature) :=
  match keyvalTags keys vals f.tags2 with
  | none => .err
  | some tags =>
    match encodeGeometry f.geometry with
    | .panic => .panic
    | .unknownGeometry => .err
    | .ok ws t => if ws.length = 0 then .ok none else .ok (some ⟨f.id, tags, t, ws⟩)

/-- The feature loop of `VTileLayer` (layer.go:42-61).  `cancelled i` says whether
the context is done when feature `i` is reached. -/
def vtileFeatures (cancelled : Nat → Bool) (keys : List String) (vals : List TagVal) :
    Nat → List Feature → Res (List TileFeature)
  | _, [] => .ok []
  | i, f :: fs =>
    if cancelled i then .err
    else
      match vtileFeature keys vals f with
      | .err => .err
      | .panic => .panic
      | .ok tf =>
        match vtileFeatures cancelled keys vals (i + 1) fs with
        | .err => .err
        | .panic => .panic
        | .ok tfs => .ok (tf.toList ++ tfs)

/-- `Layer` (layer.go:15-22). -/
structure Layer where
  name : String
  features : List Feature
  extent : Option Int

/-- `vectorTile.Tile_Layer` (encoding/mvt/vector_tile/vector_tile.pb.go:229). -/
structure TileLayer where
  version : Nat
  name : String
  features : List TileFeature
  keys : List String
  values : List TileVal
  extent : BitVec 32

/-- `Layer.Extent` (layer.go:81-86), DefaultExtent 4096 (mvt.go:38). -/
def Layer.getExtent (l : Layer) : Int := l.extent.getD 4096

/-- `Layer.SetExtent` (layer.go:89-94). -/
def Layer.setExtent (l : Layer) (e : Int) : Layer := { l with extent := some e }

/-- `VTileLayer` (layer.go:33-75), version 2 (mvt.go:37). -/
def vtileLayer (cancelled : Nat → Bool) (l : Layer) : Res TileLayer :=
  match keyvalMaps ([], []) (l.features.map (·.tags1)) with
  | none => .err
  | some (keys, vals) =>
    match vtileFeatures cancelled keys vals 0 l.features with
    | .err => .err
    | .panic => .panic
    | .ok fs => .ok ⟨2, l.name, fs, keys, vals.map vectorTileValue, BitVec.ofInt 32 l.getExtent⟩

/-! ## Feature list of a layer -/

/-- `Layer.Features` (layer.go:98-104) as a value. -/
def Layer.getFeatures (l : Layer) : List Feature := l.features

/-- `Layer.AddFeatures` (layer.go:108-116). -/
def Layer.addFeatures (l : Layer) (fs : List Feature) : Layer := { l with features := l.features ++ fs }

/-- The list `RemoveFeature` computes (layer.go:121-130). -/
def keepOthers (idxs : List Int) : Nat → List Feature → List Feature
  | _, [] => []
  | i, f :: fs => if idxs.any (fun j => (i : Int) == j) then keepOthers idxs (i + 1) fs
                  else f :: keepOthers idxs (i + 1) fs

/-- `Layer.RemoveFeature` (layer.go:120-131): the list is computed and then
dropped, `l.features` is not assigned. -/
def Layer.removeFeature (l : Layer) (idxs : List Int) : Layer :=
  let _features := keepOthers idxs 0 l.features
  l

/-! ## Layers of a tile -/

/-- `Tile.AddLayers` (tile.go:17-35): layers afterwards, and whether an error was
returned. -/
def addLayers (layers : List Layer) : List (Option Layer) → List Layer × Bool
  | [] => (layers, false)
  | none :: nls => addLayers layers nls
  | some nl :: nls =>
    if layers.any (fun l => l.name == nl.name) then (layers, true)
    else addLayers (layers ++ [nl]) nls

/-- The layer loop of `VTile` (tile.go:45-63). -/
def vtile (cancelled : Nat → Bool) : List Layer → Res (List TileLayer)
  | [] => .ok []
  | l :: ls =>
    match vtileLayer cancelled l with
    | .err => .err
    | .panic => .panic
    | .ok tl =>
      match vtile cancelled ls with
      | .err => .err
      | .panic => .panic
      | .ok tls => .ok (tl :: tls)

/-! ## NewFeatures -/

/-- A geometry as `NewFeatures` sees it: nil, a `geom.Collection`, or anything
else (encoding/mvt/feature.go:48-68). -/
inductive Tree (β : Type) where
  | nil
  | leaf (g : β)
  | collection (gs : List (Tree β))

mutual
/-- `NewFeatures` (feature.go:48-67): geometry and tags of each feature. -/
def newFeatures {β τ : Type} (tags : τ) : Tree β → List (β × τ)
  | .nil => []
  | .collection gs => newFeaturesAll tags gs
  | .leaf g => [(g, tags)]
/-- The member loop (feature.go:55-57). -/
def newFeaturesAll {β τ : Type} (tags : τ) : List (Tree β) → List (β × τ)
  | [] => []
  | g :: gs => newFeatures tags g ++ newFeaturesAll tags gs
end

end Verif.Mvt
