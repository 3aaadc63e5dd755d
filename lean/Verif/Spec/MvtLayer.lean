import Verif.Model.MvtLayer

/-!
# Specification vocabulary for MVT layers

How a reader of the tile recovers the tags of a feature, and what a tile value
means for a Go value.
-/

namespace Verif.Spec.MvtLayer
open Verif Verif.Mvt

/-- A reader's view of a feature: pairs of indices into the key and value tables. -/
def readTags (keys : List String) (vals : List TileVal) : List Word → Option (List (String × TileVal))
  | [] => some []
  | [_] => none
  | k :: v :: r =>
    match keys[k.toNat]?, vals[v.toNat]?, readTags keys vals r with
    | some k, some v, some r => some ((k, v) :: r)
    | _, _, _ => none

/-- The tile value stands for the Go value: the same text, truth value or number. -/
def stands : TagVal → TileVal → Prop
  | .string s, .string t => t = s
  | .stringer s, .string t => t = s
  | .bool b, .bool c => c = b
  | .num _ v, .sint w => w = v
  | .num _ v, .int w => w = v
  | .num _ v, .uint w => w = v
  | .float32 f, .float g => g.eq f = true
  | .float64 f, .double g => g.eq f = true
  | _, _ => False

/-- The tags a feature should have in the tile: the non-nil ones. -/
def present (ts : Tags) : Tags := ts.filter (fun kv => decide (kv.2 ≠ .nil))

/-- `out` lists exactly the given tags, one for one. -/
def Recovers : Tags → List (String × TileVal) → Prop
  | [], [] => True
  | (k, v) :: ts, (k', w) :: out => k' = k ∧ stands v w ∧ Recovers ts out
  | _, _ => False

/-- A value the tile format has a place for; a float must be a number. -/
def supported : TagVal → Prop
  | .unsupported => False
  | .float32 f => f.isNaN = false
  | .float64 f => f.isNaN = false
  | _ => True

/-- Values of Go's plain `int` and `uint` types. -/
def plainInt : TagVal → Prop
  | .num .int _ => True
  | .num .uint _ => True
  | _ => False

/-- The leaves of a geometry tree, depth first. -/
inductive Leaves {β : Type} : Tree β → List β → Prop
  | nil : Leaves .nil []
  | leaf (g) : Leaves (.leaf g) [g]
  | empty : Leaves (.collection []) []
  | member (g gs a b) : Leaves g a → Leaves (.collection gs) b → Leaves (.collection (g :: gs)) (a ++ b)

/-- The features that get into the tile: those whose geometry has words. -/
def drawn (f : Feature) : Bool :=
  match encodeGeometry f.geometry with
  | .ok [] _ => false
  | _ => true

/-- What can be done to the feature list of a layer. -/
inductive FeatureOp where
  | add (fs : List Feature)
  | remove (idxs : List Int)

/-- The list without the positions named. -/
def without (idxs : List Int) (fs : List Feature) : List Feature :=
  (fs.zipIdx.filter (fun p => decide ((p.2 : Int) ∉ idxs))).map (·.1)

/-- What the feature list should be after a history. -/
def intended (start : List Feature) : List FeatureOp → List Feature
  | [] => start
  | .add fs :: ops => intended (start ++ fs) ops
  | .remove idxs :: ops => intended (without idxs start) ops

/-- No removal of the history names a position that exists at that time. -/
def RemovesNothing (start : List Feature) : List FeatureOp → Prop
  | [] => True
  | .add fs :: ops => RemovesNothing (start ++ fs) ops
  | .remove idxs :: ops => (∀ i ∈ idxs, i < 0 ∨ (start.length : Int) ≤ i) ∧ RemovesNothing start ops

/-- The layer after the history, by the code's own operations. -/
def perform (l : Layer) : List FeatureOp → Layer
  | [] => l
  | .add fs :: ops => perform (l.addFeatures fs) ops
  | .remove idxs :: ops => perform (l.removeFeature idxs) ops

end Verif.Spec.MvtLayer
