import Verif.Spec.MvtLayer

/-!
# Vocabulary for whole tiles
-/

namespace Verif.Spec.MvtTile
open Verif Verif.Mvt

/-- The geometries the tile format has a place for. -/
def tileKind : Geom Int → Bool
  | .collection _ => false
  | .other => false
  | _ => true

/-- A line without a single point, alone or among others. -/
def pointless : Geom Int → Bool
  | .lineString l => l.isEmpty
  | .multiLineString ls => ls.any (·.isEmpty)
  | _ => false

/-- All features of the layers, in order. -/
def featuresOf (ls : List Layer) : List Feature := ls.flatMap (·.features)

/-- The layer has the extent `e`, as last set, or 4096 as the format has it. -/
def HasExtent (l : Layer) (e : Int) : Prop :=
  l.extent = some e ∨ (l.extent = none ∧ e = 4096)

end Verif.Spec.MvtTile
