import Verif.Model.MvtPrepare
import Mathlib.Data.List.Destutter

/-!
# What tile pixels are

Only the `Tile` record is taken from the model.
-/

namespace Verif.Spec.MvtPrepare
open Verif Verif.MvtPrepare

variable {K : Type} [Field K] [LinearOrder K]

/-- `q` is the position of `p` in pixels: from the left edge of the tile rightwards
and from its top edge downwards, the width and the height of the tile being `px`
pixels each. -/
def PixelOf (tile : Tile K) (px : K) (p q : Pt K) : Prop :=
  q.1 * (tile.maxX - tile.minX) = (p.1 - tile.minX) * px ∧
  q.2 * (tile.maxY - tile.minY) = (tile.maxY - p.2) * px

/-- Each point of `qs` is the pixel position of the point of `ps` in the same place. -/
def PixelsOf (tile : Tile K) (px : K) (ps qs : List (Pt K)) : Prop :=
  List.Forall₂ (PixelOf tile px) ps qs

/-- Two positions that the comparison of coordinates tells apart. -/
def Differ (feq : K → K → Bool) (p q : Pt K) : Prop := ¬ (feq p.1 q.1 = true ∧ feq p.2 q.2 = true)

instance (feq : K → K → Bool) : DecidableRel (Differ feq) := fun p q => by unfold Differ; infer_instance

/-- The points without those equal to the last one kept. -/
def thin (feq : K → K → Bool) (qs : List (Pt K)) : List (Pt K) := qs.destutter (Differ feq)

/-- The ring without its last point if this is equal to the first. -/
def opened (feq : K → K → Bool) (qs : List (Pt K)) : List (Pt K) :=
  if ∃ f ∈ qs.head?, ∃ l ∈ qs.getLast?, ¬ Differ feq f l then qs.dropLast else qs

/-- A tile with some width and height. -/
def _root_.Verif.MvtPrepare.Tile.Proper (tile : Tile K) : Prop := tile.minX ≠ tile.maxX ∧ tile.minY ≠ tile.maxY

/-- A ring of two or more points all of which are equal to the first one when
measured in pixels. -/
def Collapses (feq : K → K → Bool) (tile : Tile K) (px : K) (ring : List (Pt K)) : Prop :=
  2 ≤ ring.length ∧ ∃ f qs, PixelsOf tile px ring (f :: qs) ∧ ∀ q ∈ qs, ¬ Differ feq f q

/-- The rings of a geometry. -/
def ringsOf : Geo K → List (List (Pt K))
  | .polygon p => p
  | .multiPolygon ps => ps.flatten
  | .multiPolygonPtr (some ps) => ps.flatten
  | _ => []

end Verif.Spec.MvtPrepare
