import Verif.Spec.Mvt
import Verif.Model.MvtDecode

/-!
# Vocabulary for tiles read back
-/

namespace Verif.Spec.MvtDecode
open Verif Verif.Mvt Verif.Spec.Mvt

/-- The number that the tile format has for a kind of geometry: 1 point, 2 line, 3 polygon. -/
inductive Numbered : Int → GType → Prop
  | point : Numbered 1 .point
  | line : Numbered 2 .lineString
  | polygon : Numbered 3 .polygon

/-- The feature is read as `d`: same id, no tags, and the geometry that its words stand for. -/
def FeatureReads (f : WireFeature) (d : ReadFeature) : Prop :=
  d.id = f.id ∧ d.tags = [] ∧
    ∃ n t, f.type = some n ∧ Numbered n t ∧ decodeGeometry t f.geometry = .ok d.geometry

/-- The layer is read as `d`: name, extent and features in order. -/
def LayerReads (l : WireLayer) (d : ReadLayer) : Prop :=
  d.name = l.name ∧ (∃ e, l.extent = some e ∧ d.extent = some (e.toNat : Int)) ∧
    List.Forall₂ FeatureReads l.features d.features

/-- Something in the feature that the reader panics about: no type, a type that is none of the
three, or words that it cannot make a geometry of. -/
def FeatureBreaks (f : WireFeature) : Prop :=
  f.type = none ∨ (∃ n, f.type = some n ∧ ∀ t, ¬ Numbered n t) ∨
    ∃ n t, f.type = some n ∧ Numbered n t ∧ decodeGeometry t f.geometry = .error .panic

/-- Something in the layer that the reader panics about: no extent, or a feature, where those before
it can be read. -/
def LayerBreaks (l : WireLayer) : Prop :=
  l.extent = none ∨ ∃ a f b, l.features = a ++ f :: b ∧ (∀ x ∈ a, ∃ d, FeatureReads x d) ∧ FeatureBreaks f

/-- The format allows the layer: every feature with a known type has words that make a geometry.
Extent and type may be left out, they are 4096 and 0 then; 0 stands for an unknown type. -/
def Allowed (l : WireLayer) : Prop :=
  ∀ f ∈ l.features, f.type.getD 0 = 0 ∨
    ∃ n t g, f.type = some n ∧ Numbered n t ∧ decodeGeometry t f.geometry = .ok g

/-- Geometries that a tile can carry whole: see C07 and C08. -/
def Carried : Geom Int → Prop
  | .point p => InRange (.point p)
  | .multiPoint ps => ps ≠ [] ∧ ps.length < 2 ^ 29 ∧ InRange (.multiPoint ps)
  | .lineString l => 2 ≤ l.length ∧ l.length ≤ 2 ^ 29 ∧ InRange (.lineString l)
  | .multiLineString ls => ls ≠ [] ∧ (∀ l ∈ ls, 2 ≤ l.length ∧ l.length ≤ 2 ^ 29) ∧
      InRange (.multiLineString ls)
  | .polygon p => properPolygon p ∧ (∀ r ∈ p, r.length ≤ 2 ^ 29) ∧ InRange (.polygon p)
  | .multiPolygon ps => ps ≠ [] ∧ (∀ p ∈ ps, properPolygon p) ∧
      (∀ p ∈ ps, ∀ r ∈ p, r.length ≤ 2 ^ 29) ∧ InRange (.multiPolygon ps)
  | .collection _ => False
  | .other => False

/-- How such a geometry comes back: a multi geometry with one member as that member, polygons with
their rings turned as the format wants them. -/
def comesBack : Geom Int → Geom Int
  | .polygon p => .polygon (tilePolygon p)
  | .multiPolygon ps => single (.multiPolygon (ps.map tilePolygon))
  | g => single g

/-- A feature as it comes back from a tile, apart from its tags. -/
def FeatureBack (f : Feature) (d : ReadFeature) : Prop :=
  d.id = f.id ∧ d.geometry = some (comesBack f.geometry)

end Verif.Spec.MvtDecode
