import Verif.Spec.HitMap
import Verif.Model.HitMapExtent

/-!
# What the extent of a hit map should be
-/

namespace Verif.Spec.HitMapExtent

section Geom
variable {K : Type}

/-- The vertices of a polygon; a polygon whose outer ring is empty has none. -/
def vertices (poly : List (List (Pt K))) : List (Pt K) :=
  if (poly.head?.getD []).isEmpty then [] else poly.flatten

/-- The vertices of the polygons of a geometry, however deep in collections. -/
def verticesOf (g : Geom K) : List (Pt K) :=
  (Spec.HitMap.areas g).flatMap fun mp => mp.flatMap vertices

/-- The origin. -/
def origin [Zero K] : Pt K := (0, 0)

/-- The point is between the sides. -/
def Between [LE K] (x0 y0 x1 y1 : K) (p : Pt K) : Prop := x0 ≤ p.1 ∧ p.1 ≤ x1 ∧ y0 ≤ p.2 ∧ p.2 ≤ y1

/-- The sides are those of the least box around the points. -/
def LeastAround [LE K] (ps : List (Pt K)) (x0 y0 x1 y1 : K) : Prop :=
  (∀ p ∈ ps, Between x0 y0 x1 y1 p) ∧
    (∃ p ∈ ps, p.1 = x0) ∧ (∃ p ∈ ps, p.2 = y0) ∧ (∃ p ∈ ps, p.1 = x1) ∧ ∃ p ∈ ps, p.2 = y1

end Geom

section Order
variable {K : Type} [Field K] [LinearOrder K]
open Verif.HitMap (HM hmLess)

/-- What `sort.Sort(ByAreaDec(·))` guarantees, whatever it does with ties. -/
def SortsHM (sortHM : List (HM K) → List (HM K)) : Prop :=
  ∀ l, (sortHM l).Perm l ∧ (sortHM l).Pairwise (fun a b => hmLess b a = false)

end Order

end Verif.Spec.HitMapExtent
