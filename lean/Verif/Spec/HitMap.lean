import Verif.Spec.Intersect
import Verif.Model.HitMap
import Mathlib.Data.List.Rotate

/-!
# What labelling points is for
-/

namespace Verif.Spec.HitMap
open Verif.Spec.Planar Verif.Spec.Intersect
open Verif.Planar (Line)
open Verif.HitMap (ringLess)

variable {K : Type} [Field K] [LinearOrder K]

/-- The sides of a ring: from each point to the next, from the last to the first. -/
def sides (ring : List (Pt K)) : List (Pt K × Pt K) := ring.zip (ring.rotate 1)

/-- The point is inside of the ring (by the even-odd rule) or on it. -/
def Within (ring : List (Pt K)) (p : Pt K) : Prop := OnBorder (sides ring) p ∨ InsideEvenOdd (sides ring) p

/-- The point is inside of the ring and not on it. -/
def Strictly (ring : List (Pt K)) (p : Pt K) : Prop := ¬ OnBorder (sides ring) p ∧ InsideEvenOdd (sides ring) p

/-- The point belongs to the polygon: inside of the first ring or on it, and not inside of one of the
holes. -/
def InPolygon (poly : List (List (Pt K))) (p : Pt K) : Prop :=
  ∃ outer holes, poly = outer :: holes ∧ Within outer p ∧ ∀ hole ∈ holes, ¬ Strictly hole p

/-- The index of a ring of more than 16 segments finds all segments that the ray meets (C87). -/
def GoodSearch (search : List (Line K) → Line K → List Nat) : Prop :=
  ∀ segs l, 16 < segs.length → Candidates segs l (search segs l)

/-- What `sort.Sort` does: the rings come out in an order in which none is less than one before it. -/
def Sorts (sort : List (HitMap.Ring K) → List (HitMap.Ring K)) : Prop :=
  ∀ l, (sort l).Perm l ∧ (sort l).Pairwise (fun a b => ringLess b a = false)

/-- The number has at most 20 significant bits. -/
def Fits20 (x : K) : Prop := ∃ m e : Int, |m| ≤ 2 ^ 20 ∧ x = m * 2 ^ e

/-- The same ring, up to where it starts and its direction. -/
def SameRing (r s : List (Pt K)) : Prop := r ~r s ∨ r.reverse ~r s

/-- The same polygon, up to the order of the holes and the way the rings are written. -/
def SamePolygon (a b : List (List (Pt K))) : Prop :=
  ∃ o hs o' hs' hs'', a = o :: hs ∧ b = o' :: hs' ∧ SameRing o o' ∧
    hs.Perm hs'' ∧ List.Forall₂ SameRing hs'' hs'

/-- The same polygons, up to their order. -/
def SamePolygons (as bs : List (List (List (Pt K)))) : Prop :=
  ∃ cs, as.Perm cs ∧ List.Forall₂ SamePolygon cs bs

mutual
/-- The polygons and multipolygons in a geometry, however deep in collections. -/
def areas : Geom K → List (List (List (List (Pt K))))
  | .polygon rs => [[rs]]
  | .multiPolygon ps => [ps]
  | .collection gs => areasOf gs
  | _ => []

/-- Those in the members of a collection. -/
def areasOf : List (Geom K) → List (List (List (List (Pt K))))
  | [] => []
  | g :: gs => areas g ++ areasOf gs
end

mutual
/-- Everything in the geometry is of one of the known kinds. -/
def Known : Geom K → Prop
  | .collection gs => KnownAll gs
  | .other => False
  | _ => True

/-- All members are of known kinds. -/
def KnownAll : List (Geom K) → Prop
  | [] => True
  | g :: gs => Known g ∧ KnownAll gs
end

end Verif.Spec.HitMap
