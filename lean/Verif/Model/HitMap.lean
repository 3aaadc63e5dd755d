import Verif.Model.Intersect
import Mathlib.Data.Int.Log

/-!
# Labelling points as inside or outside of polygons (planar/makevalid/hitmap)

In exact arithmetic (an ordered field with a floor).  `peq` is the `PointEqual` that the rings use,
`search` the index of a ring of more than 16 segments.  A NaN coordinate, for which `big.NewFloat`
panics, has no place in the model.
-/

namespace Verif.HitMap
open Verif.Planar (Line)
open Verif.KdTree (Box)
open Verif.Intersect (ringSegs ringBox boxContains ringContains ray)

/-- planar/interfaces.go:24-29; `Unknown` is never given by the hit maps. -/
inductive Label where
  | outside
  | inside
  deriving DecidableEq, Repr

variable {K : Type} [Field K] [LinearOrder K]

/-- planar/makevalid/hitmap/ring.go:29-32 `Ring`; the `intersect.Ring` is given by its segments. -/
structure Ring (K : Type) where
  segs : List (Line K)
  label : Label

/-- planar/makevalid/hitmap/ring.go:66-70 `NewRing`. -/
def newRing (pts : List (Pt K)) (label : Label) : Ring K := ⟨ringSegs pts, label⟩

/-- planar/intersect/ring.go:21-26, 91-96: the segments that are tested for a ray, all of them for a
ring of up to 16 segments, else those that the index gives. -/
def candidates (search : List (Line K) → Line K → List Nat) (segs : List (Line K)) (l : Line K) : List Nat :=
  if segs.length > 16 then search segs l else List.range segs.length

/-- planar/makevalid/hitmap/ring.go:64 `Ring.ContainsPoint`; the border belongs to a ring that is
labelled inside (68). -/
def Ring.containsPoint (peq : Pt K → Pt K → Bool) (search : List (Line K) → Line K → List Nat)
    (r : Ring K) (pt : Pt K) : Bool :=
  ringContains peq (r.label == .inside) r.segs (candidates search r.segs (ray r.segs pt)) pt

/-- bbox.go:171-173 `Extent.Area` of the `Extent` of a ring (planar/intersect/ring.go:62-67). -/
def Ring.area (r : Ring K) : K :=
  |((ringBox r.segs).maxy - (ringBox r.segs).miny) * ((ringBox r.segs).maxx - (ringBox r.segs).minx)|

/-- planar/makevalid/hitmap/ring.go:77-83 `bySmallestBBArea.Less`. -/
def ringLess (a b : Ring K) : Bool :=
  if a.label ≠ b.label then a.label == .outside else decide (a.area < b.area)

/-- planar/makevalid/hitmap/polygon_hitmap.go:15-21 `PolygonHM`. -/
structure PolygonHM (K : Type) where
  clipBox : Box K
  rings : List (Ring K)

/-- bbox.go:128-136 `Extent.Add` for two extents that are not nil. -/
def boxMerge (e o : Box K) : Box K := ⟨min e.minx o.minx, min e.miny o.miny, max e.maxx o.maxx, max e.maxy o.maxy⟩

/-- The rings that one polygon adds (planar/makevalid/hitmap/polygon_hitmap.go:49-80), in order.
Neither a polygon without rings nor one whose first ring is empty adds any. -/
def polyRings : List (List (Pt K)) → List (Ring K)
  | [] => []
  | [] :: _ => []
  | (p :: ps) :: holes =>
    newRing (p :: ps) .inside ::
      (holes.filter (fun h => !h.isEmpty)).map (fun h => newRing h .outside)

/-- The `clipBox` (planar/makevalid/hitmap/polygon_hitmap.go:35-37, 58-61, 74-77): it starts as the
zero extent, and is only extended if no clip box is given. -/
def clipBoxFor (clip : Option (Box K)) (rings : List (Ring K)) : Box K :=
  match clip with
  | some _ => ⟨0, 0, 0, 0⟩
  | none => rings.foldl (fun e r => boxMerge e (ringBox r.segs)) ⟨0, 0, 0, 0⟩

/-- planar/makevalid/hitmap/polygon_hitmap.go:33-89 `NewFromPolygons`, which gives no error; `sort` is
`sort.Sort(bySmallestBBArea(·))`. -/
def newFromPolygons (sort : List (Ring K) → List (Ring K)) (clip : Option (Box K))
    (plys : List (List (List (Pt K)))) : PolygonHM K :=
  let rings := (plys.map polyRings).flatten
  ⟨clipBoxFor clip rings, sort rings⟩

/-- The loop over the rings (planar/makevalid/hitmap/polygon_hitmap.go:115-126). -/
def firstHit (peq : Pt K → Pt K → Bool) (search : List (Line K) → Line K → List Nat) (pt : Pt K) :
    List (Ring K) → Label
  | [] => .outside
  | r :: rs => if r.containsPoint peq search pt then r.label else firstHit peq search pt rs

section Round
variable [FloorRing K]

/-- Rounding to an integer, ties to the even one: the rounding mode of a `big.Float` that none was
chosen for (package math/big, called at planar/line_intersect.go:78-113). -/
def roundEven (x : K) : Int :=
  if x - ⌊x⌋ < 1 / 2 then ⌊x⌋
  else if x - ⌊x⌋ > 1 / 2 then ⌊x⌋ + 1
  else if ⌊x⌋ % 2 = 0 then ⌊x⌋ else ⌊x⌋ + 1

/-- `big.NewFloat(x).SetPrec(20)` and back (planar/makevalid/hitmap/polygon_hitmap.go:93-95): the
mantissa is rounded to 20 bits.  The overflow of the very largest floats is not modelled. -/
def prec20 (x : K) : K :=
  if x = 0 then 0
  else (roundEven (x / 2 ^ (Int.log 2 |x| - 19)) : K) * 2 ^ (Int.log 2 |x| - 19)

/-- planar/makevalid/hitmap/polygon_hitmap.go:92-127 `PolygonHM.LabelFor` on a hit map that is not
nil. -/
def PolygonHM.labelFor (peq : Pt K → Pt K → Bool) (search : List (Line K) → Line K → List Nat)
    (hm : PolygonHM K) (pt : Pt K) : Label :=
  let pt := (prec20 pt.1, prec20 pt.2)
  if !boxContains hm.clipBox pt then .outside else firstHit peq search pt hm.rings

end Round

/-- A `planar.HitMapper` that `New` builds (planar/makevalid/hitmap/hitmap.go:44, 88-136). -/
inductive HM (K : Type) where
  | poly (hm : PolygonHM K)
  | ordered (hms : List (HM K))

section New
variable (sort : List (Ring K) → List (Ring K)) (sortHM : List (HM K) → List (HM K))

mutual
/-- planar/makevalid/hitmap/hitmap.go:88-136 `New`; its clip box is not used.  `none` is
`ErrUnknownGeometry`, `some none` the nil hit map.  `sortHM` is `sort.Sort(ByAreaDec(·))`; then
`NewOrderedHM` (70-77) reverses. -/
def new : Geom K → Option (Option (HM K))
  | .polygon rs => some (some (.poly (newFromPolygons sort none [rs])))
  | .multiPolygon ps => some (some (.poly (newFromPolygons sort none ps)))
  | .collection gs => (newList gs).map fun hms => some (.ordered (sortHM hms).reverse)
  | .point _ => some none
  | .multiPoint _ => some none
  | .lineString _ => some none
  | .multiLineString _ => some none
  | .other => none

/-- planar/makevalid/hitmap/hitmap.go:115-126 the loop over the members: nil hit maps are left out. -/
def newList : List (Geom K) → Option (List (HM K))
  | [] => some []
  | g :: gs =>
    match new g with
    | none => none
    | some none => newList gs
    | some (some hm) => (newList gs).map (hm :: ·)
end
end New

section Label
variable [FloorRing K] (peq : Pt K → Pt K → Bool) (search : List (Line K) → Line K → List Nat)

mutual
/-- `LabelFor` of a `PolygonHM`, and of an `OrderedHM` (planar/makevalid/hitmap/hitmap.go:46-53). -/
def HM.labelFor (pt : Pt K) : HM K → Label
  | .poly hm => hm.labelFor peq search pt
  | .ordered hms => labelForAny pt hms

/-- The loop of `OrderedHM.LabelFor` (planar/makevalid/hitmap/hitmap.go:47-52). -/
def labelForAny (pt : Pt K) : List (HM K) → Label
  | [] => .outside
  | hm :: hms => if HM.labelFor pt hm = .inside then .inside else labelForAny pt hms
end
end Label

end Verif.HitMap
