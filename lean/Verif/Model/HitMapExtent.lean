import Verif.Model.HitMap

/-!
# The extent and the area of a hit map (planar/makevalid/hitmap)

In exact arithmetic, as in `Verif.Model.HitMap`.
-/

namespace Verif.HitMap
open Verif.KdTree (Box)

variable {K : Type} [Field K] [LinearOrder K]

/-- bbox.go:171-173 `Extent.Area`; sides are from bbox.go:68-91 (`YSpan`, `XSpan`). -/
def boxArea (e : Box K) : K := |(e.maxy - e.miny) * (e.maxx - e.minx)|

/-- planar/makevalid/hitmap/polygon_hitmap.go:130 `PolygonHM.Extent`. -/
def PolygonHM.extent (hm : PolygonHM K) : Box K := hm.clipBox

/-- planar/makevalid/hitmap/polygon_hitmap.go:133 `PolygonHM.Area`. -/
def PolygonHM.area (hm : PolygonHM K) : K := boxArea hm.clipBox

mutual
/-- `Extent` of a `PolygonHM`, and of an `OrderedHM` (planar/makevalid/hitmap/hitmap.go:56-62), which
starts from the zero extent. -/
def HM.extent : HM K → Box K
  | .poly hm => hm.extent
  | .ordered hms => extentFrom ⟨0, 0, 0, 0⟩ hms

/-- The loop of `OrderedHM.Extent` (planar/makevalid/hitmap/hitmap.go:58-60). -/
def extentFrom (e : Box K) : List (HM K) → Box K
  | [] => e
  | hm :: hms => extentFrom (boxMerge e hm.extent) hms
end

/-- `Area` of a `PolygonHM`, and of an `OrderedHM` (planar/makevalid/hitmap/hitmap.go:65-67). -/
def HM.area : HM K → K
  | .poly hm => hm.area
  | .ordered hms => boxArea (HM.ordered hms).extent

/-- planar/makevalid/hitmap/hitmap.go:37-40 `ByAreaDec.Less`. -/
def hmLess (a b : HM K) : Bool := decide (a.area < b.area)

end Verif.HitMap
