import Mathlib.Algebra.Order.Field.Basic

/-!
# Regions of a sphere (spherical/extent.go)

In exact arithmetic (an ordered field); degrees, points as (longitude, latitude).
-/

namespace Verif.Spherical

variable {K : Type} [Field K] [LinearOrder K]

/-- `geom.Extent` as the package fills it (spherical/extent.go:31-32): west, south, east,
north. -/
structure Region (K : Type) where
  west : K
  south : K
  east : K
  north : K
  deriving DecidableEq, Repr

/-- `Extent` (spherical/extent.go:32-39). -/
def extent (westy easty : K × K) : Region K :=
  let north := westy.2
  let south := easty.2
  let (south, north) := if north < south then (north, south) else (south, north)
  ⟨westy.1, south, easty.1, north⟩

/-- `Hull` (spherical/extent.go:11-28). -/
def hull (a b : K × K) : Region K :=
  let (w, e) :=
    if 180 < |a.1 - b.1| then
      if a.1 < b.1 then (b.1, a.1) else (a.1, b.1)
    else
      if b.1 < a.1 then (b.1, a.1) else (a.1, b.1)
  extent (w, a.2) (e, b.2)

end Verif.Spherical
