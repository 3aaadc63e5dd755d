import Verif.Model.Utm

/-!
# The scale of the transverse Mercator projection (planar/coord/utm/utm.go:315-349)

Over the real numbers, as `Verif.Model.Utm`.
-/

namespace Verif.Utm
open Real

/-- `l0` (utm.go:20). -/
def l0 : ℝ := 0

/-- `ScalarFactor` (utm.go:316-349). -/
noncomputable def scalarFactor (l : LngLat ℝ) (e : ℝ) : ℝ :=
  let dl := toRadian l.lng - l0
  let dl2 := dl * dl
  let dl4 := dl2 * dl2
  let dl6 := dl4 * dl2
  let e2 := e * e / (1 - e * e)
  let e4 := e2 * e2
  let e6 := e4 * e2
  let c := cos (toRadian l.lat)
  let c2 := c * c
  let c4 := c2 * c2
  let c6 := c4 * c2
  let t := tan (toRadian l.lat)
  let t2 := t * t
  let t4 := t2 * t2
  let t26 := c2 / 2 * (1 + e2 * c2)
  let t27 := c4 / 24 * (5 - 4 * t2 + 24 * e2 * c2 + 13 * e4 * c4 - 28 * t2 * e2 * c2 + 4 * e6 * c6
    - 48 * t2 * e4 * c4 - 24 * t2 * e6 * c6)
  let t28 := c6 / 720 * (61 - 148 * t2 + 16 * t4)
  k0 * (1 + dl2 * t26 + dl4 * t27 + dl6 * t28)

end Verif.Utm
