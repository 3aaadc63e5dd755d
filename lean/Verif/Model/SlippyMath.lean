import Verif.Model.Slippy
import Mathlib.Analysis.SpecialFunctions.Trigonometric.Arctan
import Mathlib.Analysis.SpecialFunctions.Log.Basic

/-!
# Conversions between degrees and tiles (slippy/maths.go, slippy/tile_grid.go)

Over the real numbers: the rounding of float64 is not modelled.  `log`, `tan`,
`atan` and `exp` are the real functions.
-/

namespace Verif.Slippy
open Real

/-- `Zoom.N` (slippy/tile.go:21). -/
noncomputable def zoomN (z : ℕ) : ℝ := 2 ^ z

/-- `DefaultTileSize` (maths.go:21). -/
def defaultTileSize : ℕ := 256
/-- `Lat4326Max` (maths.go:23). -/
noncomputable def lat4326Max : ℝ := 85.05112
/-- `Lon4326Max` (maths.go:25). -/
noncomputable def lon4326Max : ℝ := 180
/-- `floatVariance` (maths.go:38). -/
noncomputable def floatVariance : ℝ := 0.000001

/-- `Degree2Radians` (maths.go:42-44). -/
noncomputable def degree2Radians (d : ℝ) : ℝ := d * π / 180
/-- `Radians2Degree` (maths.go:47-49). -/
noncomputable def radians2Degree (r : ℝ) : ℝ := r * 180 / π

/-- `int(f)`: towards zero (Go language; slippy/maths.go:61-116). -/
noncomputable def goInt (f : ℝ) : ℤ := if 0 ≤ f then ⌊f⌋ else ⌈f⌉

/-- `if tileSize == 0 { tileSize = DefaultTileSize }` (maths.go:56-58, 78-80, 101-103,
125-127). -/
def tileSizeOr (ts : ℕ) : ℕ := if ts = 0 then defaultTileSize else ts

/-- `lat2Px` (maths.go:77-94). -/
noncomputable def lat2Px (ts z : ℕ) (lat : ℝ) : ℝ :=
  let worldSize := (tileSizeOr ts : ℝ) * zoomN z
  let latNormalized := log (tan (degree2Radians (45 + lat / 2)))
  (180 - radians2Degree latNormalized) / 360 * worldSize + floatVariance

/-- `lat2Num` (maths.go:55-71). -/
noncomputable def lat2Num (ts z : ℕ) (lat : ℝ) : ℤ :=
  if lat < -lat4326Max then goInt (zoomN z - 1)
  else if lat4326Max < lat then 0
  else goInt (lat2Px (tileSizeOr ts) z lat / (tileSizeOr ts : ℝ))

/-- `lon2Px` (maths.go:124-135). -/
noncomputable def lon2Px (ts z : ℕ) (lon : ℝ) : ℝ :=
  let worldSize := (tileSizeOr ts : ℝ) * zoomN z
  (180 + lon) / 360 * worldSize + floatVariance

/-- `lon2Num` (maths.go:100-118). -/
noncomputable def lon2Num (ts z : ℕ) (lon : ℝ) : ℤ :=
  if lon ≤ -lon4326Max then 0
  else if lon4326Max ≤ lon then goInt (zoomN z - 1)
  else goInt (lon2Px (tileSizeOr ts) z lon / (tileSizeOr ts : ℝ))

/-- `x2deg` (maths.go:141-147). -/
noncomputable def x2deg (z x : ℕ) : ℝ := (x : ℝ) / zoomN z * 360 - 180

/-- `y2deg` (maths.go:149-153). -/
noncomputable def y2deg (z y : ℕ) : ℝ :=
  let n := π - 2 * π * (y : ℝ) / zoomN z
  180 / π * arctan (0.5 * (exp n - exp (-n)))

/-- `Grid4326.FromNative` (tile_grid.go:153-161), point as (longitude, latitude). -/
noncomputable def fromNative4326 (ts z : ℕ) (p : ℝ × ℝ) : Tile :=
  ⟨z, toUint (lon2Num ts z p.1), toUint (lat2Num ts z p.2)⟩

/-- `Grid4326.ToNative` (tile_grid.go:162-166). -/
noncomputable def toNative4326 (t : Tile) : ℝ × ℝ := (x2deg t.z t.x, y2deg t.z t.y)

end Verif.Slippy
