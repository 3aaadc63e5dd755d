import Verif.Model.SlippyMath

/-!
# The tiles of bounds in degrees (slippy/tile.go:106-145, tile_grid.go:153-161)
-/

namespace Verif.Slippy

/-- `FromBounds` (slippy/tile.go:111-145) with a `Grid4326` (tile_grid.go:132-166), which has no errors; the bounds are
not nil, and have the corners `mn` and `mx` as (longitude, latitude). -/
noncomputable def fromBounds4326 (ts : ℕ) (mn mx : ℝ × ℝ) (z : ℕ) : List Tile :=
  let p1 := fromNative4326 ts z mn
  let p2 := fromNative4326 ts z mx
  let (minx, maxx) := if p1.x > p2.x then (p2.x, p1.x) else (p1.x, p2.x)
  let (miny, maxy) := if p1.y > p2.y then (p2.y, p1.y) else (p1.y, p2.y)
  rectTiles z minx maxx miny maxy

end Verif.Slippy
