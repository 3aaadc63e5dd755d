import Verif.Model.SlippyMath

/-!
# The size of a zoom (slippy/tile.go:21-29, tile_grid.go:103-108, 138-143)
-/

namespace Verif.Slippy

/-- `Zoom.TileSize` (slippy/tile.go:22-29): `math.Exp2` of a whole number is exact, and the conversion to uint too; zooms
from 64 on, where it overflows, are not modelled. -/
def zoomTileSize (z : ℕ) : Tile := ⟨z, 2 ^ z, 2 ^ z⟩

/-- `Grid.Size` and `Grid4326.Size` (slippy/tile_grid.go:103-108, 138-143), `none` for false. -/
def gridSize (z : ℕ) : Option Tile := if z > maxZoom then none else some (zoomTileSize z)

end Verif.Slippy
