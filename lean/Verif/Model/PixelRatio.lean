import Verif.Model.SlippyMath
import Mathlib.Analysis.SpecialFunctions.Arsinh

/-!
# How large a pixel is (slippy/tile.go:147-170)

Over the real numbers, as `Verif.Model.SlippyMath`.
-/

namespace Verif.Slippy
open Real

/-- `ToNative` of a `TileGridder` (tile_grid.go:26-31): the upper left corner of a tile; `none` is an error. -/
abbrev RealGrid := Tile → Option (ℝ × ℝ)

/-- `Extent` of a tile (tile_grid.go:48-58) with `NewExtentFromPoints` (bbox.go:139-153): least x and y, greatest x and
y; `none` is a nil extent. -/
noncomputable def realExtent (g : RealGrid) (t : Tile) : Option (ℝ × ℝ × ℝ × ℝ) :=
  (g t).bind fun p => (g ⟨t.z, t.x + 1, t.y + 1⟩).bind fun q =>
    some (min p.1 q.1, min p.2 q.2, max p.1 q.1, max p.2 q.2)

/-- `MvtTileDim` (tile.go:148). -/
def mvtTileDim : ℕ := 4096

/-- `PixelRatioForZoom` (tile.go:155-164); `none` is the infinity that `XSpan` (bbox.go:70-75) of a nil extent gives. -/
noncomputable def pixelRatioForZoom (g : RealGrid) (zoom tileDim : ℕ) : Option ℝ :=
  let zoom := if maxZoom < zoom then maxZoom else zoom
  let tileDim := if tileDim = 0 then mvtTileDim else tileDim
  (realExtent g ⟨zoom, 0, 0⟩).map fun e => (e.2.2.1 - e.1) / tileDim

/-- `MvtPixelRationForZoom` (tile.go:168-170). -/
noncomputable def mvtPixelRatio (g : RealGrid) (zoom : ℕ) : Option ℝ := pixelRatioForZoom g zoom mvtTileDim

/-- `Grid4326` (tile_grid.go:162-166). -/
noncomputable def grid4326 : RealGrid := fun t => some (toNative4326 t)

/-- `Grid.ToNative` (tile_grid.go:122-130) for Web Mercator.  The conversion `proj.Convert` is in another module; it is
taken to be the Mercator projection of a sphere of radius `a`. -/
noncomputable def grid3857 (a : ℝ) : RealGrid := fun t =>
  some (a * degree2Radians (x2deg t.z t.x), a * arsinh (tan (degree2Radians (y2deg t.z t.y))))

end Verif.Slippy
