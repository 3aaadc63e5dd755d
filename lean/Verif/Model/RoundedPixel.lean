import Verif.Model.Rounded
import Verif.Model.MvtPrepare

/-!
# The position of a point in a tile, with the rounding of floats

As in `Verif.Model.Rounded`: a finite `float64` is the rational number it stands for, each operation rounds to 53
bits, nothing over- or underflows.
-/

namespace Verif.Rounded
open Verif
open Verif.MvtPrepare (Tile)

/-- encoding/mvt/prepare.go:81-87 `preparept`, with `XSpan` and `YSpan` (bbox.go:105-118). -/
def preparePt (tile : Tile ℚ) (px : ℚ) (g : Pt ℚ) : Pt ℚ :=
  (mul 53 (quo 53 (sub 53 g.1 tile.minX) (sub 53 tile.maxX tile.minX)) px,
   mul 53 (quo 53 (sub 53 tile.maxY g.2) (sub 53 tile.maxY tile.minY)) px)

end Verif.Rounded
