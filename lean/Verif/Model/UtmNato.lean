import Verif.Model.Utm
import Mathlib.Algebra.Order.Floor.Ring
import Mathlib.Data.Rat.Floor

/-!
# Eastings and northings for NATO (planar/coord/utm/utm.go:516-522)
-/

namespace Verif.Utm

/-- The conversion `int(f)` of utm.go:519 and 522: towards zero.  What Go does beyond the range of `int` is not
modelled. -/
def toInt {K : Type} [Field K] [LinearOrder K] [FloorRing K] (x : K) : Int := if 0 ≤ x then ⌊x⌋ else ⌈x⌉

/-- `x50` (utm.go:516). -/
def x50 : Int := 10 ^ 5

/-- `NatoEasting` (utm.go:518-519). -/
noncomputable def natoEasting (c : Coord) : Int := (toInt c.easting).tmod x50

/-- `NatoNorthing` (utm.go:521-522). -/
noncomputable def natoNorthing (c : Coord) : Int := (toInt c.northing).tmod x50

end Verif.Utm
