import Verif.Model.Geom
import Mathlib.Algebra.Order.Ring.Defs

/-!
# Winding order (winding/winding.go)

Coordinates range over an arbitrary linearly ordered commutative ring: the
rounding of the float64 sums and products is not modelled (the sums are exact on
integers below 2^26 or so).
-/

namespace Verif.Winding
open Verif

variable {α : Type} [CommRing α] [LinearOrder α]

/-- `Clockwise`, `Colinear`, `CounterClockwise` (winding.go:18-29), an int8. -/
def clockwise : Int := -1
/-- winding.go:18-29. -/
def colinear : Int := 0
/-- See `clockwise` (winding.go:18-29). -/
def counterClockwise : Int := 1

/-- `Winding.Not` (winding.go:69-71). -/
def not (w : Int) : Int := -1 * w

/-- The loop of `xprod` (winding.go:118-125): running sum and previous point. -/
def xprodLoop : α → Pt α → List (Pt α) → α
  | sum, _, [] => sum
  | sum, last, p :: ps => xprodLoop (sum + ((last.1 * p.2) - (p.1 * last.2))) p ps

/-- `xprod` (winding.go:108-128). -/
def xprod (pts : List (Pt α)) : α :=
  match pts.getLast? with
  | none => 0
  | some l => xprodLoop 0 l pts

/-- `Orient` (winding.go:135-147). -/
def orient (pts : List (Pt α)) : Int :=
  if pts.length < 3 then 0
  else
    let sum := xprod pts
    if sum = 0 then 0 else if sum < 0 then -1 else 1

/-- `Orientation` (winding.go:151-168). -/
def orientation (yPositiveDown : Bool) (pts : List (Pt α)) : Int :=
  match pts with
  | [] => colinear
  | p0 :: _ =>
    if pts.length < 3 then colinear
    else
      let mul : Int := if yPositiveDown then -1 else 1
      mul * orient (pts.map (fun p => (p.1 - p0.1, p.2 - p0.2)))

/-- The loop of `RectifyPolygon` (winding.go:214-234): index, rings kept so far.
`none` is the early `return nil`.  The reversal is done in place in the ring of
the caller; here the new value of the ring is what is kept. -/
def rectifyLoop (yd : Bool) : Nat → List (List (Pt α)) → List (List (Pt α)) → Option (List (List (Pt α)))
  | _, acc, [] => some acc
  | i, acc, r :: rs =>
    let wo := orientation yd r
    if wo = colinear then
      if i = 0 then none else rectifyLoop yd (i + 1) acc rs
    else
      let r' := if (i = 0 ∧ wo = counterClockwise) ∨ (i ≠ 0 ∧ wo = clockwise) then r.reverse else r
      rectifyLoop yd (i + 1) (acc ++ [r']) rs

/-- `Order.RectifyPolygon` (winding.go:203-236); a nil result is the empty list. -/
def rectifyPolygon (yd : Bool) (rs : List (List (Pt α))) : List (List (Pt α)) :=
  (rectifyLoop yd 0 [] rs).getD []

/-- What the caller's rings look like after `RectifyPolygon`: the reversal of
winding.go:205-210 writes through the shared backing array, so a kept ring that is
reversed is reversed for the caller as well. -/
def rectifyCaller (yd : Bool) (rs : List (List (Pt α))) : List (List (Pt α)) :=
  let rec go : Nat → List (List (Pt α)) → List (List (Pt α))
    | _, [] => []
    | i, r :: rs =>
      let wo := orientation yd r
      if wo = colinear then
        if i = 0 then r :: rs else r :: go (i + 1) rs
      else
        (if (i = 0 ∧ wo = counterClockwise) ∨ (i ≠ 0 ∧ wo = clockwise) then r.reverse else r)
          :: go (i + 1) rs
  go 0 rs

end Verif.Winding
