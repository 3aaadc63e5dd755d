import Verif.Model.Winding
import Verif.Model.Planar
import Verif.Model.HitMap
import Mathlib.Algebra.Order.Ring.Rat
import Mathlib.Data.Rat.Floor

/-!
# Functions with the rounding of their floats

A finite float is the rational number it stands for; the result of an operation is rounded to the bits of the
mantissa, 53 for a `float64`, 110 and 20 for the `big.Float`s of the library.  Infinities, NaN, the sign of a zero
and the least exponents of a `float64` are left out: the theorems are about coordinates for which none of them
comes up.  A product is rounded before it is added to (no fused multiply-add, winding/winding.go:119,
planar/line_intersect.go:54-61).
-/

namespace Verif.Rounded
open Verif
open Verif.Planar (Line)
open Verif.HitMap (roundEven)

/-- The nearest number with `p` significant bits, ties to the even one (Go language, IEEE 754; package math/big,
called at planar/line_intersect.go:73, line.go:63-65). -/
def roundTo (p : Nat) (x : ℚ) : ℚ :=
  if x = 0 then 0
  else (roundEven (x / 2 ^ (Int.log 2 |x| - ((p : Int) - 1))) : ℚ) * 2 ^ (Int.log 2 |x| - ((p : Int) - 1))

/-- `-` (Go language; winding/winding.go:119, planar/line_intersect.go:85-130). -/
def sub (p : Nat) (x y : ℚ) : ℚ := roundTo p (x - y)
/-- `*` (Go language; winding/winding.go:119, planar/line_intersect.go:85-130). -/
def mul (p : Nat) (x y : ℚ) : ℚ := roundTo p (x * y)
/-- `+` (Go language; winding/winding.go:120). -/
def add (p : Nat) (x y : ℚ) : ℚ := roundTo p (x + y)
/-- `/` (Go language; planar/line_intersect.go:62-66, 131-132). -/
def quo (p : Nat) (x y : ℚ) : ℚ := roundTo p (x / y)

/-- The loop of `xprod` (winding.go:118-125): running sum and previous point. -/
def xprodLoop : ℚ → Pt ℚ → List (Pt ℚ) → ℚ
  | sum, _, [] => sum
  | sum, last, p :: ps =>
    xprodLoop (add 53 sum (sub 53 (mul 53 last.1 p.2) (mul 53 p.1 last.2))) p ps

/-- `xprod` (winding.go:108-128). -/
def xprod (pts : List (Pt ℚ)) : ℚ :=
  match pts.getLast? with
  | none => 0
  | some l => xprodLoop 0 l pts

/-- `Orient` (winding.go:135-147). -/
def orient (pts : List (Pt ℚ)) : Int :=
  if pts.length < 3 then 0
  else
    let sum := xprod pts
    if sum = 0 then 0 else if sum < 0 then -1 else 1

/-- `Orientation` (winding.go:151-168). -/
def orientation (yPositiveDown : Bool) (pts : List (Pt ℚ)) : Int :=
  match pts with
  | [] => Winding.colinear
  | p0 :: _ =>
    if pts.length < 3 then Winding.colinear
    else
      let mul : Int := if yPositiveDown then -1 else 1
      mul * orient (pts.map (fun p => (sub 53 p.1 p0.1, sub 53 p.2 p0.2)))

/-- `Order.OfInt64Points` (winding.go:181-190); an `int64` is converted to the nearest `float64`. -/
def ofInt64Points (yPositiveDown : Bool) (ipts : List (Int × Int)) : Int :=
  orientation yPositiveDown (ipts.map (fun p => (roundTo 53 p.1, roundTo 53 p.2)))

/-- The x of the common point before the division (planar/line_intersect.go:60, 99-114, 161). -/
def xnom (p : Nat) (l1 l2 : Line ℚ) : ℚ :=
  sub p (mul p (sub p (mul p l1.1.1 l1.2.2) (mul p l1.1.2 l1.2.1)) (sub p l2.1.1 l2.2.1))
    (mul p (sub p l1.1.1 l1.2.1) (sub p (mul p l2.1.1 l2.2.2) (mul p l2.1.2 l2.2.1)))

/-- The y of the common point before the division (planar/line_intersect.go:61, 115-130, 162). -/
def ynom (p : Nat) (l1 l2 : Line ℚ) : ℚ :=
  sub p (mul p (sub p (mul p l1.1.1 l1.2.2) (mul p l1.1.2 l1.2.1)) (sub p l2.1.2 l2.2.2))
    (mul p (sub p l1.1.2 l1.2.2) (sub p (mul p l2.1.1 l2.2.2) (mul p l2.1.2 l2.2.1)))

/-- The denominator (planar/line_intersect.go:54, 85-92, 154). -/
def denom (p : Nat) (l1 l2 : Line ℚ) : ℚ :=
  sub p (mul p (sub p l1.1.1 l1.2.1) (sub p l2.1.2 l2.2.2)) (mul p (sub p l1.1.2 l1.2.2) (sub p l2.1.1 l2.2.1))

/-- planar/line_intersect.go:47-71 `LineIntersect`; `none` is not ok. -/
def lineIntersect (l1 l2 : Line ℚ) : Option (Pt ℚ) :=
  let d := denom 53 l1 l2
  if d = 0 then none else some (quo 53 (xnom 53 l1 l2) d, quo 53 (ynom 53 l1 l2) d)

/-- Whether a `big.Float` becomes zero as a `float64` (planar/line_intersect.go:95; package math/big): it is at
most half of the least positive one. -/
def vanishes (d : ℚ) : Bool := decide (|d| ≤ 2 ^ (-1075 : Int))

/-- planar/line_intersect.go:78-135 `LineIntersectBigFloat`; `none` is not ok. -/
def lineIntersectBigFloat (l1 l2 : Line ℚ) : Option (Pt ℚ) :=
  let l1 : Line ℚ := ((roundTo 110 l1.1.1, roundTo 110 l1.1.2), (roundTo 110 l1.2.1, roundTo 110 l1.2.2))
  let l2 : Line ℚ := ((roundTo 110 l2.1.1, roundTo 110 l2.1.2), (roundTo 110 l2.2.1, roundTo 110 l2.2.2))
  let d := denom 110 l1 l2
  if vanishes d then none else some (quo 110 (xnom 110 l1 l2) d, quo 110 (ynom 110 l1 l2) d)

/-- planar/line_intersect.go:141-178 `SegmentIntersect`. -/
def segmentIntersect (l1 l2 : Line ℚ) : Pt ℚ × Bool :=
  let d := denom 53 l1 l2
  if d = 0 then ((0, 0), false)
  else
    let dx13 := sub 53 l1.1.1 l2.1.1
    let dy13 := sub 53 l1.1.2 l2.1.2
    let t := quo 53 (sub 53 (mul 53 dx13 (sub 53 l2.1.2 l2.2.2)) (mul 53 dy13 (sub 53 l2.1.1 l2.2.1))) d
    let u := quo 53 (-(sub 53 (mul 53 (sub 53 l1.1.1 l1.2.1) dy13) (mul 53 (sub 53 l1.1.2 l1.2.2) dx13))) d
    ((quo 53 (xnom 53 l1 l2) d, quo 53 (ynom 53 l1 l2) d),
      decide (u ≥ 0) && decide (u ≤ 1) && decide (t ≥ 0) && decide (t ≤ 1))

/-- line.go:53-79 `Line.ContainsPointBigFloat`: the answer, and the point that the caller holds afterwards, whose
`big.Float`s are set to 20 bits (65). -/
def containsPointBigFloat (l : Line ℚ) (pt : Pt ℚ) : Bool × Pt ℚ :=
  let minx := roundTo 20 (if l.1.1 > l.2.1 then l.2.1 else l.1.1)
  let maxx := roundTo 20 (if l.1.1 > l.2.1 then l.1.1 else l.2.1)
  let miny := roundTo 20 (if l.1.2 > l.2.2 then l.2.2 else l.1.2)
  let maxy := roundTo 20 (if l.1.2 > l.2.2 then l.1.2 else l.2.2)
  let px := roundTo 20 pt.1
  let py := roundTo 20 pt.2
  (decide (minx ≤ px) && decide (px ≤ maxx) && (decide (miny ≤ py) && decide (py ≤ maxy)), (px, py))

end Verif.Rounded
