import Verif.Model.Rounded

/-!
# Functions on finite `float64`s, with their exponents

A finite float is the rational number it stands for.  Unlike in `Verif.Rounded` the exponents are limited: a
number below the least normal one loses bits, one beyond the largest is infinite.  The sign of a zero is left out.
-/

namespace Verif.Float64
open Verif
open Verif.HitMap (roundEven)
open Verif.Rounded (roundTo)

/-- The `float64` next to a number (Go language, IEEE 754; geom.go:556-557, bbox.go:308-309, 319-320); `none` is
an infinity. -/
def toFloat64 (x : ℚ) : Option ℚ :=
  let y := if |x| < 2 ^ (-1022 : Int) then (roundEven (x * 2 ^ 1074) : ℚ) / 2 ^ 1074 else roundTo 53 x
  if |y| < 2 ^ 1024 then some y else none

/-- `math.Round` of package math, called at geom.go:554, 557: the nearest integer, halves away from zero. -/
def roundAway (x : ℚ) : Int := if 0 ≤ x then ⌊x + 1 / 2⌋ else -⌊-x + 1 / 2⌋

/-- `math.Pow10` of package math, called at geom.go:556: the product or quotient of the entries of two tables,
each of them the `float64` next to a power of ten; `none` is the infinity. -/
def pow10 (n : Int) : Option ℚ :=
  if 0 ≤ n ∧ n ≤ 308 then
    (toFloat64 (10 ^ (32 * (n / 32)))).bind fun a => (toFloat64 (10 ^ (n % 32))).bind fun b => toFloat64 (a * b)
  else if -323 ≤ n ∧ n ≤ 0 then
    (toFloat64 (10 ^ (-(32 * (-n / 32))))).bind fun a => (toFloat64 (10 ^ (-n % 32))).bind fun b =>
      toFloat64 (a / b)
  else if 0 < n then none
  else some 0

/-- `RoundToPrec` (geom.go:549-558); `none` is a result that is not a finite number. -/
def roundToPrec (v : ℚ) (prec : Int) : Option ℚ :=
  if v = 0 then some 0
  else if prec = 0 then some (roundAway v)
  else
    (pow10 prec).bind fun f => (toFloat64 (v * f)).bind fun x =>
      if f = 0 then none else toFloat64 (roundAway x / f)

/-- `Extent` (bbox.go:29) with finite numbers. -/
structure Box where
  minx : ℚ
  miny : ℚ
  maxx : ℚ
  maxy : ℚ
  deriving DecidableEq

/-- `NewExtent` (bbox.go:176-204) of two points. -/
def newExtent (p q : Pt ℚ) : Box :=
  { minx := if q.1 < p.1 then q.1 else p.1
    miny := if q.2 < p.2 then q.2 else p.2
    maxx := if q.1 < p.1 then p.1 else if p.1 < q.1 then q.1 else p.1
    maxy := if q.2 < p.2 then p.2 else if p.2 < q.2 then q.2 else p.2 }

/-- `(*Extent).ScaleBy` (bbox.go:303-311) of an extent that is not nil; `none` has a number that is not finite. -/
def scaleBy (e : Box) (s : ℚ) : Option Box :=
  (toFloat64 (e.minx * s)).bind fun a => (toFloat64 (e.miny * s)).bind fun b =>
    (toFloat64 (e.maxx * s)).bind fun c => (toFloat64 (e.maxy * s)).bind fun d =>
      some (newExtent (a, b) (c, d))

/-- `(*Extent).ExpandBy` (bbox.go:314-322) of an extent that is not nil; `none` has a number that is not finite. -/
def expandBy (e : Box) (s : ℚ) : Option Box :=
  (toFloat64 (e.minx - s)).bind fun a => (toFloat64 (e.miny - s)).bind fun b =>
    (toFloat64 (e.maxx + s)).bind fun c => (toFloat64 (e.maxy + s)).bind fun d =>
      some (newExtent (a, b) (c, d))

end Verif.Float64
