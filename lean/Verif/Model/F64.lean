/-!
# float64 as bit patterns

Go's `float64` is modelled by its IEEE-754 bit pattern.  Comparison is written
out on the bits so that NaN, the infinities and the two zeros behave as in Go.
No arithmetic is modelled here.
-/

namespace Verif

deriving instance DecidableEq for Except

/-- One octet (Go `byte`) (Go language; e.g. encoding/wkb/internal/decode/decode.go:26-46). -/
abbrev Byte := BitVec 8

/-- A Go `float64`, as `math.Float64bits` would show it (Go language spec, no
line in /repo). -/
abbrev F64 := BitVec 64

namespace F64

/-- Sign bit, Go `math.Signbit` (standard library, used e.g. at
winding/winding.go:143). -/
def sign (f : F64) : Bool := decide (2 ^ 63 ≤ f.toNat)

/-- The 63 magnitude bits (exponent and fraction) (Go language, IEEE 754; no line in /repo). -/
def mag (f : F64) : Nat := f.toNat % 2 ^ 63

/-- Magnitude bits of `+Inf` (Go language, IEEE 754; no line in /repo). -/
def infMag : Nat := 0x7FF0000000000000

/-- `f != f` in Go (cmp/empty.go:7-9 relies on this). -/
def isNaN (f : F64) : Bool := decide (infMag < f.mag)

/-- `math.IsInf(f, 0)` (cmp/compare.go:42). -/
def isInf (f : F64) : Bool := decide (f.mag = infMag)

/-- `math.IsInf(f, 1)` (cmp/compare.go:44). -/
def isPosInf (f : F64) : Bool := f.isInf && !f.sign

/-- `math.IsInf(f, -1)` (cmp/compare.go:43). -/
def isNegInf (f : F64) : Bool := f.isInf && f.sign

/-- Position of a (non-NaN) float on the number line: the sign-magnitude
integer of its bits.  Both zeros map to 0; for non-NaN floats the IEEE order is
the order of the keys (Go language, IEEE 754; no line in /repo). -/
def key (f : F64) : Int := if f.sign then -(f.mag : Int) else (f.mag : Int)

/-- Go `f == g` on float64 (Go language; e.g. cmp/compare.go:43-48). -/
def eq (f g : F64) : Bool := !f.isNaN && !g.isNaN && decide (f.key = g.key)

/-- Go `f < g` on float64 (Go language; e.g. bbox.go:190-201). -/
def lt (f g : F64) : Bool := !f.isNaN && !g.isNaN && decide (f.key < g.key)

/-- Go `f <= g` on float64 (Go language; e.g. bbox.go:261-264). -/
def le (f g : F64) : Bool := !f.isNaN && !g.isNaN && decide (f.key ≤ g.key)

/-- `+0` (Go language; e.g. cmp/compare.go:48). -/
def zero : F64 := 0#64
/-- `-0` (Go language; see cmp/compare.go:47). -/
def negZero : F64 := 0x8000000000000000#64
/-- `1.0` (Go language, IEEE 754; no line in /repo). -/
def one : F64 := 0x3FF0000000000000#64
/-- The NaN returned by `math.NaN()` (point.go:11). -/
def nan : F64 := 0x7FF8000000000001#64
/-- `+Inf` (`math.Inf(1)`, e.g. planar/makevalid/hitmap/hitmap.go:30). -/
def posInf : F64 := 0x7FF0000000000000#64
/-- `-Inf` (`math.Inf(-1)`; see cmp/compare.go:43). -/
def negInf : F64 := 0xFFF0000000000000#64
/-- `math.MaxFloat64` (bbox.go:62-91 uses it for the nil extent). -/
def maxFloat : F64 := 0x7FEFFFFFFFFFFFFF#64
/-- `-math.MaxFloat64` (bbox.go:72, 88). -/
def negMaxFloat : F64 := 0xFFEFFFFFFFFFFFFF#64

/-- Go `math.Min` (standard library; used at bbox.go:139-153): an infinity
wins, then NaN, then the zero with the sign bit, then the smaller. -/
def min (x y : F64) : F64 :=
  if x.isNegInf || y.isNegInf then negInf
  else if x.isNaN || y.isNaN then nan
  else if x.eq zero && x.eq y then (if x.sign then x else y)
  else if x.lt y then x else y

/-- Go `math.Max` (standard library; used at bbox.go:139-153). -/
def max (x y : F64) : F64 :=
  if x.isPosInf || y.isPosInf then posInf
  else if x.isNaN || y.isNaN then nan
  else if x.eq zero && x.eq y then (if x.sign then y else x)
  else if y.lt x then x else y

end F64
end Verif
