import Verif.Model.Cmp
import Verif.Model.Float64

/-!
# Making a comparator (cmp/cmp.go:20-22, cmp/compare.go:18-31)

Here the bit patterns of `Verif.Cmp` are given the numbers they stand for.
-/

namespace Verif

/-- The number that 63 magnitude bits stand for: 11 bits of exponent and 52 of fraction (Go language, IEEE 754;
cmp/cmp.go:21).  Infinities and NaN are not meant. -/
def F64.magValue (m : Nat) : ℚ :=
  if m < 2 ^ 52 then m * 2 ^ (-1074 : Int)
  else ((2 ^ 52 + m % 2 ^ 52 : Nat) : ℚ) * 2 ^ (((m / 2 ^ 52 : Nat) : Int) - 1075)

/-- The number that a finite float stands for (Go language, IEEE 754; cmp/cmp.go:21). -/
def F64.value (f : F64) : ℚ := if f.sign then -F64.magValue f.mag else F64.magValue f.mag

namespace Cmp
open Verif.Rounded (add)

/-- `math.Float64bits` (cmp/cmp.go:21) of a float that is positive, finite and not below the least normal one. -/
def float64bits (y : ℚ) : BitVec 64 :=
  BitVec.ofInt 64 ((Int.log 2 y + 1023) * 2 ^ 52 + ⌊(y / 2 ^ (Int.log 2 y) - 1) * 2 ^ 52⌋)

/-- `BitToleranceFor` (cmp/cmp.go:20-22) for a finite tolerance above -1 whose sum with 1 is finite. -/
def bitToleranceFor (tol : F64) : BitVec 64 := float64bits (add 53 1 tol.value) - float64bits 1

/-- `New` (cmp/compare.go:20-25). -/
def Compare.new (tol : F64) : Compare := ⟨tol, bitToleranceFor tol⟩

/-- `NewForNumPrecision` (cmp/compare.go:28-31) where the power of ten is finite and the quotient is a normal float;
`none` is any other case. -/
def newForNumPrecision (prec : Int) : Option Compare :=
  (Float64.pow10 prec).bind fun f => if f = 0 then none else
    (Float64.toFloat64 (1 / f)).bind fun t =>
      if 2 ^ (-1022 : Int) ≤ t then some (Compare.new (float64bits t)) else none

end Cmp
end Verif
