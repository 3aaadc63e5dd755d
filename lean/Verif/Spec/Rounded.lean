import Verif.Model.Geom
import Mathlib.Algebra.Order.Ring.Rat
import Mathlib.Data.Rat.Floor

/-!
# Specification vocabulary for floats with rounding
-/

namespace Verif.Spec.Rounded
open Verif

/-- A multiple of `2 ^ s`, at most `n` of them, of either sign. -/
def Multiple (s n : Int) (x : ℚ) : Prop := ∃ m : Int, |m| ≤ n ∧ x = m * 2 ^ s

/-- Both coordinates are such multiples. -/
def OnGrid (s n : Int) (p : Pt ℚ) : Prop := Multiple s n p.1 ∧ Multiple s n p.2

/-- The number has at most `b` significant bits. -/
def Fits (b : Nat) (x : ℚ) : Prop := ∃ m e : Int, |m| ≤ 2 ^ b ∧ x = m * 2 ^ e

/-- A number that a `float64` can hold: 53 bits, the last of them at least `2 ^ -1074`. -/
def IsFloat64 (x : ℚ) : Prop := ∃ m e : Int, |m| < 2 ^ 53 ∧ -1074 ≤ e ∧ e ≤ 971 ∧ x = m * 2 ^ e

/-- `y` is the `b`-bit number next to `x`: it fits, and none that fits is nearer. -/
def Nearest (b : Nat) (x y : ℚ) : Prop := Fits b y ∧ ∀ z, Fits b z → |y - x| ≤ |z - x|

/-- The coordinates of the four ends of two lines are whole multiples, at most `n`, of one power of two that is
neither very small nor very large (so that no product under- or overflows). -/
def Moderate (n : Int) (a b c d : Pt ℚ) : Prop :=
  ∃ s : Int, -300 ≤ s ∧ s ≤ 300 ∧ OnGrid s n a ∧ OnGrid s n b ∧ OnGrid s n c ∧ OnGrid s n d

/-- Both coordinates are finite `float64`s. -/
def Float64Point (p : Pt ℚ) : Prop := IsFloat64 p.1 ∧ IsFloat64 p.2

/-- The winding `w` (-1 clockwise, 0 colinear, 1 counter-clockwise) is that of a ring with twice the signed area
`a`, in a system where y grows downwards or not. -/
def Tells (yPositiveDown : Bool) (a w : Int) : Prop :=
  (w = 0 ↔ a = 0) ∧ (w = -1 ↔ if yPositiveDown then 0 < a else a < 0) ∧
    (w = 1 ↔ if yPositiveDown then a < 0 else 0 < a)

/-- The number is an `int64`. -/
def IsInt64 (z : Int) : Prop := -2 ^ 63 ≤ z ∧ z < 2 ^ 63

end Verif.Spec.Rounded
