import Verif.Spec.Cmp
import Verif.Model.CmpNew

/-!
# Vocabulary for closeness of numbers
-/

namespace Verif.Spec.CmpNew
open Verif

/-- Two numbers are close: next to zero by their difference, otherwise by their difference as a part of the
larger one. -/
def Close (t a b : ℚ) : Prop :=
  if a = 0 ∨ b = 0 then |a - b| < t else |a - b| < t * max |a| |b|

/-- Finite. -/
def finite (f : F64) : Prop := f.isNaN = false ∧ f.isInf = false

end Verif.Spec.CmpNew
