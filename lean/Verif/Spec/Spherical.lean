import Verif.Model.Spherical

/-!
# Arcs of longitude
-/

namespace Verif.Spec.Spherical

variable {K : Type} [Field K] [LinearOrder K]

/-- Going east from longitude `w` by `d` degrees one arrives at longitude `x`. -/
def East (w d x : K) : Prop := ∃ k : ℤ, x = w + d + 360 * k

/-- Longitude `x` is met when going east from `w` by at most `d` degrees. -/
def OnArc (w d x : K) : Prop := ∃ t, 0 ≤ t ∧ t ≤ d ∧ East w t x

end Verif.Spec.Spherical
