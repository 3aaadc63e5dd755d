/-
Specification vocabulary for the segment index.
-/
import Verif.Spec.Intersect

namespace Verif.Spec.SegIndex

open Verif.Planar (Line)

variable {K : Type} [Field K] [LinearOrder K]

/-- The boxes of the two segments come closer than `eps` in each axis (so they
may touch). -/
def Near (eps : K) (s t : Line K) : Prop :=
  (min s.1.1 s.2.1 < max t.1.1 t.2.1 + eps ∧ min t.1.1 t.2.1 < max s.1.1 s.2.1 + eps) ∧
  (min s.1.2 s.2.2 < max t.1.2 t.2.2 + eps ∧ min t.1.2 t.2.2 < max s.1.2 s.2.2 + eps)

end Verif.Spec.SegIndex
