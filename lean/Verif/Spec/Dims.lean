import Verif.Model.Dims

namespace Verif.Spec.Dims

/-- The edges of a ring: the one at place `i` comes from the point before (the last one
for the first) and goes to point `i`. -/
def RingEdges {P : Type} (r : List P) (es : List (P × P)) : Prop :=
  es.length = r.length ∧
    ∀ i < r.length, ∃ a b, r[(i + (r.length - 1)) % r.length]? = some a ∧ r[i]? = some b ∧ es[i]? = some (a, b)

end Verif.Spec.Dims
