import Verif.Spec.Subdivision

/-!
# Vocabulary for edges that a segment crosses
-/

namespace Verif.Spec.Constrained
open Verif.Quad Verif.Spec.Quad Verif.Spec.Subdivision

variable {K : Type} [Field K] [LinearOrder K]

/-- The edge `y` and the segment from `a` to `b` cross: they are not parallel and have one point in common that
is an end of neither.  It is at `t` on the segment, which begins at 0 and ends at 1. -/
def CrossesAt (s : Store (Pt K)) (a b : Pt K) (y : E) (t : K) : Prop :=
  ∃ p q x u, orig s y = some p ∧ dest s y = some q ∧ ¬ Planar.Parallel a b p q ∧
    0 < t ∧ t < 1 ∧ 0 < u ∧ u < 1 ∧ Resolve.AtParam x a b t ∧ Resolve.AtParam x p q u

/-- `l` are the edges that the segment from `a` to `b` crosses, each once, in the order in which they are met
going from `a` to `b`, and as they go from the left to the right. -/
structure CrossedInOrder (yd : Bool) (s : Store (Pt K)) (z : E) (a b : Pt K) (l : List E) : Prop where
  sound : ∀ y ∈ l, Connected s z y ∧ (∃ t, CrossesAt s a b y t) ∧ ∃ p, orig s y = some p ∧ Turns yd a b p
  complete : ∀ y, Connected s z y → (∃ t, CrossesAt s a b y t) → y ∈ l ∨ Quad.sym y ∈ l
  order : l.Pairwise fun y y' => ∀ t t', CrossesAt s a b y t → CrossesAt s a b y' t' → t < t'

/-- No point of the subdivision is on the segment from `a` to `b`, between its ends. -/
def Clear (s : Store (Pt K)) (z : E) (a b : Pt K) : Prop :=
  ∀ p, Vertex s z p → ¬ ∃ t : K, 0 < t ∧ t < 1 ∧ Resolve.AtParam p a b t

/-- There is an edge from `p` to `q`. -/
def Joined (s : Store (Pt K)) (z : E) (p q : Pt K) : Prop :=
  ∃ y, Connected s z y ∧ orig s y = some p ∧ dest s y = some q

end Verif.Spec.Constrained
