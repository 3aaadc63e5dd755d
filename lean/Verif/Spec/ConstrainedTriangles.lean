import Verif.Spec.Constrained

/-!
# Vocabulary for triangulations with constraints
-/

namespace Verif.Spec.ConstrainedTriangles
open Verif.Spec.Subdivision

variable {K : Type} [Field K] [LinearOrder K]

/-- The triangles `ts` are a triangulation of the triangle `a b c` with the points `vs`: they turn
counterclockwise to the eye and together are `a b c`, no two of them have a point in common but on their sides,
and their corners are just the points `vs`. -/
structure Triangulation (yd : Bool) (a b c : Pt K) (vs : Pt K → Prop) (ts : List (Pt K × Pt K × Pt K)) :
    Prop where
  turns : ∀ T ∈ ts, Turns yd T.1 T.2.1 T.2.2
  cover : ∀ p, Planar.InTriangle p a b c ↔ ∃ T ∈ ts, Planar.InTriangle p T.1 T.2.1 T.2.2
  apart : ts.Pairwise fun T T' => ∀ p, ¬ (InsideTriangle p T.1 T.2.1 T.2.2 ∧ InsideTriangle p T'.1 T'.2.1 T'.2.2)
  corners : ∀ p, vs p ↔ ∃ T ∈ ts, p = T.1 ∨ p = T.2.1 ∨ p = T.2.2

/-- `p q` is a side of one of the triangles, in one of the two directions. -/
def Side (ts : List (Pt K × Pt K × Pt K)) (p q : Pt K) : Prop :=
  ∃ T ∈ ts, (p, q) ∈ [(T.1, T.2.1), (T.2.1, T.2.2), (T.2.2, T.1), (T.2.1, T.1), (T.2.2, T.2.1), (T.1, T.2.2)]

instance (ts : List (Pt K × Pt K × Pt K)) (p q : Pt K) : Decidable (Side ts p q) :=
  inferInstanceAs (Decidable (∃ T ∈ ts, _))

/-- `p` is a corner of one of the triangles. -/
def Corner (ts : List (Pt K × Pt K × Pt K)) (p : Pt K) : Prop := ∃ T ∈ ts, p = T.1 ∨ p = T.2.1 ∨ p = T.2.2

/-- The segments from `a` to `b` and from `p` to `q` cross: they are not parallel, and have one point in common
that is an end of neither. -/
def Cross (a b p q : Pt K) : Prop :=
  ¬ Planar.Parallel a b p q ∧ ∃ x t u, 0 < t ∧ t < 1 ∧ 0 < u ∧ u < 1 ∧ Resolve.AtParam x a b t ∧
    Resolve.AtParam x p q u

/-- None of the points is on the segment from `p` to `q`, between its ends. -/
def Free (vs : Pt K → Prop) (p q : Pt K) : Prop := ∀ v, vs v → ¬ ∃ t : K, 0 < t ∧ t < 1 ∧ Resolve.AtParam v p q t

/-- The constraints `cs`, taken one after the other, make `sides'` of the sides `sides` of a triangulation with
the points `vs`: each is a side already, or is not and crosses one side only, the place of which it takes. -/
inductive Flips (vs : Pt K → Prop) : (Pt K → Pt K → Prop) → List (Pt K × Pt K) → (Pt K → Pt K → Prop) → Prop
  | done (sides) : Flips vs sides [] sides
  | there {sides sides' p q cs} : sides p q → Flips vs sides cs sides' → Flips vs sides ((p, q) :: cs) sides'
  | flip {sides sides' p q u w cs} : p ≠ q → vs p → vs q → Free vs p q → ¬ sides p q → sides u w →
      Cross p q u w →
      (∀ u' w', sides u' w' → Cross p q u' w' → (u', w') = (u, w) ∨ (u', w') = (w, u)) →
      Flips vs (fun a b => (sides a b ∧ (a, b) ≠ (u, w) ∧ (a, b) ≠ (w, u)) ∨ (a, b) = (p, q) ∨ (a, b) = (q, p)) cs
        sides' →
      Flips vs sides ((p, q) :: cs) sides'

/-- What is said of the triangles that are listed for the points `vs` and the frame `a b c`: `all`, listed with the
frame, are the triangle `outer` of the frame the wrong way round, and triangles that are a triangulation of the
frame with the points `vs` and the sides `sides`; `some`, listed without the frame, are those of them that have no
corner of the frame. -/
def Listed (yd : Bool) (a b c : Pt K) (vs : List (Pt K)) (sides : Pt K → Pt K → Prop)
    (all some : List (Pt K × Pt K × Pt K)) : Prop :=
  ∃ l1 outer l2, all = l1 ++ outer :: l2 ∧
    (SameTriangle outer (a, b, c) ∨ SameTriangle outer (b, a, c)) ∧ ¬ Turns yd outer.1 outer.2.1 outer.2.2 ∧
    Triangulation yd a b c (fun p => p = a ∨ p = b ∨ p = c ∨ p ∈ vs) (l1 ++ l2) ∧
    (∀ p q, Side (l1 ++ l2) p q ↔ sides p q) ∧
    some = (l1 ++ l2).filter fun T : _ × _ × _ => decide (∀ v ∈ [T.1, T.2.1, T.2.2], v ≠ a ∧ v ≠ b ∧ v ≠ c)

end Verif.Spec.ConstrainedTriangles
