import Verif.Spec.Subdivision

/-!
# Vocabulary for triangles of a subdivision
-/

namespace Verif.Spec.Subdivision
open Verif.Quad Verif.Spec.Quad

variable {K : Type} [Field K] [LinearOrder K]

/-- To the right of `e`, in a subdivision that was made with the operations on edges, is a triangle; `e` goes from
`a` to `b`, the third corner is `c`, and the triangle has its inside on the right of `e`, to the eye. -/
structure RightTriangle (yd : Bool) (s : Store (Pt K)) (e : E) (a b c : Pt K) : Prop where
  reached : Reached s
  agree : OriginsAgree s
  alloc : Allocated s e
  primal : Primal e
  face : FaceOf s (Quad.sym e) b a c
  turns : Turns yd b a c

/-- The three sides of the triangle right of `e`, in the order in which they are walked. -/
def sides (s : Store (Pt K)) (e : E) : List E := [e, rnext s e, rnext s (rnext s e)]

/-- One edge goes from where the other ends to where it starts. -/
def Turned (s : Store (Pt K)) (x y : E) : Prop := orig s x = dest s y ∧ orig s y = dest s x

instance (s : Store (Pt K)) (x y : E) : Decidable (Turned s x y) := inferInstanceAs (Decidable (_ ∧ _))

end Verif.Spec.Subdivision
