import Verif.Spec.Planar
import Verif.Model.KdTree

/-!
# What clipping is for
-/

namespace Verif.Spec.Clip
open Verif.KdTree (Box)
open Verif.Spec.Planar

variable {K : Type} [Field K] [LinearOrder K]

/-- The point is in the box, its border included. -/
def Inside (e : Box K) (p : Pt K) : Prop :=
  e.minx ≤ p.1 ∧ p.1 ≤ e.maxx ∧ e.miny ≤ p.2 ∧ p.2 ≤ e.maxy

instance (e : Box K) (p : Pt K) : Decidable (Inside e p) :=
  inferInstanceAs (Decidable (_ ∧ _ ∧ _ ∧ _))

/-- The point is in the box and not on its border. -/
def StrictlyInside (e : Box K) (p : Pt K) : Prop :=
  e.minx < p.1 ∧ p.1 < e.maxx ∧ e.miny < p.2 ∧ p.2 < e.maxy

/-- The point is a corner of the box. -/
def Corner (e : Box K) (p : Pt K) : Prop :=
  (p.1 = e.minx ∨ p.1 = e.maxx) ∧ (p.2 = e.miny ∨ p.2 = e.maxy)

/-- The box has an inside. -/
def Proper (e : Box K) : Prop := e.minx < e.maxx ∧ e.miny < e.maxy

/-- The pieces of a line: from each vertex to the next. -/
def pieces : List (Pt K) → List (Pt K × Pt K)
  | [] => []
  | [_] => []
  | a :: b :: l => (a, b) :: pieces (b :: l)

/-- The piece from `a` to `b` is a part of the segment from `p` to `q`, in the same direction. -/
def PartOf (a b p q : Pt K) : Prop :=
  ∃ s t : K, 0 ≤ s ∧ s ≤ t ∧ t ≤ 1
    ∧ a = (p.1 + s * (q.1 - p.1), p.2 + s * (q.2 - p.2))
    ∧ b = (p.1 + t * (q.1 - p.1), p.2 + t * (q.2 - p.2))

/-- The pieces on the left are parts of the segments on the right, in the same order, and no
segment gives more than one piece. -/
inductive PartsInOrder : List (Pt K × Pt K) → List (Pt K × Pt K) → Prop
  | nil : PartsInOrder [] []
  | skip {l m : List (Pt K × Pt K)} (s : Pt K × Pt K) : PartsInOrder l m → PartsInOrder l (s :: m)
  | take {l m : List (Pt K × Pt K)} {x s : Pt K × Pt K} : PartOf x.1 x.2 s.1 s.2 →
      PartsInOrder l m → PartsInOrder (x :: l) (s :: m)

end Verif.Spec.Clip
