import Verif.Model.Geom
import Verif.Spec.QuadEdge
import Mathlib.Algebra.Order.Field.Basic

/-!
# Vocabulary for directions around a point

`yd` says that the y axis points down, which turns
what the eye calls counterclockwise round.
-/

namespace Verif.Spec.Resolve

variable {K : Type} [Field K] [LinearOrder K]

/-- The direction from `o` to `p`. -/
def arrow (o p : Pt K) : Pt K := (p.1 - o.1, p.2 - o.2)

/-- Positive if turning from the direction `u` to the direction `v` the short way is turning
counterclockwise to the eye, negative if it is turning clockwise, zero if they are parallel. -/
def wedge (yd : Bool) (u v : Pt K) : K :=
  if yd then u.2 * v.1 - u.1 * v.2 else u.1 * v.2 - u.2 * v.1

/-- `d` lies on the ray from `o` through `p`, and is not `o`. -/
def Toward (o p d : Pt K) : Prop :=
  ∃ t : K, 0 < t ∧ arrow o d = (t * (arrow o p).1, t * (arrow o p).2)

/-- `d` lies on the segment from `o` to `p`, and is not `o`. -/
def Along (o p d : Pt K) : Prop :=
  ∃ t : K, 0 < t ∧ t ≤ 1 ∧ arrow o d = (t * (arrow o p).1, t * (arrow o p).2)

/-- `w` is a mix of the directions `u` and `v`. -/
def Mix (s t : K) (u v w : Pt K) : Prop := w = (s * u.1 + t * v.1, s * u.2 + t * v.2)

/-- Seen from `o`, turning counterclockwise from `a` to `b` sweeps over `d` on the way: `d` is met
after `a` and before `b`. -/
def Between (yd : Bool) (o a b d : Pt K) : Prop :=
  let u := arrow o a
  let v := arrow o b
  let w := arrow o d
  -- less than half a turn: `d` is strictly inside the angle
  (0 < wedge yd u v ∧ ∃ s t : K, 0 < s ∧ 0 < t ∧ Mix s t u v w) ∨
  -- more than half a turn: `d` is not in the angle that is left out
  (wedge yd u v < 0 ∧ ¬ ∃ s t : K, 0 ≤ s ∧ 0 ≤ t ∧ Mix s t u v w) ∨
  -- the full turn: `a` and `b` are one direction, and `d` another
  (Toward o a b ∧ ¬ Toward o a d) ∨
  -- half a turn: `d` is on the counterclockwise side of the straight line
  ((∃ t : K, 0 < t ∧ v = (-t * u.1, -t * u.2)) ∧ 0 < wedge yd u w)

/-- `a` is strictly to the right of the directed line from `b` to `c`, to the eye. -/
def RightSide (yd : Bool) (a b c : Pt K) : Prop := wedge yd (arrow b c) (arrow b a) < 0

/-- `a` is the point at `t` on the line that is at `b` for 0 and at `c` for 1. -/
def AtParam (a b c : Pt K) (t : K) : Prop :=
  a = (b.1 + t * (c.1 - b.1), b.2 + t * (c.2 - b.2))

open Verif.Quad Verif.Spec.Quad in
/-- All the edges around the origin of `e` start in `o`, and each of them ends in some other point. -/
def Star (s : Store (Pt K)) (e : E) (o : Pt K) : Prop :=
  Primal e ∧ ∀ y, Around s e y → orig s y = some o ∧ ∃ p, dest s y = some p ∧ p ≠ o

end Verif.Spec.Resolve
