import Verif.Spec.Winding
import Mathlib.Logic.Relation
import Mathlib.Algebra.Order.Group.Abs

/-!
# Triangles that share edges
-/

namespace Verif.Spec.Walker
open Verif.Spec.Winding (area2)

section
variable {P : Type}

/-- `p`, `q` and `w` are the corners of the triangle, in some order. -/
def Corners (t : P × P × P) (p q w : P) : Prop :=
  t = (p, q, w) ∨ t = (p, w, q) ∨ t = (q, p, w) ∨ t = (q, w, p) ∨ t = (w, p, q) ∨ t = (w, q, p)

/-- The three corners are different points. -/
def ThreeCorners (t : P × P × P) : Prop := t.1 ≠ t.2.1 ∧ t.1 ≠ t.2.2 ∧ t.2.1 ≠ t.2.2

/-- The triangle has the edge from `p` to `q`. -/
def HasEdge (t : P × P × P) (p q : P) : Prop := ∃ w, Corners t p q w

/-- Triangles number `i` and `j` have an edge in common. -/
def Share (ts : List (P × P × P)) (i j : Nat) : Prop :=
  ∃ t u p q, ts[i]? = some t ∧ ts[j]? = some u ∧ HasEdge t p q ∧ HasEdge u p q

/-- One can go from triangle `i` to triangle `j` over common edges. -/
def Linked (ts : List (P × P × P)) : Nat → Nat → Prop := Relation.ReflTransGen (Share ts)

/-- No edge belongs to three triangles. -/
def AtMostTwo (ts : List (P × P × P)) : Prop :=
  ∀ (i j k : Nat) (t u v : P × P × P) (p q : P), ts[i]? = some t → ts[j]? = some u → ts[k]? = some v →
    HasEdge t p q → HasEdge u p q → HasEdge v p q → i = j ∨ j = k ∨ i = k

end

variable {K : Type} [CommRing K] [LinearOrder K]

/-- Triangles with a common edge lie on the two sides of it. -/
def OppositeSides (ts : List (Pt K × Pt K × Pt K)) : Prop :=
  ∀ (i j : Nat) (t u : Pt K × Pt K × Pt K) (p q w w' : Pt K), i ≠ j → ts[i]? = some t → ts[j]? = some u → Corners t p q w → Corners u p q w' →
    area2 [p, q, w] * area2 [p, q, w'] < 0

/-- Twice the area of a triangle. -/
def size2 (t : Pt K × Pt K × Pt K) : K := |area2 [t.1, t.2.1, t.2.2]|

/-- Twice the area of a polygon: that of its first ring less that of the others. -/
def net2 : List (List (Pt K)) → K
  | [] => 0
  | outer :: holes => |area2 outer| - (holes.map (fun h => |area2 h|)).sum

end Verif.Spec.Walker
