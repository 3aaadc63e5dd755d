import Verif.Spec.WalkerRing
import Verif.Spec.Planar
import Verif.Spec.Winding
import Mathlib.Data.List.Rotate

/-!
# Triangulations of rings
-/

namespace Verif.Spec.PseudoPolygon
open Verif.Spec.Walker (HasEdge)

/-- The triangles triangulate the ring: it is one of them, or it is cut in two by a chord from `a` to
`b` and both parts are triangulated. -/
inductive Triangulates {P : Type} : List P → List (P × P × P) → Prop
  | three (a b c : P) : Triangulates [a, b, c] [(a, b, c)]
  | cut {ring : List P} {a b : P} {l₁ l₂ : List P} {T₁ T₂ : List (P × P × P)} :
    ring.IsRotated (a :: l₁ ++ b :: l₂) → l₁ ≠ [] → l₂ ≠ [] →
    Triangulates (a :: l₁ ++ [b]) T₁ → Triangulates (b :: l₂ ++ [a]) T₂ → Triangulates ring (T₁ ++ T₂)

/-- There is a line from `p` to `q`, in one direction or the other. -/
def Joins {P : Type} (lines : List (P × P)) (p q : P) : Prop := (p, q) ∈ lines ∨ (q, p) ∈ lines

/-- The lines are the edges of the triangles. -/
def EdgesOf {P : Type} (lines : List (P × P)) (T : List (P × P × P)) : Prop :=
  ∀ p q, Joins lines p q ↔ ∃ t ∈ T, HasEdge t p q

/-- `q` comes next after `p` in the ring. -/
def Side {P : Type} (ring : List P) (p q : P) : Prop := (p, q) ∈ ring.zip (ring.rotate 1)

/-- The list without the points that repeat the one before. -/
def squeeze {P : Type} [DecidableEq P] : List P → List P
  | a :: b :: l => if a = b then squeeze (b :: l) else a :: squeeze (b :: l)
  | l => l

/-- A simple ring: no point twice, and two sides meet in a common end only. -/
def Simple {K : Type} [Field K] [LinearOrder K] (ring : List (Pt K)) : Prop :=
  ring.Nodup ∧ ∀ p q r s, Side ring p q → Side ring r s → (p, q) ≠ (r, s) →
    ∀ x, Planar.OnSegment x p q → Planar.OnSegment x r s → (x = p ∨ x = q) ∧ (x = r ∨ x = s)

/-- Left out points or not, the ring turns left at each of its points. -/
def StrictlyConvex {K : Type} [Field K] [LinearOrder K] (ring : List (Pt K)) : Prop :=
  ∀ a b c, [a, b, c].Sublist ring → Planar.Ccw a b c

/-- Whichever points are left out, a ring with three points or more has an area. -/
def NoFlatPart {K : Type} [Field K] [LinearOrder K] (ring : List (Pt K)) : Prop :=
  ∀ s : List (Pt K), s.Sublist ring → 3 ≤ s.length → Winding.area2 s ≠ 0

end Verif.Spec.PseudoPolygon
