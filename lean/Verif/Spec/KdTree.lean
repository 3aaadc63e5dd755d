import Verif.Model.KdTree

/-!
# What a kd-tree is for
-/

namespace Verif.Spec.KdTree
open Verif.KdTree

section
variable {K : Type} [LinearOrder K] {P : Type}

/-- The points held by the nodes of a tree. -/
def items : Tree K P → List P
  | .nil => []
  | .node p _ l r => items l ++ p :: items r

/-- A set of points, no two at the same place, as a list in the order of
arrival: inserting a point at a place already taken returns the point that is
there and reports a duplicate; otherwise the point is added. -/
def setInsert [DecidableEq K] (xy : P → Pt K) (S : List P) (p : P) : List P × Res P :=
  match S.find? (fun q => xy q = xy p) with
  | some q => (S, ⟨q, true⟩)
  | none => (S ++ [p], ⟨p, false⟩)

/-- A sequence of insertions into the set. -/
def setInsertAll [DecidableEq K] (xy : P → Pt K) : List P → List P → List P × List (Res P)
  | S, [] => (S, [])
  | S, p :: ps =>
    let a := setInsert xy S p
    let b := setInsertAll xy a.1 ps
    (b.1, a.2 :: b.2)

/-- The point lies in the box, edges included. -/
def InBox (e : Box K) (p : Pt K) : Prop :=
  (e.minx ≤ p.1 ∧ p.1 ≤ e.maxx) ∧ (e.miny ≤ p.2 ∧ p.2 ≤ e.maxy)

/-- The box is the smallest one holding the points: it holds them all and
each of its sides touches one. -/
def IsBoundingBox (e : Box K) (ps : List (Pt K)) : Prop :=
  (∀ p ∈ ps, InBox e p) ∧
  (∃ p ∈ ps, p.1 = e.minx) ∧ (∃ p ∈ ps, p.2 = e.miny) ∧
  (∃ p ∈ ps, p.1 = e.maxx) ∧ (∃ p ∈ ps, p.2 = e.maxy)

/-- At every node, the points of the left subtree are strictly below the
node's point in the node's dimension and those of the right subtree are not;
dimensions alternate from `d` (x is `false`, y is `true`); and the node's box
is the smallest box around the points of the node and its subtrees. -/
def WellFormed (xy : P → Pt K) : Bool → Tree K P → Prop
  | _, .nil => True
  | d, .node p bb l r =>
    (∀ q ∈ items l, if d then (xy q).2 < (xy p).2 else (xy q).1 < (xy p).1) ∧
    (∀ q ∈ items r, if d then (xy p).2 ≤ (xy q).2 else (xy p).1 ≤ (xy q).1) ∧
    IsBoundingBox bb ((items l ++ p :: items r).map xy) ∧
    WellFormed xy (!d) l ∧ WellFormed xy (!d) r

/-- The distance function never rates a box farther than a point in it. -/
def LowerBound {D : Type} [LE D] (df : Box K → D) : Prop :=
  ∀ e p, InBox e p → df e ≤ df (.ofPt p)

end

end Verif.Spec.KdTree
