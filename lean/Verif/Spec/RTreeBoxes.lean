import Verif.Spec.RTree

/-!
# Vocabulary for the boxes of an R-tree
-/

namespace Verif.RTreeSpec
open Verif.RTree (Rect Tree Arith)

variable {K : Type} [LinearOrder K] {d : Nat} {Obj : Type}

/-- The box `r` contains the box `s`. -/
def Encloses (r s : Rect K d) : Prop := ∀ i, (r i).1 ≤ (s i).1 ∧ (s i).2 ≤ (r i).2

/-- `r` is the smallest box around the objects, and there are some. -/
def TightAround (bounds : Obj → Rect K d) (r : Rect K d) (os : List Obj) : Prop :=
  os ≠ [] ∧ (∀ o ∈ os, Encloses r (bounds o)) ∧ ∀ r', (∀ o ∈ os, Encloses r' (bounds o)) → Encloses r' r

/-- The boxes come in `n` layers.  A layer puts all objects of the bag into groups, and has the smallest box around each
of them. -/
def Layers (bounds : Obj → Rect K d) (bag : List Obj) (n : Nat) (boxes : List (Rect K d)) : Prop :=
  ∃ layer : Nat → List (Rect K d × List Obj),
    boxes.Perm ((List.range n).flatMap fun k => (layer k).map Prod.fst) ∧
    ∀ k < n, ((layer k).flatMap Prod.snd).Perm bag ∧ ∀ g ∈ layer k, TightAround bounds g.1 g.2

end Verif.RTreeSpec
