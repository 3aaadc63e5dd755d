/-
Specification vocabulary for nearest neighbour searches in the R-tree.
-/
import Verif.Spec.RTree
import Mathlib.Algebra.BigOperators.Fin
import Mathlib.Algebra.Order.Field.Basic

namespace Verif.RTreeSpec

open Verif.RTree (Rect)

variable {K : Type} [Field K] [LinearOrder K] {d : Nat}

/-- The point lies in the closed box. -/
def InRect (r : Rect K d) (y : Fin d → K) : Prop := ∀ i, (r i).1 ≤ y i ∧ y i ≤ (r i).2

/-- The square of the distance of two points. -/
def ptDist2 (p y : Fin d → K) : K := ∑ i, (p i - y i) ^ 2

/-- Box `r` is no farther from `p` than box `s`: for every point of `s` there is
a point of `r` at most as far away. -/
def NoFarther (p : Fin d → K) (r s : Rect K d) : Prop :=
  ∀ y, InRect s y → ∃ x, InRect r x ∧ ptDist2 p x ≤ ptDist2 p y

/-- `res` lists the `k` boxes of the bag nearest to `p`, nearest first: it is
sorted, has `k` members or all there are, and whatever is left of the bag is no
nearer than any of them. -/
def KNearest {Obj : Type} (bounds : Obj → Rect K d) (p : Fin d → K) (k : Nat)
    (res bag : List Obj) : Prop :=
  res.Pairwise (fun a b => NoFarther p (bounds a) (bounds b)) ∧
  res.length = min k bag.length ∧
  ∃ rest, (res ++ rest).Perm bag ∧ ∀ a ∈ res, ∀ b ∈ rest, NoFarther p (bounds a) (bounds b)

/-- What is left of the bag when the filters have refused some objects. -/
def notRefused {Obj : Type} (refused : List (Obj → Bool)) (bag : List Obj) : List Obj :=
  bag.filter fun o => !refused.any fun q => q o

end Verif.RTreeSpec
