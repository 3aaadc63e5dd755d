import Verif.Model.Lines
import Verif.Spec.Cmp

/-!
# Sets of undirected segments
-/

namespace Verif.Spec.Lines
open Verif Verif.Cmp Verif.Lines Verif.Spec.Extent Verif.Spec.Cmp

/-- `less` orders the elements of the list, up to ties. -/
def WeakOrder {α : Type} (less : α → α → Bool) (l : List α) : Prop :=
  (∀ a ∈ l, less a a = false) ∧
  (∀ a ∈ l, ∀ b ∈ l, ∀ c ∈ l, less a b → less b c → less a c) ∧
  (∀ a ∈ l, ∀ b ∈ l, ∀ c ∈ l, less a c → less a b ∨ less b c)

/-- What Go's `sort.Sort` guarantees: the same elements, and in order if `less` orders
them. -/
def GoSorts {α : Type} (less : α → α → Bool) (sort : List α → List α) : Prop :=
  ∀ l, (sort l).Perm l ∧ (WeakOrder less l → (sort l).Pairwise fun a b => less b a = false)

/-- The two segments join the same points, whatever their direction; `eq` says when
points are the same. -/
def SameLine (eq : Pt F64 → Pt F64 → Prop) (a b : Line) : Prop :=
  eq a.1 b.1 ∧ eq a.2 b.2 ∨ eq a.1 b.2 ∧ eq a.2 b.1

/-- The two ends of the segments. -/
def ends (lines : List Line) : List (Pt F64) := lines.flatMap fun l => [l.1, l.2]

/-- The points within tolerance of each other are the same. -/
def Separated (c : Compare) (pts : List (Pt F64)) : Prop :=
  ∀ p ∈ pts, ∀ q ∈ pts, c.pointEqual p q = true → samePt p q

end Verif.Spec.Lines
