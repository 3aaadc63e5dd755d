import Verif.Spec.Extent
import Verif.Model.Cmp
import Mathlib.Data.List.Forall2

/-!
# Specification vocabulary for comparisons
-/

namespace Verif.Spec.Cmp
open Verif Verif.Cmp Verif.Spec.Extent

/-- Lexicographic order on points by the numbers they hold. -/
def before (p q : Pt F64) : Prop := p.1.lt q.1 ∨ (p.1.eq q.1 ∧ p.2.lt q.2)

/-- The same point as numbers (the zeros are not told apart). -/
def samePt (p q : Pt F64) : Prop := p.1.eq q.1 ∧ p.2.eq q.2

/-- What any sorting algorithm guarantees: the same elements, none before an earlier
one. -/
def Sorts {α : Type} (less : α → α → Prop) (sort : List α → List α) : Prop :=
  ∀ l, (sort l).Perm l ∧ (sort l).Pairwise (fun a b => ¬ less b a)

/-- The same as `Sorts`, for the lists whose elements satisfy `ok`. -/
def SortsOn {α : Type} (ok : α → Prop) (less : α → α → Prop) (sort : List α → List α) : Prop :=
  ∀ l, (∀ a ∈ l, ok a) → (sort l).Perm l ∧ (sort l).Pairwise (fun a b => ¬ less b a)

/-- `b` is a rotation of `a`. -/
def Rotation {α : Type} (a b : List α) : Prop := ∃ x y, a = x ++ y ∧ b = y ++ x

/-- Finite and not zero. -/
def plain (f : F64) : Prop := num f ∧ f.isInf = false ∧ f.key ≠ 0

/-- `p` comes strictly before every other vertex of the list. -/
def UniqueLeast (p : Pt F64) (l : List (Pt F64)) : Prop :=
  ∃ x y, l = x ++ p :: y ∧ ∀ q ∈ x ++ y, before p q

/-- Both tolerances are positive. -/
def Positive (c : Compare) : Prop := F64.zero.lt c.tol = true ∧ 0 < c.bit.toInt

/-- Two descriptions of one polygon: the interior rings may come in another order, and
each ring may start at another vertex. -/
def SamePolygon (p q : List (List (Pt F64))) : Prop :=
  ∃ r rs r' rs' ms, p = r :: rs ∧ q = r' :: rs' ∧ Rotation r r' ∧ rs.Perm ms ∧ List.Forall₂ Rotation ms rs'

/-- Every ring has numeric vertices with one leftmost-lowest among them. -/
def PlainRings (p : List (List (Pt F64))) : Prop :=
  ∀ r ∈ p, (∀ v ∈ r, numPt v) ∧ ∃ v, UniqueLeast v r

/-- The comparison a call of `SetDefault` was given. -/
def newOf {γ : Type} : Setter γ → γ
  | .start n => n
  | .loaded n _ => n
  | .done n _ => n

/-- What a call has returned, if it has. -/
def returned {γ : Type} : Setter γ → Option γ
  | .done _ o => some o
  | _ => none

/-- Calls of `SetDefault` about to start, one per goroutine. -/
def calls {γ : Type} (news : List γ) : List (Setter γ) := news.map .start

/-- Every call has returned. -/
def finished {γ : Type} (ss : List (Setter γ)) : Prop := ∀ s ∈ ss, ∃ o, returned s = some o

end Verif.Spec.Cmp
