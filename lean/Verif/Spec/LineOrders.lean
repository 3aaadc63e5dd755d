import Verif.Model.Planar

/-!
# What orders of lines are for
-/

namespace Verif.Spec.LineOrders
open Verif.Planar (Line)

variable {K : Type} [Field K] [LinearOrder K]

/-- `less` tells which of any two different lines of the list comes first, without contradiction. -/
def Orders (less : Line K → Line K → Bool) (lines : List (Line K)) : Prop :=
  (∀ a ∈ lines, less a a = false) ∧
  (∀ a ∈ lines, ∀ b ∈ lines, ∀ c ∈ lines, less a b → less b c → less a c) ∧
  (∀ a ∈ lines, ∀ b ∈ lines, a ≠ b → less a b ∨ less b a)

/-- What a sort gives if `less` orders the list: the same lines, none before one that is less. -/
def SortedBy (less : Line K → Line K → Bool) (lines out : List (Line K)) : Prop :=
  out.Perm lines ∧ out.Pairwise fun a b => less b a = false

/-- Points are the same if they differ by less than the tolerance in both coordinates. -/
def near (tol : K) (p q : Pt K) : Bool := decide (|p.1 - q.1| < tol) && decide (|p.2 - q.2| < tol)

/-- Two lines that start within tolerance start in the same point. -/
def SeparateStarts (peq : Pt K → Pt K → Bool) (lines : List (Line K)) : Prop :=
  ∀ a ∈ lines, ∀ b ∈ lines, peq a.1 b.1 = true ↔ a.1 = b.1

/-- The point comes first: further left, or below on the same vertical. -/
def First (p q : Pt K) : Prop := p.1 < q.1 ∨ p.1 = q.1 ∧ p.2 < q.2

/-- The line comes first, by where it starts, then by where it ends. -/
def FirstLine (a b : Line K) : Prop := First a.1 b.1 ∨ a.1 = b.1 ∧ First a.2 b.2

/-- The square of the length, by Pythagoras. -/
def len2 (l : Line K) : K := (l.1.1 - l.2.1) ^ 2 + (l.1.2 - l.2.2) ^ 2

end Verif.Spec.LineOrders
