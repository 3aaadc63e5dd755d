import Verif.Lemmas.LineOrders
import Mathlib.Algebra.Order.Field.Rat

/-!
# C187: orders of lines

`peq` is the equality of points, with a tolerance.
-/

namespace Verif.Props
open Verif.Planar (Line)
open Verif.LineOrders
open Verif.Spec.LineOrders

section Field
variable {K : Type} [Field K] [LinearOrder K]

/-- **C187** for lines of which no two start in different points within tolerance: both orders are without
contradiction. -/
theorem C187_orders_partial (peq : Pt K → Pt K → Bool) (lines : List (Line K)) (h : SeparateStarts peq lines) :
    Orders (byXY peq) lines ∧ Orders (byLength peq) lines :=
  ⟨byXY_orders h, byLength_orders h⟩

/-- **C187** for such lines: sorting by points gives one list only, in which lines are in the order of
their starts, then of their ends. -/
theorem C187_by_points_partial (peq : Pt K → Pt K → Bool) (lines l1 l2 : List (Line K))
    (h : SeparateStarts peq lines) (h1 : SortedBy (byXY peq) lines l1) (h2 : SortedBy (byXY peq) lines l2) :
    l1 = l2 ∧ l1.Pairwise (fun a b => a = b ∨ FirstLine a b) := by
  refine ⟨sorted_unique (byXY_orders h) h1 h2, ?_⟩
  refine h1.2.imp_of_mem fun {a b} ha hb hab => ?_
  have ha := h1.1.mem_iff.1 ha
  have hb := h1.1.mem_iff.1 hb
  by_cases e : a = b
  · exact .inl e
  · rcases firstLine_total e with hf | hf
    · exact .inr hf
    · rw [← byXY_iff (h b hb a ha), hab] at hf
      exact absurd hf (by simp)

/-- **C187** for such lines: sorting by length gives one list only, in which shorter lines come first, and
of equally long ones the one that starts, then ends, first. -/
theorem C187_by_length_partial (peq : Pt K → Pt K → Bool) (lines l1 l2 : List (Line K))
    (h : SeparateStarts peq lines) (h1 : SortedBy (byLength peq) lines l1) (h2 : SortedBy (byLength peq) lines l2) :
    l1 = l2 ∧ l1.Pairwise (fun a b => len2 a < len2 b ∨ len2 a = len2 b ∧ (a = b ∨ FirstLine a b)) := by
  refine ⟨sorted_unique (byLength_orders h) h1 h2, ?_⟩
  refine h1.2.imp_of_mem fun {a b} ha hb hab => ?_
  have ha := h1.1.mem_iff.1 ha
  have hb := h1.1.mem_iff.1 hb
  have hn : ¬ (len2 b < len2 a ∨ len2 b = len2 a ∧ FirstLine b a) := by
    rw [← byLength_iff (h b hb a ha), hab]
    simp
  rcases lt_trichotomy (len2 a) (len2 b) with h3 | h3 | h3
  · exact .inl h3
  · refine .inr ⟨h3, ?_⟩
    by_cases e : a = b
    · exact .inl e
    · rcases firstLine_total e with hf | hf
      · exact .inr hf
      · exact absurd (.inr ⟨h3.symm, hf⟩) hn
  · exact absurd (.inl h3) hn

/-- **C187**, whatever the tolerance: a shorter line is less than a longer one, and never the other way
round. -/
theorem C187_shorter_partial (peq : Pt K → Pt K → Bool) (a b : Line K) (h : len2 a < len2 b) :
    byLength peq a b = true ∧ byLength peq b a = false := by
  rw [← lengthSquared_eq, ← lengthSquared_eq] at h
  simp [byLength, h, h.ne, h.ne', h.le]

end Field

/-- **C187**: whatever the tolerance, the orders by points and by length are without contradiction. -/
def C187_full : Prop :=
  ∀ (tol : ℚ) (lines : List (Line ℚ)), 0 < tol → Orders (byXY (near tol)) lines ∧ Orders (byLength (near tol)) lines

/-- Three lines of length 5 that start within 2 of the next one. -/
def lineCycle : List (Line ℚ) := [((0, 0), (5, 0)), ((2, 0), (2, 5)), ((4, 0), (1, 4))]

/-- Each of the three lines is less than the one before, and the first is less than the last. -/
theorem C187_violated : ¬ C187_full := by
  intro h
  have h1 := (h 3 lineCycle (by norm_num)).2.2.1 ((4, 0), (1, 4)) (by decide +kernel) ((2, 0), (2, 5))
    (by decide +kernel) ((0, 0), (5, 0)) (by decide +kernel) (by decide +kernel) (by decide +kernel)
  revert h1
  decide +kernel

/-- The same three lines, for the order by points. -/
theorem C187_violated_points : ¬ ∀ (tol : ℚ) (lines : List (Line ℚ)), 0 < tol → Orders (byXY (near tol)) lines := by
  intro h
  have h1 := (h 3 lineCycle (by norm_num)).2.1 ((4, 0), (1, 4)) (by decide +kernel) ((2, 0), (2, 5))
    (by decide +kernel) ((0, 0), (5, 0)) (by decide +kernel) (by decide +kernel) (by decide +kernel)
  revert h1
  decide +kernel

/-- With a smaller tolerance the three lines meet the hypotheses, and these are their orders. -/
example : SeparateStarts (near 1) lineCycle ∧ SortedBy (byXY (near 1)) lineCycle lineCycle ∧
    SortedBy (byLength (near 1)) (((0, 0), (1, 1)) :: lineCycle.reverse) (((0, 0), (1, 1)) :: lineCycle) ∧
    len2 ((0, 0), (1, (1 : ℚ))) < len2 ((0, 0), (5, 0)) := by
  refine ⟨?_, ⟨.refl _, by decide +kernel⟩, ⟨?_, by decide +kernel⟩, by decide +kernel⟩
  · unfold SeparateStarts
    decide +kernel
  · exact (List.reverse_perm _).symm.cons _

end Verif.Props
