import Verif.Model.LineOrders
import Verif.Spec.LineOrders
import Mathlib.Tactic.Ring
import Mathlib.Data.List.Sort

/-!
# Lemmas on the orders of lines
-/

namespace Verif.LineOrders
open Verif.Planar (Line)
open Verif.Spec.LineOrders

variable {K : Type} [Field K] [LinearOrder K]

theorem pointLess_iff (p q : Pt K) : pointLess p q = true ↔ First p q := by
  unfold pointLess First
  split_ifs with h
  · simp [h]
  · have h : p.1 = q.1 := not_not.1 h
    simp [h]

theorem first_irrefl (p : Pt K) : ¬ First p p := by simp [First]

theorem first_trans {p q r : Pt K} (h1 : First p q) (h2 : First q r) : First p r := by
  rcases h1 with h1 | ⟨h1, h1'⟩ <;> rcases h2 with h2 | ⟨h2, h2'⟩
  · exact .inl (h1.trans h2)
  · exact .inl (h2 ▸ h1)
  · exact .inl (h1 ▸ h2)
  · exact .inr ⟨h1.trans h2, h1'.trans h2'⟩

theorem first_total {p q : Pt K} (h : p ≠ q) : First p q ∨ First q p := by
  rcases lt_trichotomy p.1 q.1 with h1 | h1 | h1
  · exact .inl (.inl h1)
  · rcases lt_trichotomy p.2 q.2 with h2 | h2 | h2
    · exact .inl (.inr ⟨h1, h2⟩)
    · exact absurd (Prod.ext h1 h2) h
    · exact .inr (.inr ⟨h1.symm, h2⟩)
  · exact .inr (.inl h1)

theorem firstLine_irrefl (a : Line K) : ¬ FirstLine a a := by simp [FirstLine, First]

theorem firstLine_trans {a b c : Line K} (h1 : FirstLine a b) (h2 : FirstLine b c) : FirstLine a c := by
  rcases h1 with h1 | ⟨h1, h1'⟩ <;> rcases h2 with h2 | ⟨h2, h2'⟩
  · exact .inl (first_trans h1 h2)
  · exact .inl (h2 ▸ h1)
  · exact .inl (h1 ▸ h2)
  · exact .inr ⟨h1.trans h2, first_trans h1' h2'⟩

theorem firstLine_total {a b : Line K} (h : a ≠ b) : FirstLine a b ∨ FirstLine b a := by
  by_cases h1 : a.1 = b.1
  · have h2 : a.2 ≠ b.2 := fun h2 => h (Prod.ext h1 h2)
    rcases first_total h2 with h2 | h2
    · exact .inl (.inr ⟨h1, h2⟩)
    · exact .inr (.inr ⟨h1.symm, h2⟩)
  · rcases first_total h1 with h2 | h2
    · exact .inl (.inl h2)
    · exact .inr (.inl h2)

theorem lengthSquared_eq (l : Line K) : lengthSquared l = len2 l := by
  simp only [lengthSquared, len2]
  ring

theorem byXY_iff {peq : Pt K → Pt K → Bool} {a b : Line K} (h : peq a.1 b.1 = true ↔ a.1 = b.1) :
    byXY peq a b = true ↔ FirstLine a b := by
  unfold byXY FirstLine
  by_cases h1 : a.1 = b.1
  · rw [h.2 h1]
    simp [pointLess_iff, h1, first_irrefl]
  · have : peq a.1 b.1 = false := by simpa using mt h.1 h1
    simp [this, pointLess_iff, h1]

theorem byLength_iff {peq : Pt K → Pt K → Bool} {a b : Line K} (h : peq a.1 b.1 = true ↔ a.1 = b.1) :
    byLength peq a b = true ↔ len2 a < len2 b ∨ len2 a = len2 b ∧ FirstLine a b := by
  unfold byLength FirstLine
  rw [lengthSquared_eq, lengthSquared_eq]
  by_cases h0 : len2 a = len2 b
  · by_cases h1 : a.1 = b.1
    · rw [h.2 h1]
      simp [pointLess_iff, h1, first_irrefl, h0]
    · have : peq a.1 b.1 = false := by simpa using mt h.1 h1
      simp [this, pointLess_iff, h1, h0]
  · simp [h0]

theorem byXY_orders {peq : Pt K → Pt K → Bool} {lines : List (Line K)} (h : SeparateStarts peq lines) :
    Orders (byXY peq) lines := by
  refine ⟨fun a ha => ?_, fun a ha b hb c hc h1 h2 => ?_, fun a ha b hb hne => ?_⟩
  · rw [← Bool.not_eq_true, byXY_iff (h a ha a ha)]
    exact firstLine_irrefl a
  · rw [byXY_iff (h _ ha _ hb)] at h1
    rw [byXY_iff (h _ hb _ hc)] at h2
    rw [byXY_iff (h _ ha _ hc)]
    exact firstLine_trans h1 h2
  · rw [byXY_iff (h _ ha _ hb), byXY_iff (h _ hb _ ha)]
    exact firstLine_total hne

theorem byLength_orders {peq : Pt K → Pt K → Bool} {lines : List (Line K)} (h : SeparateStarts peq lines) :
    Orders (byLength peq) lines := by
  refine ⟨fun a ha => ?_, fun a ha b hb c hc h1 h2 => ?_, fun a ha b hb hne => ?_⟩
  · rw [← Bool.not_eq_true, byLength_iff (h a ha a ha)]
    simp [firstLine_irrefl]
  · rw [byLength_iff (h _ ha _ hb)] at h1
    rw [byLength_iff (h _ hb _ hc)] at h2
    rw [byLength_iff (h _ ha _ hc)]
    rcases h1 with h1 | ⟨h1, h1'⟩ <;> rcases h2 with h2 | ⟨h2, h2'⟩
    · exact .inl (h1.trans h2)
    · exact .inl (h2 ▸ h1)
    · exact .inl (h1 ▸ h2)
    · exact .inr ⟨h1.trans h2, firstLine_trans h1' h2'⟩
  · rw [byLength_iff (h _ ha _ hb), byLength_iff (h _ hb _ ha)]
    rcases lt_trichotomy (len2 a) (len2 b) with h1 | h1 | h1
    · exact .inl (.inl h1)
    · rcases firstLine_total hne with h2 | h2
      · exact .inl (.inr ⟨h1, h2⟩)
      · exact .inr (.inr ⟨h1.symm, h2⟩)
    · exact .inr (.inl h1)

theorem sorted_unique {less : Line K → Line K → Bool} {lines l1 l2 : List (Line K)} (h : Orders less lines)
    (h1 : SortedBy less lines l1) (h2 : SortedBy less lines l2) : l1 = l2 := by
  refine (h1.1.trans h2.1.symm).eq_of_pairwise (le := fun a b => less b a = false) ?_ h1.2 h2.2
  intro a b ha hb hab hba
  by_contra hne
  have ha := h1.1.mem_iff.1 ha
  have hb := h2.1.mem_iff.1 hb
  rcases h.2.2 a ha b hb hne with h3 | h3
  · simp [hba] at h3
  · simp [hab] at h3

end Verif.LineOrders
