import Verif.Lemmas.Validate
import Mathlib.Algebra.Order.Field.Rat

/-!
# Helper lemmas: stars of edges, to test validation with
-/

namespace Verif.Lemmas.ValidateStar
open Verif.Quad Verif.Spec.Quad Verif.Lemmas.Quad Verif.Subdivision Verif.Spec.Subdivision Verif.Lemmas.SubWalk
open Verif.Planar (Line)
open Verif.Intersect (Event IsQueue)

/-- One order in which the events may be put. -/
def queueOf (l : List (Line ℚ)) : List (Event ℚ) :=
  (Intersect.allEvents 0 l).insertionSort (fun a b => Intersect.less b a = false)

theorem queueOf_ok (l : List (Line ℚ)) : IsQueue l (queueOf l) := by
  have key : ∀ a b : Event ℚ, Intersect.less b a = false ↔
      a.ev.1 < b.ev.1 ∨ (a.ev.1 = b.ev.1 ∧ ((a.right = false ∧ b.right = true) ∨
        (a.right = b.right ∧ a.ev.2 ≤ b.ev.2))) := by
    intro a b
    unfold Intersect.less
    rcases lt_trichotomy a.ev.1 b.ev.1 with h | h | h
    · simp [h.ne', h.le, h]
    · rw [h]
      cases a.right <;> cases b.right <;> simp
    · simp [h.ne, h.ne', h, not_lt_of_gt h]
  have ht : Std.Total (fun a b : Event ℚ => Intersect.less b a = false) := ⟨by
    intro a b
    rw [key, key]
    rcases lt_trichotomy a.ev.1 b.ev.1 with h | h | h
    · exact Or.inl (Or.inl h)
    · rw [h]
      cases a.right <;> cases b.right <;> simp [le_total]
    · exact Or.inr (Or.inl h)⟩
  have hr : IsTrans (Event ℚ) (fun a b : Event ℚ => Intersect.less b a = false) := ⟨by
    intro a b c h1 h2
    rw [key] at h1 h2 ⊢
    rcases h1 with h1 | ⟨h1, h1'⟩
    · rcases h2 with h2 | ⟨h2, _⟩
      · exact Or.inl (h1.trans h2)
      · exact Or.inl (h2 ▸ h1)
    · rcases h2 with h2 | ⟨h2, h2'⟩
      · exact Or.inl (h1 ▸ h2)
      · right
        refine ⟨h1.trans h2, ?_⟩
        rcases h1' with ⟨h3, h4⟩ | ⟨h3, h4⟩ <;> rcases h2' with ⟨h5, h6⟩ | ⟨h5, h6⟩
        · exact Or.inl ⟨h3, h6⟩
        · exact Or.inl ⟨h3, h5 ▸ h4⟩
        · exact Or.inl ⟨h3 ▸ h5, h6⟩
        · exact Or.inr ⟨h3.trans h5, h4.trans h6⟩⟩
  exact ⟨List.perm_insertionSort _ _, List.pairwise_insertionSort _ _⟩

/-- Edges from (0,0) to the given points, each spliced in after the one before. -/
def spokes : List (Pt ℚ) → Store (Pt ℚ)
  | [] => Store.empty
  | d :: ds =>
    let r := newWithEndPoints (spokes ds) (some (0, 0)) (some d)
    if ds = [] then r.1 else splice r.1 ⟨ds.length - 1, 0⟩ r.2

theorem spokes_built (l : List (Pt ℚ)) : Built (spokes l) ∧ (spokes l).size = l.length ∧
    ∀ i, i < l.length → orig (spokes l) ⟨i, 0⟩ = some (0, 0) := by
  induction l with
  | nil => exact ⟨.empty, rfl, by simp⟩
  | cons d ds ih =>
    obtain ⟨h1, h2, h3⟩ := ih
    have ho : ∀ i, i < ds.length + 1 →
        orig (newWithEndPoints (spokes ds) (some (0, 0)) (some d)).1 ⟨i, 0⟩ = some (0, 0) := by
      intro i hi
      show (if (⟨i, 0⟩ : E) = sym ⟨(spokes ds).size, 0⟩ then _ else if (⟨i, 0⟩ : E) = ⟨(spokes ds).size, 0⟩ then _
        else if i = (spokes ds).size then _ else (spokes ds).v ⟨i, 0⟩) = _
      rw [if_neg (by simp [sym, nth])]
      by_cases h : i = ds.length
      · rw [if_pos (by rw [h, h2])]
      · rw [if_neg (by rw [h2]; simpa using h), if_neg (by rw [h2]; exact h)]
        exact h3 i (by omega)
    have hb : Built (newWithEndPoints (spokes ds) (some (0, 0)) (some d)).1 := .newWithEndPoints _ _ h1
    have hs : (newWithEndPoints (spokes ds) (some (0, 0)) (some d)).1.size = ds.length + 1 := by
      rw [← h2]; rfl
    have he : (newWithEndPoints (spokes ds) (some (0, 0)) (some d)).2 = ⟨ds.length, 0⟩ := by
      rw [← h2]; rfl
    simp only [spokes, List.length_cons]
    split_ifs with hc
    · exact ⟨hb, hs, ho⟩
    · have hlen : 0 < ds.length := List.length_pos_iff.2 hc
      rw [he]
      refine ⟨.splice _ _ hb ?_ ?_ (Or.inl rfl) (Or.inl rfl) ?_, ?_, ?_⟩
      · show ds.length - 1 < _; rw [hs]; omega
      · show ds.length < _; rw [hs]; omega
      · rw [ho _ (by omega), ho _ (by omega)]
      · rw [← hs]; rfl
      · exact ho

/-- What the theorem needs, for a star. -/
theorem spokes_fit (l : List (Pt ℚ)) (hl : l ≠ [])
    (h : ∀ y ∈ walkAllEdges (spokes l) (fun _ => true) ⟨0, 0⟩, orig (spokes l) y ≠ none ∧ dest (spokes l) y ≠ none ∧
      orig (spokes l) y ≠ dest (spokes l) y) :
    Allocated (spokes l) ⟨0, 0⟩ ∧ (∀ y, Connected (spokes l) ⟨0, 0⟩ y → orig (spokes l) y ≠ none) ∧
      ∀ y, Connected (spokes l) ⟨0, 0⟩ y → ¬ Around (spokes l) y (sym y) := by
  obtain ⟨h1, h2, _⟩ := spokes_built l
  obtain ⟨hi, ho⟩ := Built.inv_origins h1
  have az : Allocated (spokes l) ⟨0, 0⟩ := by
    show 0 < (spokes l).size; rw [h2]; exact List.length_pos_iff.2 hl
  have kz : Primal (⟨0, 0⟩ : E) := Or.inl rfl
  obtain ⟨_, hw⟩ := walk_all_edges hi kz az
  refine ⟨az, fun y hy => ?_, fun y hy hr => ?_⟩
  · rcases (hw y).1 hy with g | g
    · exact (h y g).1
    · have := (h _ g).2.1
      unfold dest at this
      rwa [sym_sym] at this
  · have e : dest (spokes l) y = orig (spokes l) y := ho y (sym y) ((connected_primal hi hy).2 kz) hr
    rcases (hw y).1 hy with g | g
    · exact (h y g).2.2 e.symm
    · apply (h _ g).2.2
      unfold dest at e ⊢
      rw [sym_sym]
      exact e

end Verif.Lemmas.ValidateStar
