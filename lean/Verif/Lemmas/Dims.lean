import Verif.Spec.Dims
import Mathlib.Data.List.Forall2

namespace Verif.Lemmas.Dims
open Verif.Dims Verif.Spec.Dims

variable {P Q : Type}

theorem ringLoop_length (r : List P) : ∀ p, (ringLoop p r).length = r.length := by
  induction r with
  | nil => simp [ringLoop]
  | cons a t ih => intro p; simp [ringLoop, ih]

theorem ringLoop_zero (p a : P) (t : List P) : (ringLoop p (a :: t))[0]? = some (p, a) := rfl

theorem ringLoop_succ (r : List P) : ∀ (p : P) (i : Nat), i + 1 < r.length →
    ∃ a b, r[i]? = some a ∧ r[i + 1]? = some b ∧ (ringLoop p r)[i + 1]? = some (a, b) := by
  induction r with
  | nil => intro p i h; simp at h
  | cons a t ih =>
    intro p i h
    cases i with
    | zero =>
      cases t with
      | nil => simp at h
      | cons b t => exact ⟨a, b, rfl, rfl, rfl⟩
    | succ i =>
      obtain ⟨x, y, h1, h2, h3⟩ := ih a i (by simpa using h)
      exact ⟨x, y, by simpa using h1, by simpa using h2, by simpa [ringLoop] using h3⟩

theorem ringLoop_edges (r : List P) (last : P) (h : r.getLast? = some last) : RingEdges r (ringLoop last r) := by
  refine ⟨ringLoop_length r last, fun i hi => ?_⟩
  cases i with
  | zero =>
    cases r with
    | nil => simp at hi
    | cons a t =>
      refine ⟨last, a, ?_, rfl, rfl⟩
      rw [Nat.zero_add, Nat.mod_eq_of_lt (by simp), ← h, List.getLast?_eq_getElem?]
  | succ i =>
    obtain ⟨a, b, h1, h2, h3⟩ := ringLoop_succ r last i hi
    refine ⟨a, b, ?_, h2, h3⟩
    rw [show i + 1 + (r.length - 1) = i + r.length by omega, Nat.add_mod_right, Nat.mod_eq_of_lt (by omega), h1]

theorem asSegments_edges (p : List (List P)) :
    List.Forall₂ RingEdges (p.filter fun r => 3 ≤ r.length) (asSegments p) := by
  induction p with
  | nil => exact .nil
  | cons r rs ih =>
    unfold asSegments
    rcases hl : r.getLast? with _ | last
    · have : r = [] := by simpa using hl
      subst this
      simpa using ih
    · simp only []
      split_ifs with h
      · rw [List.filter_cons_of_neg (by simp; omega)]
        exact ih
      · rw [List.filter_cons_of_pos (by simp; omega)]
        exact .cons (ringLoop_edges r last hl) ih

theorem ringLoop_map (f : P → Q) (r : List P) : ∀ p, ringLoop (f p) (r.map f) =
    (ringLoop p r).map fun e => (f e.1, f e.2) := by
  induction r with
  | nil => intro p; rfl
  | cons a t ih => intro p; simp [ringLoop, ih]

theorem asSegments_map (f : P → Q) (p : List (List P)) : asSegments (p.map (·.map f)) =
    (asSegments p).map (·.map fun e => (f e.1, f e.2)) := by
  induction p with
  | nil => rfl
  | cons r rs ih =>
    simp only [List.map_cons, asSegments, List.getLast?_map]
    rcases hl : r.getLast? with _ | last
    · simpa using ih
    · simp only [Option.map_some, List.length_map]
      split_ifs
      · exact ih
      · simp [ih, ringLoop_map]

theorem flatten_eq {F : Type} (xy : P → F × F) (l : List P) : ∀ acc, flatten xy l acc = acc ++ l.map xy := by
  induction l with
  | nil => simp [flatten]
  | cons a t ih => intro acc; simp [flatten, ih]

theorem asLineStrings_eq (l : List (Option (List P))) : ∀ acc v, asLineStrings l acc = some v ↔
    ∃ ls, l = ls.map some ∧ v = acc ++ ls := by
  induction l with
  | nil =>
    intro acc v
    constructor
    · intro h
      exact ⟨[], rfl, by simpa [asLineStrings] using h.symm⟩
    · rintro ⟨ls, h, rfl⟩
      cases ls with
      | nil => simp [asLineStrings]
      | cons x ls => simp at h
  | cons a t ih =>
    intro acc v
    cases a with
    | none =>
      simp only [asLineStrings, reduceCtorEq, false_iff, not_exists, not_and]
      intro ls h
      cases ls <;> simp at h
    | some x =>
      simp only [asLineStrings, ih]
      constructor
      · rintro ⟨ls, rfl, rfl⟩
        exact ⟨x :: ls, by simp, by simp⟩
      · rintro ⟨ls, h, rfl⟩
        cases ls with
        | nil => simp at h
        | cons y ls =>
          simp only [List.map_cons, List.cons.injEq, Option.some.injEq] at h
          exact ⟨ls, h.2, by simp [h.1]⟩

end Verif.Lemmas.Dims
