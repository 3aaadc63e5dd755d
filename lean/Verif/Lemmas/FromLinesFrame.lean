import Verif.Lemmas.FromLines

/-!
# The extent of a subdivision made of lines
-/

namespace Verif.Lemmas.FromLines
open Verif Verif.FromLines Verif.Spec.FromLines

variable {K : Type} [LinearOrder K]

theorem leastBox_add (ps : List (Pt K)) (e : K × K × K × K) (l : Pt K × Pt K)
    (h : LeastBox ps e.1 e.2.1 e.2.2.1 e.2.2.2) :
    LeastBox (ps ++ [l.1, l.2]) (min l.2.1 (min l.1.1 e.1)) (min l.2.2 (min l.1.2 e.2.1))
      (max l.2.1 (max l.1.1 e.2.2.1)) (max l.2.2 (max l.1.2 e.2.2.2)) := by
  obtain ⟨h0, ⟨a, ha, ha'⟩, ⟨b, hb, hb'⟩, ⟨c, hc, hc'⟩, ⟨d, hd, hd'⟩⟩ := h
  have pick : ∀ (f : Pt K → K) (m : K) (q : Pt K), q ∈ ps → f q = m → ∀ (g : K → K → K), (∀ x y, g x y = x ∨ g x y = y) →
      ∃ p ∈ ps ++ [l.1, l.2], f p = g (f l.2) (g (f l.1) m) := by
    intro f m q hq hm g hg
    rcases hg (f l.2) (g (f l.1) m) with h | h
    · exact ⟨l.2, by simp, h.symm⟩
    · rw [h]
      rcases hg (f l.1) m with h | h
      · exact ⟨l.1, by simp, h.symm⟩
      · exact ⟨q, by simp [hq], hm.trans h.symm⟩
  refine ⟨?_, pick (·.1) _ a ha ha' min min_choice, pick (·.1) _ b hb hb' max max_choice,
    pick (·.2) _ c hc hc' min min_choice, pick (·.2) _ d hd hd' max max_choice⟩
  intro p hp
  simp only [List.mem_append, List.mem_cons, List.not_mem_nil, or_false] at hp
  rcases hp with hp | rfl | rfl
  · obtain ⟨h1, h2, h3, h4⟩ := h0 p hp
    simp [h1, h2, h3, h4]
  · simp
  · simp

theorem leastBox_fold (ls : List (Pt K × Pt K)) : ∀ (ps : List (Pt K)) (e : K × K × K × K),
    LeastBox ps e.1 e.2.1 e.2.2.1 e.2.2.2 →
    ∃ x0 y0 x1 y1, ls.foldl (fun e l =>
        (min l.2.1 (min l.1.1 e.1), min l.2.2 (min l.1.2 e.2.1), max l.2.1 (max l.1.1 e.2.2.1),
          max l.2.2 (max l.1.2 e.2.2.2))) e = (x0, y0, x1, y1)
      ∧ LeastBox (ps ++ ls.flatMap fun l => [l.1, l.2]) x0 y0 x1 y1 := by
  induction ls with
  | nil => intro ps e h; exact ⟨e.1, e.2.1, e.2.2.1, e.2.2.2, rfl, by simpa using h⟩
  | cons l ls ih =>
    intro ps e h
    have := ih (ps ++ [l.1, l.2]) (min l.2.1 (min l.1.1 e.1), min l.2.2 (min l.1.2 e.2.1),
      max l.2.1 (max l.1.1 e.2.2.1), max l.2.2 (max l.1.2 e.2.2.2)) (leastBox_add ps e l h)
    simpa using this

theorem extent_leastBox (lines : List (Pt K × Pt K)) (e : K × K × K × K)
    (h : FromLines.extent lines = some e) :
    LeastBox (ends lines) e.1 e.2.1 e.2.2.1 e.2.2.2 := by
  have hmem : ∀ p, p ∈ ends lines ↔ p ∈ lines.flatMap fun l => [l.1, l.2] := fun p => by
    rw [ends, List.mem_dedup]
  unfold LeastBox
  simp only [hmem]
  change LeastBox (lines.flatMap fun l => [l.1, l.2]) e.1 e.2.1 e.2.2.1 e.2.2.2
  cases lines with
  | nil => cases h
  | cons l ls =>
    rw [FromLines.extent, Option.map_eq_some_iff] at h
    obtain ⟨e0, h1, h2⟩ := h
    have hb : LeastBox [l.1, l.2] e0.1 e0.2.1 e0.2.2.1 e0.2.2.2 := by
      simp only [Delaunay.extentOf, List.foldl_cons, List.foldl_nil, Option.some.injEq] at h1
      subst h1
      simp only [LeastBox, Delaunay.extendBy, List.mem_cons, List.not_mem_nil, or_false, forall_eq_or_imp,
        forall_eq, exists_eq_or_imp, exists_eq_left]
      rcases lt_trichotomy l.2.1 l.1.1 with a | a | a <;> rcases lt_trichotomy l.2.2 l.1.2 with b | b | b <;>
        simp [a, b, a.le, b.le, a.not_gt, b.not_gt]
    obtain ⟨x0, y0, x1, y1, h3, h4⟩ := leastBox_fold ls _ e0 hb
    rw [h3] at h2
    subst h2
    simpa using h4

end Verif.Lemmas.FromLines
