import Verif.Lemmas.RoundedColinear

/-!
# C202: colinear lines, in floats
-/

namespace Verif.Props
open Verif Verif.Spec.Rounded Verif.Lemmas.RoundedColinear

/-- The lines from `a` to `b` and from `c` to `d` have the same direction. -/
def SameDirection (a b c d : Pt ℚ) : Prop := (a.1 - b.1) * (c.2 - d.2) = (a.2 - b.2) * (c.1 - d.1)

/-- An end of the line from `c` to `d` is in the box around the line from `a` to `b`. -/
def EndInBox (a b c d : Pt ℚ) : Prop :=
  ∃ p, (p = c ∨ p = d) ∧ min a.1 b.1 ≤ p.1 ∧ p.1 ≤ max a.1 b.1 ∧ min a.2 b.2 ≤ p.2 ∧ p.2 ≤ max a.2 b.2

/-- C202, in full: lines are called colinear exactly if they have the same direction and an end of the second is in the
box around the first (what exact arithmetic gives; what that means of the lines is C74). -/
def C202_full : Prop :=
  ∀ a b c d : Pt ℚ, Float64Point a → Float64Point b → Float64Point c → Float64Point d →
    (Rounded.areLinesColinear (a, b) (c, d) = true ↔ SameDirection a b c d ∧ EndInBox a b c d)

/-- The end of a line from the origin. -/
def slantB : Pt ℚ := (134217728, 134217727)
/-- The end of another line from the origin, with a slightly different direction. -/
def slantD : Pt ℚ := (134217729, 134217728)

/-- **C202**, violated: two lines from the origin that only meet there are called colinear. -/
theorem C202_violated : ¬ C202_full := by
  intro h
  have h0 : Float64Point (0, 0) :=
    ⟨⟨0, 0, by norm_num, by norm_num, by norm_num, by norm_num⟩, ⟨0, 0, by norm_num, by norm_num, by norm_num, by norm_num⟩⟩
  have h1 := (h (0, 0) slantB (0, 0) slantD h0
    ⟨⟨134217728, 0, by norm_num, by norm_num, by norm_num, by norm_num [slantB]⟩,
      ⟨134217727, 0, by norm_num, by norm_num, by norm_num, by norm_num [slantB]⟩⟩ h0
    ⟨⟨134217729, 0, by norm_num, by norm_num, by norm_num, by norm_num [slantD]⟩,
      ⟨134217728, 0, by norm_num, by norm_num, by norm_num, by norm_num [slantD]⟩⟩).1 (by decide +kernel)
  have h2 := h1.1
  unfold SameDirection slantB slantD at h2
  norm_num at h2

/-- **C202**, what holds if the differences of the ends are floats: no colinear lines are missed. -/
theorem C202_found_partial (a b c d : Pt ℚ) (h1 : Fits 53 (a.1 - b.1)) (h2 : Fits 53 (a.2 - b.2))
    (h3 : Fits 53 (c.1 - d.1)) (h4 : Fits 53 (c.2 - d.2)) (h : SameDirection a b c d) (he : EndInBox a b c d) :
    Rounded.areLinesColinear (a, b) (c, d) = true :=
  (colinear_iff a b c d).2 ⟨denom_parallel h1 h2 h3 h4 h, he⟩

example : Fits 53 ((0 : ℚ) - 3) ∧ SameDirection (0, 0) (3, 3) (1, 1) (7, 7) ∧ EndInBox (0, 0) (3, 3) (1, 1) (7, 7) := by
  refine ⟨⟨-3, 0, by norm_num, by norm_num⟩, by unfold SameDirection; norm_num, (1, 1), .inl rfl, ?_⟩
  norm_num

/-- **C202**, what holds of all floats: lines are only called colinear if an end of the second is in the box around the
first. -/
theorem C202_box_partial (a b c d : Pt ℚ) (h : Rounded.areLinesColinear (a, b) (c, d) = true) : EndInBox a b c d :=
  ((colinear_iff a b c d).1 h).2

example : Rounded.areLinesColinear ((0, 0), (3, 3)) ((1, 1), (7, 7)) = true ∧
    Rounded.areLinesColinear ((0, 0), (3, 3)) ((4, 4), (7, 7)) = false := by decide +kernel

/-- **C202** for ends that are whole multiples, at most `2 ^ 25`, of a power of two: the full claim. -/
theorem C202_exact_partial (s : Int) (a b c d : Pt ℚ) (ha : OnGrid s (2 ^ 25) a) (hb : OnGrid s (2 ^ 25) b)
    (hc : OnGrid s (2 ^ 25) c) (hd : OnGrid s (2 ^ 25) d) :
    Rounded.areLinesColinear (a, b) (c, d) = true ↔ SameDirection a b c d ∧ EndInBox a b c d := by
  rw [colinear_iff, denom_grid ha hb hc hd]
  rfl

example : OnGrid (-1) (2 ^ 25) (3 / 2, 5) ∧
    Rounded.areLinesColinear ((3 / 2, 5), (0, 1)) ((3 / 2, 5), (0, 2)) = false :=
  ⟨⟨⟨3, by norm_num, by norm_num⟩, ⟨10, by norm_num, by norm_num⟩⟩, by decide +kernel⟩

end Verif.Props
