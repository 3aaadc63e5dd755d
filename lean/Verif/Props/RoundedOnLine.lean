import Verif.Lemmas.RoundedOnLine

/-!
# C191: the ends of a segment and the points that are on it, in floats
-/

namespace Verif.Props
open Verif Verif.Spec.Rounded
open Verif.Lemmas.Rounded

/-- C191, in full: both ends of a segment are on it, as soon as the comparison takes numbers as equal that differ by
at most one, or by a millionth of the first. -/
def C191_full : Prop :=
  ∀ (feq : ℚ → ℚ → Bool) (a b : Pt ℚ), Float64Point a → Float64Point b →
    (∀ x y, |x - y| ≤ 1 → feq x y = true) → (∀ x y, |x - y| ≤ |x| / 1000000 → feq x y = true) →
    Rounded.isPointOnLineSegment feq a (a, b) = true ∧ Rounded.isPointOnLineSegment feq b (a, b) = true

/-- One end of a steep segment. -/
def steepA : Pt ℚ := (20000121, 11)
/-- The other end, a thousandth to the right. -/
def steepB : Pt ℚ := (20000121 + 1 / 1024, 10000120)

/-- C191, violated: at its first end the steep segment is computed to be at zero instead of eleven. -/
theorem C191_violated : ¬ C191_full := by
  intro h
  have h1 := (h (fun x y => decide (|x - y| ≤ 1 ∨ |x - y| ≤ |x| / 1000000)) steepA steepB
    ⟨⟨20000121, 0, by norm_num, by norm_num, by norm_num, by norm_num [steepA]⟩,
      ⟨11, 0, by norm_num, by norm_num, by norm_num, by norm_num [steepA]⟩⟩
    ⟨⟨20480123905, -10, by norm_num, by norm_num, by norm_num, by norm_num [steepB]⟩,
      ⟨10000120, 0, by norm_num, by norm_num, by norm_num, by norm_num [steepB]⟩⟩
    (fun x y h => by simp [h]) (fun x y h => by simp [h])).1
  have e : Rounded.isPointOnLineSegment (fun x y => decide (|x - y| ≤ 1 ∨ |x - y| ≤ |x| / 1000000)) steepA
      (steepA, steepB) = false := by decide +kernel
  rw [e] at h1
  exact absurd h1 (by simp)

/-- C191: the ends of a segment are on it if the comparison takes numbers as equal that differ by at most sixteen
units of rounding of `B`, where no y is beyond `B`, and neither is an x times the slope. -/
theorem C191_ends_partial (feq : ℚ → ℚ → Bool) (a b : Pt ℚ) (B : ℚ) (ha : |a.2| ≤ B) (hb : |b.2| ≤ B)
    (hma : |(Rounded.slope (a, b)).1 * a.1| ≤ B) (hmb : |(Rounded.slope (a, b)).1 * b.1| ≤ B)
    (hf : ∀ x y, |x - y| ≤ 16 * B / 2 ^ 53 → feq x y = true) :
    Rounded.isPointOnLineSegment feq a (a, b) = true ∧ Rounded.isPointOnLineSegment feq b (a, b) = true := by
  rw [(ends_segment feq a b).1, (ends_segment feq a b).2]
  exact ends_on ha hb hma hmb hf

/-- Non-vacuous: a segment in metres, some hundred metres long, to a micrometre. -/
example : Rounded.isPointOnLineSegment (fun x y => decide (|x - y| ≤ 1 / 1000000)) (1000123, 6000000)
      ((1000123, 6000000), (1000230, 6000333)) = true ∧
    Rounded.isPointOnLineSegment (fun x y => decide (|x - y| ≤ 1 / 1000000)) (1000230, 6000333)
      ((1000123, 6000000), (1000230, 6000333)) = true :=
  C191_ends_partial _ (1000123, 6000000) (1000230, 6000333) 8000000 (by norm_num) (by norm_num) (by decide +kernel)
    (by decide +kernel) (fun x y h => by
      simp only [decide_eq_true_eq]
      refine h.trans ?_
      norm_num)

/-- C191: a vertical or a horizontal segment has its ends on it, and on such a segment are the points of its box that
have the same x, or the same y, as far as the comparison tells. -/
theorem C191_straight_partial (feq : ℚ → ℚ → Bool) (p a b : Pt ℚ) (h : a.1 = b.1 ∨ a.2 = b.2) :
    Rounded.isPointOnLineSegment feq p (a, b) = true ↔
      (min a.1 b.1 ≤ p.1 ∧ p.1 ≤ max a.1 b.1 ∧ min a.2 b.2 ≤ p.2 ∧ p.2 ≤ max a.2 b.2) ∧
        (a.1 = b.1 → feq p.1 a.1 = true) ∧ (a.1 ≠ b.1 → feq p.2 a.2 = true) := by
  rw [segment_iff, on_straight feq p a b h]

/-- Non-vacuous: a vertical segment. -/
example : Rounded.isPointOnLineSegment (fun x y => decide (x = y)) (3, 4) ((3, 1), (3, 9)) = true :=
  (C191_straight_partial _ (3, 4) (3, 1) (3, 9) (Or.inl rfl)).2 (by norm_num)

/-- C191: a point told to be on a slanted segment is in its box, and off the line with the slope that `Slope` returns
by no more than the tolerance and nine units of rounding. -/
theorem C191_sound_partial (feq : ℚ → ℚ → Bool) (p a b : Pt ℚ) (B tol : ℚ) (hx : a.1 ≠ b.1) (hy : a.2 ≠ b.2)
    (ha : |a.2| ≤ B)
    (hma : |(Rounded.slope (a, b)).1 * a.1| ≤ B) (hmp : |(Rounded.slope (a, b)).1 * p.1| ≤ B)
    (hf : ∀ x y, feq x y = true → |x - y| ≤ tol) (hon : Rounded.isPointOnLineSegment feq p (a, b) = true) :
    (min a.1 b.1 ≤ p.1 ∧ p.1 ≤ max a.1 b.1 ∧ min a.2 b.2 ≤ p.2 ∧ p.2 ≤ max a.2 b.2) ∧
      |p.2 - (a.2 + (Rounded.slope (a, b)).1 * (p.1 - a.1))| ≤ tol + 9 * B / 2 ^ 53 := by
  rw [segment_iff] at hon
  exact ⟨hon.1, on_sound hx hy ha hma hmp hf hon.2⟩

/-- Non-vacuous: the middle of the segment in metres. -/
example : |(6000166.5 : ℚ) - (6000000 + (Rounded.slope ((1000123, 6000000), (1000230, 6000333))).1 *
    (1000176.5 - 1000123))| ≤ 1 / 1000000 + 9 * 8000000 / 2 ^ 53 :=
  (C191_sound_partial (fun x y => decide (|x - y| ≤ 1 / 1000000)) (1000176.5, 6000166.5) (1000123, 6000000)
    (1000230, 6000333) 8000000 (1 / 1000000) (by norm_num) (by norm_num) (by norm_num) (by decide +kernel)
    (by decide +kernel) (fun x y h => by simpa using h) (by decide +kernel)).2

/-- C191: the slope of a slanted segment is the quotient of the differences but for four units of rounding, and
is not defined exactly for a vertical one. -/
theorem C191_slope_partial (a b : Pt ℚ) :
    ((Rounded.slope (a, b)).2.2 = false ↔ a.1 = b.1) ∧
      |(Rounded.slope (a, b)).1 * (b.1 - a.1) - (if a.1 = b.1 then 0 else b.2 - a.2)| ≤
        4 * |b.2 - a.2| / 2 ^ 53 :=
  slope_good a b

/-- Non-vacuous: a slanted segment. -/
example : (Rounded.slope ((1, 1), (4, 2))).2.2 = true ∧
    |(Rounded.slope ((1, 1), (4, 2))).1 * 3 - 1| ≤ 4 / 2 ^ 53 := by
  have h := C191_slope_partial (1, 1) (4, 2)
  norm_num at h
  norm_num
  exact h

end Verif.Props
