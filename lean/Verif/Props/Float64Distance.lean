import Verif.Lemmas.Float64Distance

/-!
# C193: the square of a distance in `float64`s
-/

namespace Verif.Props
open Verif Verif.Spec.Rounded
open Verif.Lemmas.Float64

/-- C193, in full: the squared distance of two points is a number, zero just if the points are equal, and right up to
six units of rounding. -/
def C193_full : Prop :=
  ∀ p q : Pt ℚ, Float64Point p → Float64Point q → ∃ d, Float64.pointDistance2 p q = some d ∧ (d = 0 ↔ p = q) ∧
    |d - ((p.1 - q.1) ^ 2 + (p.2 - q.2) ^ 2)| ≤ 6 * ((p.1 - q.1) ^ 2 + (p.2 - q.2) ^ 2) / 2 ^ 53

/-- The origin. -/
def origin : Pt ℚ := (0, 0)

/-- C193: two points at a distance of no more than `2 ^ -538` along either axis have a squared distance of zero. -/
theorem C193_too_near_partial (p q : Pt ℚ) (h1 : |p.1 - q.1| ≤ 2 ^ (-538 : Int)) (h2 : |p.2 - q.2| ≤ 2 ^ (-538 : Int)) :
    Float64.pointDistance2 p q = some 0 := by
  have hs : (2 : ℚ) ^ (-538 : Int) ≤ 2 ^ 510 := by
    rw [← zpow_natCast]
    exact zpow_le_zpow_right₀ (by norm_num) (by norm_num)
  obtain ⟨d, hd⟩ := dist2_finite (h1.trans hs) (h2.trans hs)
  rw [hd, dist2_some hd, fsq_tiny h1, fsq_tiny h2, add_zero, pre_zero]

/-- Non-vacuous: two different points. -/
example : Float64.pointDistance2 (2 ^ (-540 : Int), 0) (0, 0) = some 0 :=
  C193_too_near_partial _ _ (by
    simp only [sub_zero]
    rw [abs_of_pos (zpow_pos (by norm_num) _)]
    exact zpow_le_zpow_right₀ (by norm_num) (by norm_num)) (by
    simp only [sub_zero, abs_zero]
    exact (zpow_pos (by norm_num) _).le)

/-- C193, violated: the squared distance of (2^-540 0) to the origin underflows to zero. -/
theorem C193_violated : ¬ C193_full := by
  intro h
  have hp : (0 : ℚ) < 2 ^ (-540 : Int) := zpow_pos (by norm_num) _
  obtain ⟨d, h1, h2, -⟩ := h (2 ^ (-540 : Int), 0) origin
    ⟨⟨1, -540, by norm_num, by norm_num, by norm_num, by simp⟩, ⟨0, 0, by norm_num, by norm_num, by norm_num, by simp⟩⟩
    ⟨⟨0, 0, by norm_num, by norm_num, by norm_num, by simp [origin]⟩,
      ⟨0, 0, by norm_num, by norm_num, by norm_num, by simp [origin]⟩⟩
  have h3 := C193_too_near_partial (2 ^ (-540 : Int), 0) origin (by
    simp only [origin, sub_zero]
    rw [abs_of_pos hp]
    exact zpow_le_zpow_right₀ (by norm_num) (by norm_num)) (by
    simp only [origin, sub_zero, abs_zero]
    exact (zpow_pos (by norm_num) _).le)
  rw [h3] at h1
  have h4 := h2.1 (Option.some.inj h1).symm
  exact hp.ne' (congrArg Prod.fst h4)

/-- C193: points at a distance of at least `2 ^ -537` along some axis do not have a squared distance of zero. -/
theorem C193_not_zero_partial (p q : Pt ℚ) (h : 2 ^ (-537 : Int) ≤ |p.1 - q.1| ∨ 2 ^ (-537 : Int) ≤ |p.2 - q.2|) :
    Float64.pointDistance2 p q ≠ some 0 := by
  intro hd
  have e := dist2_some hd
  have hs : (2 : ℚ) ^ (-1074 : Int) ≤ fsq (p.1 - q.1) + fsq (p.2 - q.2) := by
    rcases h with h | h
    · exact (fsq_seen h).trans (le_add_of_nonneg_right (fsq_nonneg' _))
    · exact (fsq_seen h).trans (le_add_of_nonneg_left (fsq_nonneg' _))
  have := pre_mono hs
  rw [← e, pre_float (float_pow (by norm_num) (by norm_num))] at this
  exact absurd this (not_le.2 (zpow_pos (by norm_num) _))

/-- Non-vacuous: two points a metre apart. -/
example : Float64.pointDistance2 (20000000, 6000000) (20000000, 6000001) ≠ some 0 :=
  C193_not_zero_partial _ _ (Or.inr (by
    have e : |(6000000 : ℚ) - 6000001| = 1 := by norm_num
    simp only
    rw [e]
    exact zpow_le_one_of_nonpos₀ (by norm_num) (by norm_num)))

/-- C193: the squared distance is the same in both directions, also if it is infinite. -/
theorem C193_symmetric_partial (p q : Pt ℚ) : Float64.pointDistance2 p q = Float64.pointDistance2 q p :=
  dist2_symm p q

/-- Non-vacuous: a distance that is rounded. -/
example : Float64.pointDistance2 (1 / 8, 2 ^ 60) (3, 0) = Float64.pointDistance2 (3, 0) (1 / 8, 2 ^ 60) :=
  C193_symmetric_partial _ _

/-- C193: who is no farther along both axes never has a larger squared distance; and none is negative. -/
theorem C193_monotone_partial (p q r s : Pt ℚ) (d e : ℚ) (hd : Float64.pointDistance2 p q = some d)
    (he : Float64.pointDistance2 r s = some e) (h1 : |p.1 - q.1| ≤ |r.1 - s.1|) (h2 : |p.2 - q.2| ≤ |r.2 - s.2|) :
    0 ≤ d ∧ d ≤ e := by
  rw [dist2_some hd, dist2_some he]
  exact ⟨pre_nonneg (add_nonneg (fsq_nonneg' _) (fsq_nonneg' _)), pre_mono (add_le_add (fsq_mono h1) (fsq_mono h2))⟩

/-- Non-vacuous: distances of 25 and 125. -/
example : (0 : ℚ) ≤ 25 ∧ (25 : ℚ) ≤ 125 :=
  C193_monotone_partial (0, 0) (3, 4) (1, 1) (-9, -4) 25 125 (by decide +kernel) (by decide +kernel)
    (by norm_num) (by norm_num)

/-- C193: points at a distance of up to `2 ^ 510` along both axes have a finite squared distance, and where the
distances along the axes are zero or at least `2 ^ -500` it is right up to six units of rounding. -/
theorem C193_right_partial (p q : Pt ℚ) (f1 : |p.1 - q.1| ≤ 2 ^ 510) (f2 : |p.2 - q.2| ≤ 2 ^ 510) :
    ∃ d, Float64.pointDistance2 p q = some d ∧
      (p.1 = q.1 ∨ 2 ^ (-500 : Int) ≤ |p.1 - q.1| → p.2 = q.2 ∨ 2 ^ (-500 : Int) ≤ |p.2 - q.2| →
        |d - ((p.1 - q.1) ^ 2 + (p.2 - q.2) ^ 2)| ≤ 6 * ((p.1 - q.1) ^ 2 + (p.2 - q.2) ^ 2) / 2 ^ 53) := by
  obtain ⟨d, hd⟩ := dist2_finite f1 f2
  exact ⟨d, hd, dist2_near hd⟩

/-- Non-vacuous: a tenth and a seventh. -/
example : ∃ d, Float64.pointDistance2 (1 / 10, 0) (0, 1 / 7) = some d ∧
    |d - ((1 / 10 - 0) ^ 2 + (0 - 1 / 7) ^ 2)| ≤ 6 * ((1 / 10 - 0) ^ 2 + (0 - 1 / 7) ^ 2) / 2 ^ 53 := by
  have hb : (1 : ℚ) ≤ 2 ^ 510 := one_le_pow₀ (by norm_num)
  have hs : (2 : ℚ) ^ (-500 : Int) ≤ 1 / 16 := by
    have : (1 / 16 : ℚ) = 2 ^ (-4 : Int) := by norm_num
    rw [this]
    exact zpow_le_zpow_right₀ (by norm_num) (by norm_num)
  have a1 : |(1 / 10 - 0 : ℚ)| = 1 / 10 := by norm_num
  have a2 : |(0 - 1 / 7 : ℚ)| = 1 / 7 := by
    rw [zero_sub, abs_neg]
    norm_num
  obtain ⟨d, h1, h2⟩ := C193_right_partial (1 / 10, 0) (0, 1 / 7)
    (by simp only; rw [a1]; exact le_trans (by norm_num) hb) (by simp only; rw [a2]; exact le_trans (by norm_num) hb)
  exact ⟨d, h1, h2 (Or.inr (by simp only; rw [a1]; exact hs.trans (by norm_num)))
    (Or.inr (by simp only; rw [a2]; exact hs.trans (by norm_num)))⟩

end Verif.Props
