import Verif.Lemmas.Spherical
import Mathlib.Algebra.Order.Ring.Rat
import Mathlib.Algebra.Order.Field.Rat
import Mathlib.Tactic.Linarith
import Mathlib.Tactic.NormNum
import Mathlib.Tactic.Push

/-!
# The hull of two places on a sphere (C156)
-/

namespace Verif.Props
open Verif.Spherical Verif.Spec.Spherical Verif.Lemmas.Spherical

variable {K : Type} [Field K] [LinearOrder K] [IsStrictOrderedRing K]

/-- C156.  For any two places (longitudes from -180 to 180 degrees, or any others not
more than 360 degrees apart): going east from the west of the hull one gets to its east
within 180 degrees; both places are met on that way and lie between south and north;
south and north are latitudes of the places; and there is no smaller region: any stretch
going east that meets both places is at least as wide. -/
theorem C156_hull (a b : K × K) (h : |a.1 - b.1| ≤ 360) :
    ∃ d, 0 ≤ d ∧ d ≤ 180 ∧ East (hull a b).west d (hull a b).east ∧
      (∀ p, p = a ∨ p = b → OnArc (hull a b).west d p.1 ∧
        (hull a b).south ≤ p.2 ∧ p.2 ≤ (hull a b).north) ∧
      (∃ p, (p = a ∨ p = b) ∧ (hull a b).south = p.2) ∧
      (∃ p, (p = a ∨ p = b) ∧ (hull a b).north = p.2) ∧
      ∀ w d', OnArc w d' a.1 → OnArc w d' b.1 → d ≤ d' := by
  obtain ⟨d, h0, h1, hE, hd⟩ := hull_width a b h
  obtain ⟨hs, hn⟩ := hull_latitudes a b
  refine ⟨d, h0, h1, hE, ?_, ?_, ?_, ?_⟩
  · have hw : OnArc (hull a b).west d (hull a b).west := ⟨0, le_refl _, h0, 0, by simp⟩
    have he : OnArc (hull a b).west d (hull a b).east := ⟨d, h0, le_refl _, hE⟩
    have hl := hull_longitudes a b
    rintro p (rfl | rfl)
    · refine ⟨?_, by rw [hs]; exact min_le_left _ _, by rw [hn]; exact le_max_left _ _⟩
      rcases hl with ⟨e1, e2⟩ | ⟨e1, e2⟩
      · rw [← e1]; exact e1 ▸ hw
      · rw [← e2]; exact e2 ▸ he
    · refine ⟨?_, by rw [hs]; exact min_le_right _ _, by rw [hn]; exact le_max_right _ _⟩
      rcases hl with ⟨e1, e2⟩ | ⟨e1, e2⟩
      · rw [← e2]; exact e2 ▸ he
      · rw [← e1]; exact e1 ▸ hw
  · rcases min_choice a.2 b.2 with e | e
    · exact ⟨a, .inl rfl, by rw [hs, e]⟩
    · exact ⟨b, .inr rfl, by rw [hs, e]⟩
  · rcases max_choice a.2 b.2 with e | e
    · exact ⟨a, .inl rfl, by rw [hn, e]⟩
    · exact ⟨b, .inr rfl, by rw [hn, e]⟩
  · rintro w d' ⟨t, ht0, ht1, k, hk⟩ ⟨u, hu0, hu1, l, hl⟩
    have hdiff : a.1 - b.1 = (t - u) + 360 * ((k - l : ℤ) : K) := by push_cast; linarith
    have htu : |t - u| ≤ d' := by rw [abs_le]; constructor <;> linarith
    rcases eq_or_ne (k - l) 0 with h3 | h3
    · rw [h3] at hdiff
      have : |a.1 - b.1| = |t - u| := by rw [hdiff]; simp
      rcases hd with h2 | h2 <;> linarith
    · have hj : (1 : K) ≤ |((k - l : ℤ) : K)| := by
        rw [← Int.cast_abs]
        exact_mod_cast Int.one_le_abs h3
      have h4 : 360 * |((k - l : ℤ) : K)| ≤ |a.1 - b.1| + |t - u| := by
        have : 360 * ((k - l : ℤ) : K) = (a.1 - b.1) - (t - u) := by linarith
        calc 360 * |((k - l : ℤ) : K)| = |360 * ((k - l : ℤ) : K)| := by
              rw [abs_mul, abs_of_pos (by norm_num : (0 : K) < 360)]
          _ ≤ _ := by rw [this]; exact abs_sub _ _
      rcases hd with h2 | h2 <;> nlinarith

/-- From Fiji to Samoa, across the antimeridian: 10 degrees wide. -/
example : hull ((178, -18) : ℚ × ℚ) (-172, -14) = ⟨178, -18, -172, -14⟩ ∧ |(178 : ℚ) - -172| ≤ 360 ∧
    East (178 : ℚ) 10 (-172) := by
  refine ⟨by decide +kernel, by norm_num, -1, by norm_num⟩

/-- C156, what it does not cover: longitudes further apart than a full turn; here the
region is 220 degrees wide, though the places are 140 degrees apart. -/
theorem C156_beyond : hull ((-200, 0) : ℚ × ℚ) (300, 0) = ⟨300, 0, -200, 0⟩ ∧
    East (300 : ℚ) 220 (-200) ∧ OnArc (-200 : ℚ) 140 (-200) ∧ OnArc (-200 : ℚ) 140 300 := by
  refine ⟨by decide +kernel, ⟨-2, by norm_num⟩, ⟨0, by norm_num, by norm_num, 0, by norm_num⟩,
    140, by norm_num, by norm_num, 1, by norm_num⟩

end Verif.Props
