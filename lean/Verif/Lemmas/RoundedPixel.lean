import Verif.Model.RoundedPixel
import Verif.Lemmas.RoundedOnLine

/-!
# Lemmas on positions in a tile, in floats
-/

namespace Verif.Lemmas.Rounded
open Verif Verif.Rounded Verif.Spec.Rounded

/-- One coordinate: `n` is the distance from the side, `s` the size of the tile. -/
def along (n s px : ℚ) : ℚ := roundTo 53 (roundTo 53 (roundTo 53 n / roundTo 53 s) * px)

theorem round_nonneg {x : ℚ} : 0 ≤ roundTo 53 x ↔ 0 ≤ x := roundTo_nonneg (by norm_num)

theorem round_pos {x : ℚ} (h : 0 < x) : 0 < roundTo 53 x :=
  lt_of_le_of_ne (round_nonneg.2 h.le) fun e => h.ne' ((roundTo_eq_zero (by norm_num)).1 e.symm)

theorem along_mono {n m s px : ℚ} (hs : 0 < s) (hp : 0 ≤ px) (h : n ≤ m) : along n s px ≤ along m s px := by
  unfold along
  refine roundTo_mono (by norm_num) (mul_le_mul_of_nonneg_right (roundTo_mono (by norm_num) ?_) hp)
  exact div_le_div_of_nonneg_right (roundTo_mono (by norm_num) h) (round_pos hs).le

theorem along_zero (s px : ℚ) : along 0 s px = 0 := by
  unfold along
  rw [roundTo_zero, zero_div, roundTo_zero, zero_mul, roundTo_zero]

theorem along_all {s px : ℚ} (hs : 0 < s) (hp : Fits 53 px) : along s s px = px := by
  unfold along
  rw [div_self (round_pos hs).ne', roundTo_one (by norm_num), one_mul, roundTo_fits (by norm_num) hp]

theorem along_neg {n s px : ℚ} (hs : 0 < s) (hp : 0 < px) : along n s px < 0 ↔ n < 0 := by
  rw [← not_le, ← not_le, not_iff_not]
  unfold along
  rw [round_nonneg, mul_nonneg_iff_of_pos_right hp, round_nonneg, le_div_iff₀ (round_pos hs), zero_mul,
    round_nonneg]

theorem along_near {n s px : ℚ} (hs : s ≠ 0) : |along n s px - n / s * px| ≤ 5 * |n / s * px| / 2 ^ 53 := by
  have p : (2 : ℚ) ^ 53 = 9007199254740992 := by norm_num
  have hN : |roundTo 53 n - n| ≤ |n| / 2 ^ 53 := round_bound le_rfl
  have hS : |roundTo 53 s - s| ≤ |s| / 2 ^ 53 := round_bound le_rfl
  have hS0 : roundTo 53 s ≠ 0 := fun h => hs ((roundTo_eq_zero (by norm_num)).1 h)
  unfold along
  have hQ : |roundTo 53 (roundTo 53 n / roundTo 53 s) - roundTo 53 n / roundTo 53 s| ≤
      |roundTo 53 n / roundTo 53 s| / 2 ^ 53 := round_bound le_rfl
  generalize roundTo 53 n = N at *
  generalize roundTo 53 s = S at *
  have hR : |roundTo 53 (roundTo 53 (N / S) * px) - roundTo 53 (N / S) * px| ≤ |roundTo 53 (N / S) * px| / 2 ^ 53 :=
    round_bound le_rfl
  generalize roundTo 53 (N / S) = Q at *
  generalize roundTo 53 (Q * px) = R at *
  have hs1 : 0 < |s| := abs_pos.2 hs
  have hS1 : |s| ≤ 1001 / 1000 * |S| := by
    have := abs_sub_abs_le_abs_sub s S
    rw [abs_sub_comm] at this
    rw [p] at hS
    linarith
  have h1 : |N / S - n / s| ≤ 2002 / 1000 * |n / s| / 2 ^ 53 := by
    have e : N / S - n / s = ((N - n) - n / s * (S - s)) / S := by field_simp; ring
    rw [e, abs_div, div_le_iff₀ (abs_pos.2 hS0)]
    have k1 : |N - n| ≤ |n / s| * |s| / 2 ^ 53 := by
      rw [← abs_mul, div_mul_cancel₀ n hs]
      exact hN
    have k2 : |n / s * (S - s)| ≤ |n / s| * |s| / 2 ^ 53 := by
      rw [abs_mul, mul_div_assoc]
      exact mul_le_mul_of_nonneg_left hS (abs_nonneg _)
    have k3 := mul_le_mul_of_nonneg_left hS1 (abs_nonneg (n / s))
    refine (abs_sub _ _).trans ?_
    rw [p] at *
    have e2 : 2002 / 1000 * |n / s| / 9007199254740992 * |S| = 2 * (|n / s| * (1001 / 1000 * |S|)) / 9007199254740992 := by
      ring
    rw [e2]
    linarith
  have h2 : |N / S| ≤ |n / s| + |N / S - n / s| := by
    have := abs_sub_abs_le_abs_sub (N / S) (n / s)
    linarith
  have h3 : |Q - n / s| ≤ 301 / 100 * |n / s| / 2 ^ 53 := by
    have e : Q - n / s = (Q - N / S) + (N / S - n / s) := by ring
    rw [e]
    refine (abs_add_le _ _).trans ?_
    have := abs_nonneg (n / s)
    rw [p] at *
    linarith
  have h4 : |Q * px - n / s * px| ≤ 301 / 100 * |n / s * px| / 2 ^ 53 := by
    rw [← sub_mul, abs_mul, abs_mul]
    have := mul_le_mul_of_nonneg_right h3 (abs_nonneg px)
    refine this.trans (le_of_eq ?_)
    ring
  have h5 : |Q * px| ≤ |n / s * px| + |Q * px - n / s * px| := by
    have := abs_sub_abs_le_abs_sub (Q * px) (n / s * px)
    linarith
  have e : R - n / s * px = (R - Q * px) + (Q * px - n / s * px) := by ring
  rw [e]
  refine (abs_add_le _ _).trans ?_
  have := abs_nonneg (n / s * px)
  rw [p] at *
  linarith

end Verif.Lemmas.Rounded
