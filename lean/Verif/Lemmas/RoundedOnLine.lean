import Verif.Model.RoundedOnLine
import Verif.Lemmas.RoundedTurn
import Mathlib.Tactic.FieldSimp

/-!
# Lemmas on points on lines, in floats
-/

namespace Verif.Lemmas.Rounded
open Verif Verif.Rounded Verif.Spec.Rounded

/-- A rounded value in a list of bounds. -/
theorem round_bound {x B : ℚ} (h : |x| ≤ B) : |roundTo 53 x - x| ≤ B / 2 ^ 53 :=
  (roundTo_near 53 (by norm_num) x).trans (div_le_div_of_nonneg_right h (by norm_num))

theorem round_size {x B : ℚ} (h : |x| ≤ B) : |roundTo 53 x| ≤ B + B / 2 ^ 53 := by
  have h1 := round_bound h
  have : roundTo 53 x = (roundTo 53 x - x) + x := by ring
  rw [this]
  exact (abs_add_le _ _).trans (by linarith)

/-- The slope is good enough to get from one end to the other. -/
theorem slope_near {x1 y1 x2 y2 m B : ℚ} (hdx : sub 53 x2 x1 ≠ 0) (hm : m = quo 53 (sub 53 y2 y1) (sub 53 x2 x1))
    (h1 : |y1| ≤ B) (h2 : |y2| ≤ B) (h3 : |m * x1| ≤ B) (h4 : |m * x2| ≤ B) :
    |m * x2 - m * x1 - (y2 - y1)| ≤ 7 * B / 2 ^ 53 := by
  have hB : 0 ≤ B := (abs_nonneg _).trans h1
  have hy : |y2 - y1| ≤ 2 * B := (abs_sub _ _).trans (by linarith)
  have e1 : |sub 53 y2 y1 - (y2 - y1)| ≤ 2 * B / 2 ^ 53 := round_bound hy
  have hY : |sub 53 y2 y1| ≤ 2 * B + 2 * B / 2 ^ 53 := round_size hy
  have e2 : |sub 53 x2 x1 - (x2 - x1)| ≤ |x2 - x1| / 2 ^ 53 := roundTo_near 53 (by norm_num) _
  have e3 : |m - sub 53 y2 y1 / sub 53 x2 x1| ≤ |sub 53 y2 y1 / sub 53 x2 x1| / 2 ^ 53 := by
    rw [hm]
    exact roundTo_near 53 (by norm_num) _
  generalize sub 53 y2 y1 = DY at *
  generalize sub 53 x2 x1 = DX at *
  have e4 : |m * DX - DY| ≤ (2 * B + 2 * B / 2 ^ 53) / 2 ^ 53 := by
    have k1 : m * DX - DY = (m - DY / DX) * DX := by field_simp
    rw [k1, abs_mul]
    have k2 := mul_le_mul_of_nonneg_right e3 (abs_nonneg DX)
    refine k2.trans ?_
    have k3 : |DY / DX| / 2 ^ 53 * |DX| = |DY| / 2 ^ 53 := by
      rw [abs_div]
      have : |DX| ≠ 0 := abs_ne_zero.2 hdx
      field_simp
    rw [k3]
    exact div_le_div_of_nonneg_right hY (by norm_num)
  have hmx : |m * (x2 - x1)| ≤ 2 * B := by
    rw [mul_sub]
    exact (abs_sub _ _).trans (by linarith)
  have e5 : |m * (x2 - x1 - DX)| ≤ 2 * B / 2 ^ 53 := by
    rw [abs_mul, abs_sub_comm]
    refine (mul_le_mul_of_nonneg_left e2 (abs_nonneg m)).trans ?_
    rw [← mul_div_assoc, ← abs_mul]
    exact div_le_div_of_nonneg_right hmx (by norm_num)
  have k : m * x2 - m * x1 - (y2 - y1) = (m * DX - DY) + m * (x2 - x1 - DX) + (DY - (y2 - y1)) := by ring
  rw [k]
  refine (abs_add_le _ _).trans ?_
  have := abs_add_le (m * DX - DY) (m * (x2 - x1 - DX))
  have p : (2 : ℚ) ^ 53 = 9007199254740992 := by norm_num
  rw [p] at *
  linarith

/-- What the formula for the line gives at `x`, when that is the x of a point `y` high. -/
theorem formula_near {x1 y1 x y m B D : ℚ} (h1 : |y1| ≤ B) (h3 : |m * x1| ≤ B) (h4 : |m * x| ≤ B)
    (hd : |m * x - m * x1 - (y - y1)| ≤ D) :
    |y - add 53 (mul 53 m x) (sub 53 y1 (mul 53 m x1))| ≤ 9 * B / 2 ^ 53 + D := by
  have hB : 0 ≤ B := (abs_nonneg _).trans h1
  have e1 : |mul 53 m x1 - m * x1| ≤ B / 2 ^ 53 := round_bound h3
  have s1 : |mul 53 m x1| ≤ B + B / 2 ^ 53 := round_size h3
  have e2 : |mul 53 m x - m * x| ≤ B / 2 ^ 53 := round_bound h4
  have s2 : |mul 53 m x| ≤ B + B / 2 ^ 53 := round_size h4
  generalize mul 53 m x1 = t1 at *
  generalize mul 53 m x = t at *
  have s3 : |y1 - t1| ≤ 2 * B + B / 2 ^ 53 := (abs_sub _ _).trans (by linarith)
  have e3 : |sub 53 y1 t1 - (y1 - t1)| ≤ (2 * B + B / 2 ^ 53) / 2 ^ 53 := round_bound s3
  have s4 : |sub 53 y1 t1| ≤ 2 * B + B / 2 ^ 53 + (2 * B + B / 2 ^ 53) / 2 ^ 53 := round_size s3
  generalize sub 53 y1 t1 = b at *
  have s5 : |t + b| ≤ 4 * B := by
    refine (abs_add_le _ _).trans ?_
    norm_num at s2 s4 ⊢
    linarith
  have e5 : |add 53 t b - (t + b)| ≤ 4 * B / 2 ^ 53 := round_bound s5
  generalize add 53 t b = r at *
  have k : y - r = -(r - (t + b)) + -(b - (y1 - t1)) + -(t - m * x) + (t1 - m * x1) + -(m * x - m * x1 - (y - y1)) := by
    ring
  rw [k]
  have a1 := abs_add_le (-(r - (t + b)) + -(b - (y1 - t1)) + -(t - m * x) + (t1 - m * x1)) (-(m * x - m * x1 - (y - y1)))
  have a2 := abs_add_le (-(r - (t + b)) + -(b - (y1 - t1)) + -(t - m * x)) (t1 - m * x1)
  have a3 := abs_add_le (-(r - (t + b)) + -(b - (y1 - t1))) (-(t - m * x))
  have a4 := abs_add_le (-(r - (t + b))) (-(b - (y1 - t1)))
  simp only [abs_neg] at a1 a2 a3 a4
  have p : (2 : ℚ) ^ 53 = 9007199254740992 := by norm_num
  rw [p] at *
  linarith

/-- Which ends are on the line. -/
theorem ends_on {feq : ℚ → ℚ → Bool} {a b : Pt ℚ} {B : ℚ} (h1 : |a.2| ≤ B) (h2 : |b.2| ≤ B)
    (h3 : |(slope (a, b)).1 * a.1| ≤ B) (h4 : |(slope (a, b)).1 * b.1| ≤ B)
    (hf : ∀ x y, |x - y| ≤ 16 * B / 2 ^ 53 → feq x y = true) :
    isPointOnLine feq a a b = true ∧ isPointOnLine feq b a b = true := by
  have hB : 0 ≤ B := (abs_nonneg _).trans h1
  have hr : ∀ x, feq x x = true := fun x => hf x x (by rw [sub_self, abs_zero]; positivity)
  have z : ∀ x y : ℚ, sub 53 x y = 0 → x = y := fun x y h => sub_eq_zero.1 ((roundTo_eq_zero (by norm_num)).1 h)
  by_cases hx : sub 53 b.1 a.1 = 0
  · have e : slope (a, b) = (0, a.2, false) := by simp [slope, hx]
    simp [isPointOnLine, e, z _ _ hx, hr]
  · by_cases hy : sub 53 b.2 a.2 = 0
    · have e : slope (a, b) = (0, a.2, true) := by simp [slope, hx, hy]
      simp [isPointOnLine, e, z _ _ hy, hr]
    · have e : slope (a, b) = (quo 53 (sub 53 b.2 a.2) (sub 53 b.1 a.1),
          sub 53 a.2 (mul 53 (quo 53 (sub 53 b.2 a.2) (sub 53 b.1 a.1)) a.1), true) := by simp [slope, hx, hy]
      have hm : quo 53 (sub 53 b.2 a.2) (sub 53 b.1 a.1) ≠ 0 := by
        unfold quo
        rw [Ne, roundTo_eq_zero (by norm_num)]
        exact div_ne_zero hy hx
      rw [e] at h3 h4
      simp only [isPointOnLine, e, hm, if_false, Bool.true_eq_false]
      constructor
      · refine hf _ _ ((formula_near (D := 0) h1 h3 h3 (by simp)).trans ?_)
        have : 0 ≤ B / 2 ^ 53 := by positivity
        have e : 9 * B / 2 ^ 53 + 0 = 9 * (B / 2 ^ 53) := by ring
        have e2 : 16 * B / 2 ^ 53 = 16 * (B / 2 ^ 53) := by ring
        rw [e, e2]
        linarith
      · refine hf _ _ ((formula_near h1 h3 h4 (slope_near hx rfl h1 h2 h3 h4)).trans ?_)
        have e : 9 * B / 2 ^ 53 + 7 * B / 2 ^ 53 = 16 * B / 2 ^ 53 := by ring
        rw [e]

/-- The ends are in the box of the segment. -/
theorem ends_segment (feq : ℚ → ℚ → Bool) (a b : Pt ℚ) :
    isPointOnLineSegment feq a (a, b) = isPointOnLine feq a a b ∧
      isPointOnLineSegment feq b (a, b) = isPointOnLine feq b a b := by
  unfold isPointOnLineSegment
  simp only
  constructor
  · rw [if_neg]
    rintro (h | h | h | h) <;> split_ifs at h <;> linarith
  · rw [if_neg]
    rintro (h | h | h | h) <;> split_ifs at h <;> linarith

theorem sub53_zero {x y : ℚ} : sub 53 x y = 0 ↔ x = y :=
  ⟨fun h => sub_eq_zero.1 ((roundTo_eq_zero (by norm_num)).1 h),
    fun h => (roundTo_eq_zero (by norm_num)).2 (sub_eq_zero.2 h)⟩

theorem segment_iff {feq : ℚ → ℚ → Bool} {p a b : Pt ℚ} :
    isPointOnLineSegment feq p (a, b) = true ↔
      (min a.1 b.1 ≤ p.1 ∧ p.1 ≤ max a.1 b.1 ∧ min a.2 b.2 ≤ p.2 ∧ p.2 ≤ max a.2 b.2) ∧
        isPointOnLine feq p a b = true := by
  unfold isPointOnLineSegment
  simp only
  have m1 : ∀ x y : ℚ, (if x > y then y else x) = min x y := by
    intro x y
    split_ifs with h
    · exact (min_eq_right h.le).symm
    · exact (min_eq_left (not_lt.1 h)).symm
  have m2 : ∀ x y : ℚ, (if x > y then x else y) = max x y := by
    intro x y
    split_ifs with h
    · exact (max_eq_left h.le).symm
    · exact (max_eq_right (not_lt.1 h)).symm
  rw [m1, m2, m1, m2]
  split_ifs with h
  · constructor
    · intro hc
      cases hc
    · rintro ⟨⟨h1, h2, h3, h4⟩, _⟩
      rcases h with h | h | h | h <;> exact absurd h (not_lt.2 ‹_›)
  · simp only [not_or, gt_iff_lt, not_lt] at h
    exact ⟨fun hc => ⟨h, hc⟩, fun hc => hc.2⟩

theorem on_straight (feq : ℚ → ℚ → Bool) (p a b : Pt ℚ) (h : a.1 = b.1 ∨ a.2 = b.2) :
    isPointOnLine feq p a b = true ↔ (a.1 = b.1 → feq p.1 a.1 = true) ∧ (a.1 ≠ b.1 → feq p.2 a.2 = true) := by
  by_cases hx : a.1 = b.1
  · have e : slope (a, b) = (0, a.2, false) := by simp [slope, sub53_zero.2 hx.symm]
    simp only [isPointOnLine, e, if_true]
    exact ⟨fun k => ⟨fun _ => k, fun n => absurd hx n⟩, fun k => k.1 hx⟩
  · have hy := h.resolve_left hx
    have e : slope (a, b) = (0, a.2, true) := by
      have : ¬ sub 53 b.1 a.1 = 0 := fun k => hx (sub53_zero.1 k).symm
      simp [slope, sub53_zero.2 hy.symm, this]
    simp only [isPointOnLine, e, if_true, Bool.true_eq_false, if_false]
    exact ⟨fun k => ⟨fun n => absurd n hx, fun _ => k⟩, fun k => k.2 hx⟩

theorem slope_slanted {a b : Pt ℚ} (hx : a.1 ≠ b.1) (hy : a.2 ≠ b.2) :
    slope (a, b) = (quo 53 (sub 53 b.2 a.2) (sub 53 b.1 a.1),
          sub 53 a.2 (mul 53 (quo 53 (sub 53 b.2 a.2) (sub 53 b.1 a.1)) a.1), true) ∧
      quo 53 (sub 53 b.2 a.2) (sub 53 b.1 a.1) ≠ 0 := by
  have kx : ¬ sub 53 b.1 a.1 = 0 := fun k => hx (sub53_zero.1 k).symm
  have ky : ¬ sub 53 b.2 a.2 = 0 := fun k => hy (sub53_zero.1 k).symm
  refine ⟨by simp [slope, kx, ky], ?_⟩
  unfold quo
  rw [Ne, roundTo_eq_zero (by norm_num)]
  exact div_ne_zero ky kx

theorem on_sound {feq : ℚ → ℚ → Bool} {p a b : Pt ℚ} {B tol : ℚ} (hx : a.1 ≠ b.1) (hy : a.2 ≠ b.2) (ha : |a.2| ≤ B)
    (hma : |(slope (a, b)).1 * a.1| ≤ B) (hmp : |(slope (a, b)).1 * p.1| ≤ B)
    (hf : ∀ x y, feq x y = true → |x - y| ≤ tol) (hon : isPointOnLine feq p a b = true) :
    |p.2 - (a.2 + (slope (a, b)).1 * (p.1 - a.1))| ≤ tol + 9 * B / 2 ^ 53 := by
  obtain ⟨e, hm⟩ := slope_slanted hx hy
  rw [e] at hma hmp
  simp only [isPointOnLine, e, hm, if_false, Bool.true_eq_false] at hon
  have k1 := hf _ _ hon
  have k2 := formula_near (y := a.2 + quo 53 (sub 53 b.2 a.2) (sub 53 b.1 a.1) * (p.1 - a.1)) (D := 0) ha hma hmp
    (by
      rw [show ∀ m : ℚ, m * p.1 - m * a.1 - (a.2 + m * (p.1 - a.1) - a.2) = 0 from fun m => by ring]
      simp)
  rw [e]
  simp only at k1 k2 ⊢
  generalize add 53 _ _ = r at *
  generalize quo 53 _ _ = m at *
  have k : p.2 - (a.2 + m * (p.1 - a.1)) = (p.2 - r) + -(a.2 + m * (p.1 - a.1) - r) := by ring
  rw [k]
  refine (abs_add_le _ _).trans ?_
  rw [abs_neg]
  linarith

theorem slope_good (a b : Pt ℚ) :
    ((slope (a, b)).2.2 = false ↔ a.1 = b.1) ∧
      |(slope (a, b)).1 * (b.1 - a.1) - (if a.1 = b.1 then 0 else b.2 - a.2)| ≤ 4 * |b.2 - a.2| / 2 ^ 53 := by
  by_cases hx : a.1 = b.1
  · have e : slope (a, b) = (0, a.2, false) := by simp [slope, sub53_zero.2 hx.symm]
    rw [e, if_pos hx]
    refine ⟨⟨fun _ => hx, fun _ => rfl⟩, ?_⟩
    simp only [zero_mul, sub_zero, abs_zero]
    positivity
  · rw [if_neg hx]
    by_cases hy : a.2 = b.2
    · have kx : ¬ sub 53 b.1 a.1 = 0 := fun k => hx (sub53_zero.1 k).symm
      have e : slope (a, b) = (0, a.2, true) := by simp [slope, sub53_zero.2 hy.symm, kx]
      rw [e]
      simp [hx, hy]
    · obtain ⟨e, -⟩ := slope_slanted hx hy
      have kx : sub 53 b.1 a.1 ≠ 0 := fun k => hx (sub53_zero.1 k).symm
      rw [e]
      refine ⟨by simp [hx], ?_⟩
      simp only
      have e1 : |sub 53 b.2 a.2 - (b.2 - a.2)| ≤ |b.2 - a.2| / 2 ^ 53 := round_bound le_rfl
      have s1 : |sub 53 b.2 a.2| ≤ |b.2 - a.2| + |b.2 - a.2| / 2 ^ 53 := round_size le_rfl
      have e2 : |sub 53 b.1 a.1 - (b.1 - a.1)| ≤ |b.1 - a.1| / 2 ^ 53 := round_bound le_rfl
      have e3 : |quo 53 (sub 53 b.2 a.2) (sub 53 b.1 a.1) - sub 53 b.2 a.2 / sub 53 b.1 a.1| ≤
          |sub 53 b.2 a.2 / sub 53 b.1 a.1| / 2 ^ 53 := round_bound le_rfl
      generalize quo 53 (sub 53 b.2 a.2) (sub 53 b.1 a.1) = m at *
      generalize sub 53 b.2 a.2 = DY at *
      generalize sub 53 b.1 a.1 = DX at *
      generalize b.2 - a.2 = dy at *
      generalize b.1 - a.1 = dx at *
      have hN : (0 : ℚ) ≤ |dy| := abs_nonneg _
      have e4 : |m * DX - DY| ≤ |DY| / 2 ^ 53 := by
        have k1 : m * DX - DY = (m - DY / DX) * DX := by field_simp
        rw [k1, abs_mul]
        refine (mul_le_mul_of_nonneg_right e3 (abs_nonneg DX)).trans (le_of_eq ?_)
        rw [abs_div]
        have : |DX| ≠ 0 := abs_ne_zero.2 kx
        field_simp
      have e5 : |m * dx - m * DX| ≤ |m * dx| / 2 ^ 53 := by
        rw [← mul_sub, abs_mul, abs_mul, abs_sub_comm, mul_div_assoc]
        exact mul_le_mul_of_nonneg_left e2 (abs_nonneg m)
      have a1 : |m * dx| ≤ |m * dx - m * DX| + |m * DX - DY| + |DY| := by
        have k : m * dx = (m * dx - m * DX) + (m * DX - DY) + DY := by ring
        calc |m * dx| = |(m * dx - m * DX) + (m * DX - DY) + DY| := by rw [← k]
          _ ≤ _ := (abs_add_le _ _).trans (by linarith [abs_add_le (m * dx - m * DX) (m * DX - DY)])
      have k : m * dx - dy = (m * dx - m * DX) + (m * DX - DY) + (DY - dy) := by ring
      rw [k]
      refine (abs_add_le _ _).trans ?_
      have a2 := abs_add_le (m * dx - m * DX) (m * DX - DY)
      have p : (2 : ℚ) ^ 53 = 9007199254740992 := by norm_num
      rw [p] at *
      linarith

end Verif.Lemmas.Rounded
