import Verif.Model.UtmScale
import Mathlib.Analysis.Complex.Trigonometric
import Mathlib.Analysis.SpecialFunctions.Trigonometric.Bounds
import Mathlib.Analysis.Real.Pi.Bounds
import Mathlib.Analysis.Real.Sqrt
import Mathlib.Topology.MetricSpace.ProperSpace.Real
import Mathlib.Tactic.Positivity
import Mathlib.Tactic.Ring
import Mathlib.Tactic.NormNum
import Mathlib.Tactic.Linarith
import Mathlib.Tactic.FieldSimp
import Mathlib.Tactic.FunProp
import Mathlib.Tactic.NormNum.NatFactorial

/-!
# The scale of the projection on a sphere
-/

namespace Verif.Utm
open Real

theorem cos_taylor {x : ℝ} (hx : |x| ≤ 1) :
    |cos x - (1 - x ^ 2 / 2 + x ^ 4 / 24 - x ^ 6 / 720)| ≤ x ^ 8 := by
  have hn : ‖(x : ℂ) * Complex.I‖ = |x| := by simp
  have h := Complex.exp_bound (x := x * Complex.I) (by rw [hn]; exact hx) (n := 8) (by norm_num)
  have h2 := (Complex.abs_re_le_norm _).trans h
  rw [hn] at h2
  have e1 : (Complex.exp (x * Complex.I)
      - ∑ m ∈ Finset.range 8, (x * Complex.I) ^ m / (m.factorial : ℂ)).re
      = cos x - (1 - x ^ 2 / 2 + x ^ 4 / 24 - x ^ 6 / 720) := by
    have hs : (∑ m ∈ Finset.range 8, ((x : ℂ) * Complex.I) ^ m / (m.factorial : ℂ))
        = ((1 - x ^ 2 / 2 + x ^ 4 / 24 - x ^ 6 / 720 : ℝ) : ℂ)
          + ((x - x ^ 3 / 6 + x ^ 5 / 120 - x ^ 7 / 5040 : ℝ) : ℂ) * Complex.I := by
      have i2 : Complex.I ^ 2 = -1 := Complex.I_sq
      have i3 : Complex.I ^ 3 = -Complex.I := Complex.I_pow_three
      have i4 : Complex.I ^ 4 = 1 := Complex.I_pow_four
      have i5 : Complex.I ^ 5 = Complex.I := by rw [pow_succ, i4, one_mul]
      have i6 : Complex.I ^ 6 = -1 := by rw [show 6 = 4 + 2 by rfl, pow_add, i4, i2, one_mul]
      have i7 : Complex.I ^ 7 = -Complex.I := by
        rw [show 7 = 4 + 3 by rfl, pow_add, i4, i3, one_mul]
      simp only [Finset.sum_range_succ, Finset.sum_range_zero, Nat.factorial, mul_pow, i2, i3, i4,
        i5, i6, i7]
      push_cast
      ring
    rw [hs, Complex.sub_re, Complex.exp_ofReal_mul_I_re, Complex.add_re, Complex.re_ofReal_mul,
      Complex.I_re, Complex.ofReal_re]
    ring
  rw [e1] at h2
  refine h2.trans ?_
  have h8 : |x| ^ 8 = x ^ 8 := by
    rw [show (8 : ℕ) = 2 * 4 by rfl, pow_mul, pow_mul, sq_abs]
  rw [h8]
  have : (0 : ℝ) ≤ x ^ 8 := by positivity
  have hc : (((8 : ℕ).succ : ℝ) * (((8 : ℕ).factorial : ℝ) * ((8 : ℕ) : ℝ))⁻¹) ≤ 1 := by
    norm_num [Nat.factorial]
  exact mul_le_of_le_one_right this hc

/-- The square of the sine, to the sixth power. -/
theorem sin_sq_taylor {d : ℝ} (hd : |d| ≤ 1 / 2) :
    |sin d ^ 2 - (d ^ 2 - d ^ 4 / 3 + 2 / 45 * d ^ 6)| ≤ 128 * d ^ 8 := by
  have h := cos_taylor (x := 2 * d) (by rw [abs_mul]; norm_num; linarith)
  rw [Real.sin_sq_eq_half_sub]
  rw [abs_le] at h ⊢
  constructor <;> nlinarith [h.1, h.2]

/-- The series of the scale on a sphere, of the longitude and of the square of the cosine of the
latitude. -/
noncomputable def seriesP (d u : ℝ) : ℝ :=
  1 + d ^ 2 * (u / 2) + d ^ 4 * ((9 * u ^ 2 - 4 * u) / 24)
    + d ^ 6 * ((16 * u - 180 * u ^ 2 + 225 * u ^ 3) / 720)

theorem scalarFactor_sphere (l : LngLat ℝ) (hc : cos (toRadian l.lat) ≠ 0) :
    scalarFactor l 0 = 0.9996 * seriesP (toRadian l.lng) (cos (toRadian l.lat) ^ 2) := by
  unfold scalarFactor seriesP k0 l0
  rw [Real.tan_eq_sin_div_cos]
  have hs : sin (toRadian l.lat) ^ 2 = 1 - cos (toRadian l.lat) ^ 2 := Real.sin_sq _
  generalize cos (toRadian l.lat) = c at hc hs
  generalize sin (toRadian l.lat) = s at hs
  generalize toRadian l.lng = d
  have t2 : s / c * (s / c) = (1 - c ^ 2) / c ^ 2 := by rw [← hs]; field_simp
  simp only [t2]
  field_simp
  ring

theorem seriesP_nonneg {d u : ℝ} (hd : |d| ≤ 1 / 2) (h0 : 0 ≤ u) (h1 : u ≤ 1) :
    0 ≤ seriesP d u := by
  have d2 : d ^ 2 ≤ 1 / 4 := by
    rw [← sq_abs]; nlinarith [abs_nonneg d]
  unfold seriesP
  have e4 : d ^ 4 = d ^ 2 * d ^ 2 := by ring
  have e6 : d ^ 6 = d ^ 2 * d ^ 2 * d ^ 2 := by ring
  rw [e4, e6]
  have hD : 0 ≤ d ^ 2 := by positivity
  generalize d ^ 2 = D at *
  have b1 : 0 ≤ D * (u / 2) := by positivity
  have b2 : D * D ≤ 1 / 16 := by nlinarith
  have b3 : D * D * D ≤ 1 / 64 := by nlinarith
  have c1 : -4 ≤ 9 * u ^ 2 - 4 * u := by nlinarith
  have c2 : -180 ≤ 16 * u - 180 * u ^ 2 + 225 * u ^ 3 := by
    have : 0 ≤ u ^ 3 := by positivity
    nlinarith
  have b2' : 0 ≤ D * D := by positivity
  have b3' : 0 ≤ D * D * D := by positivity
  nlinarith [mul_le_mul_of_nonneg_left c1 b2', mul_le_mul_of_nonneg_left c2 b3']

/-- What is left of the product beyond the sixth power. -/
noncomputable def restQ (D u : ℝ) : ℝ :=
  let a2 := u / 2
  let a4 := (9 * u ^ 2 - 4 * u) / 24
  let a6 := (16 * u - 180 * u ^ 2 + 225 * u ^ 3) / 720
  ((a4 ^ 2 + 2 * a2 * a6) - u * (2 * a6 + 2 * a2 * a4) + u / 3 * (a2 ^ 2 + 2 * a4)
      - 2 * u / 45 * (2 * a2))
    + D * (2 * a4 * a6 - u * (a4 ^ 2 + 2 * a2 * a6) + u / 3 * (2 * a6 + 2 * a2 * a4)
      - 2 * u / 45 * (a2 ^ 2 + 2 * a4))
    + D ^ 2 * (a6 ^ 2 - u * (2 * a4 * a6) + u / 3 * (a4 ^ 2 + 2 * a2 * a6)
      - 2 * u / 45 * (2 * a6 + 2 * a2 * a4))
    + D ^ 3 * (-u * a6 ^ 2 + u / 3 * (2 * a4 * a6) - 2 * u / 45 * (a4 ^ 2 + 2 * a2 * a6))
    + D ^ 4 * (u / 3 * a6 ^ 2 - 2 * u / 45 * (2 * a4 * a6))
    + D ^ 5 * (-(2 * u / 45) * a6 ^ 2)

theorem series_square (d u : ℝ) :
    seriesP d u ^ 2 * (1 - u * (d ^ 2 - d ^ 4 / 3 + 2 / 45 * d ^ 6)) - 1
      = d ^ 8 * restQ (d ^ 2) u := by
  unfold seriesP restQ
  ring

theorem exists_bounds : ∃ C : ℝ, 0 ≤ C ∧ ∀ d u : ℝ, |d| ≤ 1 / 2 → 0 ≤ u → u ≤ 1 →
    |restQ (d ^ 2) u| ≤ C ∧ seriesP d u ^ 2 * u ≤ C := by
  have hK : IsCompact (Set.Icc (-(1 / 2) : ℝ) (1 / 2) ×ˢ Set.Icc (0 : ℝ) 1) :=
    isCompact_Icc.prod isCompact_Icc
  have f1 : Continuous fun p : ℝ × ℝ => restQ (p.1 ^ 2) p.2 := by
    unfold restQ; fun_prop
  have f2 : Continuous fun p : ℝ × ℝ => seriesP p.1 p.2 ^ 2 * p.2 := by
    unfold seriesP; fun_prop
  obtain ⟨A, hA⟩ := hK.exists_bound_of_continuousOn f1.continuousOn
  obtain ⟨B, hB⟩ := hK.exists_bound_of_continuousOn f2.continuousOn
  refine ⟨max 0 (max A B), le_max_left _ _, fun d u hd h0 h1 => ?_⟩
  have hm : (d, u) ∈ Set.Icc (-(1 / 2) : ℝ) (1 / 2) ×ˢ Set.Icc (0 : ℝ) 1 := by
    rw [abs_le] at hd
    exact ⟨⟨hd.1, hd.2⟩, h0, h1⟩
  refine ⟨(hA _ hm).trans ((le_max_left _ _).trans (le_max_right _ _)), ?_⟩
  exact (le_abs_self _).trans ((hB _ hm).trans ((le_max_right _ _).trans (le_max_right _ _)))

theorem series_close : ∃ C : ℝ, ∀ d c : ℝ, |d| ≤ 1 / 2 → |c| ≤ 1 →
    |seriesP d (c ^ 2) - 1 / √(1 - c ^ 2 * sin d ^ 2)| ≤ C * d ^ 8 := by
  obtain ⟨C, hC, hb⟩ := exists_bounds
  refine ⟨2 * (129 * C), fun d c hd hc => ?_⟩
  have u0 : 0 ≤ c ^ 2 := by positivity
  have u1 : c ^ 2 ≤ 1 := by rw [← sq_abs]; nlinarith [abs_nonneg c]
  generalize c ^ 2 = u at u0 u1
  obtain ⟨hq, hp⟩ := hb d u hd u0 u1
  have hs := sin_sq_taylor hd
  have hsin : sin d ^ 2 ≤ 1 / 4 := by
    rw [abs_le] at hd
    rcases le_total 0 d with h | h
    · have h1 := Real.sin_le h
      have h2 : 0 ≤ sin d := Real.sin_nonneg_of_nonneg_of_le_pi h (by linarith [Real.pi_gt_three])
      nlinarith
    · have h1 := Real.le_sin h
      have h2 : sin d ≤ 0 := Real.sin_nonpos_of_nonpos_of_neg_pi_le h
        (by linarith [Real.pi_gt_three])
      nlinarith
  have hs0 : 0 ≤ sin d ^ 2 := by positivity
  have hP := seriesP_nonneg hd u0 u1
  have hsq := series_square d u
  have hd8 : 0 ≤ d ^ 8 := by positivity
  have hw : 1 / 4 ≤ 1 - u * sin d ^ 2 := by nlinarith
  generalize sin d ^ 2 = S at *
  generalize seriesP d u = P at *
  have hE : |P ^ 2 * (1 - u * S) - 1| ≤ 129 * C * d ^ 8 := by
    have : P ^ 2 * (1 - u * S) - 1 = d ^ 8 * restQ (d ^ 2) u
        - (P ^ 2 * u) * (S - (d ^ 2 - d ^ 4 / 3 + 2 / 45 * d ^ 6)) := by
      rw [← hsq]; ring
    rw [this]
    refine (abs_sub _ _).trans ?_
    rw [abs_mul, abs_mul, abs_of_nonneg hd8, abs_of_nonneg (by positivity : 0 ≤ P ^ 2 * u)]
    have k1 := mul_le_mul_of_nonneg_left hq hd8
    have k2 := mul_le_mul hp hs (abs_nonneg _) hC
    linarith
  generalize 1 - u * S = w at *
  have hw0 : 0 < w := by linarith
  have hr : 0 < √w := Real.sqrt_pos.mpr hw0
  have hr2 : √w * √w = w := Real.mul_self_sqrt hw0.le
  have hrh : 1 / 2 ≤ √w := by
    apply Real.le_sqrt_of_sq_le; linarith
  generalize √w = r at *
  have e : P - 1 / r = (P ^ 2 * w - 1) / (r * (P * r + 1)) := by
    rw [← hr2]
    have : P * r + 1 ≠ 0 := by positivity
    field_simp
    ring
  rw [e, abs_div, abs_of_pos (by positivity : 0 < r * (P * r + 1)), div_le_iff₀ (by positivity)]
  have hden : 1 / 2 ≤ r * (P * r + 1) := by
    have : 0 ≤ P * r := by positivity
    nlinarith
  have hX : 0 ≤ 129 * C * d ^ 8 := by positivity
  nlinarith

end Verif.Utm
