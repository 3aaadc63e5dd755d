import Verif.Model.UtmScale
import Verif.Lemmas.UtmScale
import Mathlib.Tactic.Positivity
import Mathlib.Tactic.Ring
import Mathlib.Tactic.NormNum
import Mathlib.Tactic.Linarith

/-!
# The scale of the projection at a place (C179)
-/

namespace Verif.Props
open Verif.Utm

/-- C179 in full: on the meridian in the middle of every zone, the `n`-th of which is centred
`6 n - 183` degrees east of Greenwich, the scale is that of the projection, 0.9996. -/
def C179_full : Prop :=
  ∀ (n : Int) (lat e : ℝ), 1 ≤ n → n ≤ 60 → -80 ≤ lat → lat ≤ 84 → 0 ≤ e → e < 1 →
    scalarFactor ⟨6 * n - 183, lat⟩ e = 0.9996

/-- The scale on the equator, as a polynomial of the longitude. -/
theorem C179_equator_partial (lng e : ℝ) :
    scalarFactor ⟨lng, 0⟩ e = 0.9996 * (1 + (lng * Real.pi / 180) ^ 2 / 2 * (1 + e ^ 2 / (1 - e ^ 2))
      + (lng * Real.pi / 180) ^ 4 / 24 * (5 + 24 * (e ^ 2 / (1 - e ^ 2))
          + 13 * (e ^ 2 / (1 - e ^ 2)) ^ 2 + 4 * (e ^ 2 / (1 - e ^ 2)) ^ 3)
      + (lng * Real.pi / 180) ^ 6 * (61 / 720)) := by
  have h : toRadian 0 = 0 := by simp [toRadian]
  unfold scalarFactor
  simp only [h, Real.cos_zero, Real.tan_zero, k0, l0]
  unfold toRadian
  rw [show e * e = e ^ 2 by ring]
  generalize e ^ 2 / (1 - e ^ 2) = q
  ring

/-- On the equator the scale is 0.9996 just on the meridian of Greenwich. -/
theorem C179_only_greenwich_partial (lng e : ℝ) (h0 : 0 ≤ e) (h1 : e < 1) :
    scalarFactor ⟨lng, 0⟩ e = 0.9996 ↔ lng = 0 := by
  rw [C179_equator_partial]
  have hq : 0 ≤ e ^ 2 / (1 - e ^ 2) := by
    apply div_nonneg (by positivity)
    nlinarith
  generalize e ^ 2 / (1 - e ^ 2) = q at hq
  constructor
  · intro h
    by_contra hne
    have hd : lng * Real.pi / 180 ≠ 0 := by
      have := Real.pi_pos.ne'
      simp [hne, this]
    generalize lng * Real.pi / 180 = d at h hd
    have a1 : 0 < d ^ 2 / 2 * (1 + q) := by positivity
    have a2 : 0 ≤ d ^ 4 / 24 * (5 + 24 * q + 13 * q ^ 2 + 4 * q ^ 3) := by positivity
    have a3 : 0 ≤ d ^ 6 * (61 / 720) := by positivity
    linarith
  · rintro rfl
    norm_num

example : (0 : ℝ) ≤ 0.0818 ∧ (0.0818 : ℝ) < 1 ∧ scalarFactor ⟨9, 0⟩ 0.0818 ≠ 0.9996 :=
  ⟨by norm_num, by norm_num, fun h => by
    have := (C179_only_greenwich_partial 9 0.0818 (by norm_num) (by norm_num)).mp h
    norm_num at this⟩

/-- On the meridian of Greenwich the scale is 0.9996 at every latitude; it is the same east and
west of it, and the same north and south of the equator. -/
theorem C179_symmetric_partial (lng lat e : ℝ) :
    scalarFactor ⟨0, lat⟩ e = 0.9996
      ∧ scalarFactor ⟨-lng, lat⟩ e = scalarFactor ⟨lng, lat⟩ e
      ∧ scalarFactor ⟨lng, -lat⟩ e = scalarFactor ⟨lng, lat⟩ e := by
  have hn : ∀ x : ℝ, toRadian (-x) = -toRadian x := fun x => by unfold toRadian; ring
  refine ⟨?_, ?_, ?_⟩
  · have h : toRadian 0 = 0 := by simp [toRadian]
    unfold scalarFactor
    simp only [h, k0, l0]
    norm_num
  · unfold scalarFactor
    simp only [hn, l0, sub_zero, neg_mul_neg]
  · unfold scalarFactor
    simp only [hn, Real.cos_neg, Real.tan_neg, neg_mul_neg]

example : (⟨-9, 45⟩ : LngLat ℝ) ≠ ⟨9, 45⟩ ∧ (⟨9, -45⟩ : LngLat ℝ) ≠ ⟨9, 45⟩
    ∧ scalarFactor ⟨-9, 0⟩ 0.0818 ≠ 0.9996 := by
  refine ⟨fun h => ?_, fun h => ?_, ?_⟩
  · have := congrArg LngLat.lng h; norm_num at this
  · have := congrArg LngLat.lat h; norm_num at this
  · intro h
    have := (C179_only_greenwich_partial (-9) 0.0818 (by norm_num) (by norm_num)).mp h
    norm_num at this

/-- On a sphere (no eccentricity) the scale at longitude `l` and latitude `p` is
`0.9996 / √(1 - cos² p sin² l)`, the longitude being taken from Greenwich, up to the eighth power
of the longitude: one bound serves every place this side of the poles that is within half a radian
of Greenwich. -/
theorem C179_sphere_partial :
    ∃ C : ℝ, ∀ lng lat : ℝ, |lng * Real.pi / 180| ≤ 1 / 2 → -90 < lat → lat < 90 →
      |scalarFactor ⟨lng, lat⟩ 0
          - 0.9996 / √(1 - Real.cos (lat * Real.pi / 180) ^ 2 * Real.sin (lng * Real.pi / 180) ^ 2)|
        ≤ C * (lng * Real.pi / 180) ^ 8 := by
  obtain ⟨C, hC⟩ := series_close
  refine ⟨C, fun lng lat hl h1 h2 => ?_⟩
  have hp := Real.pi_pos
  have hc : 0 < Real.cos (lat * Real.pi / 180) := by
    apply Real.cos_pos_of_mem_Ioo
    constructor <;> nlinarith
  have h := hC _ (Real.cos (lat * Real.pi / 180)) hl (Real.abs_cos_le_one _)
  rw [scalarFactor_sphere ⟨lng, lat⟩ hc.ne']
  unfold toRadian
  rw [div_eq_mul_one_div (0.9996 : ℝ), ← mul_sub, abs_mul, abs_of_pos (by norm_num : (0 : ℝ) < 0.9996)]
  have := abs_nonneg (seriesP (lng * Real.pi / 180) (Real.cos (lat * Real.pi / 180) ^ 2)
    - 1 / √(1 - Real.cos (lat * Real.pi / 180) ^ 2 * Real.sin (lng * Real.pi / 180) ^ 2))
  linarith

example : |(9 : ℝ) * Real.pi / 180| ≤ 1 / 2 ∧ (-90 : ℝ) < 45 ∧ (45 : ℝ) < 90 := by
  refine ⟨?_, by norm_num, by norm_num⟩
  rw [abs_of_pos (by positivity)]
  linarith [Real.pi_lt_four]

/-- C179 fails: in the middle of zone 32, 9 degrees east, on the equator. -/
theorem C179_violated : ¬ C179_full := by
  intro h
  have := (C179_only_greenwich_partial _ _ (by norm_num) (by norm_num)).mp
    (h 32 0 0.0818 (by norm_num) (by norm_num) (by norm_num) (by norm_num) (by norm_num)
      (by norm_num))
  norm_num at this

end Verif.Props
