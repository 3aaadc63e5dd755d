import Verif.Lemmas.PixelRatio
import Verif.Spec.Slippy
import Mathlib.Tactic.FieldSimp
import Mathlib.Tactic.Linarith
import Mathlib.Tactic.Positivity

/-!
# Property C178: how large a pixel is

`PixelRatioForZoom` and `MvtPixelRationForZoom` of package slippy.
-/

namespace Verif.Props
open Verif Verif.Slippy Verif.Spec.Slippy Real

open Verif.PixelRatio

/-- **C178 in full**: at every zoom, in both grids, every tile is as wide and as high as the ratio times the number of
pixels. -/
def C178_full : Prop :=
  ∀ g : RealGrid, (g = grid4326 ∨ ∃ a > 0, g = grid3857 a) → ∀ dim > 0, ∀ t : Tile, t.z ≤ 22 → InGrid t →
    ∃ r e, pixelRatioForZoom g t.z dim = some r ∧ realExtent g t = some e ∧
      e.2.2.1 - e.1 = r * dim ∧ e.2.2.2 - e.2.1 = r * dim

/-- C178 fails: in degrees a tile is not as high as it is wide. -/
theorem C178_violated : ¬ C178_full := by
  intro h
  obtain ⟨r, e, hr, he, h1, h2⟩ := h grid4326 (Or.inl rfl) 1 (by norm_num) ⟨0, 0, 0⟩ (by norm_num) ⟨by norm_num, by norm_num⟩
  have hx := x_step 0 0
  have hy0 := y_bounds 0 0
  have hy1 := y_bounds 0 (0 + 1)
  simp only [realExtent, grid4326, toNative4326, Option.bind_some, Option.some.injEq] at he
  subst he
  have h3 := h1.trans h2.symm
  dsimp only at h3
  have a1 := le_max_right (x2deg 0 0) (x2deg 0 (0 + 1))
  have a2 := min_le_left (x2deg 0 0) (x2deg 0 (0 + 1))
  have b1 : max (y2deg 0 0) (y2deg 0 (0 + 1)) < 90 := max_lt hy0.2 hy1.2
  have b2 : -90 < min (y2deg 0 0) (y2deg 0 (0 + 1)) := lt_min hy0.1 hy1.1
  norm_num at hx
  simp only [zero_add] at *
  linarith

/-- C178, widths in degrees: the ratio, and that it holds for every tile of the zoom. -/
theorem C178_width_partial (dim : ℕ) (hd : 0 < dim) (t : Tile) (hz : t.z ≤ 22) :
    ∃ r e, pixelRatioForZoom grid4326 t.z dim = some r ∧ r = 360 / (2 ^ t.z * dim) ∧
      realExtent grid4326 t = some e ∧ e.1 = x2deg t.z t.x ∧ e.2.2.1 - e.1 = r * dim := by
  have hs := x_step t.z
  have hd' : (dim : ℝ) ≠ 0 := by positivity
  refine ⟨360 / (2 ^ t.z * dim), _, ?_, rfl, extent4326 t, rfl, ?_⟩
  · rw [ratio_eq _ hz hd, extent4326, Option.map_some]
    dsimp only
    rw [hs 0]
    congr 1
    field_simp
  · dsimp only
    rw [hs t.x]
    field_simp

example : ∃ t : Tile, t.z = 14 ∧ t.z ≤ 22 ∧ InGrid t ∧ 0 < t.x := ⟨⟨14, 9000, 5000⟩, rfl, by norm_num, ⟨by norm_num, by norm_num⟩, by norm_num⟩

/-- C178 in Web Mercator, in full: every tile of the zoom is as wide and as high as the ratio times the number of
pixels. -/
theorem C178_mercator_partial (a : ℝ) (ha : 0 < a) (dim : ℕ) (hd : 0 < dim) (t : Tile) (hz : t.z ≤ 22) :
    ∃ r e, pixelRatioForZoom (grid3857 a) t.z dim = some r ∧ r = 2 * π * a / (2 ^ t.z * dim) ∧
      realExtent (grid3857 a) t = some e ∧ e.2.2.1 - e.1 = r * dim ∧ e.2.2.2 - e.2.1 = r * dim := by
  have hp := pi_pos
  have h2 : (2 : ℝ) ^ t.z ≠ 0 := by positivity
  have hd' : (dim : ℝ) ≠ 0 := by positivity
  have xs : ∀ x, a * degree2Radians (x2deg t.z (x + 1)) - a * degree2Radians (x2deg t.z x) = 2 * π * a / 2 ^ t.z := by
    intro x
    have := x_step t.z x
    unfold degree2Radians
    have e : a * (x2deg t.z (x + 1) * π / 180) - a * (x2deg t.z x * π / 180) =
        a * π / 180 * (x2deg t.z (x + 1) - x2deg t.z x) := by ring
    rw [e, this]
    ring
  have ys : ∀ y, a * arsinh (tan (degree2Radians (y2deg t.z y))) - a * arsinh (tan (degree2Radians (y2deg t.z (y + 1)))) =
      2 * π * a / 2 ^ t.z := by
    intro y
    rw [y_mercator, y_mercator]
    push_cast
    field_simp
    ring
  have hpos : (0 : ℝ) < 2 * π * a / 2 ^ t.z := by positivity
  have xlt : ∀ x, a * degree2Radians (x2deg t.z x) ≤ a * degree2Radians (x2deg t.z (x + 1)) :=
    fun x => by have := xs x; linarith
  have ylt : ∀ y, a * arsinh (tan (degree2Radians (y2deg t.z (y + 1)))) ≤
      a * arsinh (tan (degree2Radians (y2deg t.z y))) := fun y => by have := ys y; linarith
  have hr : 2 * π * a / (2 ^ t.z * dim) * dim = 2 * π * a / 2 ^ t.z := by field_simp
  have he : ∀ x y : ℕ, realExtent (grid3857 a) ⟨t.z, x, y⟩ = some (a * degree2Radians (x2deg t.z x),
      a * arsinh (tan (degree2Radians (y2deg t.z (y + 1)))), a * degree2Radians (x2deg t.z (x + 1)),
      a * arsinh (tan (degree2Radians (y2deg t.z y)))) := by
    intro x y
    simp only [realExtent, grid3857, Option.bind_some, min_eq_left (xlt x), max_eq_right (xlt x), max_eq_left (ylt y),
      min_eq_right (ylt y)]
  refine ⟨2 * π * a / (2 ^ t.z * dim), _, ?_, rfl, he t.x t.y, ?_, ?_⟩
  · rw [ratio_eq _ hz hd, he, Option.map_some]
    dsimp only
    rw [xs 0]
    congr 1
    field_simp
  · dsimp only
    rw [xs t.x, hr]
  · dsimp only
    rw [ys t.y, hr]

example : ∃ (a : ℝ) (dim : ℕ) (t : Tile), 0 < a ∧ 0 < dim ∧ t.z ≤ 22 ∧ InGrid t ∧ 0 < t.y :=
  ⟨6378137, 256, ⟨14, 9000, 5000⟩, by norm_num, by norm_num, by norm_num, ⟨by norm_num, by norm_num⟩, by norm_num⟩

/-- C178, the arguments, for any grid: a zoom above 22 is taken for 22, no pixels for 4096; the answer is infinite just if
one of the corners of the first tile cannot be converted; twice the pixels, half the ratio. -/
theorem C178_arguments_partial (g : RealGrid) (zoom dim : ℕ) :
    (22 ≤ zoom → pixelRatioForZoom g zoom dim = pixelRatioForZoom g 22 dim) ∧
    pixelRatioForZoom g zoom 0 = pixelRatioForZoom g zoom 4096 ∧
    mvtPixelRatio g zoom = pixelRatioForZoom g zoom 4096 ∧
    (zoom ≤ 22 → (pixelRatioForZoom g zoom dim = none ↔ g ⟨zoom, 0, 0⟩ = none ∨ g ⟨zoom, 1, 1⟩ = none)) ∧
    (0 < dim → ∀ r, pixelRatioForZoom g zoom dim = some r → pixelRatioForZoom g zoom (2 * dim) = some (r / 2)) := by
  refine ⟨?_, rfl, rfl, ?_, ?_⟩
  · intro h
    unfold pixelRatioForZoom
    rcases h.eq_or_lt with rfl | h
    · rfl
    · have h1 : maxZoom < zoom := by unfold maxZoom; omega
      have h2 : ¬ maxZoom < 22 := by unfold maxZoom; omega
      simp only [if_pos h1, if_neg h2]
      rfl
  · intro h
    unfold pixelRatioForZoom
    have h1 : ¬ maxZoom < zoom := by unfold maxZoom; omega
    simp only [if_neg h1, Option.map_eq_none_iff, realExtent, zero_add]
    cases g ⟨zoom, 0, 0⟩ <;> cases g ⟨zoom, 1, 1⟩ <;> simp
  · intro h r hr
    have h1 : ¬ dim = 0 := by omega
    have h2 : ¬ 2 * dim = 0 := by omega
    unfold pixelRatioForZoom at hr ⊢
    simp only [Option.map_eq_some_iff, if_neg h1, if_neg h2] at hr ⊢
    obtain ⟨e, he, rfl⟩ := hr
    refine ⟨e, he, ?_⟩
    push_cast
    have hd' : (dim : ℝ) ≠ 0 := by positivity
    field_simp

example : pixelRatioForZoom (fun t => if t.x = 0 then some (0, 0) else none) 3 256 = none :=
  ((C178_arguments_partial _ 3 256).2.2.2.1 (by norm_num)).2 (Or.inr rfl)

end Verif.Props
