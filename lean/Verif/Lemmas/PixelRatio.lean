import Verif.Model.PixelRatio
import Mathlib.Tactic.FieldSimp
import Mathlib.Tactic.Linarith
import Mathlib.Tactic.Positivity

/-! # Lemmas about the size of a pixel -/

namespace Verif.PixelRatio
open Verif Verif.Slippy Real

theorem x_step (z x : ℕ) : x2deg z (x + 1) - x2deg z x = 360 / 2 ^ z := by
  unfold x2deg zoomN
  push_cast
  have : (2 : ℝ) ^ z ≠ 0 := by positivity
  field_simp
  ring

theorem y_bounds (z y : ℕ) : -90 < y2deg z y ∧ y2deg z y < 90 := by
  unfold y2deg
  have h1 := arctan_lt_pi_div_two (0.5 * (exp (π - 2 * π * (y : ℝ) / zoomN z) - exp (-(π - 2 * π * (y : ℝ) / zoomN z))))
  have h2 := neg_pi_div_two_lt_arctan
    (0.5 * (exp (π - 2 * π * (y : ℝ) / zoomN z) - exp (-(π - 2 * π * (y : ℝ) / zoomN z))))
  have hp := pi_pos
  dsimp only
  generalize arctan _ = r at h1 h2
  constructor
  · rw [div_mul_eq_mul_div, lt_div_iff₀ hp]; nlinarith
  · rw [div_mul_eq_mul_div, div_lt_iff₀ hp]; nlinarith

theorem y_mercator (z y : ℕ) : arsinh (tan (degree2Radians (y2deg z y))) = π - 2 * π * y / 2 ^ z := by
  have e : degree2Radians (y2deg z y) = arctan (sinh (π - 2 * π * y / 2 ^ z)) := by
    unfold degree2Radians y2deg zoomN
    rw [sinh_eq]
    have hp : π ≠ 0 := pi_ne_zero
    dsimp only
    rw [show (0.5 : ℝ) * (exp (π - 2 * π * y / 2 ^ z) - exp (-(π - 2 * π * y / 2 ^ z))) =
      (exp (π - 2 * π * y / 2 ^ z) - exp (-(π - 2 * π * y / 2 ^ z))) / 2 by ring]
    field_simp
  rw [e, tan_arctan, arsinh_sinh]

theorem ratio_eq (g : RealGrid) {zoom dim : ℕ} (hz : zoom ≤ 22) (hd : 0 < dim) :
    pixelRatioForZoom g zoom dim = (realExtent g ⟨zoom, 0, 0⟩).map fun e => (e.2.2.1 - e.1) / (dim : ℝ) := by
  have h1 : ¬ maxZoom < zoom := by unfold maxZoom; omega
  have h2 : ¬ dim = 0 := by omega
  unfold pixelRatioForZoom
  simp only [if_neg h1, if_neg h2]

theorem extent4326 (t : Tile) : realExtent grid4326 t = some (x2deg t.z t.x,
    min (y2deg t.z t.y) (y2deg t.z (t.y + 1)), x2deg t.z (t.x + 1), max (y2deg t.z t.y) (y2deg t.z (t.y + 1))) := by
  have hp : (0 : ℝ) < 360 / 2 ^ t.z := by positivity
  have h : x2deg t.z t.x ≤ x2deg t.z (t.x + 1) := by have := x_step t.z t.x; linarith
  simp only [realExtent, grid4326, toNative4326, Option.bind_some, min_eq_left h, max_eq_right h]

end Verif.PixelRatio
