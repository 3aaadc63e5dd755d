import Verif.Model.SlippySize
import Verif.Lemmas.SlippyBounds

/-!
# C201: the size of a zoom

Over the real numbers (the rounding of float64 is not modelled).
-/

namespace Verif.Props
open Verif Verif.Slippy Verif.Lemmas.SlippyBounds

/-- The full claim: a zoom up to the largest has a size, and the tiles found for places are exactly those below it. -/
def C201_full : Prop :=
  ∀ ts z : ℕ, 5 ≤ tileSizeOr ts → z ≤ maxZoom → ∃ s, gridSize z = some s ∧
    ∀ t : Tile, (∃ p, fromNative4326 ts z p = t) ↔ t.z = s.z ∧ t.x < s.x ∧ t.y < s.y

/-- **C201** fails: 179.999999 degrees east is in column 1 of zoom 0. -/
theorem C201_violated : ¬ C201_full := by
  intro h
  obtain ⟨s, h1, h2⟩ := h 256 0 (by decide) (by decide)
  have h3 := ((h2 _).1 ⟨(179.999999, 0), rfl⟩).2.1
  have e1 : lon2Num 256 0 179.999999 = 1 := by
    rw [lon2Num_mid 256 0 (by norm_num) (by norm_num), Int.floor_eq_iff]
    unfold zoomN floatVariance tileSizeOr
    norm_num
  unfold fromNative4326 at h3
  simp only [e1] at h3
  cases h1
  exact absurd h3 (by decide)

/-- **C201**, weaker: there is a size exactly up to the largest zoom, and the tiles below it are exactly those found for
places that are not within a millionth of a pixel west of 180 degrees. -/
theorem C201_size_partial (ts z : ℕ) (hts : 5 ≤ tileSizeOr ts) :
    (maxZoom < z → gridSize z = none) ∧
    (z ≤ maxZoom → ∃ s, gridSize z = some s ∧
      ∀ t : Tile, (∃ p : ℝ × ℝ, (180 ≤ p.1 ∨ p.1 < 180 - 360 * floatVariance / (tileSizeOr ts * zoomN z)) ∧
        fromNative4326 ts z p = t) ↔ t.z = s.z ∧ t.x < s.x ∧ t.y < s.y) := by
  refine ⟨fun h => if_pos h, fun hz => ⟨zoomTileSize z, if_neg (not_lt.2 hz), fun t => ⟨?_, ?_⟩⟩⟩
  · rintro ⟨p, hp, rfl⟩
    have := C59_in_grid_partial ts z p hts hz hp
    exact ⟨rfl, this.1, this.2⟩
  · obtain ⟨tz, tx, ty⟩ := t
    rintro ⟨hz', hx, hy⟩
    simp only [zoomTileSize] at hz' hx hy
    subst hz'
    obtain ⟨l, hl⟩ : ∃ l, lat2Num ts tz l = ty := by
      by_cases hy1 : tz = 22 ∧ ty = 1
      · obtain ⟨rfl, rfl⟩ := hy1
        exact ⟨_, row_one ts hts⟩
      · have hc := lat2Num_y2deg ts tz ty hz hy
        rw [if_neg hy1] at hc
        exact ⟨_, hc⟩
    refine ⟨(x2deg tz tx, l), .inr (x2deg_far ts tz tx hx), ?_⟩
    have hx' : (tx : ℤ) ≤ 2 ^ tz := by exact_mod_cast hx.le
    have hy' : (ty : ℤ) ≤ 2 ^ tz := by exact_mod_cast hy.le
    have c := toUint_small tz hz tx (by positivity) hx'
    have r := toUint_small tz hz ty (by positivity) hy'
    unfold fromNative4326
    simp only [lon2Num_x2deg ts tz tx hx, hl, Tile.mk.injEq, true_and]
    omega

/-- **C201**: the tile one beyond the last, with the size as its numbers, has the lower right corner of the map as its
upper left corner, opposite to that of the first tile. -/
theorem C201_corner (z : ℕ) (s : Tile) (h : gridSize z = some s) :
    toNative4326 ⟨z, 0, 0⟩ = (-180, (toNative4326 ⟨z, 0, 0⟩).2) ∧
    toNative4326 s = (180, -(toNative4326 ⟨z, 0, 0⟩).2) ∧ 85 < (toNative4326 ⟨z, 0, 0⟩).2 := by
  have hN := zoomN_pos z
  have hpi := Real.pi_pos
  have e : s = zoomTileSize z := by
    unfold gridSize at h
    split at h
    · cases h
    · exact (Option.some.inj h).symm
  subst e
  have q : ((2 ^ z : ℕ) : ℝ) = zoomN z := by unfold zoomN; push_cast; rfl
  have y0 : y2deg z 0 = latOf Real.pi := by rw [y2deg_eq]; congr 1; simp
  have yN : y2deg z (2 ^ z) = -latOf Real.pi := by
    rw [y2deg_eq, q, ← latOf_neg]; congr 1; field_simp; ring
  unfold toNative4326 zoomTileSize
  simp only
  rw [y0, yN]
  refine ⟨?_, ?_, ?_⟩
  · unfold x2deg; simp
  · unfold x2deg; rw [q, div_self hN.ne']; norm_num
  · have h1 := lat_A
    have h2 : latOf (Real.pi * (1 - 2 / 2 ^ 22)) < latOf Real.pi := latOf_lt (by nlinarith)
    unfold lat4326Max at h1
    norm_num at h1 ⊢
    norm_num at h2
    linarith

/-- Non-vacuous: the size of zoom 3, and none at zoom 23. -/
example : gridSize 3 = some ⟨3, 8, 8⟩ ∧ gridSize 23 = none ∧ 5 ≤ tileSizeOr 0 := by decide

end Verif.Props
