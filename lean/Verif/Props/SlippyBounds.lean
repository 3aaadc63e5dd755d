import Verif.Lemmas.SlippyBounds

/-!
# C200: the tiles of bounds in degrees

Over the real numbers (the rounding of float64 is not modelled).
-/

namespace Verif.Props
open Verif Verif.Slippy Verif.Lemmas.SlippyBounds

/-- The place `p` lies in the bounds with the corners `a` and `b`. -/
def InBounds (a b p : ℝ × ℝ) : Prop := a.1 ≤ p.1 ∧ p.1 ≤ b.1 ∧ a.2 ≤ p.2 ∧ p.2 ≤ b.2

/-- The full claim: the tiles listed for bounds are exactly the tiles of the places in them. -/
def C200_full : Prop :=
  ∀ (ts z : ℕ) (a b : ℝ × ℝ), 5 ≤ tileSizeOr ts → z ≤ maxZoom → a.1 ≤ b.1 → a.2 ≤ b.2 →
  ∀ t : Tile, t ∈ fromBounds4326 ts a b z ↔ ∃ p, InBounds a b p ∧ fromNative4326 ts z p = t

/-- **C200** fails: for the eastern half of the world at zoom 0 one tile is listed, but places just west of 180 degrees
are said to be in the tile east of it. -/
theorem C200_violated : ¬ C200_full := by
  intro h
  have h1 := (h 256 0 (0, 0) (180, 0) (by decide) (by decide) (by norm_num) (by norm_num)
    (fromNative4326 256 0 (179.999999, 0))).2 ⟨(179.999999, 0), by unfold InBounds; norm_num, rfl⟩
  rw [mem_fromBounds4326] at h1
  have e1 : lon2Num 256 0 179.999999 = 1 := by
    rw [lon2Num_mid 256 0 (by norm_num) (by norm_num), Int.floor_eq_iff]
    unfold zoomN floatVariance tileSizeOr
    norm_num
  have e2 : lon2Num 256 0 0 = 0 := by
    rw [lon2Num_mid 256 0 (by norm_num) (by norm_num), Int.floor_eq_iff]
    unfold zoomN floatVariance tileSizeOr
    norm_num
  have e3 : lon2Num 256 0 180 = 0 := by
    rw [lon2Num_east 256 0 (le_refl _)]
    norm_num
  have h2 := h1.2.2.1
  unfold fromNative4326 at h2
  simp only [e1, e2, e3] at h2
  exact absurd h2 (by decide)

/-- **C200**, weaker: every place in the bounds is in a listed tile, if the bounds end before 180 degrees east or the
place is not within a millionth of a pixel west of it. -/
theorem C200_covered_partial (ts z : ℕ) (a b p : ℝ × ℝ) (hts : 5 ≤ tileSizeOr ts) (hz : z ≤ maxZoom)
    (h : InBounds a b p)
    (hp : b.1 < 180 ∨ 180 ≤ p.1 ∨ p.1 < 180 - 360 * floatVariance / (tileSizeOr ts * zoomN z)) :
    fromNative4326 ts z p ∈ fromBounds4326 ts a b z := by
  obtain ⟨h1, h2, h3, h4⟩ := h
  have v0 : 0 ≤ 360 * floatVariance / (tileSizeOr ts * zoomN z) := by
    have := zoomN_pos z
    unfold floatVariance
    positivity
  have cols : ∀ l, (toUint (lon2Num ts z l) : ℤ) = lon2Num ts z l := fun l =>
    toUint_small z hz _ (lon2Num_bounds ts z l).1 (lon2Num_bounds ts z l).2
  have rows : ∀ l, (toUint (lat2Num ts z l) : ℤ) = lat2Num ts z l := fun l =>
    toUint_small z hz _ (C59_row_in_grid ts z l hts).1 (C59_row_in_grid ts z l hts).2.le
  have c2 : lon2Num ts z p.1 ≤ lon2Num ts z b.1 := lon2Num_mono ts z h2 hp
  have c1 : min (lon2Num ts z a.1) (lon2Num ts z b.1) ≤ lon2Num ts z p.1 := by
    rcases lt_or_ge p.1 180 with q | q
    · exact (min_le_left _ _).trans (lon2Num_mono ts z h1 (.inl q))
    · rw [lon2Num_east ts z q, lon2Num_east ts z (q.trans h2)]
      exact min_le_right _ _
  have r1 := lat2Num_anti ts z h3 hts
  have r2 := lat2Num_anti ts z h4 hts
  rw [mem_fromBounds4326]
  unfold fromNative4326
  simp only
  have := cols a.1
  have := cols b.1
  have := cols p.1
  have := rows a.2
  have := rows b.2
  have := rows p.2
  refine ⟨trivial, ?_, ?_, ?_, ?_⟩ <;> omega

/-- Non-vacuous: a place in bounds that end at 180 degrees. -/
example : 5 ≤ tileSizeOr 256 ∧ 3 ≤ maxZoom ∧ InBounds (-10, -20) (180, 40) (30, 10) ∧
    (30 : ℝ) < 180 - 360 * floatVariance / (tileSizeOr 256 * zoomN 3) := by
  refine ⟨by decide, by decide, by unfold InBounds; norm_num, ?_⟩
  unfold floatVariance tileSizeOr zoomN
  norm_num

/-- **C200**: every listed tile is the tile of a place in the bounds. -/
theorem C200_needed (ts z : ℕ) (a b : ℝ × ℝ) (hts : 5 ≤ tileSizeOr ts) (hz : z ≤ maxZoom)
    (hx : a.1 ≤ b.1) (hy : a.2 ≤ b.2) (t : Tile) (ht : t ∈ fromBounds4326 ts a b z) :
    ∃ p, InBounds a b p ∧ fromNative4326 ts z p = t := by
  have cols : ∀ l, (toUint (lon2Num ts z l) : ℤ) = lon2Num ts z l := fun l =>
    toUint_small z hz _ (lon2Num_bounds ts z l).1 (lon2Num_bounds ts z l).2
  have rows : ∀ l, (toUint (lat2Num ts z l) : ℤ) = lat2Num ts z l := fun l =>
    toUint_small z hz _ (C59_row_in_grid ts z l hts).1 (C59_row_in_grid ts z l hts).2.le
  rw [mem_fromBounds4326] at ht
  unfold fromNative4326 at ht
  simp only at ht
  have ca := cols a.1
  have cb := cols b.1
  have ra := rows a.2
  have rb := rows b.2
  obtain ⟨x, x1, x2, x3⟩ := column_between ts z t.x hx (by omega) (by omega)
  obtain ⟨y, y1, y2, y3⟩ := row_between ts z t.y hy hts hz (by omega) (by omega)
  refine ⟨(x, y), ⟨x1, x2, y1, y2⟩, ?_⟩
  have cx := cols x
  have cy := rows y
  unfold fromNative4326
  obtain ⟨tz, tx, ty⟩ := t
  simp only [Tile.mk.injEq]
  simp only at ht x3 y3
  refine ⟨ht.1.symm, ?_, ?_⟩ <;> omega

/-- Non-vacuous: the tile of the north-eastern quarter at zoom 1 is listed for the whole world. -/
example : (⟨1, 1, 0⟩ : Tile) ∈ fromBounds4326 256 (-180, -90) (180, 90) 1 := by
  rw [mem_fromBounds4326]
  unfold fromNative4326
  simp only
  rw [lon2Num_east 256 1 (le_refl _), lon2Num_west 256 1 (le_refl _)]
  have : lat2Num 256 1 90 = 0 := by
    unfold lat2Num lat4326Max
    rw [if_neg (by norm_num), if_pos (by norm_num)]
  rw [this]
  simp [toUint]

/-- **C200**, weaker: the full claim for bounds that end before 180 degrees east. -/
theorem C200_exact_partial (ts z : ℕ) (a b : ℝ × ℝ) (hts : 5 ≤ tileSizeOr ts) (hz : z ≤ maxZoom)
    (hx : a.1 ≤ b.1) (hy : a.2 ≤ b.2) (hb : b.1 < 180) (t : Tile) :
    t ∈ fromBounds4326 ts a b z ↔ ∃ p, InBounds a b p ∧ fromNative4326 ts z p = t :=
  ⟨C200_needed ts z a b hts hz hx hy t, fun ⟨p, h, e⟩ => e ▸ C200_covered_partial ts z a b p hts hz h (.inl hb)⟩

/-- Non-vacuous: bounds from beyond the south pole to 179 degrees east. -/
example : 5 ≤ tileSizeOr 0 ∧ 22 ≤ maxZoom ∧ ((-170, -95) : ℝ × ℝ).1 ≤ ((179, 90) : ℝ × ℝ).1 ∧
    ((-170, -95) : ℝ × ℝ).2 ≤ ((179, 90) : ℝ × ℝ).2 ∧ ((179, 90) : ℝ × ℝ).1 < 180 := by
  refine ⟨by decide, by decide, ?_, ?_, ?_⟩ <;> norm_num

end Verif.Props
