import Verif.Lemmas.SlippyMath
import Verif.Props.Slippy

/-!
# Degrees and tiles (C58, C59, C61)

Over the real numbers (the rounding of float64 is not modelled).
-/

namespace Verif.Props
open Verif Verif.Slippy Verif.Spec.Slippy

/-! ## C58 -/

/-- C58, full claim: the tile found for the top-left corner of a tile is that tile. -/
def C58_full : Prop := ∀ (ts : ℕ) (t : Tile), t.z ≤ maxZoom → InGrid t →
  fromNative4326 ts t.z (toNative4326 t) = t

/-- C58: the corner of a tile is found in that tile, except for the second row at the
deepest zoom, whose upper edge lies above `Lat4326Max`. -/
theorem C58_corner_iff (ts : ℕ) (t : Tile) (hz : t.z ≤ maxZoom) (hg : InGrid t) :
    fromNative4326 ts t.z (toNative4326 t) = t ↔ ¬ (t.z = 22 ∧ t.y = 1) := by
  have hz' : t.z ≤ 22 := hz
  have hb : ∀ v : ℕ, v < 2 ^ t.z → toUint (v : ℤ) = v := by
    intro v hv
    have : (2 : ℕ) ^ t.z ≤ 2 ^ 22 := Nat.pow_le_pow_right (by decide) hz'
    rw [toUint_id _ (by omega) (by omega)]
    simp
  unfold fromNative4326 toNative4326
  simp only
  rw [lon2Num_x2deg ts t.z t.x hg.1, lat2Num_y2deg ts t.z t.y hz' hg.2, hb _ hg.1]
  split
  · rename_i h
    have : t ≠ ⟨t.z, t.x, toUint 0⟩ := by
      intro hc
      have := congrArg Tile.y hc
      simp [toUint, h.2] at this
    exact ⟨fun e => absurd e (Ne.symm this), fun e => absurd h e⟩
  · rename_i h
    rw [hb _ hg.2]
    simp [h]

example : (⟨21, 5, 1⟩ : Tile).z ≤ maxZoom ∧ InGrid ⟨21, 5, 1⟩ := by decide

/-- C58 fails for the second row at zoom 22. -/
theorem C58_violated : ¬ C58_full := by
  intro h
  have h1 := h 256 ⟨22, 0, 1⟩ (by decide) (by decide)
  exact ((C58_corner_iff 256 ⟨22, 0, 1⟩ (by decide) (by decide)).1 h1) ⟨rfl, rfl⟩

/-- C58, weaker: all zooms but the deepest. -/
theorem C58_corner_partial (ts : ℕ) (t : Tile) (hz : t.z < maxZoom) (hg : InGrid t) :
    fromNative4326 ts t.z (toNative4326 t) = t :=
  (C58_corner_iff ts t hz.le hg).2 (fun h => by rw [h.1] at hz; exact absurd hz (by decide))

/-- C58: every longitude lies between the edges of the column found for it, up to the
nudge of a millionth of a pixel. -/
theorem C58_column_contains (ts z : ℕ) (lon : ℝ) (h1 : -180 < lon) (h2 : lon < 180) :
    ∃ x : ℕ, lon2Num ts z lon = x ∧
      x2deg z x - 360 * floatVariance / (tileSizeOr ts * zoomN z) ≤ lon ∧ lon < x2deg z (x + 1) := by
  have hN := zoomN_pos z
  have hts : (0 : ℝ) < tileSizeOr ts := by have := tileSize_pos ts; exact_mod_cast this
  have e : lon2Px (tileSizeOr ts) z lon / (tileSizeOr ts : ℝ) =
      (180 + lon) / 360 * zoomN z + floatVariance / (tileSizeOr ts : ℝ) := by
    unfold lon2Px
    simp only [tileSize_idem]
    field_simp
  have hv := (variance_small ts).1
  have hpos : 0 ≤ (180 + lon) / 360 * zoomN z := by
    apply mul_nonneg _ hN.le
    linarith
  have hl : lon2Num ts z lon = ⌊(180 + lon) / 360 * zoomN z + floatVariance / (tileSizeOr ts : ℝ)⌋ := by
    unfold lon2Num lon4326Max
    rw [if_neg (by push Not; linarith), if_neg (by push Not; linarith), e, goInt_nonneg (by linarith)]
  have hf0 : 0 ≤ ⌊(180 + lon) / 360 * zoomN z + floatVariance / (tileSizeOr ts : ℝ)⌋ :=
    Int.floor_nonneg.2 (by linarith)
  obtain ⟨x, hx⟩ := Int.eq_ofNat_of_zero_le hf0
  refine ⟨x, by rw [hl, hx], ?_, ?_⟩
  · have := Int.floor_le ((180 + lon) / 360 * zoomN z + floatVariance / (tileSizeOr ts : ℝ))
    rw [hx] at this
    push_cast at this
    unfold x2deg
    have q : (x : ℝ) / zoomN z ≤ (180 + lon) / 360 + floatVariance / (tileSizeOr ts * zoomN z) := by
      rw [div_le_iff₀ hN]
      have : ((180 + lon) / 360 + floatVariance / (tileSizeOr ts * zoomN z)) * zoomN z =
          (180 + lon) / 360 * zoomN z + floatVariance / (tileSizeOr ts : ℝ) := by field_simp
      rw [this]; assumption
    have : 360 * floatVariance / (tileSizeOr ts * zoomN z) = 360 * (floatVariance / (tileSizeOr ts * zoomN z)) := by ring
    rw [this]
    linarith
  · have := Int.lt_floor_add_one ((180 + lon) / 360 * zoomN z + floatVariance / (tileSizeOr ts : ℝ))
    rw [hx] at this
    push_cast at this
    unfold x2deg
    have q : (180 + lon) / 360 < ((x + 1 : ℕ) : ℝ) / zoomN z := by
      rw [lt_div_iff₀ hN]; push_cast; linarith
    linarith

example : (-180 : ℝ) < 179 ∧ (179 : ℝ) < 180 := by norm_num

/-- C58: every latitude up to `Lat4326Max` lies between the edges of the row found for
it, up to the nudge: it is south of the line a millionth of a pixel above the row. -/
theorem C58_row_contains (ts z : ℕ) (lat : ℝ) (h1 : -lat4326Max ≤ lat) (h2 : lat ≤ lat4326Max) :
    ∃ y : ℕ, lat2Num ts z lat = y ∧ y2deg z (y + 1) < lat ∧
      lat ≤ 180 / Real.pi * Real.arctan (Real.sinh
        (Real.pi * (1 - 2 * ((y : ℝ) - floatVariance / tileSizeOr ts) / 2 ^ z))) := by
  have hpi := Real.pi_pos
  have hN := zoomN_pos z
  obtain ⟨n, rfl⟩ := exists_latOf lat h1 h2
  obtain ⟨b1, b2⟩ := height_bounds n h1 h2
  have hv := (variance_small ts).1
  have hnn : 0 ≤ (Real.pi - n) / (2 * Real.pi) * zoomN z := by
    apply mul_nonneg _ hN.le
    have : (0 : ℝ) < 1 / 2 ^ 22 := by norm_num
    linarith
  have hl := lat2Num_mid ts z n h1 h2
  rw [goInt_nonneg (by linarith)] at hl
  have mono : StrictMono latOf := fun m n h => latOf_lt h
  have hf0 : 0 ≤ ⌊(Real.pi - n) / (2 * Real.pi) * zoomN z + floatVariance / (tileSizeOr ts : ℝ)⌋ :=
    Int.floor_nonneg.2 (by linarith)
  obtain ⟨y, hy⟩ := Int.eq_ofNat_of_zero_le hf0
  rw [hy] at hl
  have a1 := Int.floor_le ((Real.pi - n) / (2 * Real.pi) * zoomN z + floatVariance / (tileSizeOr ts : ℝ))
  have a2 := Int.lt_floor_add_one ((Real.pi - n) / (2 * Real.pi) * zoomN z + floatVariance / (tileSizeOr ts : ℝ))
  rw [hy] at a1 a2
  push_cast at a1 a2
  refine ⟨y, hl, ?_, ?_⟩
  · rw [y2deg_eq]
    apply mono
    have : (Real.pi - n) / (2 * Real.pi) < ((y + 1 : ℕ) : ℝ) / zoomN z := by
      rw [lt_div_iff₀ hN]; push_cast; linarith
    rw [div_lt_iff₀ (by linarith)] at this
    have e : 2 * Real.pi * ((y + 1 : ℕ) : ℝ) / zoomN z = ((y + 1 : ℕ) : ℝ) / zoomN z * (2 * Real.pi) := by ring
    rw [e]; linarith
  · show latOf n ≤ latOf _
    rw [mono.le_iff_le]
    have : ((y : ℝ) - floatVariance / tileSizeOr ts) / zoomN z ≤ (Real.pi - n) / (2 * Real.pi) := by
      rw [div_le_iff₀ hN]; linarith
    rw [le_div_iff₀ (by linarith)] at this
    have e : Real.pi * (1 - 2 * ((y : ℝ) - floatVariance / tileSizeOr ts) / 2 ^ z) =
        Real.pi - ((y : ℝ) - floatVariance / tileSizeOr ts) / zoomN z * (2 * Real.pi) := by
      unfold zoomN; ring
    rw [e]; linarith

example : -lat4326Max ≤ 60 ∧ (60 : ℝ) ≤ lat4326Max := by unfold lat4326Max; norm_num

/-! ## C59 -/

/-- C59, full claim: the tile found for a point exists at that zoom. -/
def C59_full : Prop := ∀ (ts z : ℕ) (p : ℝ × ℝ), z ≤ maxZoom → InGrid (fromNative4326 ts z p)

/-- C59 fails: 179.999999 degrees east is nudged into column 1 of zoom 0. -/
theorem C59_violated : ¬ C59_full := by
  intro h
  have h1 := (h 256 0 (179.999999, 0) (by decide)).1
  have h2 : lon2Num 256 0 179.999999 = 1 := by
    unfold lon2Num lon2Px lon4326Max zoomN floatVariance
    rw [if_neg (by norm_num), if_neg (by norm_num)]
    simp only [tileSizeOr]
    rw [goInt_nonneg (by norm_num), Int.floor_eq_iff]
    norm_num
  unfold fromNative4326 at h1
  simp only at h1
  rw [h2] at h1
  simp [toUint] at h1

/-- C59, the rows: for tiles of at least five pixels every latitude is in the grid. -/
theorem C59_row_in_grid (ts z : ℕ) (lat : ℝ) (hts : 5 ≤ tileSizeOr ts) :
    0 ≤ lat2Num ts z lat ∧ lat2Num ts z lat < 2 ^ z := by
  have hN := zoomN_pos z
  have h1N : (1 : ℝ) ≤ zoomN z := by unfold zoomN; exact one_le_pow₀ (by norm_num)
  have hpow : (0 : ℤ) < 2 ^ z := by positivity
  by_cases h1 : lat < -lat4326Max
  · have : lat2Num ts z lat = 2 ^ z - 1 := by unfold lat2Num; rw [if_pos h1, goInt_last]
    rw [this]
    constructor <;> linarith [Int.add_one_le_iff.2 hpow]
  by_cases h2 : lat4326Max < lat
  · have : lat2Num ts z lat = 0 := by unfold lat2Num; rw [if_neg h1, if_pos h2]
    rw [this]
    exact ⟨le_refl _, hpow⟩
  obtain ⟨n, rfl⟩ := exists_latOf lat (not_lt.1 h1) (not_lt.1 h2)
  rw [lat2Num_mid ts z n (not_lt.1 h1) (not_lt.1 h2)]
  obtain ⟨b1, b2⟩ := height_bounds n (not_lt.1 h1) (not_lt.1 h2)
  have hv := (variance_small ts).1
  have hts' : (5 : ℝ) ≤ tileSizeOr ts := by exact_mod_cast hts
  have hv' : floatVariance / (tileSizeOr ts : ℝ) ≤ 0.0000002 := by
    unfold floatVariance
    rw [div_le_iff₀ (by linarith)]
    linarith
  have hnn : 0 ≤ (Real.pi - n) / (2 * Real.pi) * zoomN z := by
    apply mul_nonneg _ hN.le
    have : (0 : ℝ) < 1 / 2 ^ 22 := by norm_num
    linarith
  rw [goInt_nonneg (by linarith)]
  constructor
  · exact Int.floor_nonneg.2 (by linarith)
  · rw [Int.floor_lt]
    push_cast
    have : (Real.pi - n) / (2 * Real.pi) * zoomN z < (1 - 1 / 2 ^ 22) * zoomN z :=
      mul_lt_mul_of_pos_right b2 hN
    have e : ((2 : ℝ) ^ z) = zoomN z := rfl
    rw [e]
    norm_num at this ⊢
    nlinarith

example : 5 ≤ tileSizeOr 0 := by decide

/-- C59, weaker: longitudes that are not within a millionth of a pixel west of 180. -/
theorem C59_in_grid_partial (ts z : ℕ) (p : ℝ × ℝ) (hts : 5 ≤ tileSizeOr ts) (hz : z ≤ maxZoom)
    (hp : 180 ≤ p.1 ∨ p.1 < 180 - 360 * floatVariance / (tileSizeOr ts * zoomN z)) :
    InGrid (fromNative4326 ts z p) := by
  have hN := zoomN_pos z
  have hpow : (0 : ℤ) < 2 ^ z := by positivity
  have h22 : (2 : ℕ) ^ z ≤ 2 ^ 22 := Nat.pow_le_pow_right (by decide) hz
  have hcol : 0 ≤ lon2Num ts z p.1 ∧ lon2Num ts z p.1 < 2 ^ z := by
    by_cases h1 : p.1 ≤ -180
    · have : lon2Num ts z p.1 = 0 := by unfold lon2Num lon4326Max; rw [if_pos h1]
      rw [this]; exact ⟨le_refl _, hpow⟩
    by_cases h2 : 180 ≤ p.1
    · have : lon2Num ts z p.1 = 2 ^ z - 1 := by
        unfold lon2Num lon4326Max; rw [if_neg h1, if_pos h2, goInt_last]
      rw [this]
      constructor <;> linarith [Int.add_one_le_iff.2 hpow]
    obtain ⟨x, hx, hl, _⟩ := C58_column_contains ts z p.1 (not_le.1 h1) (not_le.1 h2)
    have hlt := hp.resolve_left h2
    rw [hx]
    refine ⟨by positivity, ?_⟩
    have : x2deg z x < 180 := by linarith
    unfold x2deg at this
    have q : (x : ℝ) / zoomN z < 1 := by linarith
    rw [div_lt_one hN] at q
    unfold zoomN at q
    exact_mod_cast q
  have hrow := C59_row_in_grid ts z p.2 hts
  have key : ∀ i : ℤ, 0 ≤ i ∧ i < 2 ^ z → toUint i < 2 ^ z := by
    intro i ⟨h0, h1⟩
    obtain ⟨k, rfl⟩ := Int.eq_ofNat_of_zero_le h0
    have hk : k < 2 ^ z := by exact_mod_cast h1
    rw [toUint_id _ (by omega) (by omega)]
    simpa using hk
  exact ⟨key _ hcol, key _ hrow⟩

example : 5 ≤ tileSizeOr 256 ∧ 22 ≤ maxZoom ∧
    (180 : ℝ) ≤ ((200, 90) : ℝ × ℝ).1 := ⟨by decide, by decide, by norm_num⟩

/-! ## C61 -/

/-- C61: the rectangle of a tile lies inside the rectangle of another exactly when the
other covers it; in particular the rectangles of a tile's descendants lie inside its
own, and corners of tiles that share a corner coincide. -/
theorem C61_nested (a t : Tile) :
    Covers a t ↔ x2deg a.z a.x ≤ x2deg t.z t.x ∧ x2deg t.z (t.x + 1) ≤ x2deg a.z (a.x + 1) ∧
      y2deg t.z t.y ≤ y2deg a.z a.y ∧ y2deg a.z (a.y + 1) ≤ y2deg t.z (t.y + 1) := by
  have hpi := Real.pi_pos
  have q : ∀ (za xa zt xt : ℕ), xa * 2 ^ zt ≤ xt * 2 ^ za ↔ (xa : ℝ) / zoomN za ≤ (xt : ℝ) / zoomN zt := by
    intro za xa zt xt
    rw [div_le_div_iff₀ (zoomN_pos za) (zoomN_pos zt)]
    unfold zoomN
    exact_mod_cast Iff.rfl
  have hx : ∀ (za xa zt xt : ℕ), xa * 2 ^ zt ≤ xt * 2 ^ za ↔ x2deg za xa ≤ x2deg zt xt := by
    intro za xa zt xt
    rw [q]
    unfold x2deg
    constructor <;> intro h <;> linarith
  have hy : ∀ (za xa zt xt : ℕ), xa * 2 ^ zt ≤ xt * 2 ^ za ↔ y2deg zt xt ≤ y2deg za xa := by
    intro za xa zt xt
    rw [q, y2deg_eq, y2deg_eq]
    have mono : StrictMono latOf := fun m n h => latOf_lt h
    rw [mono.le_iff_le]
    have e : ∀ (z x : ℕ), Real.pi - 2 * Real.pi * (x : ℝ) / zoomN z = Real.pi - 2 * Real.pi * ((x : ℝ) / zoomN z) := by
      intro z x; ring
    rw [e, e]
    constructor <;> intro h <;> nlinarith
  unfold Covers
  rw [hx, hx, hy, hy]

example : Covers ⟨2, 1, 3⟩ ⟨4, 6, 13⟩ := by decide

end Verif.Props
