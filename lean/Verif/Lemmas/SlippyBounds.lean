import Verif.Model.SlippyBounds
import Verif.Props.SlippyMath
import Verif.Lemmas.Slippy

/-!
# Lemmas for the tiles of bounds in degrees
-/

namespace Verif.Lemmas.SlippyBounds
open Verif Verif.Slippy Verif.Props

theorem lon2Num_west (ts z : ℕ) {lon : ℝ} (h : lon ≤ -180) : lon2Num ts z lon = 0 := by
  unfold lon2Num lon4326Max; rw [if_pos h]

theorem lon2Num_east (ts z : ℕ) {lon : ℝ} (h : 180 ≤ lon) : lon2Num ts z lon = 2 ^ z - 1 := by
  unfold lon2Num lon4326Max; rw [if_neg (by linarith), if_pos h, goInt_last]

theorem lon2Num_mid (ts z : ℕ) {lon : ℝ} (h1 : -180 < lon) (h2 : lon < 180) :
    lon2Num ts z lon = ⌊(180 + lon) / 360 * zoomN z + floatVariance / (tileSizeOr ts : ℝ)⌋ := by
  have hts : (0 : ℝ) < tileSizeOr ts := by have := tileSize_pos ts; exact_mod_cast this
  have e : lon2Px (tileSizeOr ts) z lon / (tileSizeOr ts : ℝ) =
      (180 + lon) / 360 * zoomN z + floatVariance / (tileSizeOr ts : ℝ) := by
    unfold lon2Px
    simp only [tileSize_idem]
    field_simp
  have hpos : 0 ≤ (180 + lon) / 360 * zoomN z := mul_nonneg (by linarith) (zoomN_pos z).le
  have hv := (variance_small ts).1
  unfold lon2Num lon4326Max
  rw [if_neg (by push Not; linarith), if_neg (by push Not; linarith), e, goInt_nonneg (by linarith)]

theorem pow_pos' (z : ℕ) : (1 : ℤ) ≤ 2 ^ z := one_le_pow₀ (by norm_num)

theorem lon2Num_bounds (ts z : ℕ) (lon : ℝ) : 0 ≤ lon2Num ts z lon ∧ lon2Num ts z lon ≤ 2 ^ z := by
  have hp := pow_pos' z
  have hN := zoomN_pos z
  rcases le_or_gt lon (-180) with h1 | h1
  · rw [lon2Num_west ts z h1]; exact ⟨le_refl _, by linarith⟩
  rcases le_or_gt 180 lon with h2 | h2
  · rw [lon2Num_east ts z h2]; constructor <;> linarith
  rw [lon2Num_mid ts z h1 h2]
  obtain ⟨v1, v2⟩ := variance_small ts
  have hpos : 0 ≤ (180 + lon) / 360 * zoomN z := mul_nonneg (by linarith) hN.le
  refine ⟨Int.floor_nonneg.2 (by linarith), ?_⟩
  rw [← Int.lt_add_one_iff, Int.floor_lt]
  push_cast
  have : (180 + lon) / 360 * zoomN z < 1 * zoomN z := mul_lt_mul_of_pos_right (by linarith) hN
  have e : ((2 : ℝ) ^ z) = zoomN z := rfl
  rw [e]
  linarith

theorem lon2Num_last (ts z : ℕ) (lon : ℝ)
    (hp : 180 ≤ lon ∨ lon < 180 - 360 * floatVariance / (tileSizeOr ts * zoomN z)) :
    lon2Num ts z lon ≤ 2 ^ z - 1 := by
  have hN := zoomN_pos z
  have h1z := pow_pos' z
  rcases le_or_gt lon (-180) with h1 | h1
  · rw [lon2Num_west ts z h1]; linarith
  rcases le_or_gt 180 lon with h2 | h2
  · rw [lon2Num_east ts z h2]
  obtain ⟨x, hx, hl, _⟩ := C58_column_contains ts z lon h1 h2
  have hlt := hp.resolve_left (not_le.2 h2)
  rw [hx]
  have : x2deg z x < 180 := by linarith
  unfold x2deg at this
  have q : (x : ℝ) / zoomN z < 1 := by linarith
  rw [div_lt_one hN] at q
  unfold zoomN at q
  have : (x : ℤ) < 2 ^ z := by exact_mod_cast q
  linarith [Int.add_one_le_iff.2 this]

/-- Going east never leads to an earlier column, unless it starts just west of 180 degrees and ends there. -/
theorem lon2Num_mono (ts z : ℕ) {l l' : ℝ} (h : l ≤ l')
    (hp : l' < 180 ∨ 180 ≤ l ∨ l < 180 - 360 * floatVariance / (tileSizeOr ts * zoomN z)) :
    lon2Num ts z l ≤ lon2Num ts z l' := by
  rcases le_or_gt l (-180) with h1 | h1
  · rw [lon2Num_west ts z h1]; exact (lon2Num_bounds ts z l').1
  rcases le_or_gt 180 l' with h2 | h2
  · rw [lon2Num_east ts z h2]
    exact lon2Num_last ts z l (hp.resolve_left (not_lt.2 h2))
  · rw [lon2Num_mid ts z h1 (by linarith), lon2Num_mid ts z (by linarith) h2]
    apply Int.floor_le_floor
    have := mul_le_mul_of_nonneg_right (show (180 + l) / 360 ≤ (180 + l') / 360 by linarith) (zoomN_pos z).le
    linarith

/-- Going north never leads to a later row. -/
theorem lat2Num_anti (ts z : ℕ) {l l' : ℝ} (h : l ≤ l') (hts : 5 ≤ tileSizeOr ts) :
    lat2Num ts z l' ≤ lat2Num ts z l := by
  have hpi := Real.pi_pos
  have hm := latMax_pos
  rcases lt_or_ge l (-lat4326Max) with h1 | h1
  · have : lat2Num ts z l = 2 ^ z - 1 := by unfold lat2Num; rw [if_pos h1, goInt_last]
    rw [this]
    have := (C59_row_in_grid ts z l' hts).2
    omega
  rcases lt_or_ge lat4326Max l' with h2 | h2
  · have : lat2Num ts z l' = 0 := by unfold lat2Num; rw [if_neg (by linarith), if_pos h2]
    rw [this]
    exact (C59_row_in_grid ts z l hts).1
  obtain ⟨n, rfl⟩ := exists_latOf l h1 (by linarith)
  obtain ⟨m, rfl⟩ := exists_latOf l' (by linarith) h2
  have mono : StrictMono latOf := fun m n h => latOf_lt h
  have hnm : n ≤ m := mono.le_iff_le.1 h
  rw [lat2Num_mid ts z n h1 (by linarith), lat2Num_mid ts z m (by linarith) h2]
  have b1 := (height_bounds m (by linarith) h2).1
  have hv := (variance_small ts).1
  have hN := zoomN_pos z
  have q : (Real.pi - m) / (2 * Real.pi) ≤ (Real.pi - n) / (2 * Real.pi) :=
    div_le_div_of_nonneg_right (by linarith) (by linarith)
  have q2 := mul_le_mul_of_nonneg_right q hN.le
  have q3 : 0 ≤ (Real.pi - m) / (2 * Real.pi) * zoomN z :=
    mul_nonneg (le_trans (by positivity) b1.le) hN.le
  rw [goInt_nonneg (by linarith), goInt_nonneg (by linarith)]
  exact Int.floor_le_floor (by linarith)

theorem toUint_small (z : ℕ) (hz : z ≤ maxZoom) (i : ℤ) (h0 : 0 ≤ i) (h1 : i ≤ 2 ^ z) : (toUint i : ℤ) = i := by
  have h22 : (2 : ℤ) ^ z ≤ 2 ^ 22 := pow_le_pow_right₀ (by norm_num) hz
  unfold toUint
  norm_num at h22 ⊢
  omega

theorem mem_fromBounds4326 (ts z : ℕ) (a b : ℝ × ℝ) (t : Tile) :
    t ∈ fromBounds4326 ts a b z ↔ t.z = z ∧
      min (fromNative4326 ts z a).x (fromNative4326 ts z b).x ≤ t.x ∧
      t.x ≤ max (fromNative4326 ts z a).x (fromNative4326 ts z b).x ∧
      min (fromNative4326 ts z a).y (fromNative4326 ts z b).y ≤ t.y ∧
      t.y ≤ max (fromNative4326 ts z a).y (fromNative4326 ts z b).y := by
  unfold fromBounds4326
  simp only
  split <;> split <;> simp only [mem_rectTiles] <;> omega

theorem x2deg_far (ts z x : ℕ) (hx : x < 2 ^ z) :
    x2deg z x < 180 - 360 * floatVariance / (tileSizeOr ts * zoomN z) := by
  have hN := zoomN_pos z
  have hts : (0 : ℝ) < tileSizeOr ts := by have := tileSize_pos ts; exact_mod_cast this
  have v2 := (variance_small ts).2
  have e : 360 * floatVariance / (tileSizeOr ts * zoomN z) = 360 * (floatVariance / tileSizeOr ts / zoomN z) := by
    field_simp
  rw [e]
  unfold x2deg
  have q1 : (x : ℝ) + 1 ≤ zoomN z := by unfold zoomN; exact_mod_cast hx
  have q2 : (x : ℝ) / zoomN z + floatVariance / tileSizeOr ts / zoomN z < 1 := by
    rw [← add_div, div_lt_one hN]; linarith
  linarith

/-- Every column between those of two longitudes is the column of a longitude between them. -/
theorem column_between (ts z x : ℕ) {a b : ℝ} (h : a ≤ b)
    (h1 : min (lon2Num ts z a) (lon2Num ts z b) ≤ x) (h2 : (x : ℤ) ≤ max (lon2Num ts z a) (lon2Num ts z b)) :
    ∃ l, a ≤ l ∧ l ≤ b ∧ lon2Num ts z l = x := by
  by_cases ea : lon2Num ts z a = x
  · exact ⟨a, le_refl _, h, ea⟩
  by_cases eb : lon2Num ts z b = x
  · exact ⟨b, h, le_refl _, eb⟩
  have ba := (lon2Num_bounds ts z a).2
  have bb := (lon2Num_bounds ts z b).2
  have hxz : (x : ℤ) < 2 ^ z := by omega
  have hx : x < 2 ^ z := by exact_mod_cast hxz
  have hc := lon2Num_x2deg ts z x hx
  have hN := zoomN_pos z
  have far := x2deg_far ts z x hx
  have up : lon2Num ts z a < x ∧ (x : ℤ) < lon2Num ts z b := by
    rcases le_or_gt (lon2Num ts z a) (lon2Num ts z b) with hab | hab
    · omega
    · exfalso
      have : ¬ b < 180 := fun hb => absurd (lon2Num_mono ts z h (.inl hb)) (by omega)
      have := lon2Num_east ts z (not_lt.1 this)
      omega
  refine ⟨x2deg z x, ?_, ?_, hc⟩
  · by_contra hn
    have := lon2Num_mono ts z (not_le.1 hn).le (.inr (.inr far))
    omega
  · by_contra hn
    have v0 : 0 ≤ 360 * floatVariance / (tileSizeOr ts * zoomN z) := by unfold floatVariance; positivity
    have := lon2Num_mono ts z (not_le.1 hn).le (.inl (by linarith))
    omega

/-- A Mercator height just above the upper edge of row 2 of zoom 22. -/
noncomputable def heightC : ℝ := Real.pi * (1 - 3.999999 / 2 ^ 22)

theorem exp_C : Real.exp (2 * heightC) < (535.4886 : ℝ) := by
  unfold heightC
  have h1 := Real.pi_lt_d20
  have hx : 2 * (Real.pi * (1 - 3.999999 / 2 ^ 22)) ≤ (6 : ℝ) + 0.28317932 := by norm_num at h1 ⊢; linarith
  refine lt_of_le_of_lt (Real.exp_le_exp.2 hx) ?_
  rw [Real.exp_add]
  have hs := Real.exp_bound' (x := 0.28317932) (by norm_num) (by norm_num) (n := 8) (by norm_num)
  simp only [Finset.sum_range_succ, Finset.sum_range_zero, Nat.factorial] at hs
  have h6 := exp_six_bounds.2
  have h2 : Real.exp 0.28317932 < (1.3273433 : ℝ) := lt_of_le_of_lt hs (by norm_num)
  have hp := Real.exp_pos 6
  nlinarith

theorem lat_C : latOf heightC ≤ lat4326Max := by
  rw [← not_lt, lat_gt_iff]
  have h1 := exp_C
  obtain ⟨h0, h2⟩ := sin_phi_bounds
  have h3 : Real.sin phi ^ 2 ≤ (0.0431737018 : ℝ) ^ 2 := by
    apply pow_le_pow_left₀ (by linarith) h2.le
  have hp := Real.exp_pos (2 * heightC)
  have hs : 0 ≤ Real.sin phi ^ 2 := by positivity
  norm_num at h3
  intro hc
  nlinarith

/-- Some latitude is in row 1 of zoom 22, though its upper edge is not. -/
theorem row_one (ts : ℕ) (hts : 5 ≤ tileSizeOr ts) : lat2Num ts 22 (latOf heightC) = 1 := by
  have hpi := Real.pi_pos
  have hpos : 0 < latOf heightC := by
    have h0 : latOf 0 = 0 := by unfold latOf; simp
    rw [← h0]
    apply latOf_lt
    unfold heightC
    norm_num
    positivity
  have hm := latMax_pos
  rw [lat2Num_mid ts 22 heightC (by linarith) lat_C]
  have e : (Real.pi - heightC) / (2 * Real.pi) * zoomN 22 = 1.9999995 := by
    unfold heightC zoomN
    field_simp
    norm_num
  have hts' : (5 : ℝ) ≤ tileSizeOr ts := by exact_mod_cast hts
  have hv' : floatVariance / (tileSizeOr ts : ℝ) ≤ 0.0000002 := by
    unfold floatVariance
    rw [div_le_iff₀ (by linarith)]
    linarith
  have hv := (variance_small ts).1
  rw [e, goInt_nonneg (by linarith), Int.floor_eq_iff]
  push_cast
  constructor <;> linarith

/-- Every row between those of two latitudes is the row of a latitude between them. -/
theorem row_between (ts z y : ℕ) {a b : ℝ} (h : a ≤ b) (hts : 5 ≤ tileSizeOr ts) (hz : z ≤ 22)
    (h1 : min (lat2Num ts z a) (lat2Num ts z b) ≤ y) (h2 : (y : ℤ) ≤ max (lat2Num ts z a) (lat2Num ts z b)) :
    ∃ l, a ≤ l ∧ l ≤ b ∧ lat2Num ts z l = y := by
  have hab := lat2Num_anti ts z h hts
  by_cases ea : lat2Num ts z a = y
  · exact ⟨a, le_refl _, h, ea⟩
  by_cases eb : lat2Num ts z b = y
  · exact ⟨b, h, le_refl _, eb⟩
  have ba := (C59_row_in_grid ts z a hts).2
  have hyz : (y : ℤ) < 2 ^ z := by omega
  obtain ⟨l, hc⟩ : ∃ l, lat2Num ts z l = y := by
    by_cases hy : z = 22 ∧ y = 1
    · obtain ⟨rfl, rfl⟩ := hy
      exact ⟨_, row_one ts hts⟩
    · have hc := lat2Num_y2deg ts z y hz (by exact_mod_cast hyz)
      rw [if_neg hy] at hc
      exact ⟨_, hc⟩
  refine ⟨l, ?_, ?_, hc⟩
  · by_contra hn
    have := lat2Num_anti ts z (not_le.1 hn).le hts
    omega
  · by_contra hn
    have := lat2Num_anti ts z (not_le.1 hn).le hts
    omega

end Verif.Lemmas.SlippyBounds
