import Verif.Model.SlippyMath
import Verif.Lemmas.Slippy
import Mathlib.Analysis.SpecialFunctions.Trigonometric.Bounds
import Mathlib.Analysis.Real.Pi.Bounds
import Mathlib.Analysis.Complex.ExponentialBounds
import Mathlib.Analysis.SpecialFunctions.Trigonometric.DerivHyp
import Mathlib.Analysis.SpecialFunctions.Arsinh
import Mathlib.Tactic.FieldSimp
import Mathlib.Tactic.Positivity
import Mathlib.Tactic.NormNum

namespace Verif.Slippy
open Real

theorem zoomN_pos (z : ℕ) : 0 < zoomN z := by unfold zoomN; positivity

/-- Half the angle between `Lat4326Max` and the pole. -/
noncomputable def phi : ℝ := (90 - lat4326Max) * π / 360

theorem phi_bounds : (0.0431871251430 : ℝ) < phi ∧ phi < 0.0431871251431 := by
  unfold phi lat4326Max
  have h1 := pi_gt_d20
  have h2 := pi_lt_d20
  constructor <;> nlinarith

theorem sin_phi_bounds : (0.0431737002 : ℝ) < sin phi ∧ sin phi < 0.0431737018 := by
  obtain ⟨h1, h2⟩ := phi_bounds
  have hpos : 0 < phi := by linarith
  have hs := sin_gt_sub_cube hpos
  have hb := sin_bound (x := phi) (by rw [abs_of_pos hpos]; linarith)
  rw [abs_of_pos hpos] at hb
  have hu := (abs_le.1 hb).2
  have h3l : (0.0431871251430 : ℝ) ^ 3 ≤ phi ^ 3 := by gcongr
  have h3u : phi ^ 3 ≤ (0.0431871251431 : ℝ) ^ 3 := by gcongr
  have h5u : phi ^ 5 ≤ (0.0431871251431 : ℝ) ^ 5 := by gcongr
  norm_num at h3l h3u h5u
  constructor <;> linarith

theorem exp_six_bounds : (403.4287930 : ℝ) < exp 6 ∧ exp 6 < 403.4287937 := by
  have h1 := exp_one_gt_d9
  have h2 := exp_one_lt_d9
  have e : exp 6 = exp 1 ^ 6 := by rw [← exp_nat_mul]; norm_num
  rw [e]
  constructor
  · calc (403.4287930 : ℝ) < 2.7182818283 ^ 6 := by norm_num
      _ < exp 1 ^ 6 := by gcongr
  · calc exp 1 ^ 6 < 2.7182818286 ^ 6 := by gcongr
      _ < 403.4287937 := by norm_num

theorem exp_A : (535.48996 : ℝ) < exp (2 * (π * (1 - 2 / 2 ^ 22))) := by
  have h1 := pi_gt_d20
  have hx : (6 : ℝ) + 0.28318231 ≤ 2 * (π * (1 - 2 / 2 ^ 22)) := by norm_num at h1 ⊢; linarith
  refine lt_of_lt_of_le ?_ (exp_le_exp.2 hx)
  rw [exp_add]
  have hs := sum_le_exp_of_nonneg (x := 0.28318231) (by norm_num) 8
  simp only [Finset.sum_range_succ, Finset.sum_range_zero, Nat.factorial] at hs
  have h6 := exp_six_bounds.1
  have h2 : (1.3273470 : ℝ) < exp 0.28318231 := lt_of_lt_of_le (by norm_num) hs
  nlinarith

theorem exp_B : exp (2 * (π * (1 - 4 / 2 ^ 22))) < (535.4886 : ℝ) := by
  have h1 := pi_lt_d20
  have hx : 2 * (π * (1 - 4 / 2 ^ 22)) ≤ (6 : ℝ) + 0.28317932 := by norm_num at h1 ⊢; linarith
  refine lt_of_le_of_lt (exp_le_exp.2 hx) ?_
  rw [exp_add]
  have hs := exp_bound' (x := 0.28317932) (by norm_num) (by norm_num) (n := 8) (by norm_num)
  simp only [Finset.sum_range_succ, Finset.sum_range_zero, Nat.factorial] at hs
  have h6 := exp_six_bounds.2
  have h2 : exp 0.28317932 < (1.3273433 : ℝ) := lt_of_le_of_lt hs (by norm_num)
  have hp := exp_pos 6
  nlinarith

/-- The latitude whose Mercator height is `n`. -/
noncomputable def latOf (n : ℝ) : ℝ := 180 / π * arctan (sinh n)

theorem half_sinh (n : ℝ) : (0.5 : ℝ) * (exp n - exp (-n)) = sinh n := by
  rw [sinh_eq]; ring

theorem latOf_neg (n : ℝ) : latOf (-n) = -latOf n := by
  unfold latOf; rw [sinh_neg, arctan_neg]; ring

theorem latOf_lt {m n : ℝ} (h : m < n) : latOf m < latOf n := by
  unfold latOf
  have : arctan (sinh m) < arctan (sinh n) := arctan_strictMono (sinh_strictMono h)
  have hp : (0 : ℝ) < 180 / π := by have := pi_pos; positivity
  exact mul_lt_mul_of_pos_left this hp

theorem sin_arctan_sinh (n : ℝ) : sin (arctan (sinh n)) = sinh n / cosh n := by
  rw [sin_arctan]
  congr 1
  rw [show 1 + sinh n ^ 2 = cosh n ^ 2 by rw [cosh_sq]; ring]
  exact sqrt_sq (cosh_pos n).le

theorem sinh_div_cosh (n : ℝ) : sinh n / cosh n = 1 - 2 / (exp (2 * n) + 1) := by
  have hc := cosh_pos n
  have hp := exp_pos n
  have e2 : exp (2 * n) = exp n * exp n := by rw [← exp_add]; ring_nf
  rw [sinh_eq, cosh_eq, e2, exp_neg]
  field_simp
  ring

theorem lat_gt_iff (n : ℝ) : lat4326Max < latOf n ↔ 1 < sin phi ^ 2 * (exp (2 * n) + 1) := by
  have hpi := pi_pos
  have h1 : lat4326Max < latOf n ↔ lat4326Max * π / 180 < arctan (sinh n) := by
    unfold latOf
    rw [div_mul_eq_mul_div, lt_div_iff₀ hpi, div_lt_iff₀ (by norm_num)]
    constructor <;> intro h <;> linarith
  have hth : sin (lat4326Max * π / 180) = 1 - 2 * sin phi ^ 2 := by
    have e : lat4326Max * π / 180 = π / 2 - 2 * phi := by unfold phi; ring
    rw [e, sin_pi_div_two_sub, cos_two_mul, cos_sq']
    ring
  have hm : lat4326Max * π / 180 ∈ Set.Icc (-(π / 2)) (π / 2) := by
    unfold lat4326Max
    constructor <;> linarith
  have ha : arctan (sinh n) ∈ Set.Icc (-(π / 2)) (π / 2) :=
    ⟨(neg_pi_div_two_lt_arctan _).le, (arctan_lt_pi_div_two _).le⟩
  rw [h1, ← strictMonoOn_sin.lt_iff_lt hm ha, hth, sin_arctan_sinh, sinh_div_cosh]
  have hE : 0 < exp (2 * n) + 1 := by positivity
  constructor
  · intro h
    have : 2 / (exp (2 * n) + 1) < 2 * sin phi ^ 2 := by linarith
    rw [div_lt_iff₀ hE] at this
    linarith
  · intro h
    have : 2 / (exp (2 * n) + 1) < 2 * sin phi ^ 2 := by
      rw [div_lt_iff₀ hE]; linarith
    linarith

/-- The first row boundary at zoom 22 lies beyond `Lat4326Max`. -/
theorem lat_A : lat4326Max < latOf (π * (1 - 2 / 2 ^ 22)) := by
  rw [lat_gt_iff]
  have h1 := exp_A
  obtain ⟨h2, _⟩ := sin_phi_bounds
  have h3 : (0.0431737002 : ℝ) ^ 2 ≤ sin phi ^ 2 := by gcongr
  norm_num at h3
  nlinarith

/-- The second does not. -/
theorem lat_B : latOf (π * (1 - 4 / 2 ^ 22)) < lat4326Max := by
  have key : ¬ 1 ≤ sin phi ^ 2 * (exp (2 * (π * (1 - 4 / 2 ^ 22))) + 1) := by
    have h1 := exp_B
    obtain ⟨h0, h2⟩ := sin_phi_bounds
    have h3 : sin phi ^ 2 ≤ (0.0431737018 : ℝ) ^ 2 := by
      apply pow_le_pow_left₀ (by linarith) h2.le
    have hp := exp_pos (2 * (π * (1 - 4 / 2 ^ 22)))
    have hs : 0 ≤ sin phi ^ 2 := by positivity
    norm_num at h3
    intro hc
    nlinarith
  by_contra hc
  rcases lt_or_eq_of_le (not_lt.1 hc) with h | h
  · rw [lat_gt_iff] at h; exact key h.le
  · -- a little further up would be over the limit as well
    have hn : ∀ m, π * (1 - 4 / 2 ^ 22) < m → 1 < sin phi ^ 2 * (exp (2 * m) + 1) := by
      intro m hm
      rw [← lat_gt_iff, h]
      exact latOf_lt hm
    apply key
    by_contra hk
    have hk := not_le.1 hk
    -- continuity
    have hcont : Continuous fun m : ℝ => sin phi ^ 2 * (exp (2 * m) + 1) := by fun_prop
    have hev := (isOpen_lt hcont continuous_const).mem_nhds (x := π * (1 - 4 / 2 ^ 22)) hk
    obtain ⟨ε, he, hball⟩ := Metric.mem_nhds_iff.1 hev
    have hm := hball (show π * (1 - 4 / 2 ^ 22) + ε / 2 ∈ Metric.ball (π * (1 - 4 / 2 ^ 22)) ε by
      rw [Metric.mem_ball, Real.dist_eq]; rw [abs_lt]; constructor <;> linarith)
    have := hn (π * (1 - 4 / 2 ^ 22) + ε / 2) (by linarith)
    simp only [Set.mem_ofPred_eq] at hm
    linarith

/-- The Gudermann identity. -/
theorem tan_half (n : ℝ) : tan (degree2Radians (45 + latOf n / 2)) = exp n := by
  have hpi := pi_pos
  set θ := arctan (sinh n) with hθ
  have e : degree2Radians (45 + latOf n / 2) = π / 4 + θ / 2 := by
    unfold degree2Radians latOf
    field_simp
    ring
  have hc : cos θ = 1 / cosh n := by
    rw [hθ, cos_arctan, show 1 + sinh n ^ 2 = cosh n ^ 2 by rw [cosh_sq]; ring, sqrt_sq (cosh_pos n).le]
  have hs : sin θ = sinh n / cosh n := sin_arctan_sinh n
  have h1 := neg_pi_div_two_lt_arctan (sinh n)
  have h2 := arctan_lt_pi_div_two (sinh n)
  have hcos : 0 < cos (π / 4 + θ / 2) := by
    apply cos_pos_of_mem_Ioo
    constructor <;> linarith
  have hcn := cosh_pos n
  -- double angle
  have d1 : 2 * (sin (π / 4 + θ / 2) * cos (π / 4 + θ / 2)) = cos θ := by
    have := sin_two_mul (π / 4 + θ / 2)
    rw [show 2 * (π / 4 + θ / 2) = θ + π / 2 by ring, sin_add_pi_div_two] at this
    linarith
  have d2 : 2 * cos (π / 4 + θ / 2) ^ 2 = 1 - sin θ := by
    have := cos_two_mul (π / 4 + θ / 2)
    rw [show 2 * (π / 4 + θ / 2) = θ + π / 2 by ring, cos_add_pi_div_two] at this
    linarith
  rw [e, tan_eq_sin_div_cos, div_eq_iff hcos.ne']
  have hh : exp n * (cosh n - sinh n) = 1 := by
    rw [cosh_sub_sinh, ← exp_add]; simp
  have hprod : (exp n * cos (π / 4 + θ / 2) - sin (π / 4 + θ / 2)) * (2 * cos (π / 4 + θ / 2)) = 0 := by
    have : (exp n * cos (π / 4 + θ / 2) - sin (π / 4 + θ / 2)) * (2 * cos (π / 4 + θ / 2)) =
        exp n * (2 * cos (π / 4 + θ / 2) ^ 2) - 2 * (sin (π / 4 + θ / 2) * cos (π / 4 + θ / 2)) := by ring
    rw [this, d1, d2, hc, hs]
    have : exp n * (1 - sinh n / cosh n) - 1 / cosh n = (exp n * (cosh n - sinh n) - 1) / cosh n := by
      field_simp
    rw [this, hh]; simp
  rcases mul_eq_zero.1 hprod with h | h
  · linarith
  · exfalso; linarith

theorem y2deg_eq (z y : ℕ) : y2deg z y = latOf (π - 2 * π * (y : ℝ) / zoomN z) := by
  unfold y2deg latOf
  simp only [half_sinh]

theorem tileSize_pos (ts : ℕ) : 1 ≤ tileSizeOr ts := by
  unfold tileSizeOr defaultTileSize; split <;> omega

theorem tileSize_idem (ts : ℕ) : tileSizeOr (tileSizeOr ts) = tileSizeOr ts := by
  have := tileSize_pos ts
  rw [tileSizeOr, if_neg (by omega)]

theorem lat2Px_latOf (ts z : ℕ) (n : ℝ) :
    lat2Px ts z (latOf n) / (tileSizeOr ts : ℝ) = (π - n) / (2 * π) * zoomN z + floatVariance / (tileSizeOr ts : ℝ) := by
  have hpi := pi_pos
  have hts : (0 : ℝ) < tileSizeOr ts := by have := tileSize_pos ts; exact_mod_cast this
  unfold lat2Px
  simp only []
  rw [tan_half, log_exp]
  unfold radians2Degree
  field_simp
  ring

theorem goInt_nonneg {f : ℝ} (h : 0 ≤ f) : goInt f = ⌊f⌋ := by unfold goInt; rw [if_pos h]

theorem goInt_nat_add (k : ℕ) (e : ℝ) (h0 : 0 ≤ e) (h1 : e < 1) : goInt ((k : ℝ) + e) = k := by
  rw [goInt_nonneg (by positivity), Int.floor_eq_iff]
  push_cast
  constructor <;> linarith

theorem goInt_last (z : ℕ) : goInt (zoomN z - 1) = 2 ^ z - 1 := by
  have h1 : (1 : ℝ) ≤ zoomN z := by unfold zoomN; exact one_le_pow₀ (by norm_num)
  rw [goInt_nonneg (by linarith), Int.floor_eq_iff]
  push_cast
  unfold zoomN
  constructor <;> linarith

theorem variance_small (ts : ℕ) : 0 ≤ floatVariance / (tileSizeOr ts : ℝ) ∧ floatVariance / (tileSizeOr ts : ℝ) < 1 := by
  have hts : (1 : ℝ) ≤ tileSizeOr ts := by have := tileSize_pos ts; exact_mod_cast this
  unfold floatVariance
  constructor
  · positivity
  · rw [div_lt_one (by linarith)]; norm_num; linarith

theorem lon2Num_x2deg (ts z x : ℕ) (hx : x < 2 ^ z) : lon2Num ts z (x2deg z x) = x := by
  have hN := zoomN_pos z
  have hxN : (x : ℝ) < zoomN z := by unfold zoomN; exact_mod_cast hx
  unfold lon2Num
  by_cases h0 : x = 0
  · subst h0
    rw [if_pos (by unfold x2deg lon4326Max; simp)]; rfl
  · have hx0 : (0 : ℝ) < x := by exact_mod_cast Nat.pos_of_ne_zero h0
    have q1 : 0 < (x : ℝ) / zoomN z := by positivity
    have q2 : (x : ℝ) / zoomN z < 1 := (div_lt_one hN).2 hxN
    rw [if_neg (by unfold x2deg lon4326Max; push Not; linarith),
      if_neg (by unfold x2deg lon4326Max; push Not; linarith)]
    have hts : (0 : ℝ) < tileSizeOr ts := by have := tileSize_pos ts; exact_mod_cast this
    have : lon2Px (tileSizeOr ts) z (x2deg z x) / (tileSizeOr ts : ℝ) = (x : ℝ) + floatVariance / (tileSizeOr ts : ℝ) := by
      unfold lon2Px x2deg
      simp only [tileSize_idem]
      field_simp
      ring
    rw [this, goInt_nat_add _ _ (variance_small ts).1 (variance_small ts).2]

theorem lat2Num_mid (ts z : ℕ) (n : ℝ) (h1 : -lat4326Max ≤ latOf n) (h2 : latOf n ≤ lat4326Max) :
    lat2Num ts z (latOf n) = goInt ((π - n) / (2 * π) * zoomN z + floatVariance / (tileSizeOr ts : ℝ)) := by
  unfold lat2Num
  rw [if_neg (not_lt.2 h1), if_neg (not_lt.2 h2)]
  have := lat2Px_latOf (tileSizeOr ts) z n
  rw [tileSize_idem] at this
  rw [this]

theorem latMax_pos : 0 < lat4326Max := by unfold lat4326Max; norm_num

theorem lat2Num_y2deg (ts z y : ℕ) (hz : z ≤ 22) (hy : y < 2 ^ z) :
    lat2Num ts z (y2deg z y) = if z = 22 ∧ y = 1 then 0 else (y : ℤ) := by
  have hpi := pi_pos
  have hN := zoomN_pos z
  have hm := latMax_pos
  have hA := lat_A
  have hB := lat_B
  rw [y2deg_eq]
  by_cases h0 : y = 0
  · subst h0
    have : lat4326Max < latOf (π - 2 * π * ((0 : ℕ) : ℝ) / zoomN z) := by
      refine lt_trans hA (latOf_lt ?_)
      norm_num
      linarith
    unfold lat2Num
    rw [if_neg (by push Not; linarith), if_pos this]
    simp
  by_cases h1 : z = 22 ∧ y = 1
  · obtain ⟨rfl, rfl⟩ := h1
    have e : π - 2 * π * ((1 : ℕ) : ℝ) / zoomN 22 = π * (1 - 2 / 2 ^ 22) := by unfold zoomN; push_cast; ring
    rw [e]
    unfold lat2Num
    rw [if_neg (by push Not; linarith), if_pos hA]
    simp
  rw [if_neg h1]
  by_cases h2 : z = 22 ∧ y = 2 ^ 22 - 1
  · obtain ⟨rfl, rfl⟩ := h2
    have e : π - 2 * π * ((2 ^ 22 - 1 : ℕ) : ℝ) / zoomN 22 = -(π * (1 - 2 / 2 ^ 22)) := by
      unfold zoomN; push_cast; ring
    rw [e, latOf_neg]
    unfold lat2Num
    rw [if_pos (by linarith), goInt_last]
    norm_num
  -- the rows in between
  have b1 : 2 * 2 ^ z ≤ y * 2 ^ 22 := by
    by_cases h : z = 22
    · subst h; have : 2 ≤ y := by omega
      nlinarith
    · have : (2 : ℕ) ^ z ≤ 2 ^ 21 := Nat.pow_le_pow_right (by decide) (by omega)
      have : 1 ≤ y := by omega
      omega
  have b2 : 2 * 2 ^ z + y * 2 ^ 22 ≤ 2 ^ z * 2 ^ 22 := by
    by_cases h : z = 22
    · subst h; have : y ≤ 2 ^ 22 - 2 := by omega
      omega
    · have : (2 : ℕ) ^ z ≤ 2 ^ 21 := Nat.pow_le_pow_right (by decide) (by omega)
      have : y + 1 ≤ 2 ^ z := by omega
      omega
  have r1 : (2 : ℝ) * zoomN z ≤ y * 2 ^ 22 := by unfold zoomN; exact_mod_cast b1
  have r2 : (2 : ℝ) * zoomN z + y * 2 ^ 22 ≤ zoomN z * 2 ^ 22 := by unfold zoomN; exact_mod_cast b2
  have q1 : 2 / 2 ^ 22 ≤ (y : ℝ) / zoomN z := by
    rw [div_le_div_iff₀ (by norm_num) hN]; exact r1
  have q2 : (y : ℝ) / zoomN z ≤ 1 - 2 / 2 ^ 22 := by
    rw [div_le_iff₀ hN]
    have : (1 - 2 / 2 ^ 22) * zoomN z = (zoomN z * 2 ^ 22 - 2 * zoomN z) / 2 ^ 22 := by ring
    rw [this, le_div_iff₀ (by norm_num)]
    linarith
  have e : π - 2 * π * (y : ℝ) / zoomN z = π * (1 - 2 * ((y : ℝ) / zoomN z)) := by ring
  have mono : ∀ {m n : ℝ}, m ≤ n → latOf m ≤ latOf n := by
    intro m n h
    rcases lt_or_eq_of_le h with h | h
    · exact (latOf_lt h).le
    · rw [h]
  have u : latOf (π - 2 * π * (y : ℝ) / zoomN z) ≤ lat4326Max := by
    refine le_trans (mono ?_) hB.le
    rw [e]
    apply mul_le_mul_of_nonneg_left _ hpi.le
    linarith
  have l : -lat4326Max ≤ latOf (π - 2 * π * (y : ℝ) / zoomN z) := by
    have : latOf (-(π * (1 - 4 / 2 ^ 22))) ≤ latOf (π - 2 * π * (y : ℝ) / zoomN z) := by
      apply mono
      rw [e, ← mul_neg]
      apply mul_le_mul_of_nonneg_left _ hpi.le
      linarith
    rw [latOf_neg] at this
    linarith
  rw [lat2Num_mid ts z _ l u]
  have : (π - (π - 2 * π * (y : ℝ) / zoomN z)) / (2 * π) * zoomN z = (y : ℝ) := by field_simp; ring
  rw [this, goInt_nat_add _ _ (variance_small ts).1 (variance_small ts).2]

/-- Every latitude inside the limits is the latitude of some height. -/
theorem exists_latOf (lat : ℝ) (h1 : -lat4326Max ≤ lat) (h2 : lat ≤ lat4326Max) : ∃ n, latOf n = lat := by
  have hpi := pi_pos
  refine ⟨arsinh (tan (lat * π / 180)), ?_⟩
  unfold latOf
  unfold lat4326Max at h1 h2
  rw [sinh_arsinh, arctan_tan]
  · field_simp
  · nlinarith
  · nlinarith

theorem height_bounds (n : ℝ) (h1 : -lat4326Max ≤ latOf n) (h2 : latOf n ≤ lat4326Max) :
    1 / 2 ^ 22 < (π - n) / (2 * π) ∧ (π - n) / (2 * π) < 1 - 1 / 2 ^ 22 := by
  have hpi := pi_pos
  have hA := lat_A
  have mono : ∀ {m n : ℝ}, m ≤ n → latOf m ≤ latOf n := by
    intro m n h
    rcases lt_or_eq_of_le h with h | h
    · exact (latOf_lt h).le
    · rw [h]
  have u : n < π * (1 - 2 / 2 ^ 22) := by
    by_contra hc
    have := mono (not_lt.1 hc)
    linarith
  have l : -(π * (1 - 2 / 2 ^ 22)) < n := by
    by_contra hc
    have := mono (not_lt.1 hc)
    rw [latOf_neg] at this
    linarith
  rw [lt_div_iff₀ (by positivity), div_lt_iff₀ (by positivity)]
  constructor <;> linarith

end Verif.Slippy
