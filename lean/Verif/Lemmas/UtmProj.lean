import Verif.Lemmas.UtmReal

/-! Helper lemmas for the UTM projection. -/

namespace Verif.Lemmas.Utm
open Verif.Utm Verif.Spec.Utm

theorem toRadian_neg (x : ℝ) : toRadian (-x) = -toRadian x := by
  unfold toRadian; ring

theorem toDegree_toRadian (x : ℝ) : toDegree (toRadian x) = x := by
  unfold toDegree toRadian
  have := Real.pi_ne_zero
  field_simp

theorem project_reflect {l l' : LngLat ℝ} {z z' : Zone} (e : Ellipsoid)
    (hlat : l'.lat = l.lat) (hz : z'.number = z.number)
    (hl : l.lng + l'.lng = 2 * (6 * (z.number : ℝ) - 183)) :
    (project l z e).2 + (project l' z' e).2 = 1000000
      ∧ (project l z e).1 = (project l' z' e).1 := by
  have ho : lngOrigin z' = lngOrigin z := by unfold lngOrigin; rw [hz]
  have ha : toRadian l'.lng - toRadian (lngOrigin z)
      = -(toRadian l.lng - toRadian (lngOrigin z)) := by
    unfold toRadian lngOrigin
    push_cast
    linear_combination (Real.pi / 180) * hl
  unfold project
  simp only
  rw [hlat, ho, ha]
  generalize toRadian l.lng - toRadian (lngOrigin z) = a
  constructor
  · ring
  · split <;> ring

theorem project_mirror {l l' : LngLat ℝ} {z z' : Zone} (e : Ellipsoid)
    (hlat : l'.lat = -l.lat) (hz : z'.number = z.number) (hl : l'.lng = l.lng) (h0 : 0 < l.lat) :
    (project l' z' e).2 = (project l z e).2
      ∧ (project l' z' e).1 = 10000000 - (project l z e).1 := by
  have ho : lngOrigin z' = lngOrigin z := by unfold lngOrigin; rw [hz]
  have hr : toRadian l.lat ≠ 0 := by
    unfold toRadian
    have := Real.pi_pos
    positivity
  unfold project
  simp only
  rw [hlat, ho, hl, toRadian_neg, if_pos hr, if_pos (neg_ne_zero.2 hr),
    if_pos (by linarith : -l.lat < 0), if_neg (by linarith : ¬ l.lat < 0)]
  rw [neg_mul, neg_mul, neg_mul, Real.sin_neg, Real.sin_neg, Real.sin_neg, Real.sin_neg,
    Real.cos_neg, Real.tan_neg]
  have : e.eccentricity * -Real.sin (toRadian l.lat) * -Real.sin (toRadian l.lat)
      = e.eccentricity * Real.sin (toRadian l.lat) * Real.sin (toRadian l.lat) := by ring
  rw [this]
  constructor <;> ring

theorem project_centre {l : LngLat ℝ} {z : Zone} (e : Ellipsoid)
    (hl : l.lng = 6 * (z.number : ℝ) - 183) : (project l z e).2 = 500000 := by
  have ha : toRadian l.lng - toRadian (lngOrigin z) = 0 := by
    unfold toRadian lngOrigin
    rw [hl]; push_cast; ring
  unfold project
  simp only
  rw [ha]
  ring

/-- On the central meridian of a sphere. -/
theorem project_sphere_centre {l : LngLat ℝ} {z : Zone} (e : Ellipsoid) (he : e.eccentricity = 0)
    (hl : l.lng = 6 * (z.number : ℝ) - 183) :
    (project l z e).1 = k0 * (e.radius * toRadian l.lat)
      + (if l.lat < 0 then 10000000 else 0) := by
  have ha : toRadian l.lng - toRadian (lngOrigin z) = 0 := by
    unfold toRadian lngOrigin
    rw [hl]; push_cast; ring
  unfold project
  simp only
  rw [ha, he]
  split <;> ring

/-- The way back, on a sphere. -/
theorem toLngLat_sphere {c : Coord} {e : Ellipsoid} (he : e.eccentricity = 0)
    (hr : e.radius ≠ 0) (hz : c.zone.isValid = true) {y d : ℝ}
    (hy : (if !c.zone.isNorthern then c.northing - 10000000 else c.northing)
      = k0 * (e.radius * y))
    (hd : c.easting - 500000 = k0 * (e.radius * d)) :
    toLngLat c e = some
      { lng := lngOrigin c.zone + toDegree ((d - (1 + 2 * Real.tan y ^ 2) * d ^ 3 / 6
          + (5 + 28 * Real.tan y ^ 2 + 24 * Real.tan y ^ 4) * d ^ 5 / 120) / Real.cos y),
        lat := toDegree (y - Real.tan y * (d ^ 2 / 2 - (5 + 3 * Real.tan y ^ 2) * d ^ 4 / 24
          + (61 + 90 * Real.tan y ^ 2 + 45 * Real.tan y ^ 4) * d ^ 6 * 720)) } := by
  have hk : k0 ≠ 0 := by unfold k0; norm_num
  unfold toLngLat
  rw [if_neg (by rw [hz]; decide)]
  simp only
  rw [hy, hd, he]
  have e1 : k0 * (e.radius * y) / k0 / (e.radius * (1 - 0 / 4 - 3 / 64 * 0 ^ 2 - 5 / 256 * 0 ^ 3))
      = y := by field_simp; ring
  rw [e1]
  simp only [sub_zero, Real.sqrt_one, sub_self, zero_div, mul_zero, zero_mul, zero_pow, ne_eq,
    OfNat.ofNat_ne_zero, not_false_eq_true, add_zero, div_one, mul_one]
  have e2 : k0 * (e.radius * d) / (e.radius * k0) = d := by field_simp
  rw [e2]
  have e3 : e.radius * Real.tan y / e.radius = Real.tan y := by field_simp
  rw [e3]
  congr 3 <;> ring_nf

theorem coef_big {D T : ℝ} (hD1 : 0.00268 ≤ D) (hq2 : 3 ≤ T) :
    0.011 ≤ D / 2 - (5 + 3 * T) * D ^ 2 / 24 + (61 + 90 * T + 45 * T ^ 2) * D ^ 3 * 720 := by
  have h1 : 1.9 * D ^ 2 ≤ D ^ 3 * 720 := by
    have : 0 ≤ D ^ 2 := sq_nonneg D
    nlinarith
  have h2 : 0.000007 ≤ D ^ 2 := by nlinarith
  have h3 : 0 ≤ 61 + 90 * T + 45 * T ^ 2 := by positivity
  have h4 : (61 + 90 * T + 45 * T ^ 2) * (1.9 * D ^ 2)
      ≤ (61 + 90 * T + 45 * T ^ 2) * (D ^ 3 * 720) := mul_le_mul_of_nonneg_left h1 h3
  have h5 : 1390 ≤ 1.9 * (61 + 90 * T + 45 * T ^ 2) - (5 + 3 * T) / 24 := by nlinarith
  have h6 : 1390 * 0.0000071 ≤ (1.9 * (61 + 90 * T + 45 * T ^ 2) - (5 + 3 * T) / 24) * D ^ 2 := by
    have : 0.0000071 ≤ D ^ 2 := by nlinarith
    apply mul_le_mul h5 this (by norm_num) (by linarith)
  nlinarith

theorem foot_d {A : ℝ} (hA1 : 0.0027 ≤ A) (hA2 : A ≤ 0.00275) :
    0.00268 ≤ A * (1 - A / 3 - 265 * A ^ 2 / 120) ^ 2 := by
  have hA4 : A ^ 2 ≤ 0.00001 := by nlinarith
  have hA40 : 0 ≤ A ^ 2 := sq_nonneg A
  have hf1 : 0.998 ≤ 1 - A / 3 - 265 * A ^ 2 / 120 := by linarith
  generalize 1 - A / 3 - 265 * A ^ 2 / 120 = f at *
  have : 0.996 ≤ f ^ 2 := by nlinarith
  nlinarith

theorem foot_u {A : ℝ} (hA1 : 0.0027 ≤ A) (hA2 : A ≤ 0.00275) :
    0 ≤ A / 2 + A ^ 2 / 12 - 104 * A ^ 3 / 720 ∧ A / 2 + A ^ 2 / 12 - 104 * A ^ 3 / 720 ≤ 0.0014 := by
  have hA4 : A ^ 2 ≤ 0.00001 := by nlinarith
  have hA40 : 0 ≤ A ^ 2 := sq_nonneg A
  have hA6 : 0 ≤ A ^ 3 := by positivity
  have hA6' : A ^ 3 ≤ A ^ 2 * 0.00275 := by
    have : A ^ 3 = A ^ 2 * A := by ring
    rw [this]; exact mul_le_mul_of_nonneg_left hA2 hA40
  constructor <;> linarith

/-- A place at 60 degrees north, 6 degrees west of the middle of its zone, comes back more than
half a degree too far south. -/
theorem far_from_centre {a y d s : ℝ} (ha : a = -(Real.pi / 60)) (hs : s = √3)
    (hy : y = Real.pi / 3 + s * (a ^ 2 / 2 + a ^ 4 / 12 - 104 * a ^ 6 / 720))
    (hd : d = a - a ^ 3 / 3 - 265 * a ^ 5 / 120) :
    y - Real.tan y * (d ^ 2 / 2 - (5 + 3 * Real.tan y ^ 2) * d ^ 4 / 24
          + (61 + 90 * Real.tan y ^ 2 + 45 * Real.tan y ^ 4) * d ^ 6 * 720)
      < Real.pi / 3 - toRadian (1 / 2) := by
  have p1 := Real.pi_gt_d4
  have p2 := Real.pi_lt_d4
  have hs2 : s ^ 2 = 3 := by rw [hs]; exact Real.sq_sqrt (by norm_num)
  have hs0 : 0 ≤ s := by rw [hs]; exact Real.sqrt_nonneg 3
  have hs1 : 1.73 ≤ s := by nlinarith
  have hs3 : s ≤ 1.74 := by nlinarith
  -- the square of a
  have hA1 : 0.0027 ≤ a ^ 2 := by rw [ha]; nlinarith
  have hA2 : a ^ 2 ≤ 0.00275 := by rw [ha]; nlinarith
  have e4 : a ^ 4 = (a ^ 2) ^ 2 := by ring
  have e6 : a ^ 6 = (a ^ 2) ^ 3 := by ring
  have hd2 : d ^ 2 = a ^ 2 * (1 - a ^ 2 / 3 - 265 * (a ^ 2) ^ 2 / 120) ^ 2 := by rw [hd]; ring
  have d4 : d ^ 4 = (d ^ 2) ^ 2 := by ring
  have d6 : d ^ 6 = (d ^ 2) ^ 3 := by ring
  rw [e4, e6] at hy
  rw [d4, d6]
  generalize a ^ 2 = A at *
  have hD1 : 0.00268 ≤ d ^ 2 := by rw [hd2]; exact foot_d hA1 hA2
  generalize d ^ 2 = D at *
  -- the latitude of the foot point
  obtain ⟨hu0, hu1⟩ := foot_u hA1 hA2
  generalize A / 2 + A ^ 2 / 12 - 104 * A ^ 3 / 720 = u at *
  clear hA1 hA2 hd2 hd
  have hsu : s * u ≤ 1.74 * 0.0014 := mul_le_mul hs3 hu1 hu0 (by norm_num)
  have hy0 : Real.pi / 3 ≤ y := by rw [hy]; have := mul_nonneg hs0 hu0; linarith
  have hy1 : y ≤ Real.pi / 3 + 0.0025 := by rw [hy]; linarith
  have htan : s ≤ Real.tan y := by
    rw [hs, ← Real.tan_pi_div_three]
    rcases eq_or_lt_of_le hy0 with h | h
    · rw [h]
    · exact (Real.tan_lt_tan_of_nonneg_of_lt_pi_div_two (by positivity) (by linarith) h).le
  generalize Real.tan y = q at *
  have hq2 : 3 ≤ q ^ 2 := by rw [← hs2]; exact pow_le_pow_left₀ hs0 htan 2
  have q4 : q ^ 4 = (q ^ 2) ^ 2 := by ring
  rw [q4]
  generalize q ^ 2 = T at *
  have hB := coef_big hD1 hq2
  have hr : toRadian (1 / 2) ≤ 0.0088 := by unfold toRadian; linarith
  generalize D / 2 - (5 + 3 * T) * D ^ 2 / 24 + (61 + 90 * T + 45 * T ^ 2) * D ^ 3 * 720 = B at *
  have : 1.73 * 0.011 ≤ q * B := mul_le_mul (by linarith) hB (by norm_num) (by linarith)
  linarith

end Verif.Lemmas.Utm
