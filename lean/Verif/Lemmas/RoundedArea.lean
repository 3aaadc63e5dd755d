import Verif.Model.RoundedArea
import Verif.Spec.RoundedArea
import Verif.Lemmas.RoundedTurn
import Mathlib.Tactic.LinearCombination

/-!
# Lemmas on the area of a triangle and the circle test, in floats
-/

namespace Verif.Lemmas.Rounded
open Verif Verif.Rounded Verif.Spec.Rounded Verif.Spec.RoundedArea

theorem sub_swap (x y : ℚ) : sub 53 x y = -sub 53 y x := by
  unfold sub
  rw [← Verif.Lemmas.Float64.roundTo_neg, neg_sub]

theorem mul_swap (x y : ℚ) : mul 53 x y = mul 53 y x := by
  unfold mul
  rw [mul_comm]

theorem sub_self_zero (x : ℚ) : sub 53 x x = 0 := by simp [sub, roundTo_zero]

theorem sub_scale (k : Int) (x y : ℚ) : sub 53 (2 ^ k * x) (2 ^ k * y) = 2 ^ k * sub 53 x y := by
  unfold sub
  rw [← mul_sub, roundTo_scale]

theorem add_scale (k : Int) (x y : ℚ) : add 53 (2 ^ k * x) (2 ^ k * y) = 2 ^ k * add 53 x y := by
  unfold add
  rw [← mul_add, roundTo_scale]

theorem mul_scale (j k : Int) (x y : ℚ) : mul 53 (2 ^ j * x) (2 ^ k * y) = 2 ^ (j + k) * mul 53 x y := by
  unfold mul
  rw [← roundTo_scale, zpow_add₀ (by norm_num)]
  congr 1
  ring

theorem area_swap (a b c : Pt ℚ) : triangleArea a c b = -triangleArea a b c := by
  unfold triangleArea
  rw [sub_swap, mul_swap (sub 53 b.1 a.1), mul_swap (sub 53 b.2 a.2)]

theorem area_scale (k : Int) (a b c : Pt ℚ) :
    triangleArea (2 ^ k * a.1, 2 ^ k * a.2) (2 ^ k * b.1, 2 ^ k * b.2) (2 ^ k * c.1, 2 ^ k * c.2) =
      2 ^ (k + k) * triangleArea a b c := by
  simp only [triangleArea, sub_scale, mul_scale]

/-- Points as seen from `a`. -/
theorem area_eq (a b c : Pt ℚ) : area2 a b c = (b.1 - a.1) * (c.2 - a.2) - (c.1 - a.1) * (b.2 - a.2) := by
  unfold area2
  ring

theorem area_sign {a b c : Pt ℚ} (h1 : Fits 53 (b.1 - a.1)) (h2 : Fits 53 (b.2 - a.2)) (h3 : Fits 53 (c.1 - a.1))
    (h4 : Fits 53 (c.2 - a.2)) :
    (0 < triangleArea a b c → 0 < area2 a b c) ∧ (triangleArea a b c < 0 → area2 a b c < 0) := by
  have e : triangleArea a b c =
      sub 53 (mul 53 (b.1 - a.1) (c.2 - a.2)) (mul 53 (c.1 - a.1) (b.2 - a.2)) := by
    unfold triangleArea
    rw [show sub 53 b.1 a.1 = b.1 - a.1 from roundTo_fits (by norm_num) h1,
      show sub 53 b.2 a.2 = b.2 - a.2 from roundTo_fits (by norm_num) h2,
      show sub 53 c.1 a.1 = c.1 - a.1 from roundTo_fits (by norm_num) h3,
      show sub 53 c.2 a.2 = c.2 - a.2 from roundTo_fits (by norm_num) h4, mul_swap (b.2 - a.2)]
  rw [e, area_eq]
  exact triangle_sign (b.1 - a.1, b.2 - a.2) (c.1 - a.1, c.2 - a.2)

theorem area_flat {a b c : Pt ℚ} (h1 : Fits 53 (b.1 - a.1)) (h2 : Fits 53 (b.2 - a.2)) (h3 : Fits 53 (c.1 - a.1))
    (h4 : Fits 53 (c.2 - a.2)) (h : area2 a b c = 0) : triangleArea a b c = 0 := by
  obtain ⟨h5, h6⟩ := area_sign h1 h2 h3 h4
  rcases lt_trichotomy (triangleArea a b c) 0 with h7 | h7 | h7
  · exact absurd (h6 h7) (by rw [h]; exact lt_irrefl _)
  · exact h7
  · exact absurd (h5 h7) (by rw [h]; exact lt_irrefl _)

/-- On a grid the area is exact, and it is on a grid itself. -/
theorem area_grid {s M : Int} (h0 : 0 ≤ M) (hM : 8 * M * M ≤ 2 ^ 53) {a b c : Pt ℚ} (ha : OnGrid s M a)
    (hb : OnGrid s M b) (hc : OnGrid s M c) :
    triangleArea a b c = area2 a b c ∧ Multiple (s + s) (8 * M * M) (area2 a b c) := by
  have h2 : M + M ≤ 2 ^ 53 := by nlinarith
  have h3 : (M + M) * (M + M) + (M + M) * (M + M) ≤ 8 * M * M := by nlinarith
  have h4 : 0 ≤ (M + M) * (M + M) := by nlinarith
  have s1 := multiple_sub hb.1 ha.1
  have s2 := multiple_sub hb.2 ha.2
  have s3 := multiple_sub hc.1 ha.1
  have s4 := multiple_sub hc.2 ha.2
  have m1 := multiple_mul s1 s4
  have m2 := multiple_mul s2 s3
  have e : triangleArea a b c = (b.1 - a.1) * (c.2 - a.2) - (b.2 - a.2) * (c.1 - a.1) := by
    unfold triangleArea
    rw [sub_grid (by norm_num) hb.1 ha.1 h2, sub_grid (by norm_num) hb.2 ha.2 h2,
      sub_grid (by norm_num) hc.1 ha.1 h2, sub_grid (by norm_num) hc.2 ha.2 h2,
      mul_grid (by norm_num) s1 s4 (by linarith), mul_grid (by norm_num) s2 s3 (by linarith),
      sub_grid (by norm_num) m1 m2 (by linarith)]
  have e2 : area2 a b c = (b.1 - a.1) * (c.2 - a.2) - (b.2 - a.2) * (c.1 - a.1) := by
    unfold area2
    ring
  refine ⟨e.trans e2.symm, ?_⟩
  rw [e2]
  exact multiple_mono (multiple_sub m1 m2) h3

theorem norm2_grid {s M : Int} (hM : 2 * M * M ≤ 2 ^ 53) {a : Pt ℚ} (ha : OnGrid s M a) :
    norm2 a = a.1 * a.1 + a.2 * a.2 ∧ Multiple (s + s) (2 * M * M) (a.1 * a.1 + a.2 * a.2) := by
  have h2 : M * M + M * M = 2 * M * M := by ring
  have h3 : 0 ≤ M * M := by nlinarith
  have m1 := multiple_mul ha.1 ha.1
  have m2 := multiple_mul ha.2 ha.2
  refine ⟨?_, h2 ▸ multiple_add m1 m2⟩
  unfold norm2
  rw [mul_grid (by norm_num) ha.1 ha.1 (by linarith), mul_grid (by norm_num) ha.2 ha.2 (by linarith),
    add_grid (by norm_num) m1 m2 (by linarith)]

/-- The determinant of the circle test. -/
def circleDet (p a b c : Pt ℚ) : ℚ :=
  (a.1 * a.1 + a.2 * a.2) * area2 b c p - (b.1 * b.1 + b.2 * b.2) * area2 a c p +
    (c.1 * c.1 + c.2 * c.2) * area2 a b p - (p.1 * p.1 + p.2 * p.2) * area2 a b c

theorem circle_grid {s M : Int} (h0 : 0 ≤ M) (hM : 64 * M * M * M * M ≤ 2 ^ 53) {p a b c : Pt ℚ}
    (hp : OnGrid s M p) (ha : OnGrid s M a) (hb : OnGrid s M b) (hc : OnGrid s M c) :
    withinCircle p a b c = decide (circleDet p a b c > 0) := by
  have hMM : 0 ≤ M * M := mul_nonneg h0 h0
  have hcap : 8 * M * M ≤ 2 ^ 53 := by
    rcases Int.lt_or_le (M * M) 1 with h | h
    · nlinarith
    · have : M * M ≤ M * M * (M * M) := le_mul_of_one_le_right hMM h
      nlinarith
  have h2 : 2 * M * M ≤ 2 ^ 53 := by nlinarith
  obtain ⟨na, na'⟩ := norm2_grid h2 ha
  obtain ⟨nb, nb'⟩ := norm2_grid h2 hb
  obtain ⟨nc, nc'⟩ := norm2_grid h2 hc
  obtain ⟨np, np'⟩ := norm2_grid h2 hp
  obtain ⟨ea, ea'⟩ := area_grid h0 hcap hb hc hp
  obtain ⟨eb, eb'⟩ := area_grid h0 hcap ha hc hp
  obtain ⟨ec, ec'⟩ := area_grid h0 hcap ha hb hp
  obtain ⟨ep, ep'⟩ := area_grid h0 hcap ha hb hc
  have ta := multiple_mul na' ea'
  have tb := multiple_mul nb' eb'
  have tc := multiple_mul nc' ec'
  have tp := multiple_mul np' ep'
  have eN : 2 * M * M * (8 * M * M) = 16 * M * M * M * M := by ring
  rw [eN] at ta tb tc tp
  have hN : 0 ≤ 16 * M * M * M * M := by
    have := mul_nonneg hMM hMM
    nlinarith
  have hN4 : 16 * M * M * M * M + 16 * M * M * M * M + 16 * M * M * M * M + 16 * M * M * M * M ≤ 2 ^ 53 := by
    linarith
  generalize 16 * M * M * M * M = N at *
  unfold withinCircle circleDet
  rw [na, nb, nc, np, ea, eb, ec, ep]
  rw [show mul 53 (a.1 * a.1 + a.2 * a.2) (area2 b c p) = _ from multiple_round (by norm_num) (by linarith) ta,
    show mul 53 (b.1 * b.1 + b.2 * b.2) (area2 a c p) = _ from multiple_round (by norm_num) (by linarith) tb,
    show mul 53 (c.1 * c.1 + c.2 * c.2) (area2 a b p) = _ from multiple_round (by norm_num) (by linarith) tc,
    show mul 53 (p.1 * p.1 + p.2 * p.2) (area2 a b c) = _ from multiple_round (by norm_num) (by linarith) tp,
    sub_grid (by norm_num) ta tb (by linarith), add_grid (by norm_num) (multiple_sub ta tb) tc (by linarith),
    sub_grid (by norm_num) (multiple_add (multiple_sub ta tb) tc) tp (by linarith)]

theorem circleDet_eq {o a b c : Pt ℚ} (p : Pt ℚ) (h1 : dist2 o a = dist2 o b) (h2 : dist2 o b = dist2 o c) :
    circleDet p a b c = area2 a b c * (dist2 o a - dist2 o p) := by
  have key : circleDet p a b c = dist2 o a * area2 b c p - dist2 o b * area2 a c p + dist2 o c * area2 a b p -
      dist2 o p * area2 a b c := by
    unfold circleDet area2 dist2
    ring
  have k2 : area2 b c p - area2 a c p + area2 a b p = area2 a b c := by
    unfold area2
    ring
  rw [key, ← h2, ← h1]
  linear_combination dist2 o a * k2

theorem circle_center {a b c : Pt ℚ} (h : area2 a b c ≠ 0) :
    ∃ o, dist2 o a = dist2 o b ∧ dist2 o b = dist2 o c := by
  refine ⟨(((a.1 ^ 2 + a.2 ^ 2) * (b.2 - c.2) + (b.1 ^ 2 + b.2 ^ 2) * (c.2 - a.2) + (c.1 ^ 2 + c.2 ^ 2) * (a.2 - b.2)) /
      (2 * area2 a b c),
    ((a.1 ^ 2 + a.2 ^ 2) * (c.1 - b.1) + (b.1 ^ 2 + b.2 ^ 2) * (a.1 - c.1) + (c.1 ^ 2 + c.2 ^ 2) * (b.1 - a.1)) /
      (2 * area2 a b c)), ?_, ?_⟩ <;>
  · unfold dist2
    simp only []
    have h2 : 2 * area2 a b c ≠ 0 := mul_ne_zero two_ne_zero h
    field_simp
    unfold area2
    ring

theorem inCircle_iff {p a b c : Pt ℚ} (h : 0 < area2 a b c) : InCircle p a b c ↔ 0 < circleDet p a b c := by
  constructor
  · rintro ⟨o, h1, h2, h3⟩
    rw [circleDet_eq p h1 h2]
    exact mul_pos h (sub_pos.2 h3)
  · intro hd
    obtain ⟨o, h1, h2⟩ := circle_center h.ne'
    rw [circleDet_eq p h1 h2] at hd
    exact ⟨o, h1, h2, sub_pos.1 ((mul_pos_iff_of_pos_left h).1 hd)⟩

theorem circle_scale (k : Int) (p a b c : Pt ℚ) :
    withinCircle (2 ^ k * p.1, 2 ^ k * p.2) (2 ^ k * a.1, 2 ^ k * a.2) (2 ^ k * b.1, 2 ^ k * b.2)
      (2 ^ k * c.1, 2 ^ k * c.2) = withinCircle p a b c := by
  have hn : ∀ q : Pt ℚ, norm2 (2 ^ k * q.1, 2 ^ k * q.2) = 2 ^ (k + k) * norm2 q := fun q => by
    simp only [norm2, mul_scale, add_scale]
  unfold withinCircle
  simp only [hn, area_scale, mul_scale, sub_scale, add_scale]
  rw [decide_eq_decide]
  exact mul_pos_iff_of_pos_left (two_pow_pos _)

/-- One coordinate of the centre. -/
def mid3 (x y z : ℚ) : ℚ := quo 53 (add 53 (add 53 x y) z) 3

theorem mid3_grid {s : Int} {x y z : ℚ} (hx : Multiple s (2 ^ 51) x) (hy : Multiple s (2 ^ 51) y)
    (hz : Multiple s (2 ^ 51) z) : mid3 x y z = roundTo 53 ((x + y + z) / 3) := by
  unfold mid3
  rw [add_grid (by norm_num) hx hy (by norm_num), add_grid (by norm_num) (multiple_add hx hy) hz (by norm_num), quo]

theorem mid3_box {s : Int} {x y z : ℚ} (hx : Multiple s (2 ^ 51) x) (hy : Multiple s (2 ^ 51) y)
    (hz : Multiple s (2 ^ 51) z) : min (min x y) z ≤ mid3 x y z ∧ mid3 x y z ≤ max (max x y) z := by
  rw [mid3_grid hx hy hz]
  have fx := multiple_round (p := 53) (by norm_num) (by norm_num) hx
  have fy := multiple_round (p := 53) (by norm_num) (by norm_num) hy
  have fz := multiple_round (p := 53) (by norm_num) (by norm_num) hz
  have lo : ∀ m : ℚ, roundTo 53 m = m → m ≤ x → m ≤ y → m ≤ z → m ≤ roundTo 53 ((x + y + z) / 3) := by
    intro m hm h1 h2 h3
    calc m = roundTo 53 m := hm.symm
      _ ≤ _ := roundTo_mono (by norm_num) (by linarith)
  have hi : ∀ m : ℚ, roundTo 53 m = m → x ≤ m → y ≤ m → z ≤ m → roundTo 53 ((x + y + z) / 3) ≤ m := by
    intro m hm h1 h2 h3
    calc roundTo 53 ((x + y + z) / 3) ≤ roundTo 53 m := roundTo_mono (by norm_num) (by linarith)
      _ = m := hm
  constructor
  · refine lo _ ?_ ((min_le_left _ _).trans (min_le_left _ _)) ((min_le_left _ _).trans (min_le_right _ _))
      (min_le_right _ _)
    rcases min_choice (min x y) z with e | e
    · rw [e]
      rcases min_choice x y with e | e <;> rw [e] <;> assumption
    · rw [e]; exact fz
  · refine hi _ ?_ ((le_max_left _ _).trans (le_max_left _ _)) ((le_max_right _ _).trans (le_max_left _ _))
      (le_max_right _ _)
    rcases max_choice (max x y) z with e | e
    · rw [e]
      rcases max_choice x y with e | e <;> rw [e] <;> assumption
    · rw [e]; exact fz

theorem mid3_near {x y z B : ℚ} (hx : |x| ≤ B) (hy : |y| ≤ B) (hz : |z| ≤ B) :
    |mid3 x y z - (x + y + z) / 3| ≤ 3 * B / 2 ^ 53 := by
  have hB : 0 ≤ B := (abs_nonneg x).trans hx
  have h1 := roundTo_near 53 (by norm_num) (x + y)
  have h2 := roundTo_near 53 (by norm_num) (add 53 x y + z)
  have h3 := roundTo_near 53 (by norm_num) (add 53 (add 53 x y) z / 3)
  have b1 : |x + y| ≤ 2 * B := (abs_add_le _ _).trans (by linarith)
  unfold mid3 quo
  change |add 53 x y - (x + y)| ≤ _ at h1
  change |add 53 (add 53 x y) z - _| ≤ _ at h2
  generalize add 53 (add 53 x y) z = t at *
  generalize add 53 x y = s at *
  generalize roundTo 53 (t / 3) = r at *
  have e1 : |s - (x + y)| ≤ 2 * B / 2 ^ 53 := h1.trans (div_le_div_of_nonneg_right b1 (by norm_num))
  have b2 : |s + z| ≤ 3 * B + 2 * B / 2 ^ 53 := by
    have : s + z = (s - (x + y)) + (x + y + z) := by ring
    rw [this]
    refine (abs_add_le _ _).trans ?_
    have : |x + y + z| ≤ 3 * B := (abs_add_le _ _).trans (by linarith)
    linarith
  have e2 : |t - (s + z)| ≤ (3 * B + 2 * B / 2 ^ 53) / 2 ^ 53 := h2.trans (div_le_div_of_nonneg_right b2 (by norm_num))
  have e3 : |t - (x + y + z)| ≤ 6 * B / 2 ^ 53 := by
    have : t - (x + y + z) = (t - (s + z)) + (s - (x + y)) := by ring
    rw [this]
    refine (abs_add_le _ _).trans ?_
    norm_num at e1 e2 ⊢
    linarith
  have e3' : |t - (x + y + z)| ≤ (11 / 2) * B / 2 ^ 53 := by
    have : t - (x + y + z) = (t - (s + z)) + (s - (x + y)) := by ring
    rw [this]
    refine (abs_add_le _ _).trans ?_
    norm_num at e1 e2 ⊢
    linarith
  have b3 : |t / 3| ≤ B + 2 * B / 2 ^ 53 := by
    have : t / 3 = (t - (x + y + z)) / 3 + (x + y + z) / 3 := by ring
    rw [this]
    refine (abs_add_le _ _).trans ?_
    rw [abs_div, abs_div, abs_of_pos (by norm_num : (0 : ℚ) < 3)]
    have : |x + y + z| ≤ 3 * B := (abs_add_le _ _).trans (by linarith)
    linarith
  have e4 : |r - t / 3| ≤ (B + 2 * B / 2 ^ 53) / 2 ^ 53 := h3.trans (div_le_div_of_nonneg_right b3 (by norm_num))
  have : r - (x + y + z) / 3 = (r - t / 3) + (t - (x + y + z)) / 3 := by ring
  rw [this]
  refine (abs_add_le _ _).trans ?_
  rw [abs_div, abs_of_pos (by norm_num : (0 : ℚ) < 3)]
  norm_num at e3' e4 ⊢
  linarith

end Verif.Lemmas.Rounded
