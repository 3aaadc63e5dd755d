import Verif.Model.RoundedFrame
import Verif.Lemmas.RoundedOnLine
import Verif.Lemmas.DelaunayPoints
import Verif.Spec.RoundedArea

/-!
# Lemmas on the triangle around points, in floats
-/

namespace Verif.Lemmas.Rounded
open Verif Verif.Rounded Verif.Spec.Rounded Verif.Spec.Subdivision

/-- A rounding with a bound on the size. -/
theorem round_abs {x e : ℚ} (B : ℚ) (h : |x| ≤ B) (he : B / 2 ^ 53 ≤ e) : -e ≤ roundTo 53 x - x ∧ roundTo 53 x - x ≤ e :=
  abs_le.1 ((round_bound h).trans he)

/-- The two ends along one axis: `k` times the rounded length is added or taken away. -/
theorem reach_near {lo hi L c : ℚ} (hl : |lo| ≤ 2 ^ 44) (hh : |hi| ≤ 2 ^ 44) (hL : |L - c * (hi - lo)| ≤ 1 / 4)
    (hc0 : 0 ≤ c) (hc : c ≤ 20) (h : lo ≤ hi) :
    |sub 53 (sub 53 lo L) 10 - (lo - c * (hi - lo) - 10)| ≤ 1 / 2 ∧
      |add 53 (add 53 hi L) 10 - (hi + c * (hi - lo) + 10)| ≤ 1 / 2 := by
  rw [abs_le] at hl hh hL
  have h1 : 0 ≤ c * (hi - lo) := mul_nonneg hc0 (sub_nonneg.2 h)
  have h2 : c * (hi - lo) ≤ 20 * (hi - lo) := mul_le_mul_of_nonneg_right hc (sub_nonneg.2 h)
  generalize c * (hi - lo) = m at *
  unfold sub add
  norm_num at hl hh
  constructor
  · have a := round_abs (x := lo - L) (e := 1 / 10) (2 ^ 44 * 42) (abs_le.2 ⟨by norm_num; linarith, by norm_num; linarith⟩)
      (by norm_num)
    generalize roundTo 53 (lo - L) = s at *
    have b := round_abs (x := s - 10) (e := 1 / 10) (2 ^ 44 * 43) (abs_le.2 ⟨by norm_num; linarith, by norm_num; linarith⟩)
      (by norm_num)
    rw [abs_le]
    constructor <;> linarith
  · have a := round_abs (x := hi + L) (e := 1 / 10) (2 ^ 44 * 42) (abs_le.2 ⟨by norm_num; linarith, by norm_num; linarith⟩)
      (by norm_num)
    generalize roundTo 53 (hi + L) = s at *
    have b := round_abs (x := s + 10) (e := 1 / 10) (2 ^ 44 * 43) (abs_le.2 ⟨by norm_num; linarith, by norm_num; linarith⟩)
      (by norm_num)
    rw [abs_le]
    constructor <;> linarith

/-- All five numbers are near the exact ones. -/
theorem frame_near {e0 e1 e2 e3 : ℚ} (h0 : |e0| ≤ 2 ^ 44) (h1 : |e1| ≤ 2 ^ 44) (h2 : |e2| ≤ 2 ^ 44)
    (h3 : |e3| ≤ 2 ^ 44) (hx : e0 ≤ e2) (hy : e1 ≤ e3) :
    ∃ nx cx xx ny xy, triangleForExtent e0 e1 e2 e3 10 = ((nx, ny), (cx, xy), (xx, ny)) ∧
      |nx - (e0 - 5 * (e2 - e0) - 10)| ≤ 1 / 2 ∧ |cx - (e0 + e2) / 2| ≤ 1 / 2 ∧
      |xx - (e2 + 5 * (e2 - e0) + 10)| ≤ 1 / 2 ∧ |ny - (e1 - 10 * (e3 - e1) - 10)| ≤ 1 / 2 ∧
      |xy - (e3 + 20 * (e3 - e1) + 10)| ≤ 1 / 2 := by
  refine ⟨_, _, _, _, _, rfl, ?_⟩
  have k0 := h0
  have k1 := h1
  have k2 := h2
  have k3 := h3
  rw [abs_le] at k0 k1 k2 k3
  norm_num at k0 k1 k2 k3
  have dx := round_abs (x := e2 - e0) (e := 1 / 256) (2 ^ 45) (abs_le.2 ⟨by norm_num; linarith, by norm_num; linarith⟩)
    (by norm_num)
  have dy := round_abs (x := e3 - e1) (e := 1 / 256) (2 ^ 45) (abs_le.2 ⟨by norm_num; linarith, by norm_num; linarith⟩)
    (by norm_num)
  unfold quo mul
  have ux : sub 53 e2 e0 = roundTo 53 (e2 - e0) := rfl
  have uy : sub 53 e3 e1 = roundTo 53 (e3 - e1) := rfl
  rw [ux, uy]
  generalize roundTo 53 (e2 - e0) = X at *
  generalize roundTo 53 (e3 - e1) = Y at *
  have d2 := round_abs (x := X / 2) (e := 1 / 256) (2 ^ 45) (abs_le.2 ⟨by norm_num; linarith, by norm_num; linarith⟩)
    (by norm_num)
  generalize roundTo 53 (X / 2) = X2 at *
  have d3 := round_abs (x := X2 * 10) (e := 1 / 30) (2 ^ 44 * 11) (abs_le.2 ⟨by norm_num; linarith, by norm_num; linarith⟩)
    (by norm_num)
  generalize roundTo 53 (X2 * 10) = P at *
  have d4 := round_abs (x := Y * 10) (e := 1 / 20) (2 ^ 44 * 21) (abs_le.2 ⟨by norm_num; linarith, by norm_num; linarith⟩)
    (by norm_num)
  generalize roundTo 53 (Y * 10) = Q at *
  have d5 := round_abs (x := 2 * Y) (e := 1 / 125) (2 ^ 46 + 2 ^ 10) (abs_le.2 ⟨by norm_num; linarith, by norm_num; linarith⟩)
    (by norm_num)
  generalize roundTo 53 (2 * Y) = Y2 at *
  have d6 := round_abs (x := Y2 * 10) (e := 1 / 12) (2 ^ 44 * 42) (abs_le.2 ⟨by norm_num; linarith, by norm_num; linarith⟩)
    (by norm_num)
  generalize roundTo 53 (Y2 * 10) = R at *
  have rP := reach_near (L := P) (c := 5) h0 h2 (by rw [abs_le]; constructor <;> linarith) (by norm_num) (by norm_num) hx
  have rQ := reach_near (L := Q) (c := 10) h1 h3 (by rw [abs_le]; constructor <;> linarith) (by norm_num) (by norm_num) hy
  have rR := reach_near (L := R) (c := 20) h1 h3 (by rw [abs_le]; constructor <;> linarith) (by norm_num) (by norm_num) hy
  refine ⟨rP.1, ?_, rP.2, rQ.1, rR.2⟩
  unfold add
  have d7 := round_abs (x := e0 + X2) (e := 1 / 100) (2 ^ 46) (abs_le.2 ⟨by norm_num; linarith, by norm_num; linarith⟩)
    (by norm_num)
  rw [abs_le]
  constructor <;> linarith

/-- When a point is inside of a triangle with a level base. -/
theorem inside_level {nx cx xx ny xy x y : ℚ} (h1 : ny < y) (h2 : 3 * (y - ny) ≤ 2 * (xy - ny))
    (h3 : 2 * (cx - nx) < 3 * (x - nx)) (h4 : 2 * (xx - cx) < 3 * (xx - x)) (h5 : nx < cx) (h6 : cx < xx) :
    InsideTriangle (x, y) (nx, ny) (cx, xy) (xx, ny) := by
  have hh : 0 < xy - ny := by linarith
  have hW : 0 < xx - nx := by linarith
  obtain ⟨v, hv⟩ : ∃ v, v = (y - ny) / (xy - ny) := ⟨_, rfl⟩
  have hv0 : 0 < v := by rw [hv]; exact div_pos (by linarith) hh
  have hv1 : v ≤ 2 / 3 := by rw [hv, div_le_iff₀ hh]; linarith
  have hvy : v * (xy - ny) = y - ny := by rw [hv]; field_simp
  obtain ⟨w, hw⟩ : ∃ w, w = (x - nx - v * (cx - nx)) / (xx - nx) := ⟨_, rfl⟩
  have hwx : w * (xx - nx) = x - nx - v * (cx - nx) := by rw [hw]; field_simp
  have k1 : v * (cx - nx) ≤ 2 / 3 * (cx - nx) := mul_le_mul_of_nonneg_right hv1 (by linarith)
  have k2 : v * (xx - cx) ≤ 2 / 3 * (xx - cx) := mul_le_mul_of_nonneg_right hv1 (by linarith)
  have hw0 : 0 < w := by
    rw [hw]
    exact div_pos (by linarith) hW
  have hu0 : 0 < 1 - v - w := by
    have : 0 < (1 - v - w) * (xx - nx) := by
      have e : (1 - v - w) * (xx - nx) = (xx - nx) - v * (xx - nx) - w * (xx - nx) := by ring
      rw [e, hwx]
      have e2 : v * (xx - nx) = v * (xx - cx) + v * (cx - nx) := by ring
      rw [e2]
      linarith
    exact (mul_pos_iff_of_pos_right hW).1 this
  refine ⟨1 - v - w, v, w, hu0, hv0, hw0, by ring, ?_⟩
  rw [Prod.mk.injEq]
  constructor
  · have : (1 - v - w) * nx + v * cx + w * xx = nx + v * (cx - nx) + w * (xx - nx) := by ring
    simp only
    rw [this, hwx]
    ring
  · have : (1 - v - w) * ny + v * xy + w * ny = ny + v * (xy - ny) := by ring
    simp only
    rw [this, hvy]
    ring

/-- The points of the box are inside. -/
theorem frame_holds {e0 e1 e2 e3 : ℚ} (h0 : |e0| ≤ 2 ^ 44) (h1 : |e1| ≤ 2 ^ 44) (h2 : |e2| ≤ 2 ^ 44)
    (h3 : |e3| ≤ 2 ^ 44) (hx : e0 ≤ e2) (hy : e1 ≤ e3) (p : Pt ℚ) (p1 : e0 ≤ p.1) (p2 : p.1 ≤ e2) (p3 : e1 ≤ p.2)
    (p4 : p.2 ≤ e3) :
    InsideTriangle p (triangleForExtent e0 e1 e2 e3 10).1 (triangleForExtent e0 e1 e2 e3 10).2.1
      (triangleForExtent e0 e1 e2 e3 10).2.2 := by
  obtain ⟨nx, cx, xx, ny, xy, e, k1, k2, k3, k4, k5⟩ := frame_near h0 h1 h2 h3 hx hy
  rw [e]
  rw [abs_le] at k1 k2 k3 k4 k5
  obtain ⟨x, y⟩ := p
  simp only at *
  apply inside_level <;> linarith

/-- The frame is clockwise. -/
theorem frame_area {e0 e1 e2 e3 : ℚ} (h0 : |e0| ≤ 2 ^ 44) (h1 : |e1| ≤ 2 ^ 44) (h2 : |e2| ≤ 2 ^ 44)
    (h3 : |e3| ≤ 2 ^ 44) (hx : e0 ≤ e2) (hy : e1 ≤ e3) :
    Spec.RoundedArea.area2 (triangleForExtent e0 e1 e2 e3 10).1 (triangleForExtent e0 e1 e2 e3 10).2.1
      (triangleForExtent e0 e1 e2 e3 10).2.2 < 0 := by
  obtain ⟨nx, cx, xx, ny, xy, e, k1, k2, k3, k4, k5⟩ := frame_near h0 h1 h2 h3 hx hy
  rw [e]
  rw [abs_le] at k1 k2 k3 k4 k5
  have a : 0 < xx - nx := by linarith
  have b : 0 < xy - ny := by linarith
  have := mul_pos a b
  simp only [Spec.RoundedArea.area2]
  have e : nx * xy - cx * ny + (cx * ny - xx * xy) + (xx * ny - nx * ny) = -((xx - nx) * (xy - ny)) := by ring
  rw [e]
  linarith

/-- No number of the extent is beyond `B`. -/
def Within (B : ℚ) (e : ℚ × ℚ × ℚ × ℚ) : Prop := |e.1| ≤ B ∧ |e.2.1| ≤ B ∧ |e.2.2.1| ≤ B ∧ |e.2.2.2| ≤ B

theorem foldl_bounded {B : ℚ} (qs : List (Pt ℚ)) : ∀ (e : ℚ × ℚ × ℚ × ℚ), (∀ p ∈ qs, |p.1| ≤ B ∧ |p.2| ≤ B) →
    Within B e → Within B (qs.foldl Verif.Delaunay.extendBy e) := by
  induction qs with
  | nil => exact fun e _ h => h
  | cons q qs ih =>
    intro e hq h
    refine ih _ (fun p hp => hq p (List.mem_cons_of_mem _ hp)) ?_
    have hq0 := hq q List.mem_cons_self
    unfold Within at *
    unfold Verif.Delaunay.extendBy
    simp only
    refine ⟨?_, ?_, ?_, ?_⟩ <;> split_ifs <;> simp only [hq0.1, hq0.2, h.1, h.2.1, h.2.2.1, h.2.2.2]

/-- The extent of points within bounds is within them. -/
theorem extent_bounded {ps : List (Pt ℚ)} {B : ℚ} (hne : ps ≠ []) (hp : ∀ p ∈ ps, |p.1| ≤ B ∧ |p.2| ≤ B) :
    ∃ e, Verif.Delaunay.extentOf ps = some e ∧ e.1 ≤ e.2.2.1 ∧ e.2.1 ≤ e.2.2.2 ∧
      (∀ p ∈ ps, e.1 ≤ p.1 ∧ p.1 ≤ e.2.2.1 ∧ e.2.1 ≤ p.2 ∧ p.2 ≤ e.2.2.2) ∧
      |e.1| ≤ B ∧ |e.2.1| ≤ B ∧ |e.2.2.1| ≤ B ∧ |e.2.2.2| ≤ B := by
  obtain ⟨e, he, e1, e2, e3⟩ := Lemmas.DelaunayPoints.extentOf_spec hne
  refine ⟨e, he, e1, e2, e3, ?_⟩
  cases ps with
  | nil => exact absurd rfl hne
  | cons q qs =>
    have hq0 := hp q List.mem_cons_self
    have := foldl_bounded qs (q.1, q.2, q.1, q.2) (fun p h => hp p (List.mem_cons_of_mem _ h)) ⟨hq0.1, hq0.2, hq0.1, hq0.2⟩
    rw [Verif.Delaunay.extentOf, Option.some.injEq] at he
    rw [he] at this
    exact this

end Verif.Lemmas.Rounded
