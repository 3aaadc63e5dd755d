import Verif.Model.Shapes
import Verif.Lemmas.Planar
import Mathlib.Tactic.Positivity

set_option linter.unusedSectionVars false

namespace Verif.Shapes
open Verif.Spec.Planar

section Field
variable {K : Type} [Field K] [LinearOrder K] [IsStrictOrderedRing K]

theorem colinear_iff (a b c : Pt K) :
    (b.2 - a.2) * (c.1 - b.1) = (c.2 - b.2) * (b.1 - a.1) ↔ Colinear a b c := by
  unfold Colinear
  constructor <;> intro h <;> linear_combination -h

theorem colinear_rot {a b c : Pt K} (h : ¬ Colinear a b c) : ¬ Colinear b c a := by
  intro h'
  apply h
  unfold Colinear at *
  linear_combination h'

/-- A point on the two perpendicular bisectors is equally far from the
corners. -/
theorem equidistant {a b c : Pt K} {x y : K}
    (h1 : (x - (a.1 + b.1) / 2) * (b.1 - a.1) + (y - (a.2 + b.2) / 2) * (b.2 - a.2) = 0)
    (h2 : (x - (b.1 + c.1) / 2) * (c.1 - b.1) + (y - (b.2 + c.2) / 2) * (c.2 - b.2) = 0) :
    dist2 (x, y) a = dist2 (x, y) b ∧ dist2 (x, y) b = dist2 (x, y) c := by
  unfold dist2
  have t : (2 : K) ≠ 0 := two_ne_zero
  constructor
  · simp only []
    linear_combination 2 * h1
  · simp only []
    linear_combination 2 * h2

theorem circleCenter_equidistant {a b c : Pt K} (hnc : ¬ Colinear a b c)
    (h1 : b.1 - a.1 ≠ 0) (h2 : c.1 - b.1 ≠ 0) :
    dist2 (circleCenter a b c) a = dist2 (circleCenter a b c) b ∧
    dist2 (circleCenter a b c) b = dist2 (circleCenter a b c) c := by
  rw [← colinear_iff] at hnc
  unfold circleCenter
  simp only []
  have two : (2 : K) ≠ 0 := two_ne_zero
  by_cases hyA : b.2 - a.2 = 0
  · rw [if_neg (by tauto), if_pos ⟨hyA, h2⟩]
    have hyB : c.2 - b.2 ≠ 0 := by
      intro h; apply hnc; rw [hyA, h]; ring
    apply equidistant
    · rw [hyA]; ring
    · field_simp
      ring
  · rw [if_neg (by tauto), if_neg (by tauto)]
    by_cases hyB : c.2 - b.2 = 0
    · rw [if_neg (by tauto), if_pos ⟨hyB, h1⟩]
      apply equidistant
      · field_simp
        ring
      · rw [hyB]; ring
    · rw [if_neg (by tauto), if_neg (by tauto), if_neg h1, if_neg h2]
      obtain ⟨sA, hsA⟩ : ∃ s, s = (b.2 - a.2) / (b.1 - a.1) := ⟨_, rfl⟩
      obtain ⟨sB, hsB⟩ : ∃ s, s = (c.2 - b.2) / (c.1 - b.1) := ⟨_, rfl⟩
      have eA : b.2 - a.2 = sA * (b.1 - a.1) := by rw [hsA]; field_simp
      have eB : c.2 - b.2 = sB * (c.1 - b.1) := by rw [hsB]; field_simp
      rw [← hsA, ← hsB]
      have hA : sA ≠ 0 := by intro h; rw [h] at eA; apply hyA; rw [eA]; ring
      have hAB : sB - sA ≠ 0 := by
        intro h
        apply hnc
        rw [eA, eB, sub_eq_zero.mp h]; ring
      obtain ⟨x, hx⟩ : ∃ x, x = (sA * sB * (a.2 - c.2) + sB * (a.1 + b.1) - sA * (b.1 + c.1))
          / (2 * (sB - sA)) := ⟨_, rfl⟩
      rw [← hx]
      have hx' : x * (2 * (sB - sA)) = sA * sB * (a.2 - c.2) + sB * (a.1 + b.1) - sA * (b.1 + c.1) := by
        rw [hx, div_mul_cancel₀]
        exact mul_ne_zero two hAB
      obtain ⟨y, hy⟩ : ∃ y, y = -1 / sA * (x - (a.1 + b.1) * (1 / 2)) + (a.2 + b.2) * (1 / 2) :=
        ⟨_, rfl⟩
      rw [← hy]
      have hy' : sA * (y - (a.2 + b.2) / 2) = -(x - (a.1 + b.1) / 2) := by
        rw [hy]; field_simp; ring
      apply equidistant
      · rw [eA]
        linear_combination (b.1 - a.1) * hy'
      · rw [eB]
        have : sA * ((x - (b.1 + c.1) / 2) + sB * (y - (b.2 + c.2) / 2)) = 0 := by
          linear_combination sB * hy' - hx' / 2
        have := (mul_eq_zero.mp this).resolve_left hA
        linear_combination (c.1 - b.1) * this

/-- The rotation loop ends within three rounds and only rotates. -/
theorem rotateLoop_spec {a b c : Pt K} (hnc : ¬ Colinear a b c) :
    ∃ a' b' c', rotateLoop 3 a b c = some (a', b', c') ∧
      ¬ Colinear a' b' c' ∧ b'.1 - a'.1 ≠ 0 ∧ c'.1 - b'.1 ≠ 0 ∧
      ((a', b', c') = (a, b, c) ∨ (a', b', c') = (b, c, a) ∨ (a', b', c') = (c, a, b)) := by
  have key : ∀ {a b c : Pt K}, ¬ Colinear a b c → ¬ (b.1 - a.1 = 0 ∧ c.1 - b.1 = 0) := by
    intro a b c h ⟨h1, h2⟩
    apply h; rw [← colinear_iff, h1, h2]; ring
  have r1 := colinear_rot hnc
  have r2 := colinear_rot r1
  unfold rotateLoop
  by_cases hA : b.1 - a.1 = 0 ∨ c.1 - b.1 = 0
  · rw [if_pos hA]
    unfold rotateLoop
    by_cases hB : c.1 - b.1 = 0 ∨ a.1 - c.1 = 0
    · rw [if_pos hB]
      unfold rotateLoop
      have hC : ¬ (a.1 - c.1 = 0 ∨ b.1 - a.1 = 0) := by
        rintro (h | h)
        · have hcb : c.1 - b.1 ≠ 0 := fun h' => key r1 ⟨h', h⟩
          have := hA.resolve_right hcb
          exact key r2 ⟨h, this⟩
        · have hcb : c.1 - b.1 ≠ 0 := fun h' => key hnc ⟨h, h'⟩
          have := hB.resolve_left hcb
          exact key r2 ⟨this, h⟩
      rw [if_neg hC]
      rw [not_or] at hC
      exact ⟨c, a, b, rfl, r2, hC.1, hC.2, Or.inr (Or.inr rfl)⟩
    · rw [if_neg hB]
      rw [not_or] at hB
      exact ⟨b, c, a, rfl, r1, hB.1, hB.2, Or.inr (Or.inl rfl)⟩
  · rw [if_neg hA]
    rw [not_or] at hA
    exact ⟨a, b, c, rfl, hnc, hA.1, hA.2, Or.inl rfl⟩

theorem circleFromPoints_spec (a b c : Pt K) :
    (Colinear a b c → circleFromPoints a b c = .colinear) ∧
    (¬ Colinear a b c → ∃ o f, circleFromPoints a b c = .circle o f ∧
      dist2 o a = dist2 o f ∧ dist2 o b = dist2 o f ∧ dist2 o c = dist2 o f) := by
  unfold circleFromPoints
  constructor
  · intro h
    rw [if_pos ((colinear_iff a b c).mpr h)]
  · intro h
    rw [if_neg (fun h' => h ((colinear_iff a b c).mp h'))]
    obtain ⟨a', b', c', e, hn, h1, h2, hr⟩ := rotateLoop_spec h
    rw [e]
    obtain ⟨e1, e2⟩ := circleCenter_equidistant hn h1 h2
    refine ⟨_, _, rfl, ?_⟩
    rcases hr with hr | hr | hr <;> (simp only [Prod.mk.injEq] at hr; obtain ⟨rfl, rfl, rfl⟩ := hr)
    · exact ⟨rfl, e1.symm, (e1.trans e2).symm⟩
    · exact ⟨(e1.trans e2).symm, rfl, e1.symm⟩
    · exact ⟨e1.symm, (e1.trans e2).symm, rfl⟩

theorem withinCircle_iff (p a b c o : Pt K) (h : Ccw a b c)
    (h1 : dist2 o a = dist2 o b) (h2 : dist2 o b = dist2 o c) :
    withinCircle p a b c = true ↔ dist2 o p < dist2 o a := by
  unfold withinCircle
  rw [decide_eq_true_eq]
  have e : (a.1 * a.1 + a.2 * a.2) * area (b, c, p)
      - (b.1 * b.1 + b.2 * b.2) * area (a, c, p)
      + (c.1 * c.1 + c.2 * c.2) * area (a, b, p)
      - (p.1 * p.1 + p.2 * p.2) * area (a, b, c)
      = (dist2 o a - dist2 o p) * ((b.1 - a.1) * (c.2 - a.2) - (b.2 - a.2) * (c.1 - a.1)) := by
    have hb : dist2 o b = dist2 o a := h1.symm
    have hc : dist2 o c = dist2 o a := (h1.trans h2).symm
    unfold dist2 at *
    simp only [area]
    linear_combination (-((c.1 - a.1) * (p.2 - a.2) - (c.2 - a.2) * (p.1 - a.1))) * hb
      + ((b.1 - a.1) * (p.2 - a.2) - (b.2 - a.2) * (p.1 - a.1)) * hc
  rw [e]
  unfold Ccw at h
  rw [gt_iff_lt, mul_pos_iff_of_pos_right h, sub_pos]

/-- With a buffer of at least one the triangle covers the extent. -/
theorem triangleForExtent_covers (e0 e1 e2 e3 buff : K) (hx : e0 ≤ e2) (hy : e1 ≤ e3)
    (hb : 1 ≤ buff) (p : Pt K) (hp : InBox p (e0, e1) (e2, e3)) :
    let t := triangleForExtent e0 e1 e2 e3 buff
    InTriangle p t.1 t.2.1 t.2.2 := by
  obtain ⟨p1, p2, p3, p4⟩ := hp
  simp only [min_eq_left hx, max_eq_right hx, min_eq_left hy, max_eq_right hy] at p1 p2 p3 p4
  obtain ⟨x, hxd⟩ : ∃ x, x = (e2 - e0) / 2 := ⟨_, rfl⟩
  obtain ⟨y, hyd⟩ : ∃ y, y = e3 - e1 := ⟨_, rfl⟩
  have hx0 : 0 ≤ x := by rw [hxd]; linarith
  have hy0 : 0 ≤ y := by rw [hyd]; linarith
  have hb0 : 0 < buff := by linarith
  -- half the base and the height
  obtain ⟨h, hh⟩ : ∃ h, h = x + x * buff + buff := ⟨_, rfl⟩
  obtain ⟨H, hH⟩ : ∃ H, H = y + 3 * y * buff + 2 * buff := ⟨_, rfl⟩
  have hxb : 0 ≤ x * buff := mul_nonneg hx0 hb0.le
  have hyb : 0 ≤ y * buff := mul_nonneg hy0 hb0.le
  have hpos : 0 < h := by rw [hh]; linarith
  have Hpos : 0 < H := by rw [hH]; linarith
  have e2' : e2 = e0 + 2 * x := by rw [hxd]; ring
  have e3' : e3 = e1 + y := by rw [hyd]; ring
  simp only [triangleForExtent]
  rw [← hxd, ← hyd]
  obtain ⟨v, hv⟩ : ∃ v, v = (p.2 - (e1 - y * buff - buff)) / H := ⟨_, rfl⟩
  obtain ⟨d, hd⟩ : ∃ d, d = (p.1 - (e0 + x)) / h := ⟨_, rfl⟩
  have hvH : v * H = p.2 - (e1 - y * buff - buff) := by rw [hv]; field_simp
  have hdh : d * h = p.1 - (e0 + x) := by rw [hd]; field_simp
  have hv0 : 0 ≤ v := by rw [hv]; exact div_nonneg (by linarith) Hpos.le
  -- the key inequality: x / h ≤ 1 - v at the top edge
  have key : x * H ≤ h * (2 * (y * buff) + buff) := by
    have h1 : 0 ≤ x * (y * ((2 * buff + 1) * (buff - 1))) :=
      mul_nonneg hx0 (mul_nonneg hy0 (mul_nonneg (by linarith) (by linarith)))
    have h2 : 0 ≤ x * (buff * (buff - 1)) := mul_nonneg hx0 (mul_nonneg hb0.le (by linarith))
    have h3 : 0 ≤ buff * (2 * (y * buff) + buff) := mul_nonneg hb0.le (by linarith)
    rw [hh, hH]
    nlinarith
  have hv1 : (2 * (y * buff) + buff) ≤ (1 - v) * H := by
    have : (1 - v) * H = H - v * H := by ring
    rw [this, hvH, hH]
    linarith
  have hxv : x ≤ (1 - v) * h := by
    have h1 : x * H ≤ (1 - v) * h * H := by
      calc x * H ≤ h * (2 * (y * buff) + buff) := key
        _ ≤ h * ((1 - v) * H) := mul_le_mul_of_nonneg_left hv1 hpos.le
        _ = (1 - v) * h * H := by ring
    exact le_of_mul_le_mul_right h1 Hpos
  have hd1 : d ≤ 1 - v := by
    have : d * h ≤ (1 - v) * h := by rw [hdh]; linarith
    exact le_of_mul_le_mul_right this hpos
  have hd2 : -(1 - v) ≤ d := by
    have : -(1 - v) * h ≤ d * h := by
      rw [hdh]
      have : -(1 - v) * h = -((1 - v) * h) := by ring
      rw [this]; linarith
    exact le_of_mul_le_mul_right this hpos
  refine ⟨((1 - v) - d) / 2, v, ((1 - v) + d) / 2, by linarith, hv0, by linarith, by ring, ?_⟩
  apply Prod.ext
  · simp only []
    rw [e2']
    have : p.1 = e0 + x + d * h := by rw [hdh]; ring
    rw [this, hh]
    ring
  · simp only []
    have : p.2 = (e1 - y * buff - buff) + v * H := by rw [hvH]; ring
    rw [this, hH, e3']
    ring

theorem lineContainsPoint_iff (a b p : Pt K) :
    lineContainsPoint (a, b) p = true ↔ InBox p a b := by
  unfold lineContainsPoint InBox
  simp only [decide_eq_true_eq]
  have hmin : ∀ x y : K, (if x > y then y else x) = min x y := by
    intro x y
    by_cases h : x > y
    · rw [if_pos h, min_eq_right h.le]
    · rw [if_neg h, min_eq_left (not_lt.mp h)]
  have hmax : ∀ x y : K, (if x > y then x else y) = max x y := by
    intro x y
    by_cases h : x > y
    · rw [if_pos h, max_eq_left h.le]
    · rw [if_neg h, max_eq_right (not_lt.mp h)]
  rw [hmin, hmin, hmax, hmax]

theorem inBox_of_onSegment {p a b : Pt K} (h : OnSegment p a b) : InBox p a b := by
  obtain ⟨t, t0, t1, rfl⟩ := h
  rw [← lineContainsPoint_iff]
  unfold lineContainsPoint
  simp only [decide_eq_true_eq]
  have h1 := Planar.between_of_seg' (x := a.1) (y := b.1) t0 t1
  have h2 := Planar.between_of_seg' (x := a.2) (y := b.2) t0 t1
  exact ⟨h1.1, h1.2, h2.1, h2.2⟩

/-- Points of the box of a horizontal or vertical line are on it. -/
theorem onSegment_of_axis {a b p : Pt K} (hv : a.1 = b.1 ∨ a.2 = b.2)
    (h : lineContainsPoint (a, b) p = true) : OnSegment p a b := by
  rw [← Planar.isPointOnLineSegment_iff]
  rw [lineContainsPoint] at h
  simp only [decide_eq_true_eq] at h
  obtain ⟨h1, h2, h3, h4⟩ := h
  unfold Planar.isPointOnLineSegment
  simp only []
  rw [if_neg (by simp only [not_or, gt_iff_lt, not_lt]; exact ⟨h1, h2, h3, h4⟩)]
  unfold Planar.isPointOnLine Planar.slope
  simp only []
  rcases hv with hv | hv
  · rw [hv] at h1 h2
    simp only [gt_iff_lt, lt_irrefl, if_false] at h1 h2
    simp [hv, le_antisymm h2 h1]
  · rw [hv] at h3 h4
    simp only [gt_iff_lt, lt_irrefl, if_false] at h3 h4
    by_cases hx : b.1 - a.1 = 0
    · rw [← sub_eq_zero.mp hx] at h1 h2
      simp only [gt_iff_lt, lt_irrefl, if_false] at h1 h2
      simp [le_antisymm h2 h1, (sub_eq_zero.mp hx)]
    · simp [hv, hx, le_antisymm h4 h3]

end Field

/-! ### AsSegments -/

theorem segmentAt_spec {P : Type} (pts : List P) (i : Nat) (hi : i < pts.length) :
    segmentAt pts pts.length i =
      some (pts[(i + (pts.length - 1)) % pts.length]'(Nat.mod_lt _ (by omega)), pts[i]) := by
  unfold segmentAt
  simp only []
  cases i with
  | zero =>
    have h1 : ((if ((0 : Nat) : Int) - 1 < 0 then ((pts.length : Nat) : Int) - 1
        else ((0 : Nat) : Int) - 1)) = ((pts.length - 1 : Nat) : Int) := by
      rw [if_pos (by decide)]; omega
    rw [h1, if_neg (by omega)]
    have h2 : ((pts.length - 1 : Nat) : Int).toNat = pts.length - 1 := rfl
    rw [h2, List.getElem?_eq_getElem (by omega), List.getElem?_eq_getElem hi]
    have h3 : (0 + (pts.length - 1)) % pts.length = pts.length - 1 := by
      rw [Nat.zero_add, Nat.mod_eq_of_lt (by omega)]
    simp only [h3]
  | succ j =>
    have h1 : ((if ((j + 1 : Nat) : Int) - 1 < 0 then ((pts.length : Nat) : Int) - 1
        else ((j + 1 : Nat) : Int) - 1)) = ((j : Nat) : Int) := by
      rw [if_neg (by omega)]; omega
    rw [h1, if_neg (by omega)]
    have h2 : ((j : Nat) : Int).toNat = j := rfl
    rw [h2, List.getElem?_eq_getElem (by omega), List.getElem?_eq_getElem hi]
    have h3 : (j + 1 + (pts.length - 1)) % pts.length = j := by
      rw [show j + 1 + (pts.length - 1) = j + pts.length by omega, Nat.add_mod_right,
        Nat.mod_eq_of_lt (by omega)]
    simp only [h3]

theorem segmentsFrom_spec {P : Type} (pts : List P) : ∀ (n i : Nat), i + n = pts.length →
    ∃ segs, segmentsFrom pts pts.length n i = some segs ∧ segs.length = n ∧
      ∀ m (h : m < segs.length), some segs[m] = segmentAt pts pts.length (i + m) := by
  intro n
  induction n with
  | zero => intro i _; exact ⟨[], rfl, rfl, fun m h => by simp at h⟩
  | succ n ih =>
    intro i hi
    obtain ⟨segs, e, hl, h⟩ := ih (i + 1) (by omega)
    unfold segmentsFrom
    rw [segmentAt_spec pts i (by omega)]
    simp only [e]
    refine ⟨_, rfl, by simp [hl], ?_⟩
    intro m hm
    cases m with
    | zero => simp only [List.getElem_cons_zero]; rw [Nat.add_zero, segmentAt_spec pts i (by omega)]
    | succ m =>
      simp only [List.getElem_cons_succ]
      rw [h m (by simpa using hm)]
      congr 1; omega

end Verif.Shapes
