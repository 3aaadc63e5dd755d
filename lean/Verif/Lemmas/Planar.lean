import Mathlib.Tactic.FieldSimp
import Mathlib.Tactic.LinearCombination
import Mathlib.Tactic.Ring
import Mathlib.Tactic.Linarith
import Mathlib.Tactic.NormNum
import Verif.Model.Planar
import Verif.Spec.Planar

set_option linter.unusedSectionVars false

namespace Verif.Planar
open Verif.Spec.Planar

section Field
variable {K : Type} [Field K] [LinearOrder K] [IsStrictOrderedRing K]

/-- The two parameters of the meeting point of two lines. -/
theorem meet_params {a b c d p : Pt K} {s w : K}
    (hs : p = (a.1 + s * (b.1 - a.1), a.2 + s * (b.2 - a.2)))
    (hw : p = (c.1 + w * (d.1 - c.1), c.2 + w * (d.2 - c.2))) :
    s * ((a.1 - b.1) * (c.2 - d.2) - (a.2 - b.2) * (c.1 - d.1))
      = (a.1 - c.1) * (c.2 - d.2) - (a.2 - c.2) * (c.1 - d.1) ∧
    w * ((a.1 - b.1) * (c.2 - d.2) - (a.2 - b.2) * (c.1 - d.1))
      = -((a.1 - b.1) * (a.2 - c.2) - (a.2 - b.2) * (a.1 - c.1)) := by
  have h1 : a.1 + s * (b.1 - a.1) = c.1 + w * (d.1 - c.1) := by
    have := hs.symm.trans hw; exact congrArg Prod.fst this
  have h2 : a.2 + s * (b.2 - a.2) = c.2 + w * (d.2 - c.2) := by
    have := hs.symm.trans hw; exact congrArg Prod.snd this
  constructor
  · linear_combination (d.2 - c.2) * h1 - (d.1 - c.1) * h2
  · linear_combination (b.2 - a.2) * h1 - (b.1 - a.1) * h2

/-- The code's meeting point is the point of the first line with the code's
parameter. -/
theorem meet_first {a b c d : Pt K}
    (hD : (a.1 - b.1) * (c.2 - d.2) - (a.2 - b.2) * (c.1 - d.1) ≠ 0) :
    (((a.1 * b.2 - a.2 * b.1) * (c.1 - d.1) - (a.1 - b.1) * (c.1 * d.2 - c.2 * d.1)) /
        ((a.1 - b.1) * (c.2 - d.2) - (a.2 - b.2) * (c.1 - d.1)),
      ((a.1 * b.2 - a.2 * b.1) * (c.2 - d.2) - (a.2 - b.2) * (c.1 * d.2 - c.2 * d.1)) /
        ((a.1 - b.1) * (c.2 - d.2) - (a.2 - b.2) * (c.1 - d.1)))
    = (a.1 + ((a.1 - c.1) * (c.2 - d.2) - (a.2 - c.2) * (c.1 - d.1)) /
        ((a.1 - b.1) * (c.2 - d.2) - (a.2 - b.2) * (c.1 - d.1)) * (b.1 - a.1),
       a.2 + ((a.1 - c.1) * (c.2 - d.2) - (a.2 - c.2) * (c.1 - d.1)) /
        ((a.1 - b.1) * (c.2 - d.2) - (a.2 - b.2) * (c.1 - d.1)) * (b.2 - a.2)) := by
  generalize hE : (a.1 - b.1) * (c.2 - d.2) - (a.2 - b.2) * (c.1 - d.1) = D at hD ⊢
  apply Prod.ext <;> simp only [] <;> field_simp <;> rw [← hE] <;> ring

/-- The same point on the second line. -/
theorem meet_second {a b c d : Pt K}
    (hD : (a.1 - b.1) * (c.2 - d.2) - (a.2 - b.2) * (c.1 - d.1) ≠ 0) :
    (((a.1 * b.2 - a.2 * b.1) * (c.1 - d.1) - (a.1 - b.1) * (c.1 * d.2 - c.2 * d.1)) /
        ((a.1 - b.1) * (c.2 - d.2) - (a.2 - b.2) * (c.1 - d.1)),
      ((a.1 * b.2 - a.2 * b.1) * (c.2 - d.2) - (a.2 - b.2) * (c.1 * d.2 - c.2 * d.1)) /
        ((a.1 - b.1) * (c.2 - d.2) - (a.2 - b.2) * (c.1 - d.1)))
    = (c.1 + -((a.1 - b.1) * (a.2 - c.2) - (a.2 - b.2) * (a.1 - c.1)) /
        ((a.1 - b.1) * (c.2 - d.2) - (a.2 - b.2) * (c.1 - d.1)) * (d.1 - c.1),
       c.2 + -((a.1 - b.1) * (a.2 - c.2) - (a.2 - b.2) * (a.1 - c.1)) /
        ((a.1 - b.1) * (c.2 - d.2) - (a.2 - b.2) * (c.1 - d.1)) * (d.2 - c.2)) := by
  generalize hE : (a.1 - b.1) * (c.2 - d.2) - (a.2 - b.2) * (c.1 - d.1) = D at hD ⊢
  apply Prod.ext <;> simp only [] <;> field_simp <;> rw [← hE] <;> ring

theorem parallel_iff {a b c d : Pt K} :
    Parallel a b c d ↔ (a.1 - b.1) * (c.2 - d.2) - (a.2 - b.2) * (c.1 - d.1) = 0 := by
  unfold Parallel
  constructor
  · intro h; linear_combination h
  · intro h; linear_combination h

theorem lineIntersect_iff (a b c d p : Pt K) :
    lineIntersect (a, b) (c, d) = (p, true) ↔
      ¬ Parallel a b c d ∧ OnLine p a b ∧ OnLine p c d := by
  rw [parallel_iff]
  unfold lineIntersect
  simp only []
  by_cases hD : (a.1 - b.1) * (c.2 - d.2) - (a.2 - b.2) * (c.1 - d.1) = 0
  · rw [if_pos hD]
    simp [hD]
  · rw [if_neg hD]
    constructor
    · intro h
      have h1 := congrArg Prod.fst h
      simp only [] at h1
      refine ⟨hD, ⟨_, h1.symm.trans (meet_first hD)⟩, ⟨_, h1.symm.trans (meet_second hD)⟩⟩
    · rintro ⟨_, ⟨s, hs⟩, ⟨w, hw⟩⟩
      obtain ⟨h1, _⟩ := meet_params hs hw
      rw [meet_first hD]
      rw [← eq_div_iff hD] at h1
      rw [← h1, ← hs]

theorem segmentIntersect_iff (a b c d p : Pt K) :
    segmentIntersect (a, b) (c, d) = (p, true) ↔
      ¬ Parallel a b c d ∧ OnSegment p a b ∧ OnSegment p c d := by
  rw [parallel_iff]
  unfold segmentIntersect
  simp only []
  by_cases hD : (a.1 - b.1) * (c.2 - d.2) - (a.2 - b.2) * (c.1 - d.1) = 0
  · rw [if_pos hD]
    simp [hD]
  · rw [if_neg hD]
    constructor
    · intro h
      have h1 := congrArg Prod.fst h
      have h2 := congrArg Prod.snd h
      simp only [decide_eq_true_eq] at h1 h2
      obtain ⟨u0, u1, t0, t1⟩ := h2
      exact ⟨hD, ⟨_, t0, t1, h1.symm.trans (meet_first hD)⟩,
        ⟨_, u0, u1, h1.symm.trans (meet_second hD)⟩⟩
    · rintro ⟨_, ⟨s, s0, s1, hs⟩, ⟨w, w0, w1, hw⟩⟩
      obtain ⟨h1, h2⟩ := meet_params hs hw
      rw [meet_first hD]
      rw [← eq_div_iff hD] at h1 h2
      rw [← h1, ← h2, ← hs]
      simp [s0, s1, w0, w1]

theorem onSegment_symm {p a b : Pt K} (h : OnSegment p a b) : OnSegment p b a := by
  obtain ⟨t, t0, t1, rfl⟩ := h
  exact ⟨1 - t, by linarith, by linarith, by apply Prod.ext <;> simp only [] <;> ring⟩

/-- A point of a segment is in its box. -/
theorem between_of_seg {x y t : K} (t0 : 0 ≤ t) (t1 : t ≤ 1) (h : x ≤ y) :
    x ≤ x + t * (y - x) ∧ x + t * (y - x) ≤ y := by
  have h1 : 0 ≤ t * (y - x) := mul_nonneg t0 (by linarith)
  have h2 : 0 ≤ (1 - t) * (y - x) := mul_nonneg (by linarith) (by linarith)
  constructor
  · linarith
  · nlinarith

theorem between_of_seg' {x y t : K} (t0 : 0 ≤ t) (t1 : t ≤ 1) :
    (if x > y then y else x) ≤ x + t * (y - x) ∧
      x + t * (y - x) ≤ (if x > y then x else y) := by
  by_cases h : x > y
  · rw [if_pos h, if_pos h]
    have := between_of_seg (x := y) (y := x) (t := 1 - t) (by linarith) (by linarith) h.le
    constructor <;> nlinarith [this.1, this.2]
  · rw [if_neg h, if_neg h]
    exact between_of_seg t0 t1 (not_lt.mp h)

/-- A number in the box of `x`, `y` is `x + t (y - x)` for `t` in `[0, 1]`. -/
theorem seg_of_between {x y z : K} (hne : y - x ≠ 0)
    (h1 : (if x > y then y else x) ≤ z) (h2 : z ≤ (if x > y then x else y)) :
    0 ≤ (z - x) / (y - x) ∧ (z - x) / (y - x) ≤ 1 := by
  by_cases h : x > y
  · rw [if_pos h] at h1 h2
    have hneg : y - x < 0 := by linarith
    constructor
    · exact div_nonneg_of_nonpos (by linarith) hneg.le
    · rw [div_le_one_of_neg hneg]; linarith
  · rw [if_neg h] at h1 h2
    have hpos : 0 < y - x := lt_of_le_of_ne (by linarith [not_lt.mp h]) (Ne.symm hne)
    constructor
    · exact div_nonneg (by linarith) hpos.le
    · rw [div_le_one hpos]; linarith

theorem isPointOnLine_iff (p a b : Pt K) (hab : a ≠ b) :
    isPointOnLine (fun x y => decide (x = y)) p a b = true ↔ OnLine p a b := by
  unfold isPointOnLine slope
  simp only []
  by_cases hx : b.1 - a.1 = 0
  · have hy : b.2 - a.2 ≠ 0 := by
      intro h
      exact hab (Prod.ext (by linarith) (by linarith))
    simp only [hx, true_or, if_true, ne_eq, not_true_eq_false, decide_false, decide_eq_true_eq]
    constructor
    · intro h
      exact ⟨(p.2 - a.2) / (b.2 - a.2), by
        apply Prod.ext
        · simp [hx, h]
        · simp only []; field_simp; ring⟩
    · rintro ⟨t, rfl⟩
      simp [hx]
  · by_cases hy : b.2 - a.2 = 0
    · simp only [hy, or_true, if_true, ne_eq, hx, not_false_eq_true, decide_true,
        Bool.true_eq_false, if_false, decide_eq_true_eq]
      constructor
      · intro h
        exact ⟨(p.1 - a.1) / (b.1 - a.1), by
          apply Prod.ext
          · simp only []; field_simp; ring
          · simp [hy, h]⟩
      · rintro ⟨t, rfl⟩
        simp [hy]
    · have hm : (b.2 - a.2) / (b.1 - a.1) ≠ 0 := div_ne_zero hy hx
      simp only [hx, hy, or_self, if_false, Bool.true_eq_false, hm, decide_eq_true_eq]
      constructor
      · intro h
        exact ⟨(p.1 - a.1) / (b.1 - a.1), by
          apply Prod.ext
          · simp only []; field_simp; ring
          · simp only []; rw [h]; field_simp; ring⟩
      · rintro ⟨t, rfl⟩
        simp only []
        field_simp
        ring

theorem isPointOnLineSegment_iff (p a b : Pt K) :
    isPointOnLineSegment (fun x y => decide (x = y)) p (a, b) = true ↔ OnSegment p a b := by
  unfold isPointOnLineSegment
  simp only []
  by_cases hbox : (if a.1 > b.1 then b.1 else a.1) > p.1 ∨ (if a.1 > b.1 then a.1 else b.1) < p.1 ∨
      (if a.2 > b.2 then b.2 else a.2) > p.2 ∨ (if a.2 > b.2 then a.2 else b.2) < p.2
  · rw [if_pos hbox]
    simp only [Bool.false_eq_true, false_iff]
    rintro ⟨t, t0, t1, rfl⟩
    have h1 := between_of_seg' (x := a.1) (y := b.1) t0 t1
    have h2 := between_of_seg' (x := a.2) (y := b.2) t0 t1
    rcases hbox with h | h | h | h
    · exact absurd h1.1 (not_le.mpr h)
    · exact absurd h1.2 (not_le.mpr h)
    · exact absurd h2.1 (not_le.mpr h)
    · exact absurd h2.2 (not_le.mpr h)
  · rw [if_neg hbox]
    simp only [not_or, gt_iff_lt, not_lt] at hbox
    obtain ⟨b1, b2, b3, b4⟩ := hbox
    by_cases hab : a = b
    · subst hab
      simp only [lt_irrefl, if_false] at b1 b2 b3 b4
      have hp : p = a := Prod.ext (le_antisymm b2 b1) (le_antisymm b4 b3)
      subst hp
      constructor
      · intro _; exact ⟨0, le_refl _, zero_le_one, by simp⟩
      · intro _; simp [isPointOnLine, slope]
    · rw [isPointOnLine_iff p a b hab]
      constructor
      · rintro ⟨t, rfl⟩
        simp only [] at b1 b2 b3 b4
        by_cases hx : b.1 - a.1 = 0
        · have hy : b.2 - a.2 ≠ 0 := by
            intro h
            exact hab (Prod.ext (by linarith) (by linarith))
          obtain ⟨u0, u1⟩ := seg_of_between hy b3 b4
          have : (a.2 + t * (b.2 - a.2) - a.2) / (b.2 - a.2) = t := by field_simp; ring
          rw [this] at u0 u1
          exact ⟨t, u0, u1, rfl⟩
        · obtain ⟨u0, u1⟩ := seg_of_between hx b1 b2
          have : (a.1 + t * (b.1 - a.1) - a.1) / (b.1 - a.1) = t := by field_simp; ring
          rw [this] at u0 u1
          exact ⟨t, u0, u1, rfl⟩
      · rintro ⟨t, _, _, h⟩
        exact ⟨t, h⟩

/-! ### Centroid -/

/-- The last term of the area sum. -/
def lastTerm : List (Pt K) → K
  | [p, q] => p.1 * q.2 - q.1 * p.2
  | _ :: q :: ps => lastTerm (q :: ps)
  | _ => 0

theorem centriodLoop_spec : ∀ (ps : List (Pt K)) (s : K × K × K × K), 2 ≤ ps.length →
    centriodLoop s ps = (s.1 + area2 ps, lastTerm ps, s.2.2.1 + (moment6 ps).1,
      s.2.2.2 + (moment6 ps).2)
  | [], _, h => by simp at h
  | [_], _, h => by simp at h
  | [p, q], s, _ => by simp [centriodLoop, centriodStep, area2, moment6, lastTerm]
  | p :: q :: r :: ps, s, _ => by
    rw [centriodLoop, centriodLoop_spec (q :: r :: ps) _ (by simp)]
    have h1 : area2 (p :: q :: r :: ps) = (p.1 * q.2 - q.1 * p.2) + area2 (q :: r :: ps) := rfl
    have h2 : (moment6 (p :: q :: r :: ps)).1
      = (p.1 + q.1) * (p.1 * q.2 - q.1 * p.2) + (moment6 (q :: r :: ps)).1 := rfl
    have h3 : (moment6 (p :: q :: r :: ps)).2
      = (p.2 + q.2) * (p.1 * q.2 - q.1 * p.2) + (moment6 (q :: r :: ps)).2 := rfl
    have h4 : lastTerm (p :: q :: r :: ps) = lastTerm (q :: r :: ps) := rfl
    rw [h1, h2, h3, h4]
    simp only [centriodStep, add_assoc]

theorem pointsCentriod_eq (ps : List (Pt K)) (h : 2 ≤ ps.length) :
    pointsCentriod ps = ((moment6 ps).1 / (3 * lastTerm ps), (moment6 ps).2 / (3 * lastTerm ps)) := by
  match ps, h with
  | p :: q :: r, h =>
    unfold pointsCentriod
    simp only []
    rw [centriodLoop_spec _ _ h]
    simp

end Field

/-! ### Distances -/

theorem pointDistance_eq (p q : Pt ℝ) : pointDistance p q = eucl p q := by
  unfold pointDistance pointDistance2 eucl
  congr 1
  ring

theorem dist_le {p q r : Pt ℝ} (h : (p.1 - q.1) ^ 2 + (p.2 - q.2) ^ 2 ≤ (p.1 - r.1) ^ 2 + (p.2 - r.2) ^ 2) :
    eucl p q ≤ eucl p r := Real.sqrt_le_sqrt h

theorem sq_clamp {t s : ℝ} (s0 : 0 ≤ s) (s1 : s ≤ 1) :
    (max 0 (min 1 t) - t) ^ 2 ≤ (s - t) ^ 2 := by
  rcases le_total t 0 with h | h
  · rw [max_eq_left (by rw [min_eq_right (by linarith)]; exact h)]
    nlinarith
  · rcases le_total t 1 with h1 | h1
    · rw [min_eq_right h1, max_eq_right h]; nlinarith [sq_nonneg (s - t)]
    · rw [min_eq_left h1, max_eq_right zero_le_one]; nlinarith

theorem distanceToLineSegment_min (p v w : Pt ℝ) :
    IsDistanceTo (distanceToLineSegment p v w) p (fun q => OnSegment q v w) := by
  unfold distanceToLineSegment
  simp only []
  split
  · rename_i h
    unfold pointDistance2 at h
    have hx : v.1 = w.1 := by nlinarith [mul_self_nonneg (v.1 - w.1), mul_self_nonneg (v.2 - w.2)]
    have hy : v.2 = w.2 := by nlinarith [mul_self_nonneg (v.1 - w.1), mul_self_nonneg (v.2 - w.2)]
    refine ⟨⟨v, ⟨0, le_refl _, zero_le_one, by simp⟩, (pointDistance_eq p v).symm⟩, ?_⟩
    rintro q ⟨t, _, _, rfl⟩
    rw [pointDistance_eq]
    apply dist_le
    rw [← hx, ← hy]
    simp
  · rename_i h
    generalize ht : ((p.1 - v.1) * (w.1 - v.1) + (p.2 - v.2) * (w.2 - v.2)) / pointDistance2 v w = t
    have h0 : 0 ≤ max 0 (min 1 t) := le_max_left _ _
    have h1 : max 0 (min 1 t) ≤ 1 := max_le zero_le_one (min_le_left _ _)
    refine ⟨⟨_, ⟨_, h0, h1, rfl⟩, (pointDistance_eq _ _).symm⟩, ?_⟩
    rintro q ⟨s, s0, s1, rfl⟩
    rw [pointDistance_eq]
    apply dist_le
    simp only []
    have hc := sq_clamp (t := t) s0 s1
    generalize max 0 (min 1 t) = c at *
    have ht' : t * pointDistance2 v w = (p.1 - v.1) * (w.1 - v.1) + (p.2 - v.2) * (w.2 - v.2) := by
      rw [← ht]; field_simp
    have hl : 0 ≤ pointDistance2 v w := by
      unfold pointDistance2; nlinarith [mul_self_nonneg (v.1 - w.1), mul_self_nonneg (v.2 - w.2)]
    have key := mul_le_mul_of_nonneg_right hc hl
    have hle : pointDistance2 v w = (w.1 - v.1) ^ 2 + (w.2 - v.2) ^ 2 := by
      unfold pointDistance2; ring
    have e1 : ∀ r : ℝ, (p.1 - (v.1 + r * (w.1 - v.1))) ^ 2 + (p.2 - (v.2 + r * (w.2 - v.2))) ^ 2
        = (p.1 - v.1) ^ 2 + (p.2 - v.2) ^ 2 - t ^ 2 * pointDistance2 v w
          + (r - t) ^ 2 * pointDistance2 v w := by
      intro r
      have : (r - t) ^ 2 * pointDistance2 v w - t ^ 2 * pointDistance2 v w
          = r ^ 2 * pointDistance2 v w - 2 * r * (t * pointDistance2 v w) := by ring
      rw [ht'] at this
      rw [hle] at this ⊢
      linear_combination -this
    rw [e1, e1]
    linarith

/-- Squared distance from `p` to the point with parameter `r` of the line
`a b`. -/
theorem sq_line (p a b : Pt ℝ) (L t r : ℝ) (hL : L = (b.1 - a.1) ^ 2 + (b.2 - a.2) ^ 2)
    (ht : t * L = (p.1 - a.1) * (b.1 - a.1) + (p.2 - a.2) * (b.2 - a.2)) :
    L * ((p.1 - (a.1 + r * (b.1 - a.1))) ^ 2 + (p.2 - (a.2 + r * (b.2 - a.2))) ^ 2)
      = ((b.2 - a.2) * p.1 - (b.1 - a.1) * p.2 + b.1 * a.2 - b.2 * a.1) ^ 2
        + ((r - t) * L) ^ 2 := by
  have : (r - t) * L = r * L - ((p.1 - a.1) * (b.1 - a.1) + (p.2 - a.2) * (b.2 - a.2)) := by
    rw [← ht]; ring
  rw [this, hL]
  ring

theorem perpendicularDistance_min (p a b : Pt ℝ) (hab : a ≠ b) :
    IsDistanceTo (perpendicularDistance (a, b) p) p (fun q => OnLine q a b) := by
  unfold perpendicularDistance
  simp only []
  generalize hL : (b.2 - a.2) * (b.2 - a.2) + (b.1 - a.1) * (b.1 - a.1) = L
  have hLpos : 0 < L := by
    rw [← hL]
    by_contra hcon
    have h1 : b.1 = a.1 := by nlinarith [mul_self_nonneg (b.1 - a.1), mul_self_nonneg (b.2 - a.2)]
    have h2 : b.2 = a.2 := by nlinarith [mul_self_nonneg (b.1 - a.1), mul_self_nonneg (b.2 - a.2)]
    exact hab (Prod.ext h1.symm h2.symm)
  have hL' : L = (b.1 - a.1) ^ 2 + (b.2 - a.2) ^ 2 := by rw [← hL]; ring
  have hs : 0 < √L := Real.sqrt_pos.mpr hLpos
  rw [if_neg hs.ne']
  generalize hN : (b.2 - a.2) * p.1 - (b.1 - a.1) * p.2 + b.1 * a.2 - b.2 * a.1 = N
  set t := ((p.1 - a.1) * (b.1 - a.1) + (p.2 - a.2) * (b.2 - a.2)) / L with htd
  have ht : t * L = (p.1 - a.1) * (b.1 - a.1) + (p.2 - a.2) * (b.2 - a.2) := by
    rw [htd]; field_simp
  have key := fun r => sq_line p a b L t r hL' ht
  rw [hN] at key
  have hval : ∀ r, |N| / √L ≤ eucl p (a.1 + r * (b.1 - a.1), a.2 + r * (b.2 - a.2)) := by
    intro r
    unfold eucl
    rw [← Real.sqrt_sq_eq_abs, ← Real.sqrt_div (sq_nonneg N)]
    apply Real.sqrt_le_sqrt
    simp only []
    rw [div_le_iff₀ hLpos]
    nlinarith [key r, sq_nonneg ((r - t) * L)]
  refine ⟨⟨(a.1 + t * (b.1 - a.1), a.2 + t * (b.2 - a.2)), ⟨t, rfl⟩, ?_⟩, ?_⟩
  · unfold eucl
    rw [← Real.sqrt_sq_eq_abs, ← Real.sqrt_div (sq_nonneg N)]
    congr 1
    simp only []
    rw [eq_div_iff hLpos.ne']
    have := key t
    simp at this
    linarith
  · rintro q ⟨r, rfl⟩
    exact hval r

theorem pointOnLineAt_spec (a b : Pt ℝ) (d : ℝ) (hab : a ≠ b) :
    eucl a (pointOnLineAt (a, b) d) = |d| := by
  unfold pointOnLineAt lengthSquared eucl
  simp only []
  generalize hL : (b.1 - a.1) * (b.1 - a.1) + (b.2 - a.2) * (b.2 - a.2) = L
  have hLpos : 0 < L := by
    rw [← hL]
    by_contra hcon
    have h1 : b.1 = a.1 := by nlinarith [mul_self_nonneg (b.1 - a.1), mul_self_nonneg (b.2 - a.2)]
    have h2 : b.2 = a.2 := by nlinarith [mul_self_nonneg (b.1 - a.1), mul_self_nonneg (b.2 - a.2)]
    exact hab (Prod.ext h1.symm h2.symm)
  have hs : 0 < √L := Real.sqrt_pos.mpr hLpos
  have hsq : √L ^ 2 = L := Real.sq_sqrt hLpos.le
  rw [← Real.sqrt_sq_eq_abs]
  congr 1
  have : (a.1 - (a.1 + d / √L * (b.1 - a.1))) ^ 2 + (a.2 - (a.2 + d / √L * (b.2 - a.2))) ^ 2
      = (d / √L) ^ 2 * L := by rw [← hL]; ring
  rw [this, div_pow, hsq]
  field_simp

end Verif.Planar
