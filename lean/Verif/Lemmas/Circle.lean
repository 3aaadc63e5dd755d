import Verif.Lemmas.SubCover
import Mathlib.Tactic.FieldSimp

/-!
# Helper lemmas: points and circles
-/

namespace Verif.Lemmas.Circle
open Verif.Spec.Subdivision Verif.Spec.Resolve Verif.Lemmas.SubCover Verif.Spec.Planar Verif.Lemmas.SubMesh

set_option linter.unusedSectionVars false

variable {K : Type} [Field K] [LinearOrder K] [IsStrictOrderedRing K]

/-- Positive if `p` is inside the circle of the counterclockwise triangle `a b c`. -/
def inc (yd : Bool) (a b c p : Pt K) : K :=
  dist2 a p * area yd b c p + dist2 b p * area yd c a p + dist2 c p * area yd a b p

theorem inc_cycle (yd : Bool) (a b c p : Pt K) : inc yd b c a p = inc yd a b c p := by
  unfold inc; ring

theorem inc_rev (yd : Bool) (a b c p : Pt K) : inc yd b a c p = - inc yd a b c p := by
  unfold inc
  rw [area_rev yd a b p, area_rev yd c a p, area_rev yd b c p]; ring

/-- Exchanging the last two points. -/
theorem inc_anti (yd : Bool) (a b c p : Pt K) : inc yd a b p c = - inc yd a b c p := by
  unfold inc area wedge arrow dist2; cases yd <;> simp <;> ring

/-- Exchanging the pairs. -/
theorem inc_pairs (yd : Bool) (a b c p : Pt K) : inc yd c p a b = inc yd a b c p := by
  unfold inc area wedge arrow dist2; cases yd <;> simp <;> ring

theorem area_self (yd : Bool) (a b : Pt K) : area yd a b a = 0 ∧ area yd a b b = 0 := by
  unfold area wedge arrow; cases yd <;> simp <;> ring

theorem inc_corner (yd : Bool) (a b c : Pt K) :
    inc yd a b c a = 0 ∧ inc yd a b c b = 0 ∧ inc yd a b c c = 0 := by
  unfold inc area wedge arrow dist2
  cases yd <;> simp only [Bool.false_eq_true, if_true, if_false] <;> refine ⟨?_, ?_, ?_⟩ <;> ring

theorem plucker (yd : Bool) (u v a b c : Pt K) :
    inc yd u v a b * area yd u v c + inc yd u v b c * area yd u v a + inc yd u v c a * area yd u v b = 0 := by
  unfold inc area wedge arrow dist2; cases yd <;> simp <;> ring

/-- About one point. -/
theorem inc_about (yd : Bool) (o a b c : Pt K) :
    inc yd a b c o = dist2 a o * area yd o b c + dist2 b o * area yd o c a + dist2 c o * area yd o a b := by
  unfold inc area wedge arrow dist2; cases yd <;> simp <;> ring

theorem inc_centre (yd : Bool) (a b c p m : Pt K) :
    inc yd a b c p = dist2 m a * area yd b c p + dist2 m b * area yd c a p + dist2 m c * area yd a b p
      - dist2 m p * area yd a b c := by
  unfold inc area wedge arrow dist2; cases yd <;> simp <;> ring

theorem inc_of_centre {yd : Bool} {a b c p m : Pt K} (h1 : dist2 m a = dist2 m b) (h2 : dist2 m a = dist2 m c) :
    inc yd a b c p = (dist2 m a - dist2 m p) * area yd a b c := by
  rw [inc_centre yd a b c p m, ← h1, ← h2, area_sum yd a b c p]; ring

theorem exists_centre {yd : Bool} {a b c : Pt K} (h : Turns yd a b c) :
    ∃ m, dist2 m a = dist2 m b ∧ dist2 m a = dist2 m c := by
  have h0 : (b.1 - a.1) * (c.2 - a.2) - (c.1 - a.1) * (b.2 - a.2) ≠ 0 := by
    intro h0
    unfold Turns at h
    have : wedge yd (arrow a b) (arrow a c) = 0 := by
      unfold wedge arrow
      cases yd <;> simp <;> first | linear_combination h0 | linear_combination -h0
    exact h.ne' this
  generalize hD : (b.1 - a.1) * (c.2 - a.2) - (c.1 - a.1) * (b.2 - a.2) = D at h0
  refine ⟨(a.1 + ((c.2 - a.2) * dist2 a b - (b.2 - a.2) * dist2 a c) / (2 * D),
    a.2 + ((b.1 - a.1) * dist2 a c - (c.1 - a.1) * dist2 a b) / (2 * D)), ?_, ?_⟩
  · unfold dist2
    simp only
    field_simp
    rw [← hD]; ring
  · unfold dist2
    simp only
    field_simp
    rw [← hD]; ring

/-- `p` is inside a circle through `a`, `b`, `c`. -/
theorem inside_inc {yd : Bool} {a b c p : Pt K} (h : Turns yd a b c) :
    InsideCircle a b c p ↔ 0 < inc yd a b c p := by
  constructor
  · rintro ⟨m, h1, h2, h3⟩
    rw [inc_of_centre h1 h2]
    exact mul_pos (by linarith) h
  · intro hp
    obtain ⟨m, h1, h2⟩ := exists_centre h
    rw [inc_of_centre h1 h2] at hp
    refine ⟨m, h1, h2, ?_⟩
    have h' : 0 < area yd a b c := h
    have := (mul_pos_iff_of_pos_right h').1 hp
    linarith

/-- The power of a point. -/
def pw (yd : Bool) (a b c p : Pt K) : K := - inc yd a b c p / area yd a b c

theorem pw_cycle (yd : Bool) (a b c p : Pt K) : pw yd b c a p = pw yd a b c p := by
  unfold pw
  rw [inc_cycle, show area yd b c a = area yd a b c from Verif.Lemmas.SubLocate.wedge_cycle yd a b c]

/-- Crossing the side from `o` to `d` towards `p` does not make the power greater, and leaves it as it is just
if the four corners are on a circle. -/
theorem pw_cross {yd : Bool} {o d t td p : Pt K} (h1 : Turns yd o d t) (h2 : Turns yd d o td)
    (hl : inc yd d o td t ≤ 0) (hp : area yd o d p < 0) :
    pw yd d o td p ≤ pw yd o d t p ∧ (pw yd d o td p = pw yd o d t p → inc yd o d td t = 0) := by
  have k := plucker yd o d td t p
  have e1 : inc yd d o td t = - inc yd o d td t := inc_rev _ _ _ _ _
  have e2 : inc yd d o td p = - inc yd o d td p := inc_rev _ _ _ _ _
  have e3 : area yd d o td = - area yd o d td := area_rev _ _ _ _
  have e4 : inc yd o d p td = - inc yd o d td p := inc_anti _ _ _ _ _
  have w1 : 0 < area yd o d t := h1
  have w2 : area yd o d td < 0 := by
    have : 0 < area yd d o td := h2
    linarith
  unfold pw
  rw [e2, e3]
  rw [e1] at hl
  rw [e4] at k
  generalize inc yd o d td t = I1 at *
  generalize inc yd o d td p = I2 at *
  generalize inc yd o d t p = I3 at *
  generalize area yd o d t = T at *
  generalize area yd o d td = D at *
  generalize area yd o d p = P at *
  have hd : - -I2 / -D - -I3 / T = I1 * (-P) / (T * D) := by
    have hT : T ≠ 0 := w1.ne'
    have hD : D ≠ 0 := w2.ne
    field_simp
    linear_combination k
  have hden : T * D < 0 := mul_neg_of_pos_of_neg w1 w2
  have hnum : 0 ≤ I1 * (-P) := mul_nonneg (by linarith) (by linarith)
  constructor
  · have := div_nonpos_of_nonneg_of_nonpos hnum hden.le
    linarith
  · intro h
    have h0 : I1 * (-P) / (T * D) = 0 := by linarith
    rw [div_eq_zero_iff] at h0
    rcases h0 with h0 | h0
    · rcases mul_eq_zero.1 h0 with h0 | h0
      · exact h0
      · linarith
    · exact absurd h0 hden.ne

/-- If four corners are on a circle, the circles of the two triangles are the same. -/
theorem same_circle {yd : Bool} {o d t td v : Pt K} (h : inc yd o d td t = 0)
    (hv : inc yd o d td v = 0) (h2 : area yd o d td ≠ 0) : inc yd o d t v = 0 := by
  have k := plucker yd o d td t v
  have e4 : inc yd o d v td = - inc yd o d td v := inc_anti _ _ _ _ _
  rw [h, e4, hv] at k
  have : inc yd o d t v * area yd o d td = 0 := by linear_combination k
  exact (mul_eq_zero.1 this).resolve_right h2

theorem dist2_pos {a b : Pt K} (h : a ≠ b) : 0 < dist2 a b := by
  unfold dist2
  rcases lt_or_eq_of_le (add_nonneg (mul_self_nonneg (b.1 - a.1)) (mul_self_nonneg (b.2 - a.2))) with h' | h'
  · nlinarith
  · exfalso; apply h
    have h1 : b.1 - a.1 = 0 := by nlinarith [mul_self_nonneg (b.1 - a.1), mul_self_nonneg (b.2 - a.2)]
    have h2 : b.2 - a.2 = 0 := by nlinarith [mul_self_nonneg (b.1 - a.1), mul_self_nonneg (b.2 - a.2)]
    ext
    · linarith
    · linarith

theorem dist2_nonneg (a b : Pt K) : 0 ≤ dist2 a b := by
  unfold dist2; positivity

/-- Points of a circle to the right of a chord that is itself to the right of another one. -/
theorem right_first {yd : Bool} {o d td v : Pt K} (hc : inc yd o d td v = 0)
    (h1 : area yd o d td < 0) (h2 : area yd o td v < 0) : area yd o d v < 0 := by
  have hod : d ≠ o := by rintro rfl; simp [area, wedge, arrow] at h1
  have htd : td ≠ o := by rintro rfl; simp [area, wedge, arrow] at h2
  have e : inc yd d td v o = inc yd o d td v * (-1) := by
    unfold inc area wedge arrow dist2; cases yd <;> simp <;> ring
  rw [inc_about, hc] at e
  have n1 := dist2_pos hod
  have n2 := dist2_pos htd
  have n3 := dist2_nonneg v o
  have e2 : area yd o v d = - area yd o d v := by unfold area wedge arrow; cases yd <;> simp <;> ring
  rw [e2] at e
  by_contra h
  rw [not_lt] at h
  have := mul_neg_of_pos_of_neg n1 h2
  have := mul_nonneg n2.le h
  have := mul_nonpos_of_nonneg_of_nonpos n3 h1.le
  linarith

theorem right_second {yd : Bool} {o d td v : Pt K} (hc : inc yd o d td v = 0)
    (h1 : area yd o d td < 0) (h2 : area yd td d v < 0) : area yd o d v < 0 := by
  have hod : o ≠ d := by rintro rfl; simp [area, wedge, arrow] at h1
  have htd : td ≠ d := by rintro rfl; simp [area, wedge, arrow] at h2
  have e : inc yd o td v d = inc yd o d td v := by
    unfold inc area wedge arrow dist2; cases yd <;> simp <;> ring
  rw [inc_about, hc] at e
  have n1 := dist2_pos hod
  have n2 := dist2_pos htd
  have n3 := dist2_nonneg v d
  have e2 : area yd d v o = area yd o d v := by unfold area wedge arrow; cases yd <;> simp <;> ring
  have e3 : area yd d td v = - area yd td d v := by unfold area wedge arrow; cases yd <;> simp <;> ring
  have e4 : area yd d o td = - area yd o d td := by unfold area wedge arrow; cases yd <;> simp <;> ring
  rw [e2, e3, e4] at e
  by_contra h
  rw [not_lt] at h
  have := mul_neg_of_pos_of_neg n1 h2
  have := mul_nonneg n2.le h
  have := mul_nonpos_of_nonneg_of_nonpos n3 h1.le
  linarith

end Verif.Lemmas.Circle
