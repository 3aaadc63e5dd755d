import Verif.Lemmas.SubRing
import Verif.Lemmas.Planar
import Verif.Model.Constrained
import Verif.Spec.Constrained
import Mathlib.Tactic.FieldSimp
import Mathlib.Tactic.LinearCombination

/-!
# Helper lemmas: segments that cross
-/

namespace Verif.Lemmas.CrossGeom
open Verif.Quad Verif.Spec.Quad Verif.Lemmas.Quad Verif.Spec.Subdivision Verif.Subdivision
open Verif.Resolve Verif.Spec.Resolve Verif.Lemmas.Resolve Verif.Lemmas.SubCover Verif.Lemmas.SubDelaunay
open Verif.Spec.Constrained Verif.Constrained Verif.Spec.Planar

set_option linter.unusedSectionVars false

variable {K : Type} [Field K] [LinearOrder K] [IsStrictOrderedRing K]
variable {yd : Bool} {s : Store (Pt K)}

theorem area_param (yd : Bool) (a b S T x : Pt K) (t : K) (h : AtParam x S T t) :
    area yd a b x = (1 - t) * area yd a b S + t * area yd a b T := by
  unfold AtParam at h
  subst h
  unfold area wedge arrow; cases yd <;> simp <;> ring

/-- The two ways to see how two segments lie to one another. -/
theorem area_diff (yd : Bool) (S T p q : Pt K) :
    area yd p q S - area yd p q T = area yd S T q - area yd S T p := by
  unfold area wedge arrow; cases yd <;> simp <;> ring

theorem parallel_area (yd : Bool) (S T p q : Pt K) :
    Parallel S T p q ↔ area yd p q S - area yd p q T = 0 := by
  unfold Parallel area wedge arrow
  cases yd <;> simp only [Bool.false_eq_true, if_false, if_true] <;> constructor <;> intro h <;> linarith

theorem area_self0 (yd : Bool) (a b : Pt K) : area yd a b a = 0 ∧ area yd a b b = 0 := by
  constructor <;> unfold area wedge arrow <;> cases yd <;> simp <;> ring

/-- The point in common, if the lines are not parallel. -/
theorem common {S T p q : Pt K} {t u : K} (hD : area yd p q S - area yd p q T ≠ 0)
    (ht : t * (area yd p q S - area yd p q T) = area yd p q S)
    (hu : u * (area yd p q S - area yd p q T) = - area yd S T p) :
    (S.1 + t * (T.1 - S.1), S.2 + t * (T.2 - S.2)) = (p.1 + u * (q.1 - p.1), p.2 + u * (q.2 - p.2)) := by
  have key : ∀ a b c d : K, a * (area yd p q S - area yd p q T) + area yd p q S * (b - a) =
      c * (area yd p q S - area yd p q T) + - area yd S T p * (d - c) → a + t * (b - a) = c + u * (d - c) := by
    intro a b c d h
    have : (a + t * (b - a) - (c + u * (d - c))) * (area yd p q S - area yd p q T) = 0 := by
      linear_combination h + (b - a) * ht - (d - c) * hu
    linarith [(mul_eq_zero.1 this).resolve_right hD]
  refine Prod.ext (key _ _ _ _ ?_) (key _ _ _ _ ?_) <;> unfold area wedge arrow <;> cases yd <;> simp <;> ring

theorem mul_neg_of_weights {x y t : K} (h0 : 0 < t) (h1 : t < 1) (h : (1 - t) * x + t * y = 0) (hn : x - y ≠ 0) :
    x * y < 0 := by
  have h2 : 0 < 1 - t := by linarith
  have hx : x ≠ 0 := by
    rintro rfl
    rw [mul_zero, zero_add] at h
    exact hn (by rw [(mul_eq_zero.1 h).resolve_left h0.ne']; ring)
  have : (1 - t) * (x * x) + t * (x * y) = 0 := by linear_combination x * h
  have h3 : 0 < x * x := mul_self_pos.2 hx
  have h4 : 0 < (1 - t) * (x * x) := mul_pos h2 h3
  by_contra hc
  have := mul_nonneg h0.le (not_lt.1 hc)
  linarith

theorem weight_between {x y t : K} (h : x * y < 0) (ht : t * (x - y) = x) : 0 < t ∧ t < 1 := by
  have hne : x - y ≠ 0 := by
    intro h0
    have : x = y := by linarith
    rw [this] at h
    exact absurd h (not_lt.2 (mul_self_nonneg _))
  have e : t = x / (x - y) := by rw [eq_div_iff hne, ht]
  rcases mul_neg_iff.1 h with ⟨hx, hy⟩ | ⟨hx, hy⟩
  · have : 0 < x - y := by linarith
    rw [e]
    exact ⟨div_pos hx this, by rw [div_lt_one this]; linarith⟩
  · have : x - y < 0 := by linarith
    rw [e]
    exact ⟨div_pos_of_neg_of_neg hx this, by rw [div_lt_one_of_neg this]; linarith⟩

/-- Crossing, by the sides. -/
theorem crossesAt_iff (yd : Bool) {S T p q : Pt K} {y : E} (ho : orig s y = some p) (hd : dest s y = some q) (t : K) :
    CrossesAt s S T y t ↔ area yd S T p * area yd S T q < 0 ∧ area yd p q S * area yd p q T < 0 ∧
      t * (area yd p q S - area yd p q T) = area yd p q S := by
  constructor
  · rintro ⟨p', q', x, u, ho', hd', hP, t0, t1, u0, u1, h1, h2⟩
    obtain rfl := Option.some.inj (ho.symm.trans ho')
    obtain rfl := Option.some.inj (hd.symm.trans hd')
    rw [parallel_area yd] at hP
    have e1 := area_param yd p q S T x t h1
    have e2 := area_param yd S T p q x u h2
    have z1 := area_param yd p q p q x u h2
    have z2 := area_param yd S T S T x t h1
    rw [(area_self0 yd p q).1, (area_self0 yd p q).2] at z1
    rw [(area_self0 yd S T).1, (area_self0 yd S T).2] at z2
    have e1' : (1 - t) * area yd p q S + t * area yd p q T = 0 := by rw [← e1, z1]; ring
    have e2' : (1 - u) * area yd S T p + u * area yd S T q = 0 := by rw [← e2, z2]; ring
    refine ⟨mul_neg_of_weights u0 u1 e2' ?_, mul_neg_of_weights t0 t1 e1' hP, by linear_combination -e1'⟩
    have := area_diff yd S T p q
    intro h0
    apply hP
    linarith
  · rintro ⟨h1, h2, h3⟩
    have hP : area yd p q S - area yd p q T ≠ 0 := by
      intro h0
      have : area yd p q S = area yd p q T := by linarith
      rw [this] at h2
      exact absurd h2 (not_lt.2 (mul_self_nonneg _))
    obtain ⟨t0, t1⟩ := weight_between h2 h3
    have hd' := area_diff yd S T p q
    have hu : -area yd S T p / (area yd p q S - area yd p q T) * (area yd p q S - area yd p q T) = -area yd S T p :=
      div_mul_cancel₀ _ hP
    have hu' : -area yd S T p / (area yd p q S - area yd p q T) * (area yd S T p - area yd S T q) = area yd S T p := by
      rw [show area yd S T p - area yd S T q = -(area yd p q S - area yd p q T) by linarith, mul_neg, hu, neg_neg]
    obtain ⟨u0, u1⟩ := weight_between h1 hu'
    exact ⟨p, q, _, _, ho, hd, by rw [parallel_area yd]; exact hP, t0, t1, u0, u1, rfl, common hP h3 hu⟩

theorem meets_iff {S T p q : Pt K} {y : E} (ho : orig s y = some p) (hd : dest s y = some q) :
    meets s (S, T) y = true ↔ ¬ Parallel S T p q ∧ ∃ x, OnSegment x S T ∧ OnSegment x p q := by
  unfold meets asLine
  rw [ho, hd]
  simp only
  constructor
  · intro h
    have h' : Planar.segmentIntersect (S, T) (p, q) = ((Planar.segmentIntersect (S, T) (p, q)).1, true) := by
      rw [← h]
    rw [Planar.segmentIntersect_iff] at h'
    exact ⟨h'.1, _, h'.2⟩
  · rintro ⟨h1, x, h2⟩
    rw [(Planar.segmentIntersect_iff S T p q x).2 ⟨h1, h2⟩]

/-- An edge that is crossed is met. -/
theorem meets_of_crosses {S T : Pt K} {y : E} {t : K} (h : CrossesAt s S T y t) : meets s (S, T) y = true := by
  obtain ⟨p, q, x, u, ho, hd, hP, t0, t1, u0, u1, h1, h2⟩ := h
  exact (meets_iff ho hd).2 ⟨hP, x, ⟨t, t0.le, t1.le, h1⟩, ⟨u, u0.le, u1.le, h2⟩⟩

/-- An edge on one side is not met. -/
theorem meets_false {S T p q : Pt K} {y : E} (ho : orig s y = some p) (hd : dest s y = some q)
    (h1 : 0 < area yd S T p) (h2 : 0 < area yd S T q) : meets s (S, T) y = false := by
  cases hm : meets s (S, T) y with
  | false => rfl
  | true =>
    obtain ⟨_, x, ⟨t, t0, t1, hx⟩, ⟨u, u0, u1, hx'⟩⟩ := (meets_iff ho hd).1 hm
    have e1 := area_param yd S T S T x t hx
    have e2 := area_param yd S T p q x u hx'
    rw [(area_self0 yd S T).1, (area_self0 yd S T).2] at e1
    have := mul_nonneg u0 h2.le
    have h3 : 0 ≤ (1 - u) * area yd S T p := mul_nonneg (by linarith) h1.le
    rcases lt_or_eq_of_le u0 with u0 | u0
    · have := mul_pos u0 h2
      linarith
    · rw [← u0] at e2
      linarith

end Verif.Lemmas.CrossGeom
