import Verif.Model.Resolve
import Verif.Spec.Resolve
import Verif.Lemmas.Winding
import Verif.Lemmas.QuadWalk
import Mathlib.Tactic.LinearCombination
import Mathlib.Tactic.Linarith
import Mathlib.Tactic.FieldSimp
import Mathlib.Tactic.Ring
import Mathlib.Tactic.Positivity

/-!
# Helper lemmas: directions around a point
-/

set_option linter.unusedSectionVars false
set_option linter.unusedVariables false
set_option linter.unusedSimpArgs false

namespace Verif.Lemmas.Resolve
open Verif.Quad Verif.Resolve Verif.Spec.Resolve
open Verif.Winding (orientation clockwise counterClockwise colinear)

variable {K : Type} [Field K] [LinearOrder K] [IsStrictOrderedRing K]

/-- The sign of a number. -/
def sgn (x : K) : Int := if 0 < x then 1 else if x < 0 then -1 else 0

theorem sgn_cases (x : K) : (0 < x ∧ sgn x = 1) ∨ (x < 0 ∧ sgn x = -1) ∨ (x = 0 ∧ sgn x = 0) := by
  unfold sgn
  rcases lt_trichotomy x 0 with h | h | h
  · right; left; simp [h, not_lt_of_gt h]
  · right; right; simp [h]
  · left; simp [h]

theorem area3 (u v : Pt K) : Spec.Winding.area2 [u, v, ((0 : K), (0 : K))] = u.1 * v.2 - u.2 * v.1 := by
  simp [Spec.Winding.area2, Spec.Winding.cross]; ring

theorem area3' (o d x : Pt K) : Spec.Winding.area2 [o, d, x] =
    (d.1 - o.1) * (x.2 - o.2) - (d.2 - o.2) * (x.1 - o.1) := by
  simp [Spec.Winding.area2, Spec.Winding.cross]; ring

theorem orientation_sgn (yd : Bool) (ps : List (Pt K)) (w : K)
    (h : w = if yd then - Spec.Winding.area2 ps else Spec.Winding.area2 ps) :
    orientation yd ps = sgn w := by
  rw [Winding.orientation_eq]
  subst h
  unfold sgn
  rcases lt_trichotomy (Spec.Winding.area2 ps) 0 with h | h | h
  · cases yd <;> simp [h, ne_of_lt h, not_lt_of_gt h]
  · cases yd <;> simp [h]
  · cases yd <;> simp [h, ne_of_gt h, not_lt_of_gt h]

theorem orientation_wedge (yd : Bool) (u v : Pt K) :
    orientation yd [u, v, ((0 : K), (0 : K))] = sgn (wedge yd u v) := by
  apply orientation_sgn
  rw [area3]; unfold wedge
  cases yd <;> simp

theorem orientation_wedge3 (yd : Bool) (o d x : Pt K) :
    orientation yd [o, d, x] = sgn (wedge yd (arrow o d) (arrow o x)) := by
  apply orientation_sgn
  rw [area3']; unfold wedge arrow
  cases yd <;> simp

/-- The step, by the signs of the wedges. -/
theorem resolveStep_eq (yd : Bool) (o a b d : Pt K) :
    resolveStep yd o a b d =
      (if yd then resolveEdgeYDown else resolveEdgeYUp) (sgn (wedge yd (arrow o a) (arrow o b)))
        (sgn (wedge yd (arrow o d) (arrow o a))) (sgn (wedge yd (arrow o d) (arrow o b)))
        (Shapes.lineContainsPoint (o, a) d) := by
  unfold resolveStep
  simp only [orientation_wedge]
  rw [show ((a.1 - o.1, a.2 - o.2) : Pt K) = arrow o a from rfl,
    show ((b.1 - o.1, b.2 - o.2) : Pt K) = arrow o b from rfl,
    show ((d.1 - o.1, d.2 - o.2) : Pt K) = arrow o d from rfl]
  cases yd <;> rfl

theorem wedge_swap (yd : Bool) (u v : Pt K) : wedge yd v u = - wedge yd u v := by
  unfold wedge; cases yd <;> simp <;> ring

/-- The relation of four directions. -/
theorem wedge_rel (yd : Bool) (d a b c : Pt K) :
    wedge yd d b * wedge yd a c = wedge yd d a * wedge yd b c + wedge yd d c * wedge yd a b := by
  unfold wedge; cases yd <;> simp <;> ring

/-- Cramer's rule. -/
theorem wedge_mix (yd : Bool) (u v w : Pt K) :
    (wedge yd u v * w.1 = wedge yd w v * u.1 + wedge yd u w * v.1) ∧
    (wedge yd u v * w.2 = wedge yd w v * u.2 + wedge yd u w * v.2) := by
  unfold wedge; cases yd <;> simp <;> constructor <;> ring

theorem mix_iff {yd : Bool} {u v w : Pt K} (h : wedge yd u v ≠ 0) (s t : K) :
    Mix s t u v w ↔ s = wedge yd w v / wedge yd u v ∧ t = wedge yd u w / wedge yd u v := by
  constructor
  · rintro rfl
    refine ⟨?_, ?_⟩
    · rw [eq_div_iff h]; unfold wedge; cases yd <;> simp <;> ring
    · rw [eq_div_iff h]; unfold wedge; cases yd <;> simp <;> ring
  · rintro ⟨rfl, rfl⟩
    obtain ⟨h1, h2⟩ := wedge_mix yd u v w
    unfold Mix
    apply Prod.ext
    · show w.1 = _ / _ * u.1 + _ / _ * v.1
      rw [div_mul_eq_mul_div, div_mul_eq_mul_div, ← add_div, eq_div_iff h, ← h1]; ring
    · show w.2 = _ / _ * u.2 + _ / _ * v.2
      rw [div_mul_eq_mul_div, div_mul_eq_mul_div, ← add_div, eq_div_iff h, ← h2]; ring

/-- Parallel to a direction that is not zero. -/
theorem wedge_zero {yd : Bool} {u v : Pt K} (hu : u ≠ (0, 0)) (h : wedge yd u v = 0) :
    ∃ t : K, v = (t * u.1, t * u.2) := by
  have h' : u.1 * v.2 = u.2 * v.1 := by
    unfold wedge at h
    cases yd <;> simp at h <;> linarith
  by_cases c : u.1 = 0
  · have c2 : u.2 ≠ 0 := fun e => hu (Prod.ext c e)
    refine ⟨v.2 / u.2, Prod.ext ?_ ?_⟩
    · rw [c, zero_mul] at h'
      have : v.1 = 0 := by
        rcases mul_eq_zero.1 h'.symm with h | h
        · exact absurd h c2
        · exact h
      simp [this, c]
    · simp; field_simp
  · refine ⟨v.1 / u.1, Prod.ext ?_ ?_⟩
    · simp; field_simp
    · simp; field_simp; linarith

theorem wedge_smul_right (yd : Bool) (u v : Pt K) (t : K) :
    wedge yd u (t * v.1, t * v.2) = t * wedge yd u v := by
  unfold wedge; cases yd <;> simp <;> ring

theorem wedge_smul_left (yd : Bool) (u v : Pt K) (t : K) :
    wedge yd (t * u.1, t * u.2) v = t * wedge yd u v := by
  unfold wedge; cases yd <;> simp <;> ring

theorem wedge_self (yd : Bool) (u : Pt K) : wedge yd u u = 0 := by
  unfold wedge; cases yd <;> simp <;> ring

theorem arrow_ne {o p : Pt K} (h : p ≠ o) : arrow o p ≠ (0, 0) := by
  intro he
  apply h
  unfold arrow at he
  rw [Prod.mk.injEq] at he
  exact Prod.ext (by linarith [he.1]) (by linarith [he.2])

theorem smul_eq_self {u : Pt K} (hu : u ≠ (0, 0)) {t s : K} (h : (t * u.1, t * u.2) = (s * u.1, s * u.2)) :
    t = s := by
  rw [Prod.mk.injEq] at h
  by_cases c : u.1 = 0
  · have c2 : u.2 ≠ 0 := fun e => hu (Prod.ext c e)
    exact mul_right_cancel₀ c2 h.2
  · exact mul_right_cancel₀ c h.1

/-- On the line of the edge, the bounding box of the edge is the edge. -/
theorem contains_iff {o a d : Pt K} {t : K} (ha : arrow o a ≠ (0, 0))
    (hd : arrow o d = (t * (arrow o a).1, t * (arrow o a).2)) :
    Shapes.lineContainsPoint (o, a) d = true ↔ 0 ≤ t ∧ t ≤ 1 := by
  obtain ⟨ox, oy⟩ := o
  obtain ⟨ax, ay⟩ := a
  obtain ⟨dx, dy⟩ := d
  simp only [arrow, Prod.mk.injEq] at hd
  obtain ⟨h1, h2⟩ := hd
  have e1 : dx = ox + t * (ax - ox) := by linarith
  have e2 : dy = oy + t * (ay - oy) := by linarith
  subst e1; subst e2
  unfold Shapes.lineContainsPoint
  simp only [decide_eq_true_eq]
  have key : ∀ p q : K, 0 ≤ t ∧ t ≤ 1 → (if p > q then q else p) ≤ p + t * (q - p) ∧
      p + t * (q - p) ≤ (if p > q then p else q) := by
    rintro p q ⟨h1, h2⟩
    split_ifs with c
    · constructor
      · nlinarith
      · nlinarith
    · have c' : p ≤ q := not_lt.1 c
      constructor
      · nlinarith
      · nlinarith
  have back : ∀ p q : K, p ≠ q → (if p > q then q else p) ≤ p + t * (q - p) →
      p + t * (q - p) ≤ (if p > q then p else q) → 0 ≤ t ∧ t ≤ 1 := by
    intro p q hne h1 h2
    split_ifs at h1 h2 with c
    · constructor
      · by_contra hc
        have : t < 0 := not_le.1 hc
        nlinarith
      · by_contra hc
        have : 1 < t := not_le.1 hc
        nlinarith
    · have c' : p < q := lt_of_le_of_ne (not_lt.1 c) hne
      constructor
      · by_contra hc
        have : t < 0 := not_le.1 hc
        nlinarith
      · by_contra hc
        have : 1 < t := not_le.1 hc
        nlinarith
  constructor
  · rintro ⟨g1, g2, g3, g4⟩
    by_cases c : ox = ax
    · have c2 : oy ≠ ay := by
        intro e; apply ha; simp [arrow, c, e]
      exact back oy ay c2 g3 g4
    · exact back ox ax c g1 g2
  · intro h
    exact ⟨(key ox ax h).1, (key ox ax h).2, (key oy ay h).1, (key oy ay h).2⟩

/-- The angular order of directions as seen from `d`, turning counterclockwise. -/
def Before (yd : Bool) (d a b : Pt K) : Prop :=
  (0 < wedge yd d a ∧ wedge yd d b ≤ 0) ∨
  (wedge yd d a = 0 ∧ wedge yd d b < 0) ∨
  (0 < wedge yd d a ∧ 0 < wedge yd d b ∧ 0 < wedge yd a b) ∨
  (wedge yd d a < 0 ∧ wedge yd d b < 0 ∧ 0 < wedge yd a b)

theorem before_irrefl (yd : Bool) (d a : Pt K) : ¬ Before yd d a a := by
  unfold Before
  rw [wedge_self]
  rintro (⟨h1, h2⟩ | ⟨h1, h2⟩ | ⟨_, _, h⟩ | ⟨_, _, h⟩)
  · linarith
  · linarith
  · exact lt_irrefl _ h
  · exact lt_irrefl _ h

theorem before_trans {yd : Bool} {d a b c : Pt K} (h1 : Before yd d a b) (h2 : Before yd d b c) :
    Before yd d a c := by
  have rel := wedge_rel yd d a b c
  unfold Before at *
  rcases h1 with ⟨a1, a2⟩ | ⟨a1, a2⟩ | ⟨a1, a2, a3⟩ | ⟨a1, a2, a3⟩ <;>
  rcases h2 with ⟨b1, b2⟩ | ⟨b1, b2⟩ | ⟨b1, b2, b3⟩ | ⟨b1, b2, b3⟩ <;>
  first
  | (exfalso; linarith)
  | (left; constructor <;> linarith)
  | (right; left; constructor <;> linarith)
  | (right; right; left
     refine ⟨by linarith, by linarith, ?_⟩
     by_contra hc
     have hc' : wedge yd a c ≤ 0 := not_lt.1 hc
     nlinarith [mul_pos a1 b3, mul_pos b2 a3])
  | (right; right; right
     refine ⟨by linarith, by linarith, ?_⟩
     by_contra hc
     have hc' : wedge yd a c ≤ 0 := not_lt.1 hc
     nlinarith [mul_pos (neg_pos.2 a1) b3, mul_pos (neg_pos.2 b2) a3])

/-- What the tables decide, by the signs. -/
theorem step_signs (yd : Bool) (o a b d : Pt K) (ha : a ≠ o) (hb : b ≠ o) (hd : d ≠ o) :
    (resolveStep yd o a b d = .next ∧ Before yd (arrow o d) (arrow o a) (arrow o b)) ∨
    (resolveStep yd o a b d = .a ∧ Between yd o a b d) ∨
    (resolveStep yd o a b d = .errA ∧ Toward o a d) ∨
    (resolveStep yd o a b d = .errB ∧ Toward o b d ∧ wedge yd (arrow o a) (arrow o b) ≠ 0) ∨
    (resolveStep yd o a b d = .errB ∧ wedge yd (arrow o a) (arrow o b) = 0 ∧
      wedge yd (arrow o d) (arrow o a) = 0 ∧ ¬ Along o a d) := by
  rw [resolveStep_eq]
  have hu := arrow_ne ha
  have hv := arrow_ne hb
  have hw := arrow_ne hd
  unfold Before Between Toward Along
  dsimp only
  generalize hC : Shapes.lineContainsPoint (o, a) d = C
  have hbox := @contains_iff K _ _ _ o a d
  rw [hC] at hbox
  generalize arrow o a = u at *
  generalize arrow o b = v at *
  generalize arrow o d = w at *
  have r2 : wedge yd u w = - wedge yd w u := wedge_swap yd w u
  rcases eq_or_ne (wedge yd u v) 0 with hp | hp
  · -- `a` and `b` on one line
    obtain ⟨k, hk⟩ := wedge_zero hu hp
    have hk0 : k ≠ 0 := by rintro rfl; apply hv; rw [hk]; simp
    have hr : wedge yd w v = k * wedge yd w u := by rw [hk, wedge_smul_right]
    rw [hp, show sgn (0 : K) = 0 by simp [sgn], hr]
    rcases eq_or_ne (wedge yd w u) 0 with hq | hq
    · -- and `d` too
      have hq' : wedge yd u w = 0 := by rw [r2, hq, neg_zero]
      obtain ⟨t, ht⟩ := wedge_zero hu hq'
      have ht0 : t ≠ 0 := by rintro rfl; apply hw; rw [ht]; simp
      have hb := hbox hu ht
      rw [hq, mul_zero, show sgn (0 : K) = 0 by simp [sgn]]
      cases C with
      | true =>
        right; right; left
        refine ⟨by cases yd <;> rfl, t, ?_, ht⟩
        exact lt_of_le_of_ne (hb.1 rfl).1 (Ne.symm ht0)
      | false =>
        right; right; right; right
        refine ⟨by cases yd <;> rfl, rfl, rfl, ?_⟩
        rintro ⟨t', h1, h2, h3⟩
        rw [ht] at h3
        have := smul_eq_self hu h3
        subst this
        exact absurd (hb.2 ⟨le_of_lt h1, h2⟩) (by simp)
    · have hnt : ¬ ∃ t : K, 0 < t ∧ w = (t * u.1, t * u.2) := by
        rintro ⟨t, _, h2⟩
        apply hq
        rw [h2, wedge_smul_left, wedge_self, mul_zero]
      rcases lt_or_gt_of_ne hk0 with c | c <;> rcases lt_or_gt_of_ne hq with g | g
      · -- opposite, `d` counterclockwise of `a`
        have h1 : 0 < k * wedge yd w u := mul_pos_of_neg_of_neg c g
        right; left
        refine ⟨?_, Or.inr (Or.inr (Or.inr ⟨⟨-k, by linarith, ?_⟩, by rw [r2]; linarith⟩))⟩
        · simp only [sgn, h1, g, not_lt_of_gt g, if_true, if_false]; cases yd <;> rfl
        · rw [hk]; simp
      · have h1 : k * wedge yd w u < 0 := mul_neg_of_neg_of_pos c g
        left
        refine ⟨?_, Or.inl ⟨g, le_of_lt h1⟩⟩
        simp only [sgn, h1, g, not_lt_of_gt h1, if_true, if_false]; cases yd <;> rfl
      · have h1 : k * wedge yd w u < 0 := mul_neg_of_pos_of_neg c g
        right; left
        refine ⟨?_, Or.inr (Or.inr (Or.inl ⟨⟨k, c, hk⟩, hnt⟩))⟩
        simp only [sgn, h1, g, not_lt_of_gt h1, not_lt_of_gt g, if_true, if_false]; cases yd <;> rfl
      · have h1 : 0 < k * wedge yd w u := mul_pos c g
        right; left
        refine ⟨?_, Or.inr (Or.inr (Or.inl ⟨⟨k, c, hk⟩, hnt⟩))⟩
        simp only [sgn, h1, g, if_true, if_false]; cases yd <;> rfl
  · -- `w` as a mix of `u` and `v`
    have mix := fun s t => mix_iff (yd := yd) (u := u) (v := v) (w := w) hp s t
    rw [r2] at mix
    have hm : Mix (wedge yd w v / wedge yd u v) (-wedge yd w u / wedge yd u v) u v w :=
      (mix _ _).2 ⟨rfl, rfl⟩
    have hnz : wedge yd w u = 0 → wedge yd w v = 0 → False := by
      intro h1 h2
      rw [h1, h2] at hm
      apply hw
      rw [show w = _ from hm]; simp
    have hor : ∀ s t, 0 ≤ s → 0 ≤ t → Mix s t u v w →
        0 ≤ wedge yd w v / wedge yd u v ∧ 0 ≤ -wedge yd w u / wedge yd u v := by
      intro s t h1 h2 h3
      obtain ⟨e1, e2⟩ := (mix s t).1 h3
      rw [← e1, ← e2]; exact ⟨h1, h2⟩
    generalize wedge yd u v = P at *
    generalize wedge yd w u = Q at *
    generalize wedge yd w v = R at *
    have toB : Q ≠ 0 → R = 0 → 0 < -Q / P → ∃ t : K, 0 < t ∧ w = (t * v.1, t * v.2) := by
      intro _ h1 h2
      refine ⟨_, h2, ?_⟩
      rw [h1] at hm
      rw [show w = _ from hm]; simp
    have toA : Q = 0 → 0 < R / P → ∃ t : K, 0 < t ∧ w = (t * u.1, t * u.2) := by
      intro h1 h2
      refine ⟨_, h2, ?_⟩
      rw [h1] at hm
      rw [show w = _ from hm]; simp
    rcases lt_or_gt_of_ne hp with hP | hP
    · have sP : sgn P = -1 := by simp [sgn, hP, not_lt_of_gt hP]
      rw [sP]
      rcases sgn_cases Q with ⟨c, e⟩ | ⟨c, e⟩ | ⟨c, e⟩ <;>
        rcases sgn_cases R with ⟨c', e'⟩ | ⟨c', e'⟩ | ⟨c', e'⟩ <;> rw [e, e']
      · right; left
        refine ⟨by cases yd <;> rfl, Or.inr (Or.inl ⟨hP, ?_⟩)⟩
        rintro ⟨s, t, h1, h2, h3⟩
        have := (hor s t h1 h2 h3).1
        exact absurd this (not_le.2 (div_neg_of_pos_of_neg c' hP))
      · left
        exact ⟨by cases yd <;> rfl, Or.inl ⟨c, le_of_lt c'⟩⟩
      · right; right; right; left
        exact ⟨by cases yd <;> rfl, toB (ne_of_gt c) c' (div_pos_of_neg_of_neg (by linarith) hP), hp⟩
      all_goals first
        | (right; left
           refine ⟨by cases yd <;> rfl, Or.inr (Or.inl ⟨hP, ?_⟩)⟩
           rintro ⟨s, t, h1, h2, h3⟩
           have := (hor s t h1 h2 h3).2
           exact absurd this (not_le.2 (div_neg_of_pos_of_neg (by linarith) hP)))
        | (right; left
           refine ⟨by cases yd <;> rfl, Or.inr (Or.inl ⟨hP, ?_⟩)⟩
           rintro ⟨s, t, h1, h2, h3⟩
           have := (hor s t h1 h2 h3).1
           exact absurd this (not_le.2 (div_neg_of_pos_of_neg c' hP)))
        | (right; right; left
           exact ⟨by cases yd <;> rfl, toA c (div_pos_of_neg_of_neg c' hP)⟩)
        | (exact absurd (hnz c c') id)
    · have sP : sgn P = 1 := by simp [sgn, hP]
      rw [sP]
      rcases sgn_cases Q with ⟨c, e⟩ | ⟨c, e⟩ | ⟨c, e⟩ <;>
        rcases sgn_cases R with ⟨c', e'⟩ | ⟨c', e'⟩ | ⟨c', e'⟩ <;> rw [e, e']
      · left; exact ⟨by cases yd <;> rfl, Or.inr (Or.inr (Or.inl ⟨c, c', hP⟩))⟩
      · left; exact ⟨by cases yd <;> rfl, Or.inl ⟨c, le_of_lt c'⟩⟩
      · left; exact ⟨by cases yd <;> rfl, Or.inl ⟨c, le_of_eq c'⟩⟩
      · right; left
        refine ⟨by cases yd <;> rfl, Or.inl ⟨hP, _, _, div_pos c' hP, div_pos (neg_pos.2 c) hP, hm⟩⟩
      · left; exact ⟨by cases yd <;> rfl, Or.inr (Or.inr (Or.inr ⟨c, c', hP⟩))⟩
      · right; right; right; left
        exact ⟨by cases yd <;> rfl, toB (ne_of_lt c) c' (div_pos (neg_pos.2 c) hP), hp⟩
      · right; right; left
        exact ⟨by cases yd <;> rfl, toA c (div_pos c' hP)⟩
      · left; exact ⟨by cases yd <;> rfl, Or.inr (Or.inl ⟨c, c'⟩)⟩
      · exact absurd (hnz c c') id

/-! ## Classify -/

theorem classify_spec (a b c : Pt K) (h : b ≠ c) :
    (classify (fun p q => p == q) a b c = .left ∧ 0 < wedge false (arrow b c) (arrow b a)) ∨
    (classify (fun p q => p == q) a b c = .right ∧ wedge false (arrow b c) (arrow b a) < 0) ∨
    ∃ t : K, AtParam a b c t ∧ classify (fun p q => p == q) a b c =
      if t < 0 then .behind else if 1 < t then .beyond else if t = 0 then .origin
      else if t = 1 then .destination else .between := by
  have hu : arrow b c ≠ (0, 0) := arrow_ne (Ne.symm h)
  have hw : wedge false (arrow b c) (arrow b a) =
      (c.1 - b.1) * (a.2 - b.2) - (c.2 - b.2) * (a.1 - b.1) := by simp [wedge, arrow]
  rcases lt_trichotomy (wedge false (arrow b c) (arrow b a)) 0 with g | g | g
  · right; left
    refine ⟨?_, g⟩
    rw [hw] at g
    simp [classify, g, not_lt_of_gt g]
  · right; right
    obtain ⟨t, ht⟩ := wedge_zero hu g
    have ha : AtParam a b c t := by
      unfold arrow at ht
      rw [Prod.mk.injEq] at ht
      exact Prod.ext (by show _ = b.1 + t * (c.1 - b.1); linarith [ht.1])
        (by show _ = b.2 + t * (c.2 - b.2); linarith [ht.2])
    refine ⟨t, ha, ?_⟩
    have hpos : 0 < (c.1 - b.1) * (c.1 - b.1) + (c.2 - b.2) * (c.2 - b.2) := by
      by_contra hc
      apply hu
      have h1 := mul_self_nonneg (c.1 - b.1)
      have h2 := mul_self_nonneg (c.2 - b.2)
      unfold arrow
      exact Prod.ext (mul_self_eq_zero.1 (by linarith)) (mul_self_eq_zero.1 (by linarith))
    rw [hw] at g
    unfold AtParam at ha
    have e1 : a.1 - b.1 = t * (c.1 - b.1) := by rw [ha]; simp
    have e2 : a.2 - b.2 = t * (c.2 - b.2) := by rw [ha]; simp
    have k1 : ((c.1 - b.1) * (a.1 - b.1) < 0 ∨ (c.2 - b.2) * (a.2 - b.2) < 0) ↔ t < 0 := by
      rw [e1, e2]
      constructor
      · intro h1
        by_contra hc
        have hc := not_lt.1 hc
        rcases h1 with h1 | h1 <;> nlinarith [mul_self_nonneg (c.1 - b.1), mul_self_nonneg (c.2 - b.2)]
      · intro h1
        by_contra hc
        rw [not_or] at hc
        have h2 := not_lt.1 hc.1
        have h3 := not_lt.1 hc.2
        nlinarith
    have k2 : 0 ≤ t → ((c.1 - b.1) * (c.1 - b.1) + (c.2 - b.2) * (c.2 - b.2) <
        (a.1 - b.1) * (a.1 - b.1) + (a.2 - b.2) * (a.2 - b.2) ↔ 1 < t) := by
      intro h0
      rw [e1, e2]
      constructor
      · intro h1
        by_contra hc
        have hc := not_lt.1 hc
        have : t * t ≤ 1 := by nlinarith
        nlinarith
      · intro h1
        have : 1 < t * t := by nlinarith
        nlinarith
    have k3 : a = b ↔ t = 0 := by
      constructor
      · intro h1
        have h2 : t * (c.1 - b.1) = 0 := by rw [← e1, h1, sub_self]
        have h3 : t * (c.2 - b.2) = 0 := by rw [← e2, h1, sub_self]
        by_contra hc
        apply hu
        exact Prod.ext ((mul_eq_zero.1 h2).resolve_left hc) ((mul_eq_zero.1 h3).resolve_left hc)
      · rintro rfl; rw [ha]; simp
    have k4 : a = c ↔ t = 1 := by
      constructor
      · intro h1
        have h2 : (t - 1) * (c.1 - b.1) = 0 := by rw [sub_mul, ← e1, h1]; ring
        have h3 : (t - 1) * (c.2 - b.2) = 0 := by rw [sub_mul, ← e2, h1]; ring
        by_contra hc
        apply hu
        have hc' : t - 1 ≠ 0 := sub_ne_zero.2 hc
        exact Prod.ext ((mul_eq_zero.1 h2).resolve_left hc') ((mul_eq_zero.1 h3).resolve_left hc')
      · rintro rfl; rw [ha]; simp
    unfold classify
    simp only [g, gt_iff_lt, lt_irrefl, if_false, k1, beq_iff_eq, k3, k4]
    by_cases c0 : t < 0
    · simp [c0]
    · simp only [c0, if_false, k2 (not_lt.1 c0)]
  · left
    refine ⟨?_, g⟩
    rw [hw] at g
    simp [classify, g]

/-! ## The walk -/

open Verif.Spec.Quad Verif.Lemmas.Quad

/-- What an edge of the walk makes `ResolveEdge` return, if it ends there. -/
def out (yd : Bool) (s : Store (Pt K)) (o d : Pt K) (e : E) : Option Resolved :=
  match dest s e, dest s (onext s e) with
  | some apt, some bpt =>
    match resolveStep yd o apt bpt d with
    | .next => none
    | .a => some (.edge e)
    | .errA => some (.colinear e)
    | .errB => some (.colinear (onext s e))
    | .errEdge => some (.coincident e)
  | _, _ => some .panic

theorem resolveLoop_succ (yd : Bool) (s : Store (Pt K)) (o d : Pt K) (n : Nat) (seen : List Nat) (e : E)
    (h : e.q ∉ seen) : resolveLoop yd s o d (n + 1) seen e =
      (out yd s o d e).getD (resolveLoop yd s o d n (e.q :: seen) (onext s e)) := by
  rw [resolveLoop, if_neg h, out]
  cases dest s e with
  | none => rfl
  | some a =>
    cases dest s (onext s e) with
    | none => rfl
    | some b => cases h : resolveStep yd o a b d <;> simp [h]

theorem resolveLoop_valid (yd : Bool) (s : Store (Pt K)) (o d : Pt K) (n : Nat) (seen : List Nat) (e : E) :
    resolveLoop yd s o d n seen e ≠ .invalidEnd := by
  induction n generalizing seen e with
  | zero => simp [resolveLoop]
  | succ n ih =>
    by_cases hq : e.q ∈ seen
    · simp [resolveLoop, hq]
    · rw [resolveLoop_succ _ _ _ _ _ _ _ hq]
      cases ho' : out yd s o d e with
      | some r =>
        unfold out at ho'
        split at ho'
        · split at ho' <;> cases ho' <;> simp
        · cases ho'; simp
      | none => exact ih _ _

theorem resolveLoop_aux {yd : Bool} {s : Store (Pt K)} {o d : Pt K} {e : E} {L : List E}
    (h : OnceRound s.next e L) (hq : (L.map E.q).Nodup) :
    ∀ (fuel i : Nat) (seen : List Nat), i ≤ L.length → L.length ≤ i + fuel →
      (∀ q, q ∈ seen ↔ ∃ j, j < i ∧ (s.next^[j] e).q = q) →
      resolveLoop yd s o d fuel seen (s.next^[i] e) =
        ((L.drop i).findSome? (out yd s o d)).getD .nothing := by
  intro fuel
  induction fuel with
  | zero =>
    intro i seen h1 h2 _
    have : L.drop i = [] := List.drop_eq_nil_of_le (by omega)
    rw [this]; rfl
  | succ fuel ih =>
    intro i seen h1 h2 h3
    rcases Nat.eq_or_lt_of_le h1 with h4 | h4
    · have : L.drop i = [] := List.drop_eq_nil_of_le (by omega)
      rw [this]
      unfold resolveLoop
      rw [if_pos]
      · rfl
      · rw [h3, h4, h.2.2.2]
        exact ⟨0, h.1, rfl⟩
    · rw [List.drop_eq_getElem_cons h4, onceRound_get h i h4]
      have hn : (s.next^[i] e).q ∉ seen := by
        rw [h3]
        rintro ⟨j, hj, he⟩
        have hj' : j < L.length := by omega
        rw [← onceRound_get h i h4, ← onceRound_get h j hj'] at he
        have e1 : (L.map E.q)[j]'(by simpa using hj') = (L.map E.q)[i]'(by simpa using h4) := by
          simpa using he
        have := (List.Nodup.getElem_inj_iff hq).1 e1
        omega
      rw [resolveLoop_succ _ _ _ _ _ _ _ hn, List.findSome?_cons]
      cases ho : out yd s o d (s.next^[i] e) with
      | some r => rfl
      | none =>
        show resolveLoop yd s o d fuel _ (s.next (s.next^[i] e)) = _
        rw [← Function.iterate_succ_apply' s.next i e]
        apply ih (i + 1) _ h4 (by omega)
        intro q
        rw [List.mem_cons, h3]
        constructor
        · rintro (h5 | ⟨j, hj, h5⟩)
          · exact ⟨i, by omega, h5.symm⟩
          · exact ⟨j, by omega, h5⟩
        · rintro ⟨j, hj, h5⟩
          rcases Nat.eq_or_lt_of_le (Nat.lt_succ_iff.1 hj) with h6 | h6
          · left; rw [← h5, h6]
          · right; exact ⟨j, h6, h5⟩

theorem around_primal {P : Type} {s : Store P} (h : Inv s) {e y : E} (hy : Around s e y) : Primal y ↔ Primal e := by
  induction hy with
  | refl => exact Iff.rfl
  | next _ ih => exact (h.kind _).trans ih

theorem primal_same_q {x y : E} (hx : Primal x) (hy : Primal y) (h : x.q = y.q) : x = y ∨ x = sym y := by
  obtain ⟨q, n⟩ := x
  obtain ⟨q', n'⟩ := y
  simp only at h
  subst h
  unfold Primal at hx hy
  simp only at hx hy
  rcases hx with rfl | rfl <;> rcases hy with rfl | rfl <;> simp [sym, nth]

/-- The star has no edge with both its ends. -/
theorem star_no_loop {s : Store (Pt K)} (hi : Inv s) {e : E} {o : Pt K} (hS : Star s e o) {x y : E}
    (hx : Around s e x) (hy : Around s e y) (hq : x.q = y.q) : x = y := by
  rcases primal_same_q ((around_primal hi hx).2 hS.1) ((around_primal hi hy).2 hS.1) hq with h | h
  · exact h
  · exfalso
    obtain ⟨_, p, hp, hne⟩ := hS.2 y hy
    have h1 := (hS.2 x hx).1
    rw [h] at h1
    have : dest s y = some o := h1
    rw [hp] at this
    exact hne (Option.some.inj this)

theorem resolve_walk {yd : Bool} {s : Store (Pt K)} (hi : Inv s) {o d : Pt K} {e : E} (he : Allocated s e)
    (hS : Star s e o) {L : List E} (h : OnceRound s.next e L) :
    resolveLoop yd s o d s.size [] e = (L.findSome? (out yd s o d)).getD .nothing := by
  have hq : (L.map E.q).Nodup := by
    rw [List.nodup_map_iff_inj_on h.2.2.1]
    intro x hx y hy hq
    exact star_no_loop hi hS ((mem_round h).1 hx) ((mem_round h).1 hy) hq
  have hl : L.length ≤ s.size := by
    have := nodup_lt_length (n := s.size) hq (by
      intro q hq
      rw [List.mem_map] at hq
      obtain ⟨x, hx, rfl⟩ := hq
      exact round_alloc hi he ((mem_round h).1 hx))
    simpa using this
  have := resolveLoop_aux (yd := yd) (o := o) (d := d) h hq s.size 0 [] (Nat.zero_le _) (by omega) (by simp)
  simpa using this

/-- Some edge of the walk ends it. -/
theorem resolve_ends {yd : Bool} {s : Store (Pt K)} {o d : Pt K} (hd : d ≠ o) {e : E}
    (hS : Star s e o) {L : List E} (h : OnceRound s.next e L) :
    ∃ x r, Around s e x ∧ out yd s o d x = some r ∧ L.findSome? (out yd s o d) = some r := by
  cases hf : L.findSome? (out yd s o d) with
  | some r =>
    obtain ⟨x, hx, hr⟩ := List.exists_of_findSome?_eq_some hf
    exact ⟨x, r, (mem_round h).1 hx, hr, rfl⟩
  | none =>
    exfalso
    rw [List.findSome?_eq_none_iff] at hf
    have step : ∀ x, Around s e x → ∀ a b, dest s x = some a → dest s (onext s x) = some b →
        Before yd (arrow o d) (arrow o a) (arrow o b) := by
      intro x hx a b ha hb
      have h1 := hf x ((mem_round h).2 hx)
      unfold out at h1
      simp only [ha, hb] at h1
      obtain ⟨_, a', ha', hao⟩ := hS.2 x hx
      obtain ⟨_, b', hb', hbo⟩ := hS.2 _ hx.next
      rw [ha] at ha'; rw [hb] at hb'
      obtain rfl := Option.some.inj ha'
      obtain rfl := Option.some.inj hb'
      rcases step_signs yd o a b d hao hbo hd with ⟨_, h2⟩ | ⟨h2, _⟩ | ⟨h2, _⟩ | ⟨h2, _⟩ | ⟨h2, _⟩
      · exact h2
      all_goals (rw [h2] at h1; cases h1)
    obtain ⟨_, a0, ha0, _⟩ := hS.2 e .refl
    have chain : ∀ n, 0 < n → Around s e (s.next^[n] e) ∧
        ∀ b, dest s (s.next^[n] e) = some b → Before yd (arrow o d) (arrow o a0) (arrow o b) := by
      intro n hn
      induction n with
      | zero => omega
      | succ n ih =>
        rw [Function.iterate_succ_apply']
        rcases Nat.eq_zero_or_pos n with h0 | h0
        · subst h0
          exact ⟨Around.next .refl, fun b hb => step e .refl a0 b ha0 hb⟩
        · obtain ⟨i1, i2⟩ := ih h0
          refine ⟨i1.next, ?_⟩
          intro b hb
          obtain ⟨_, c, hc, _⟩ := hS.2 _ i1
          exact before_trans (i2 c hc) (step _ i1 c b hc hb)
    have := (chain L.length h.1).2 a0 (by rw [h.2.2.2]; exact ha0)
    exact before_irrefl _ _ _ this

end Verif.Lemmas.Resolve
