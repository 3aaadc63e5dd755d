import Verif.Lemmas.Resolve
import Verif.Spec.Planar
import Mathlib.Algebra.Order.Ring.Rat
import Mathlib.Tactic.NormNum

/-!
# Properties C128, C129: where a point lies around a vertex, and beside an edge

`ResolveEdge`, `RightOf` and `Classify` of `planar/triangulate/delaunay/quadedge`, in exact arithmetic.
`yd` is the `YPositiveDown` of the order.
-/

namespace Verif.Props
open Verif.Quad Verif.Spec.Quad Verif.Resolve Verif.Spec.Resolve Verif.Lemmas.Resolve Verif.Lemmas.Quad

variable {K : Type} [Field K] [LinearOrder K] [IsStrictOrderedRing K]

/-! ## C128 -/

/-- The answer is right: an edge such that `d` is met turning counterclockwise from it to the next
edge, or the error that the points are colinear and an edge that `d` lies in the direction of. -/
def Resolves (yd : Bool) (s : Store (Pt K)) (e : E) (o d : Pt K) (r : Resolved) : Prop :=
  ∃ x, Around s e x ∧
    ((r = .edge x ∧ ∃ a b, dest s x = some a ∧ dest s (onext s x) = some b ∧ Between yd o a b d) ∨
     (r = .colinear x ∧ ∃ a, dest s x = some a ∧ Toward o a d))

/-- The full claim of **C128**. -/
def C128_full : Prop :=
  ∀ (yd : Bool) (s : Store (Pt ℚ)), Reached s → ∀ e, Allocated s e → ∀ o, Star s e o →
    ∀ d, d ≠ o → Resolves yd s e o d (resolveEdge (fun p q => p == q) yd s e d)

/-- **C128**, when `d` is not on the straight line of two successive edges (save on the first of them, or in
the direction of the second): `ResolveEdge` answers with an edge such that `d` is met turning
counterclockwise from it to the next one; if `d` is in the direction of an edge, with the error and such
an edge. -/
theorem C128_resolve_partial (peq : Pt K → Pt K → Bool) (hpeq : ∀ p, peq p p = true) (yd : Bool)
    (s : Store (Pt K)) (h : Reached s) (e : E) (he : Allocated s e) (o : Pt K) (hS : Star s e o) (d : Pt K)
    (hd : peq o d = false)
    (hc : ∀ x a b, Around s e x → dest s x = some a → dest s (onext s x) = some b →
      Spec.Planar.Colinear o a b → Spec.Planar.Colinear o a d → Along o a d ∨ Toward o b d) :
    Resolves yd s e o d (resolveEdge peq yd s e d) := by
  have hi := Reached.inv h
  have hdo : d ≠ o := by rintro rfl; rw [hpeq] at hd; cases hd
  obtain ⟨L, hL⟩ := around_onceRound hi e
  obtain ⟨x, r, hx, hr, hf⟩ := resolve_ends (yd := yd) hdo hS hL
  have heq : resolveEdge peq yd s e d = r := by
    unfold resolveEdge
    rw [(hS.2 e .refl).1]
    simp only [hd]
    rw [if_neg (by simp), resolve_walk hi he hS hL, hf]
    rfl
  rw [heq]
  obtain ⟨_, a, ha, hao⟩ := hS.2 x hx
  obtain ⟨_, b, hb, hbo⟩ := hS.2 _ hx.next
  unfold out at hr
  simp only [ha, hb] at hr
  rcases step_signs yd o a b d hao hbo hdo with ⟨h2, _⟩ | ⟨h2, h3⟩ | ⟨h2, h3⟩ | ⟨h2, h3, _⟩ | ⟨h2, h3, h4, h5⟩
  · rw [h2] at hr; cases hr
  · rw [h2] at hr
    exact ⟨x, hx, Or.inl ⟨(Option.some.inj hr).symm, a, b, ha, hb, h3⟩⟩
  · rw [h2] at hr
    exact ⟨x, hx, Or.inr ⟨(Option.some.inj hr).symm, a, ha, h3⟩⟩
  · rw [h2] at hr
    exact ⟨_, hx.next, Or.inr ⟨(Option.some.inj hr).symm, b, hb, h3⟩⟩
  · rw [h2] at hr
    refine ⟨_, hx.next, Or.inr ⟨(Option.some.inj hr).symm, b, hb, ?_⟩⟩
    have c1 : Spec.Planar.Colinear o a b := by
      unfold Spec.Planar.Colinear
      unfold wedge arrow at h3
      cases yd <;> simp at h3 <;> linarith
    have c2 : Spec.Planar.Colinear o a d := by
      unfold Spec.Planar.Colinear
      unfold wedge arrow at h4
      cases yd <;> simp at h4 <;> linarith
    exact (hc x a b hx ha hb c1 c2).resolve_left h5

/-- The middle `o` of a straight piece from `(-2, 0)` to `(2, 0)`, with one edge more, to `(0, 2)`. -/
def exStar : Store (Pt ℚ) :=
  let r1 := newWithEndPoints Store.empty (some ((0 : ℚ), (0 : ℚ))) (some ((2 : ℚ), (0 : ℚ)))
  let r2 := newWithEndPoints r1.1 (some (0, 0)) (some (0, 2))
  let s2 := splice r2.1 r1.2 r2.2
  let r3 := newWithEndPoints s2 (some (0, 0)) (some (-2, 0))
  splice r3.1 r2.2 r3.2

theorem exStar_reached : Reached exStar := by
  refine .splice _ _ (.newWithEndPoints _ _ (.splice _ _ (.newWithEndPoints _ _
    (.newWithEndPoints _ _ .empty)) ?_ ?_ ?_)) ?_ ?_ ?_
  all_goals decide

theorem exStar_around {y : E} (h : Around exStar ⟨0, 0⟩ y) : y = ⟨0, 0⟩ ∨ y = ⟨1, 0⟩ ∨ y = ⟨2, 0⟩ := by
  induction h with
  | refl => left; rfl
  | next _ ih =>
    rcases ih with rfl | rfl | rfl
    · right; left; decide
    · right; right; decide
    · left; decide

theorem exStar_star : Star exStar ⟨0, 0⟩ ((0 : ℚ), (0 : ℚ)) := by
  refine ⟨by decide, ?_⟩
  intro y hy
  rcases exStar_around hy with rfl | rfl | rfl
  · exact ⟨by decide +kernel, (2, 0), by decide +kernel, by decide +kernel⟩
  · exact ⟨by decide +kernel, (0, 2), by decide +kernel, by decide +kernel⟩
  · exact ⟨by decide +kernel, (-2, 0), by decide +kernel, by decide +kernel⟩

example : Reached exStar ∧ Star exStar ⟨0, 0⟩ ((0 : ℚ), (0 : ℚ)) ∧
    (∀ x a b, Around exStar ⟨0, 0⟩ x → dest exStar x = some a → dest exStar (onext exStar x) = some b →
      Spec.Planar.Colinear ((0 : ℚ), (0 : ℚ)) a b → Spec.Planar.Colinear (0, 0) a (-1, 3) →
      Along (0, 0) a (-1, 3) ∨ Toward (0, 0) b (-1, 3)) ∧
    resolveEdge (fun p q => p == q) false exStar ⟨0, 0⟩ (-1, 3) = .edge ⟨1, 0⟩ ∧
    resolveEdge (fun p q => p == q) false exStar ⟨0, 0⟩ (0, 3) = .colinear ⟨1, 0⟩ ∧
    resolveEdge (fun p q => p == q) false exStar ⟨0, 0⟩ (0, -3) = .edge ⟨2, 0⟩ ∧
    resolveEdge (fun p q => p == q) true exStar ⟨0, 0⟩ (0, -3) = .edge ⟨0, 0⟩ := by
  refine ⟨exStar_reached, exStar_star, ?_, by decide +kernel, by decide +kernel, by decide +kernel,
    by decide +kernel⟩
  intro x a b hx ha hb h1 h2
  exfalso
  unfold Spec.Planar.Colinear at h1 h2
  rcases exStar_around hx with rfl | rfl | rfl
  · obtain rfl := Option.some.inj ((show dest exStar ⟨0, 0⟩ = some (2, 0) by decide +kernel).symm.trans ha)
    norm_num at h2
  · obtain rfl := Option.some.inj ((show dest exStar ⟨1, 0⟩ = some (0, 2) by decide +kernel).symm.trans ha)
    norm_num at h2
  · obtain rfl := Option.some.inj ((show dest exStar ⟨2, 0⟩ = some (-2, 0) by decide +kernel).symm.trans ha)
    norm_num at h2

/-- **C128** does not hold in general: with the two halves of a straight line one after the other, a point
that lies beyond the end of the first half is said to lie on the second half, on the other side. -/
theorem C128_violated : ¬ C128_full := by
  intro h
  have star : Star exStar ⟨2, 0⟩ ((0 : ℚ), (0 : ℚ)) := by
    refine ⟨by decide, fun y hy => exStar_star.2 y ?_⟩
    have h1 : Around exStar ⟨0, 0⟩ ⟨2, 0⟩ := by
      have : Around exStar ⟨0, 0⟩ (onext exStar (onext exStar ⟨0, 0⟩)) := .next (.next .refl)
      exact this
    induction hy with
    | refl => exact h1
    | next _ ih => exact .next ih
  obtain ⟨x, hx, h1⟩ := h false exStar exStar_reached ⟨2, 0⟩ (by decide) (0, 0) star (-3, 0) (by decide +kernel)
  have hv : resolveEdge (fun p q => p == q) false exStar ⟨2, 0⟩ ((-3 : ℚ), (0 : ℚ)) = .colinear ⟨0, 0⟩ := by
    decide +kernel
  rw [hv] at h1
  rcases h1 with ⟨h1, _⟩ | ⟨h1, a, ha, t, ht, h2⟩
  · cases h1
  · obtain rfl : (⟨0, 0⟩ : E) = x := by injection h1
    obtain rfl := Option.some.inj ((show dest exStar ⟨0, 0⟩ = some (2, 0) by decide +kernel).symm.trans ha)
    unfold arrow at h2
    rw [Prod.mk.injEq] at h2
    have := h2.1
    norm_num at this
    linarith

/-- **C128**: for the origin itself, or a point the comparer takes for it, the answer is
`ErrInvalidEndVertex`, whatever the edges. -/
theorem C128_same_point (peq : Pt K → Pt K → Bool) (yd : Bool) (s : Store (Pt K)) (e : E) (o d : Pt K)
    (ho : orig s e = some o) : resolveEdge peq yd s e d = .invalidEnd ↔ peq o d = true := by
  unfold resolveEdge
  rw [ho]
  simp only
  by_cases c : peq o d = true
  · simp [c]
  · rw [if_neg c]
    exact iff_of_false (resolveLoop_valid _ _ _ _ _ _ _) c

example : resolveEdge (fun p q => p == q) false exStar ⟨0, 0⟩ ((0 : ℚ), (0 : ℚ)) = .invalidEnd := by
  decide +kernel

/-! ## C129 -/

/-- **C129**: `RightOf` says whether the point is strictly to the right of the edge. -/
theorem C129_right_of (yd : Bool) (s : Store (Pt K)) (x o d : Pt K) (e : E) (ho : orig s e = some o)
    (hd : dest s e = some d) : rightOf yd s x e = true ↔ RightSide yd x o d := by
  unfold rightOf RightSide
  rw [ho, hd]
  simp only [orientation_wedge3]
  rcases sgn_cases (wedge yd (arrow o d) (arrow o x)) with ⟨h1, h2⟩ | ⟨h1, h2⟩ | ⟨h1, h2⟩
  · rw [h2]; exact iff_of_false (by decide) (not_lt_of_gt h1)
  · rw [h2]; exact iff_of_true (by decide) h1
  · rw [h2, h1]; exact iff_of_false (by decide) (lt_irrefl _)

example : rightOf false exStar ((1 : ℚ), (-1 : ℚ)) ⟨0, 0⟩ = true ∧
    rightOf true exStar ((1 : ℚ), (-1 : ℚ)) ⟨0, 0⟩ = false ∧
    rightOf false exStar ((1 : ℚ), (0 : ℚ)) ⟨0, 0⟩ = false := by decide +kernel

/-- **C129**: `Classify(a, b, c)` says where `a` lies as seen along the line from `b` to `c` (`y` upwards):
left, right, or on the line before `b`, in `b`, between `b` and `c`, in `c`, or after `c`. -/
theorem C129_classify (a b c : Pt K) (h : b ≠ c) :
    let r := classify (fun p q => p == q) a b c
    (r = .left ↔ 0 < wedge false (arrow b c) (arrow b a)) ∧
    (r = .right ↔ wedge false (arrow b c) (arrow b a) < 0) ∧
    (r = .behind ↔ ∃ t, t < 0 ∧ AtParam a b c t) ∧
    (r = .origin ↔ a = b) ∧
    (r = .between ↔ ∃ t, 0 < t ∧ t < 1 ∧ AtParam a b c t) ∧
    (r = .destination ↔ a = c) ∧
    (r = .beyond ↔ ∃ t, 1 < t ∧ AtParam a b c t) := by
  intro r
  have hu : arrow b c ≠ (0, 0) := arrow_ne (Ne.symm h)
  have par : ∀ t t' : K, AtParam a b c t → AtParam a b c t' → t = t' := by
    intro t t' h1 h2
    apply smul_eq_self hu
    unfold AtParam at h1 h2
    rw [h1] at h2
    rw [Prod.mk.injEq] at h2
    unfold arrow
    exact Prod.ext (by linarith [h2.1]) (by linarith [h2.2])
  have onl : ∀ t, AtParam a b c t → wedge false (arrow b c) (arrow b a) = 0 := by
    intro t h1
    rw [h1]; simp [wedge, arrow]; ring
  have at0 : AtParam b b c 0 := by unfold AtParam; simp
  have at1 : AtParam c b c 1 := by unfold AtParam; simp
  rcases classify_spec a b c h with ⟨e, h1⟩ | ⟨e, h1⟩ | ⟨t, ht, h1⟩
  · rw [show r = _ from e]
    refine ⟨iff_of_true rfl h1, iff_of_false (by simp) (not_lt_of_gt h1), iff_of_false (by simp) ?_,
      iff_of_false (by simp) ?_, iff_of_false (by simp) ?_, iff_of_false (by simp) ?_,
      iff_of_false (by simp) ?_⟩
    · rintro ⟨t, _, h2⟩; rw [onl t h2] at h1; exact lt_irrefl _ h1
    · rintro rfl; rw [onl 0 at0] at h1; exact lt_irrefl _ h1
    · rintro ⟨t, _, _, h2⟩; rw [onl t h2] at h1; exact lt_irrefl _ h1
    · rintro rfl; rw [onl 1 at1] at h1; exact lt_irrefl _ h1
    · rintro ⟨t, _, h2⟩; rw [onl t h2] at h1; exact lt_irrefl _ h1
  · rw [show r = _ from e]
    refine ⟨iff_of_false (by simp) (not_lt_of_gt h1), iff_of_true rfl h1, iff_of_false (by simp) ?_,
      iff_of_false (by simp) ?_, iff_of_false (by simp) ?_, iff_of_false (by simp) ?_,
      iff_of_false (by simp) ?_⟩
    · rintro ⟨t, _, h2⟩; rw [onl t h2] at h1; exact lt_irrefl _ h1
    · rintro rfl; rw [onl 0 at0] at h1; exact lt_irrefl _ h1
    · rintro ⟨t, _, _, h2⟩; rw [onl t h2] at h1; exact lt_irrefl _ h1
    · rintro rfl; rw [onl 1 at1] at h1; exact lt_irrefl _ h1
    · rintro ⟨t, _, h2⟩; rw [onl t h2] at h1; exact lt_irrefl _ h1
  · rw [onl t ht]
    have e0 : a = b ↔ t = 0 := by
      constructor
      · rintro rfl; exact par _ _ ht at0
      · rintro rfl; rw [show a = _ from ht]; simp
    have e1 : a = c ↔ t = 1 := by
      constructor
      · rintro rfl; exact par _ _ ht at1
      · rintro rfl; rw [show a = _ from ht]; simp
    have ex : ∀ p : K → Prop, (∃ t, p t ∧ AtParam a b c t) ↔ p t := by
      intro p
      constructor
      · rintro ⟨t', h2, h3⟩; rw [par _ _ ht h3]; exact h2
      · intro h2; exact ⟨t, h2, ht⟩
    have ex2 : (∃ t, 0 < t ∧ t < 1 ∧ AtParam a b c t) ↔ 0 < t ∧ t < 1 := by
      rw [← ex (fun t => 0 < t ∧ t < 1)]; simp only [and_assoc]
    rw [ex2, ex (fun t => t < 0), ex (fun t => 1 < t), e0, e1, show r = _ from h1]
    simp only [lt_irrefl, iff_false]
    rcases lt_trichotomy t 0 with c | c | c
    · have : ¬ 0 < t := not_lt_of_gt c
      have : ¬ 1 < t := by intro; linarith
      have : t ≠ 0 := ne_of_lt c
      have : t ≠ 1 := by rintro rfl; linarith
      simp [*]
    · subst c
      have : ¬ (1 : K) < 0 := not_lt_of_gt one_pos
      simp [this]
    · have : ¬ t < 0 := not_lt_of_gt c
      have h0 : t ≠ 0 := ne_of_gt c
      rcases lt_trichotomy t 1 with g | g | g
      · have : ¬ 1 < t := not_lt_of_gt g
        have : t ≠ 1 := ne_of_lt g
        simp [*]
      · subst g; simp [this]
      · have : ¬ t < 1 := not_lt_of_gt g
        have : t ≠ 1 := ne_of_gt g
        simp [*]

example : (((4 : ℚ), (2 : ℚ)) ≠ (8, 4)) ∧
    classify (fun p q => p == q) ((0 : ℚ), (0 : ℚ)) (4, 2) (8, 4) = .behind ∧
    classify (fun p q => p == q) ((6 : ℚ), (3 : ℚ)) (4, 2) (8, 4) = .between ∧
    classify (fun p q => p == q) ((5 : ℚ), (3 : ℚ)) (4, 2) (8, 4) = .left := by decide +kernel

end Verif.Props
