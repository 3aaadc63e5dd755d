import Verif.Lemmas.SubWalk
import Verif.Lemmas.Resolve
import Mathlib.Tactic.Ring
import Mathlib.Tactic.Linarith
import Mathlib.Tactic.LinearCombination
import Mathlib.Tactic.FieldSimp

/-!
# Helper lemmas: finding the triangle of a point
-/

namespace Verif.Lemmas.SubLocate
open Verif.Quad Verif.Spec.Quad Verif.Lemmas.Quad Verif.Subdivision Verif.Spec.Subdivision
open Verif.Resolve Verif.Spec.Resolve Verif.Lemmas.Resolve Verif.Lemmas.SubWalk

set_option linter.unusedSectionVars false

variable {K : Type} [Field K] [LinearOrder K]

theorem loop_around {yd : Bool} {s : Store (Pt K)} {o d : Pt K} {gse : E} :
    ∀ (fuel : Nat) (seen : List Nat) (e : E), Around s gse e → ∀ y,
      (resolveLoop yd s o d fuel seen e).candidate = some y → Around s gse y := by
  intro fuel
  induction fuel with
  | zero => intro seen e he y h; simp [resolveLoop, Resolved.candidate] at h
  | succ n ih =>
    intro seen e he y h
    rw [resolveLoop] at h
    split_ifs at h with hq
    · cases h
    · cases h1 : dest s e with
      | none => rw [h1] at h; cases h
      | some a =>
        cases h2 : dest s (onext s e) with
        | none => rw [h1, h2] at h; cases h
        | some b =>
          simp only [h1, h2] at h
          cases h3 : resolveStep yd o a b d with
          | next => rw [h3] at h; exact ih _ _ he.next y h
          | a => rw [h3] at h; obtain rfl := Option.some.inj h; exact he
          | errA => rw [h3] at h; obtain rfl := Option.some.inj h; exact he
          | errB => rw [h3] at h; obtain rfl := Option.some.inj h; exact he.next
          | errEdge => rw [h3] at h; obtain rfl := Option.some.inj h; exact he

theorem resolve_around {peq : Pt K → Pt K → Bool} {yd : Bool} {s : Store (Pt K)} {gse y : E} {d : Pt K}
    (h : (resolveEdge peq yd s gse d).candidate = some y) : Around s gse y := by
  unfold resolveEdge at h
  cases h1 : orig s gse with
  | none => rw [h1] at h; cases h
  | some o =>
    simp only [h1] at h
    split_ifs at h with h2
    · cases h
    · exact loop_around _ _ _ .refl y h

theorem around_connected {s : Store (Pt K)} {x y z : E} (h1 : Connected s x y) (h2 : Around s y z) :
    Connected s x z := by
  induction h2 with
  | refl => exact h1
  | next _ ih => exact .next ih

theorem oprev_connected {s : Store (Pt K)} (hi : Inv s) {x y : E} (h : Connected s x y) :
    Connected s x (oprev s y) :=
  around_connected h (hi.around_symm (by
    have : Around s (oprev s y) (onext s (oprev s y)) := .next .refl
    unfold onext at this
    rwa [hi.next_oprev] at this))

theorem lnext_connected {s : Store (Pt K)} (hi : Inv s) {x y : E} (h : Connected s x y) :
    Connected s x (lnext s y) := by
  rw [Inv.lnext_eq]; exact oprev_connected hi h.sym

theorem dprev_eq (s : Store (Pt K)) (e : E) : dprev s e = sym (lnext s e) := by
  unfold dprev lnext
  rw [sym_rot']

theorem test_connected {yd : Bool} {s : Store (Pt K)} (hi : Inv s) {z e : E} {x : Pt K}
    (h : Connected s z e) : Connected s z (testEdge yd s x e).1 := by
  unfold testEdge
  split_ifs
  · exact h
  · exact h.sym
  · exact h.next
  · rw [dprev_eq]; exact (lnext_connected hi h).sym
  · exact h

/-- What the edge found has passed. -/
def Passed (yd : Bool) (s : Store (Pt K)) (x : Pt K) (e : E) : Prop :=
  ptEqual x (orig s e) = true ∨ ptEqual x (dest s e) = true ∨
    (rightOf yd s x e = false ∧ rightOf yd s x (onext s e) = true ∧ rightOf yd s x (dprev s e) = true)

theorem test_passed {yd : Bool} {s : Store (Pt K)} {x : Pt K} {e : E} (h : (testEdge yd s x e).2 = true) :
    (testEdge yd s x e).1 = e ∧ Passed yd s x e := by
  unfold testEdge at h ⊢
  unfold Passed
  split_ifs at h ⊢ with h1 h2 h3 h4
  · rw [Bool.or_eq_true] at h1
    exact ⟨rfl, by tauto⟩
  · refine ⟨rfl, Or.inr (Or.inr ⟨by simpa using h2, ?_, ?_⟩)⟩
    · simpa using h3
    · simpa using h4

theorem locateLoop_sound {yd : Bool} {s : Store (Pt K)} (hi : Inv s) {z se : E} {x : Pt K} :
    ∀ (fuel : Nat) (e y : E), Connected s z e → locateLoop yd s x se fuel e = some y →
      Connected s z y ∧ Passed yd s x y := by
  intro fuel
  induction fuel with
  | zero =>
    intro e y he h
    rw [locateLoop] at h
    split_ifs at h with h1
    obtain ⟨g1, g2⟩ := test_passed h1
    obtain rfl := Option.some.inj h
    rw [g1]; exact ⟨he, g2⟩
  | succ n ih =>
    intro e y he h
    rw [locateLoop] at h
    split_ifs at h with h1 h2
    · obtain ⟨g1, g2⟩ := test_passed h1
      obtain rfl := Option.some.inj h
      rw [g1]; exact ⟨he, g2⟩
    · exact ih _ y (test_connected hi he) h

theorem locate_sound {yd : Bool} {s : Store (Pt K)} (hi : Inv s) {se y : E} {x : Pt K} {limit : Nat}
    (h : locate yd s se x limit = some y) : Connected s se y ∧ Passed yd s x y := by
  unfold locate at h
  cases h1 : (resolveEdge (fun p q => decide (p = q)) yd s se x).candidate with
  | none => rw [h1] at h; cases h
  | some e =>
    rw [h1] at h
    exact locateLoop_sound hi _ _ _ (around_connected .refl (resolve_around h1)) h

section Ordered
variable [IsStrictOrderedRing K]

theorem rightOf_iff {yd : Bool} {s : Store (Pt K)} {x o d : Pt K} {e : E} (ho : orig s e = some o)
    (hd : dest s e = some d) : rightOf yd s x e = true ↔ wedge yd (arrow o d) (arrow o x) < 0 := by
  unfold rightOf
  rw [ho, hd]
  simp only [beq_iff_eq]
  rw [orientation_wedge3]
  rcases sgn_cases (wedge yd (arrow o d) (arrow o x)) with ⟨h1, h2⟩ | ⟨h1, h2⟩ | ⟨h1, h2⟩ <;>
    rw [h2] <;> simp [Winding.clockwise] <;> linarith

theorem wedge_cycle (yd : Bool) (a b c : Pt K) :
    wedge yd (arrow b c) (arrow b a) = wedge yd (arrow a b) (arrow a c) := by
  unfold wedge arrow; cases yd <;> simp <;> ring

theorem wedge_sum (yd : Bool) (o d t x : Pt K) :
    wedge yd (arrow o d) (arrow o t) = wedge yd (arrow o d) (arrow o x) + wedge yd (arrow d t) (arrow d x)
      + wedge yd (arrow t o) (arrow t x) := by
  unfold wedge arrow; cases yd <;> simp <;> ring

/-- The weights of a point, by the areas. -/
theorem inside_iff {yd : Bool} {o d t x : Pt K} (h : 0 < wedge yd (arrow o d) (arrow o t)) :
    InsideOrOnFirst x o d t ↔ 0 ≤ wedge yd (arrow o d) (arrow o x) ∧
      0 < wedge yd (arrow d t) (arrow d x) ∧ 0 < wedge yd (arrow t o) (arrow t x) := by
  have hW : wedge yd (arrow o d) (arrow o t) ≠ 0 := h.ne'
  constructor
  · rintro ⟨u, v, w, hu, hv, hw, hs, rfl⟩
    have e1 : wedge yd (arrow o d) (arrow o (u * o.1 + v * d.1 + w * t.1, u * o.2 + v * d.2 + w * t.2)) =
        w * wedge yd (arrow o d) (arrow o t) := by
      have : u = 1 - v - w := by linarith
      subst this
      unfold wedge arrow; cases yd <;> simp <;> ring
    have e2 : wedge yd (arrow d t) (arrow d (u * o.1 + v * d.1 + w * t.1, u * o.2 + v * d.2 + w * t.2)) =
        u * wedge yd (arrow o d) (arrow o t) := by
      have : v = 1 - u - w := by linarith
      subst this
      unfold wedge arrow; cases yd <;> simp <;> ring
    have e3 : wedge yd (arrow t o) (arrow t (u * o.1 + v * d.1 + w * t.1, u * o.2 + v * d.2 + w * t.2)) =
        v * wedge yd (arrow o d) (arrow o t) := by
      have : w = 1 - u - v := by linarith
      subst this
      unfold wedge arrow; cases yd <;> simp <;> ring
    rw [e1, e2, e3]
    exact ⟨mul_nonneg hw h.le, mul_pos hu h, mul_pos hv h⟩
  · rintro ⟨h1, h2, h3⟩
    have hs := wedge_sum yd o d t x
    refine ⟨wedge yd (arrow d t) (arrow d x) / wedge yd (arrow o d) (arrow o t),
      wedge yd (arrow t o) (arrow t x) / wedge yd (arrow o d) (arrow o t),
      wedge yd (arrow o d) (arrow o x) / wedge yd (arrow o d) (arrow o t),
      div_pos h2 h, div_pos h3 h, div_nonneg h1 h.le, ?_, ?_⟩
    · rw [← add_div, ← add_div, div_eq_one_iff_eq hW]; linarith
    · refine Prod.ext ?_ ?_
      · simp only
        rw [div_mul_eq_mul_div, div_mul_eq_mul_div, div_mul_eq_mul_div, ← add_div, ← add_div, eq_div_iff hW]
        unfold wedge arrow; cases yd <;> simp <;> ring
      · simp only
        rw [div_mul_eq_mul_div, div_mul_eq_mul_div, div_mul_eq_mul_div, ← add_div, ← add_div, eq_div_iff hW]
        unfold wedge arrow; cases yd <;> simp <;> ring

/-- In a triangle, the next edge round the origin is the third side, backwards. -/
theorem onext_of_three {s : Store (Pt K)} (hi : Inv s) {e : E} (h : ThreeSided s e) :
    onext s e = sym (lnext s (lnext s e)) := by
  unfold onext
  have := next_lnext hi (lnext s (lnext s e))
  rw [h.1] at this
  exact this

theorem passed_inside {yd : Bool} {s : Store (Pt K)} (hi : Inv s) (ha : OriginsAgree s) {e : E}
    (k : Primal e) {o d t x : Pt K} (hf : FaceOf s e o d t) (hp : Passed yd s x e) :
    x = o ∨ x = d ∨ (Turns yd o d t ∧ InsideOrOnFirst x o d t) := by
  obtain ⟨h3, ho, hd, ht⟩ := hf
  have hd' : dest s e = some d := by
    unfold dest
    have := ha (lnext s e) (sym e) ((inv_lnext_kind hi e).2 k) (by
      rw [← next_lnext hi e]; exact .next .refl)
    rw [this, hd]
  rcases hp with h | h | ⟨h1, h2, h4⟩
  · rw [ho] at h; left; simpa [ptEqual] using h
  · rw [hd'] at h; right; left; simpa [ptEqual] using h
  · right; right
    have g1 : 0 ≤ wedge yd (arrow o d) (arrow o x) := by
      by_contra hc
      rw [(rightOf_iff ho hd').2 (not_le.1 hc)] at h1
      cases h1
    have e2 : orig s (onext s e) = some o := by
      rw [← ho]; exact ha e _ k (.next .refl)
    have e3 : dest s (onext s e) = some t := by
      unfold dest; rw [onext_of_three hi h3, sym_sym, ht]
    have g2 := (rightOf_iff e2 e3).1 h2
    have e4 : orig s (dprev s e) = some t := by
      rw [dprev_eq]
      have k1 := (inv_lnext_kind hi e).2 k
      have := ha (lnext s (lnext s e)) (sym (lnext s e)) ((inv_lnext_kind hi _).2 k1) (by
        rw [← next_lnext hi (lnext s e)]; exact .next .refl)
      rw [this, ht]
    have e5 : dest s (dprev s e) = some d := by
      rw [dprev_eq]; unfold dest; rw [sym_sym, hd]
    have g3 := (rightOf_iff e4 e5).1 h4
    have f2 : 0 < wedge yd (arrow t o) (arrow t x) := by
      have : wedge yd (arrow t o) (arrow t x) = - wedge yd (arrow o t) (arrow o x) := by
        unfold wedge arrow; cases yd <;> simp <;> ring
      linarith
    have f3 : 0 < wedge yd (arrow d t) (arrow d x) := by
      have : wedge yd (arrow d t) (arrow d x) = - wedge yd (arrow t d) (arrow t x) := by
        unfold wedge arrow; cases yd <;> simp <;> ring
      linarith
    have hs := wedge_sum yd o d t x
    have hW : 0 < wedge yd (arrow o d) (arrow o t) := by linarith
    exact ⟨hW, (inside_iff hW).2 ⟨g1, f3, f2⟩⟩

end Ordered

end Verif.Lemmas.SubLocate
