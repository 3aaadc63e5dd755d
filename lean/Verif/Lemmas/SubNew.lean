import Verif.Lemmas.SubWalk
import Verif.Props.QuadEdge
import Verif.Lemmas.Resolve
import Mathlib.Tactic.Ring
import Mathlib.Tactic.Linarith
import Mathlib.Tactic.LinearCombination
import Mathlib.Tactic.FieldSimp
import Mathlib.Tactic.IntervalCases
import Mathlib.Tactic.NormNum

/-!
# Helper lemmas: the first triangle of a subdivision
-/

namespace Verif.Lemmas.SubNew
open Verif.Quad Verif.Spec.Quad Verif.Lemmas.Quad Verif.Subdivision Verif.Spec.Subdivision
open Verif.Resolve Verif.Spec.Resolve Verif.Lemmas.Resolve

set_option linter.unusedSectionVars false
set_option linter.unnecessarySeqFocus false

/-! The links do not depend on the points. -/

theorem splice_links {P Q : Type} {s : Store P} {t : Store Q} (h : s.next = t.next) (a b : E) :
    (splice s a b).next = (splice t a b).next := by
  unfold splice onext
  rw [h]

theorem new_links {P Q : Type} {s : Store P} {t : Store Q} (h : s.next = t.next) (hs : s.size = t.size) :
    (new s).1.next = (new t).1.next := by
  unfold new
  rw [h, hs]

variable {K : Type} [Field K] [LinearOrder K]

theorem newStore_reached (a b c : Pt K) : Reached (newStore a b c) := by
  refine .splice _ _ (.splice _ _ (.newWithEndPoints _ _ (.endPoints _ _ _
    (.splice _ _ (.new (.newWithEndPoints _ _ .empty)) ?_ ?_ ?_) ?_)) ?_ ?_ ?_) ?_ ?_ ?_
  all_goals first
    | exact (show (0 : Nat) < 2 by decide)
    | exact (show (1 : Nat) < 2 by decide)
    | exact (show (0 : Nat) < 3 by decide)
    | exact (show (1 : Nat) < 3 by decide)
    | exact (show (2 : Nat) < 3 by decide)
    | exact (show SameKind ⟨0, 2⟩ ⟨1, 0⟩ by decide)

theorem newStore_size (a b c : Pt K) : (newStore a b c).size = 3 := rfl

theorem newStore_links (a b c : Pt K) : (newStore a b c).next = Props.exTriangle.next := by
  unfold newStore Props.exTriangle
  dsimp only
  apply splice_links
  apply splice_links
  refine new_links (s := endPoints _ _ _ _) (t := endPoints _ _ _ _) ?_ rfl
  refine splice_links (s := (new _).1) (t := (new _).1) ?_ _ _
  exact new_links (new_links (P := Pt K) (Q := Nat) rfl rfl) rfl

theorem newStore_next (a b c : Pt K) :
    (newStore a b c).next ⟨0, 0⟩ = ⟨2, 2⟩ ∧ (newStore a b c).next ⟨2, 2⟩ = ⟨0, 0⟩ ∧
    (newStore a b c).next ⟨1, 0⟩ = ⟨0, 2⟩ ∧ (newStore a b c).next ⟨0, 2⟩ = ⟨1, 0⟩ ∧
    (newStore a b c).next ⟨2, 0⟩ = ⟨1, 2⟩ ∧ (newStore a b c).next ⟨1, 2⟩ = ⟨2, 0⟩ := by
  rw [newStore_links]; decide

theorem newStore_lnext (a b c : Pt K) :
    lnext (newStore a b c) ⟨0, 0⟩ = ⟨1, 0⟩ ∧ lnext (newStore a b c) ⟨1, 0⟩ = ⟨2, 0⟩ ∧
    lnext (newStore a b c) ⟨2, 0⟩ = ⟨0, 0⟩ ∧ lnext (newStore a b c) ⟨0, 2⟩ = ⟨2, 2⟩ ∧
    lnext (newStore a b c) ⟨2, 2⟩ = ⟨1, 2⟩ ∧ lnext (newStore a b c) ⟨1, 2⟩ = ⟨0, 2⟩ := by
  unfold lnext onext; rw [newStore_links]; decide

theorem newStore_orig (a b c : Pt K) :
    orig (newStore a b c) ⟨0, 0⟩ = some a ∧ orig (newStore a b c) ⟨1, 0⟩ = some b ∧
    orig (newStore a b c) ⟨2, 0⟩ = some c ∧ orig (newStore a b c) ⟨0, 2⟩ = some b ∧
    orig (newStore a b c) ⟨1, 2⟩ = some c ∧ orig (newStore a b c) ⟨2, 2⟩ = some a := by
  refine ⟨rfl, rfl, rfl, rfl, rfl, rfl⟩

theorem six {e : E} (h : e.q < 3) (k : Primal e) :
    e = ⟨0, 0⟩ ∨ e = ⟨1, 0⟩ ∨ e = ⟨2, 0⟩ ∨ e = ⟨0, 2⟩ ∨ e = ⟨1, 2⟩ ∨ e = ⟨2, 2⟩ := by
  obtain ⟨q, n⟩ := e
  unfold Primal at k
  simp only at h k
  interval_cases q <;> rcases k with rfl | rfl <;> simp

theorem newStore_agree (a b c : Pt K) : OriginsAgree (newStore a b c) := by
  have hi := Reached.inv (newStore_reached a b c)
  obtain ⟨o1, o2, o3, o4, o5, o6⟩ := newStore_orig a b c
  obtain ⟨n1, n2, n3, n4, n5, n6⟩ := newStore_next a b c
  intro x y k hy
  induction hy with
  | refl => rfl
  | @next y hy ih =>
    rw [← ih]
    have ky := (around_primal hi hy).2 k
    by_cases hq : y.q < 3
    · unfold onext
      rcases six hq ky with rfl | rfl | rfl | rfl | rfl | rfl
      · rw [n1, o1, o6]
      · rw [n3, o2, o4]
      · rw [n5, o3, o5]
      · rw [n4, o2, o4]
      · rw [n6, o3, o5]
      · rw [n2, o1, o6]
    · have : onext (newStore a b c) y = y := by
        show (newStore a b c).next y = y
        rw [hi.fresh y (by rw [newStore_size]; omega)]
        obtain ⟨q, n⟩ := y
        rcases ky with h | h <;> (simp only at h; subst h; rfl)
      rw [this]

/-- What is connected to an edge of the first triangle: its six directed edges. -/
theorem newStore_connected (a b c : Pt K) {x y : E} (hx : x.q < 3) (kx : Primal x) :
    Connected (newStore a b c) x y ↔ y.q < 3 ∧ Primal y := by
  have hi := Reached.inv (newStore_reached a b c)
  obtain ⟨n1, n2, n3, n4, n5, n6⟩ := newStore_next a b c
  constructor
  · intro h
    exact ⟨SubWalk.connected_alloc hi h hx, (SubWalk.connected_primal hi h).2 kx⟩
  · rintro ⟨hy, ky⟩
    have A : ∀ {u v : E}, Connected (newStore a b c) x u → (newStore a b c).next u = v →
      Connected (newStore a b c) x v := by
      rintro u v h rfl; exact .next h
    have B : ∀ {u v : E}, Connected (newStore a b c) x u → sym u = v →
      Connected (newStore a b c) x v := by
      rintro u v h rfl; exact .sym h
    have C : Connected (newStore a b c) x ⟨0, 0⟩ := by
      have r : Connected (newStore a b c) x x := .refl
      rcases six hx kx with rfl | rfl | rfl | rfl | rfl | rfl
      · exact r
      · exact B (A r n3) rfl
      · exact A (B r rfl) n2
      · exact B r rfl
      · exact A (B (A r n6) rfl) n2
      · exact A r n2
    have C02 := B (v := ⟨0, 2⟩) C rfl
    have C22 := A C n1
    have C20 := B (v := ⟨2, 0⟩) C22 rfl
    have C10 := A C02 n4
    have C12 := B (v := ⟨1, 2⟩) C10 rfl
    rcases six hy ky with rfl | rfl | rfl | rfl | rfl | rfl <;> assumption

section Ordered
variable [IsStrictOrderedRing K]

theorem center_arrow (a b c : Pt K) :
    arrow a (center a b c) = (3⁻¹ * ((arrow a b).1 + (arrow a c).1), 3⁻¹ * ((arrow a b).2 + (arrow a c).2)) := by
  unfold arrow center
  refine Prod.ext ?_ ?_ <;> simp only <;> field_simp <;> ring

theorem center_wedge (yd : Bool) (a b c : Pt K) :
    wedge yd (arrow a (center a b c)) (arrow a b) = -(3⁻¹ * wedge yd (arrow a b) (arrow a c)) ∧
    wedge yd (arrow a (center a b c)) (arrow a c) = 3⁻¹ * wedge yd (arrow a b) (arrow a c) := by
  rw [center_arrow]
  unfold wedge
  cases yd <;> simp <;> constructor <;> ring

theorem wedge_colinear (yd : Bool) (a b c : Pt K) :
    wedge yd (arrow a b) (arrow a c) = 0 ↔ Spec.Planar.Colinear a b c := by
  unfold wedge arrow Spec.Planar.Colinear
  cases yd <;> simp <;> constructor <;> intro h <;> linarith

/-- The step when all turns are known by their signs. -/
theorem step_pos (yd : Bool) (o a b d : Pt K) (h1 : 0 < wedge yd (arrow o a) (arrow o b))
    (h2 : wedge yd (arrow o d) (arrow o a) < 0) (h3 : 0 < wedge yd (arrow o d) (arrow o b)) :
    resolveStep yd o a b d = .a := by
  have s1 : sgn (wedge yd (arrow o a) (arrow o b)) = 1 := by simp [sgn, h1]
  have s2 : sgn (wedge yd (arrow o d) (arrow o a)) = -1 := by simp [sgn, h2, not_lt_of_gt h2]
  have s3 : sgn (wedge yd (arrow o d) (arrow o b)) = 1 := by simp [sgn, h3]
  rw [resolveStep_eq, s1, s2, s3]
  cases yd <;> rfl

theorem step_neg (yd : Bool) (o a b d : Pt K) (h1 : wedge yd (arrow o a) (arrow o b) < 0)
    (h2 : 0 < wedge yd (arrow o d) (arrow o a)) (h3 : wedge yd (arrow o d) (arrow o b) < 0) :
    resolveStep yd o a b d = .next := by
  have s1 : sgn (wedge yd (arrow o a) (arrow o b)) = -1 := by simp [sgn, h1, not_lt_of_gt h1]
  have s2 : sgn (wedge yd (arrow o d) (arrow o a)) = 1 := by simp [sgn, h2]
  have s3 : sgn (wedge yd (arrow o d) (arrow o b)) = -1 := by simp [sgn, h3, not_lt_of_gt h3]
  rw [resolveStep_eq, s1, s2, s3]
  cases yd <;> rfl

theorem step_zero (yd : Bool) (o a b d : Pt K) (h1 : wedge yd (arrow o a) (arrow o b) = 0)
    (h2 : wedge yd (arrow o d) (arrow o a) = 0) (h3 : wedge yd (arrow o d) (arrow o b) = 0) :
    resolveStep yd o a b d = .errA ∨ resolveStep yd o a b d = .errB := by
  rw [resolveStep_eq, h1, h2, h3]
  have s0 : sgn (0 : K) = 0 := by simp [sgn]
  rw [s0]
  cases Shapes.lineContainsPoint (o, a) d <;> cases yd <;> simp [resolveEdgeYUp, resolveEdgeYDown,
    Winding.counterClockwise, Winding.clockwise, Winding.colinear]

theorem resolve_first (yd : Bool) (a b c : Pt K) (h : resolveStep yd a b c (center a b c) ≠ .next) :
    resolveLoop yd (newStore a b c) a (center a b c) 3 [] ⟨0, 0⟩ =
      match resolveStep yd a b c (center a b c) with
      | .next => .nothing
      | .a => .edge ⟨0, 0⟩
      | .errA => .colinear ⟨0, 0⟩
      | .errB => .colinear ⟨2, 2⟩
      | .errEdge => .coincident ⟨0, 0⟩ := by
  obtain ⟨o1, o2, o3, o4, o5, o6⟩ := newStore_orig a b c
  rw [resolveLoop]
  have e1 : dest (newStore a b c) ⟨0, 0⟩ = some b := o4
  have e2 : onext (newStore a b c) ⟨0, 0⟩ = ⟨2, 2⟩ := (newStore_next a b c).1
  have e3 : dest (newStore a b c) ⟨2, 2⟩ = some c := o3
  simp only [e1, e2, e3, List.not_mem_nil, if_false]
  revert h
  cases resolveStep yd a b c (center a b c) <;> simp

theorem resolve_second (yd : Bool) (a b c : Pt K) (h : resolveStep yd a b c (center a b c) = .next)
    (h2 : resolveStep yd a c b (center a b c) = .a) :
    resolveLoop yd (newStore a b c) a (center a b c) 3 [] ⟨0, 0⟩ = .edge ⟨2, 2⟩ := by
  obtain ⟨o1, o2, o3, o4, o5, o6⟩ := newStore_orig a b c
  rw [resolveLoop]
  have e1 : dest (newStore a b c) ⟨0, 0⟩ = some b := o4
  have e2 : onext (newStore a b c) ⟨0, 0⟩ = ⟨2, 2⟩ := (newStore_next a b c).1
  have e3 : dest (newStore a b c) ⟨2, 2⟩ = some c := o3
  have e4 : onext (newStore a b c) ⟨2, 2⟩ = ⟨0, 0⟩ := (newStore_next a b c).2.1
  simp only [e1, e2, e3, List.not_mem_nil, if_false, h]
  rw [resolveLoop]
  simp [e1, e3, e4, h2]

theorem newSub_eq (yd : Bool) (a b c : Pt K) :
    newSub yd a b c =
      if 0 < wedge yd (arrow a b) (arrow a c) then some ⟨newStore a b c, ⟨0, 0⟩, 3, (a, b, c)⟩
      else if wedge yd (arrow a b) (arrow a c) < 0 then some ⟨newStore a b c, ⟨2, 2⟩, 3, (a, b, c)⟩
      else none := by
  unfold newSub resolveEdge
  rw [(newStore_orig a b c).1, newStore_size]
  simp only [decide_eq_true_eq]
  obtain ⟨c1, c2⟩ := center_wedge yd a b c
  have ne : ∀ (_ : wedge yd (arrow a b) (arrow a c) ≠ 0), a ≠ center a b c := by
    intro hw he
    rw [← he] at c2
    have : arrow a a = (0, 0) := by unfold arrow; simp
    rw [this] at c2
    apply hw
    have z : wedge yd (0, 0) (arrow a c) = 0 := by unfold wedge; cases yd <;> simp
    rw [z] at c2
    have : (3⁻¹ : K) ≠ 0 := by norm_num
    rcases mul_eq_zero.1 c2.symm with h | h
    · exact absurd h this
    · exact h
  have t3 : (0 : K) < 3⁻¹ := by norm_num
  rcases lt_trichotomy (wedge yd (arrow a b) (arrow a c)) 0 with h | h | h
  · rw [if_neg (ne h.ne), if_neg (not_lt_of_gt h), if_pos h]
    have e1 : resolveStep yd a b c (center a b c) = .next := by
      apply step_neg
      · exact h
      · rw [c1]; have := mul_pos_of_neg_of_neg (neg_neg_of_pos t3) h; linarith
      · rw [c2]; exact mul_neg_of_pos_of_neg t3 h
    have e2 : resolveStep yd a c b (center a b c) = .a := by
      apply step_pos
      · rw [wedge_swap]; linarith
      · rw [c2]; exact mul_neg_of_pos_of_neg t3 h
      · rw [c1]; have := mul_pos_of_neg_of_neg (neg_neg_of_pos t3) h; linarith
    rw [resolve_second yd a b c e1 e2]
  · rw [h, if_neg (lt_irrefl _), if_neg (lt_irrefl _)]
    split_ifs
    · rfl
    · rcases step_zero yd a b c (center a b c) h (by rw [c1, h]; simp) (by rw [c2, h]; simp) with g | g <;>
        rw [resolve_first yd a b c (by rw [g]; simp), g]
  · rw [if_neg (ne h.ne'), if_pos h]
    have e1 : resolveStep yd a b c (center a b c) = .a := by
      apply step_pos
      · exact h
      · rw [c1]; have := mul_pos t3 h; linarith
      · rw [c2]; exact mul_pos t3 h
    rw [resolve_first yd a b c (by rw [e1]; simp), e1]

end Ordered

end Verif.Lemmas.SubNew
