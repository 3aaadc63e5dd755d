import Verif.Model.SubTriangle
import Verif.Spec.SubTriangle
import Verif.Lemmas.Resolve
import Verif.Lemmas.SubFan
import Verif.Lemmas.SubInsert

/-!
# Lemmas on triangles of a subdivision
-/

namespace Verif.Lemmas.SubTriangle
open Verif Verif.Quad Verif.Spec.Quad Verif.Lemmas.Quad Verif.Subdivision Verif.Spec.Subdivision Verif.Resolve
open Verif.Spec.Resolve Verif.Lemmas.Resolve
open Verif.Spec.Planar (InTriangle)

variable {K : Type} [Field K] [LinearOrder K] [IsStrictOrderedRing K]

/-- Which side of the line from `a` to `b` the point is on. -/
def side (a b p : Pt K) : K := (b.1 - a.1) * (p.2 - a.2) - (b.2 - a.2) * (p.1 - a.1)

theorem wedge_side (a b p : Pt K) : wedge false (arrow a b) (arrow a p) = side a b p := rfl

theorem inTri_iff {a b c p : Pt K} (h : side a b c < 0) :
    InTriangle p a b c ↔ side a b p ≤ 0 ∧ side c a p ≤ 0 ∧ side b c p ≤ 0 := by
  constructor
  · rintro ⟨u, v, w, hu, hv, hw, h1, rfl⟩
    have hu' : u = 1 - v - w := by linarith
    have e0 : side a b (u * a.1 + v * b.1 + w * c.1, u * a.2 + v * b.2 + w * c.2) = w * side a b c := by
      unfold side; rw [hu']; ring
    have e1 : side c a (u * a.1 + v * b.1 + w * c.1, u * a.2 + v * b.2 + w * c.2) = v * side a b c := by
      unfold side; rw [hu']; ring
    have e2 : side b c (u * a.1 + v * b.1 + w * c.1, u * a.2 + v * b.2 + w * c.2) = u * side a b c := by
      unfold side; rw [hu']; ring
    rw [e0, e1, e2]
    exact ⟨mul_nonpos_of_nonneg_of_nonpos hw h.le, mul_nonpos_of_nonneg_of_nonpos hv h.le,
      mul_nonpos_of_nonneg_of_nonpos hu h.le⟩
  · rintro ⟨h0, h1, h2⟩
    refine ⟨side b c p / side a b c, side c a p / side a b c, side a b p / side a b c,
      div_nonneg_of_nonpos h2 h.le, div_nonneg_of_nonpos h1 h.le, div_nonneg_of_nonpos h0 h.le, ?_, ?_⟩
    · rw [← add_div, ← add_div, div_eq_one_iff_eq h.ne]
      unfold side; ring
    · have h' := h.ne
      refine Prod.ext ?_ ?_ <;> simp only <;> field_simp <;> unfold side <;> ring

theorem side_turn (a b c : Pt K) : side c a b = side a b c := by unfold side; ring

theorem inTri_turn {a b c p : Pt K} (h : side a b c < 0) : InTriangle p c a b ↔ InTriangle p a b c := by
  rw [inTri_iff h, inTri_iff (by rw [side_turn]; exact h)]
  tauto

/-- What one side says: on it, off the triangle, or go on. -/
theorem classify_in {a b c p : Pt K} (h : side a b c < 0) :
    match classify (fun p q => p == q) p a b with
    | .origin | .destination | .between => InTriangle p a b c
    | .left | .behind | .beyond => ¬ InTriangle p a b c
    | .right => side a b p < 0 := by
  have hne : a ≠ b := by
    rintro rfl
    unfold side at h
    simp at h
  rcases classify_spec p a b hne with ⟨e, h1⟩ | ⟨e, h1⟩ | ⟨t, ht, e⟩
  · rw [e]
    rw [wedge_side] at h1
    simp only [inTri_iff h]
    exact fun h2 => absurd h2.1 (not_le.2 h1)
  · rw [e]
    exact h1
  · have s0 : side a b p = 0 := by rw [ht]; unfold side; ring
    have s1 : side c a p = t * side a b c := by rw [ht]; unfold side; ring
    have s2 : side b c p = (1 - t) * side a b c := by rw [ht]; unfold side; ring
    have key : InTriangle p a b c ↔ 0 ≤ t ∧ t ≤ 1 := by
      rw [inTri_iff h, s0, s1, s2]
      constructor
      · rintro ⟨_, h1, h2⟩
        constructor
        · by_contra hc
          exact absurd h1 (not_le.2 (mul_pos_of_neg_of_neg (not_le.1 hc) h))
        · by_contra hc
          exact absurd h2 (not_le.2 (mul_pos_of_neg_of_neg (by linarith [not_le.1 hc]) h))
      · rintro ⟨h1, h2⟩
        exact ⟨le_rfl, mul_nonpos_of_nonneg_of_nonpos h1 h.le, mul_nonpos_of_nonneg_of_nonpos (by linarith) h.le⟩
    rw [e]
    split_ifs with h1 h2 h3 h4
    · exact fun h => absurd (key.1 h).1 (not_le.2 h1)
    · exact fun h => absurd (key.1 h).2 (not_le.2 h2)
    all_goals exact key.2 ⟨not_lt.1 h1, not_lt.1 h2⟩

section Walk
variable {s : Store (Pt K)} {yd : Bool} {e : E} {a b c : Pt K}

theorem sym_rnext (s : Store (Pt K)) (e : E) : sym (rnext s e) = lnext s (sym e) := by
  unfold rnext lnext
  rw [sym_invRot, invRot_sym]

/-- The ends of the three sides. -/
theorem ends (h : RightTriangle yd s e a b c) :
    (orig s e = some a ∧ dest s e = some b) ∧ (orig s (rnext s e) = some c ∧ dest s (rnext s e) = some a) ∧
    (orig s (rnext s (rnext s e)) = some b ∧ dest s (rnext s (rnext s e)) = some c) ∧
    rnext s (rnext s (rnext s e)) = e := by
  have hi := Reached.inv h.reached
  obtain ⟨⟨f1, f2⟩, f3, f4, f5⟩ := h.face
  have k0 : Primal (sym e) := (primal_sym e).2 h.primal
  have k1 : Primal (lnext s (sym e)) := (inv_lnext_kind hi _).2 k0
  have k2 : Primal (lnext s (lnext s (sym e))) := (inv_lnext_kind hi _).2 k1
  have d0 := SubFan.dest_lnext hi h.agree k0
  have d1 := SubFan.dest_lnext hi h.agree k1
  have d2 := SubFan.dest_lnext hi h.agree k2
  have o : ∀ x : E, orig s x = dest s (sym x) := fun x => by unfold dest; rw [sym_sym]
  have t1 := sym_rnext s e
  have t2 : sym (rnext s (rnext s e)) = lnext s (lnext s (sym e)) := by rw [sym_rnext, t1]
  have t3 : sym (rnext s (rnext s (rnext s e))) = lnext s (lnext s (lnext s (sym e))) := by rw [sym_rnext, t2]
  refine ⟨⟨?_, f3⟩, ⟨?_, ?_⟩, ⟨?_, ?_⟩, ?_⟩
  · rw [o, d0, f4]
  · rw [o, t1, d1, f5]
  · rw [← f4, ← t1]; rfl
  · rw [o, t2, d2, f1, f3]
  · rw [← f5, ← t2]; rfl
  · rw [f1] at t3
    exact sym_inj t3

theorem distinct (h : RightTriangle yd s e a b c) : a ≠ b ∧ b ≠ c ∧ a ≠ c := by
  have ht := h.turns
  unfold Turns wedge arrow at ht
  refine ⟨?_, ?_, ?_⟩ <;> rintro rfl <;> split_ifs at ht <;> simp [mul_comm] at ht

theorem rprev_third (h : RightTriangle yd s e a b c) : onext s (sym e) = rnext s (rnext s e) := by
  have hi := Reached.inv h.reached
  have e3 := (ends h).2.2.2
  have k : ∀ x : E, onext s (sym (rnext s x)) = x := by
    intro x
    have h1 := next_lnext hi (sym x)
    rw [sym_rnext]
    rw [sym_sym] at h1
    exact h1
  have := k (rnext s (rnext s e))
  rwa [e3] at this

/-- The same triangle, begun with the next side. -/
theorem next (h : RightTriangle yd s e a b c) : RightTriangle yd s (rnext s e) c a b := by
  have hi := Reached.inv h.reached
  obtain ⟨⟨f1, f2⟩, f3, f4, f5⟩ := h.face
  refine ⟨h.reached, h.agree, ?_, ?_, ?_, ?_⟩
  · have h1 := (inv_lnext_alloc hi (sym e)).2 (by rw [sym_q]; exact h.alloc)
    rw [← sym_rnext, sym_q] at h1
    exact h1
  · exact (primal_sym _).1 (by rw [sym_rnext]; exact (inv_lnext_kind hi _).2 ((primal_sym e).2 h.primal))
  · rw [sym_rnext]
    refine ⟨⟨by rw [f1], ?_⟩, f4, f5, by rw [f1]; exact f3⟩
    intro h1
    apply f2
    rw [h1, h1] at f1
    exact f1
  · have ht := h.turns
    unfold Turns wedge arrow at ht ⊢
    cases yd <;> simp only [if_true, if_false, Bool.false_eq_true] at ht ⊢ <;> nlinarith [ht]

/-- All four ends are there. -/
theorem turnedRound_eq {x y : E} {xo xd yo yd' : Pt K} (h1 : orig s x = some xo) (h2 : dest s x = some xd)
    (h3 : orig s y = some yo) (h4 : dest s y = some yd') : turnedRound s x y = some (decide (Turned s x y)) := by
  have key : Turned s x y ↔ xo = yd' ∧ yo = xd := by
    unfold Turned
    rw [h1, h2, h3, h4, Option.some.injEq, Option.some.injEq]
  rw [show decide (Turned s x y) = decide (xo = yd' ∧ yo = xd) from decide_eq_decide.2 key]
  unfold turnedRound
  rw [h1, h2, h3, h4]
  by_cases h5 : xo = yd'
  · simp [h5, beq_eq_decide]
  · simp [h5]

theorem sharedInner_eq {f x : E} {a' b' c' xo xd : Pt K} {yd' : Bool} (hf : RightTriangle yd' s f a' b' c')
    (h1 : orig s x = some xo) (h2 : dest s x = some xd) :
    (∃ y, (sides s f).any (fun y => decide (Turned s x y)) = true ∧ sharedInner s x 3 f = some (true, y)) ∨
      ((sides s f).any (fun y => decide (Turned s x y)) = false ∧ sharedInner s x 3 f = some (false, f)) := by
  obtain ⟨⟨a1, a2⟩, ⟨b1, b2⟩, ⟨c1, c2⟩, e3⟩ := ends hf
  have t0 := turnedRound_eq h1 h2 a1 a2
  have t1 := turnedRound_eq h1 h2 b1 b2
  have t2 := turnedRound_eq h1 h2 c1 c2
  unfold sides
  by_cases k0 : Turned s x f
  · exact Or.inl ⟨f, by simp [k0], by simp [sharedInner, t0, k0]⟩
  by_cases k1 : Turned s x (rnext s f)
  · exact Or.inl ⟨rnext s f, by simp [k1], by simp [sharedInner, t0, t1, k0, k1]⟩
  by_cases k2 : Turned s x (rnext s (rnext s f))
  · exact Or.inl ⟨rnext s (rnext s f), by simp [k2], by simp [sharedInner, t0, t1, t2, k0, k1, k2]⟩
  · exact Or.inr ⟨by simp [k0, k1, k2], by simp [sharedInner, t0, t1, t2, k0, k1, k2, e3]⟩

theorem sharedEdge_eq {f : E} {a' b' c' : Pt K} {yd' : Bool} (h : RightTriangle yd s e a b c)
    (hf : RightTriangle yd' s f a' b' c') :
    sharedEdge s e f =
      some ((sides s e).find? fun x => (sides s f).any fun y => decide (Turned s x y)) := by
  obtain ⟨⟨a1, a2⟩, ⟨b1, b2⟩, ⟨c1, c2⟩, e3⟩ := ends h
  have i0 := sharedInner_eq hf a1 a2
  have i1 := sharedInner_eq hf b1 b2
  have i2 := sharedInner_eq hf c1 c2
  generalize hg : (fun x : E => (sides s f).any fun y => decide (Turned s x y)) = g
  have hg' : ∀ x : E, ((sides s f).any fun y => decide (Turned s x y)) = g x := fun x => congrFun hg x
  rw [hg'] at i0 i1 i2
  unfold sharedEdge sides
  rcases i0 with ⟨y, k0, j0⟩ | ⟨k0, j0⟩
  · simp [sharedOuter, List.find?, k0, j0]
  rcases i1 with ⟨y, k1, j1⟩ | ⟨k1, j1⟩
  · simp [sharedOuter, List.find?, k0, j0, k1, j1]
  rcases i2 with ⟨y, k2, j2⟩ | ⟨k2, j2⟩
  · simp [sharedOuter, List.find?, k0, j0, k1, j1, k2, j2]
  · simp [sharedOuter, List.find?, k0, j0, k1, j1, k2, j2]

theorem opposite_eq (h : RightTriangle yd s e a b c) (p : Pt K) :
    oppositeTriangle s e p =
      if p = a then some (some (sym (rnext s (rnext s e)))) else if p = c then some (some (sym e))
      else if p = b then some (some (sym (rnext s e))) else some none := by
  obtain ⟨⟨a1, a2⟩, ⟨b1, b2⟩, ⟨c1, c2⟩, e3⟩ := ends h
  obtain ⟨n1, n2, n3⟩ := distinct h
  have m1 : rnext s e ≠ e := fun k => by rw [k, a1] at b1; exact n3 (Option.some.inj b1)
  have m2 : rnext s (rnext s e) ≠ e := fun k => by rw [k, a1] at c1; exact n1 (Option.some.inj c1)
  have hs : 0 < s.size := lt_of_le_of_lt (Nat.zero_le _) h.alloc
  obtain ⟨n, hn⟩ : ∃ n, 4 * s.size = n + 3 := ⟨4 * s.size - 3, by omega⟩
  unfold oppositeTriangle
  rw [hn]
  by_cases k0 : p = a
  · simp [oppositeLoop, a1, k0]
  by_cases k1 : p = c
  · simp [oppositeLoop, a1, b1, k1, n3, n3.symm, m1, e3]
  by_cases k2 : p = b
  · simp [oppositeLoop, a1, b1, c1, k2, n1, n1.symm, n2, n2.symm, m1, m2, e3]
  · simp [oppositeLoop, a1, b1, c1, k0, k1, k2, Ne.symm k0, Ne.symm k1, Ne.symm k2, m1, m2, e3]

end Walk

end Verif.Lemmas.SubTriangle
