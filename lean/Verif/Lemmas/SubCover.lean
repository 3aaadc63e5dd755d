import Verif.Lemmas.SubMesh
import Mathlib.Algebra.BigOperators.Group.Finset.Basic
import Mathlib.Algebra.Order.BigOperators.Group.Finset
import Mathlib.Data.Finset.Prod

/-!
# Helper lemmas: the triangles of a subdivision cover the frame once
-/

namespace Verif.Lemmas.SubCover
open Verif.Quad Verif.Spec.Quad Verif.Lemmas.Quad Verif.Spec.Subdivision Verif.Subdivision
open Verif.Resolve Verif.Spec.Resolve Verif.Lemmas.Resolve Verif.Lemmas.SubLocate Verif.Lemmas.SubTables
open Verif.Lemmas.SubFan Verif.Lemmas.SubWalk Verif.Lemmas.SubMesh

set_option linter.unusedSectionVars false

variable {K : Type} [Field K] [LinearOrder K] [IsStrictOrderedRing K] {s : Store (Pt K)}

/-! ## Crossing a side -/

/-- Twice the area of the triangle `a b p`. -/
abbrev area (yd : Bool) (a b p : Pt K) : K := wedge yd (arrow a b) (arrow a p)

theorem area_rev (yd : Bool) (a b p : Pt K) : area yd b a p = - area yd a b p := by
  unfold area wedge arrow; cases yd <;> simp <;> ring

theorem area_mean (yd : Bool) (a b c p : Pt K) :
    p.2 * area yd a b c = area yd b c p * a.2 + area yd c a p * b.2 + area yd a b p * c.2 := by
  unfold area wedge arrow; cases yd <;> simp <;> ring

theorem area_sum (yd : Bool) (a b c p : Pt K) :
    area yd a b c = area yd a b p + area yd b c p + area yd c a p := wedge_sum yd a b c p

theorem area_flat (yd : Bool) {a b c : Pt K} (h1 : a.2 = b.2) (h2 : a.2 = c.2) : area yd a b c = 0 := by
  unfold area wedge arrow; cases yd <;> simp [← h1, ← h2]

/-- How the ray from `p` crosses the side from `a` to `b`. -/
def crossing (yd : Bool) (p a b : Pt K) : Int :=
  if a.2 ≤ p.2 then (if p.2 < b.2 then (if 0 < area yd a b p then 1 else 0) else 0)
  else (if p.2 < b.2 then 0 else (if area yd a b p < 0 then -1 else 0))

theorem crossing_rev (yd : Bool) (p a b : Pt K) : crossing yd p b a = - crossing yd p a b := by
  unfold crossing
  rw [area_rev]
  by_cases h1 : a.2 ≤ p.2 <;> by_cases h2 : b.2 ≤ p.2
  · simp [h1, h2, not_lt_of_ge h1, not_lt_of_ge h2]
  · simp [h1, h2, not_lt_of_ge h1, lt_of_not_ge h2]
    split_ifs <;> rfl
  · simp [h1, h2, not_lt_of_ge h2, lt_of_not_ge h1]
    split_ifs <;> rfl
  · simp [h1, h2, lt_of_not_ge h2, lt_of_not_ge h1]

/-- Whether the ray from `p` goes out of the triangle. -/
def turnsAbout (yd : Bool) (p a b c : Pt K) : Int :=
  crossing yd p a b + crossing yd p b c + crossing yd p c a

theorem about_cycle (yd : Bool) (p a b c : Pt K) : turnsAbout yd p b c a = turnsAbout yd p a b c := by
  unfold turnsAbout; ring

theorem about_rev (yd : Bool) (p a b c : Pt K) : turnsAbout yd p b a c = - turnsAbout yd p a b c := by
  unfold turnsAbout
  rw [crossing_rev yd p a b, crossing_rev yd p c a, crossing_rev yd p b c]; ring

/-- What the turns about a point can be. -/
def Good (yd : Bool) (p a b c : Pt K) : Prop :=
  (turnsAbout yd p a b c = 0 ∨ turnsAbout yd p a b c = 1) ∧
  (turnsAbout yd p a b c = 1 → 0 ≤ area yd a b p ∧ 0 ≤ area yd b c p ∧ 0 ≤ area yd c a p) ∧
  (0 < area yd a b p → 0 < area yd b c p → 0 < area yd c a p → turnsAbout yd p a b c = 1)

theorem good_cycle {yd : Bool} {p a b c : Pt K} (h : Good yd p a b c) : Good yd p b c a := by
  unfold Good at *
  rw [about_cycle]
  obtain ⟨h1, h2, h3⟩ := h
  exact ⟨h1, fun h => ⟨(h2 h).2.1, (h2 h).2.2, (h2 h).1⟩, fun g1 g2 g3 => h3 g3 g1 g2⟩

theorem good_low {yd : Bool} {p a b c : Pt K} (ht : Turns yd a b c) (ha : a.2 ≤ p.2) (hb : p.2 < b.2)
    (hc : p.2 < c.2) : Good yd p a b c := by
  have h1 := area_mean yd a b c p
  have h2 := area_sum yd a b c p
  have ht : 0 < area yd a b c := ht
  have e : turnsAbout yd p a b c =
      (if 0 < area yd a b p then 1 else 0) + (if area yd c a p < 0 then -1 else 0) := by
    unfold turnsAbout crossing
    simp [ha, hb, hc, not_le_of_gt hb, not_le_of_gt hc, not_lt_of_ge ha]
  unfold Good
  rw [e]
  generalize area yd a b p = C at *
  generalize area yd b c p = A at *
  generalize area yd c a p = B at *
  rw [h2] at h1 ht
  have key : A * (p.2 - a.2) = B * (b.2 - p.2) + C * (c.2 - p.2) := by linear_combination h1
  have k1 : B < 0 → 0 < C := by
    intro hB
    by_contra hC
    push Not at hC
    have hA : 0 < A := by linarith
    have := mul_nonneg hA.le (sub_nonneg.2 ha)
    have := mul_neg_of_neg_of_pos hB (sub_pos.2 hb)
    have := mul_nonpos_of_nonpos_of_nonneg hC (sub_pos.2 hc).le
    linarith
  have k2 : 0 < C → 0 ≤ B → 0 ≤ A := by
    intro hC hB
    by_contra hA
    push Not at hA
    have := mul_nonpos_of_nonpos_of_nonneg hA.le (sub_nonneg.2 ha)
    have := mul_nonneg hB (sub_pos.2 hb).le
    have := mul_pos hC (sub_pos.2 hc)
    linarith
  by_cases hC : 0 < C <;> by_cases hB : B < 0
  · simp [hC, hB]; intro _; exact hB.le
  · push Not at hB
    simp [hC, not_lt_of_ge hB]
    exact ⟨hC.le, k2 hC hB, hB⟩
  · exact absurd (k1 hB) hC
  · simp [hC, hB]

theorem good_high {yd : Bool} {p a b c : Pt K} (ht : Turns yd a b c) (ha : p.2 < a.2) (hb : b.2 ≤ p.2)
    (hc : c.2 ≤ p.2) : Good yd p a b c := by
  have h1 := area_mean yd a b c p
  have h2 := area_sum yd a b c p
  have ht : 0 < area yd a b c := ht
  have e : turnsAbout yd p a b c =
      (if area yd a b p < 0 then -1 else 0) + (if 0 < area yd c a p then 1 else 0) := by
    unfold turnsAbout crossing
    simp [ha, hb, hc, not_lt_of_ge hb, not_lt_of_ge hc, not_le_of_gt ha]
  unfold Good
  rw [e]
  generalize area yd a b p = C at *
  generalize area yd b c p = A at *
  generalize area yd c a p = B at *
  rw [h2] at h1 ht
  have key : A * (a.2 - p.2) = B * (p.2 - b.2) + C * (p.2 - c.2) := by linear_combination -h1
  have k1 : C < 0 → 0 < B := by
    intro hC
    by_contra hB
    push Not at hB
    have hA : 0 < A := by linarith
    have := mul_pos hA (sub_pos.2 ha)
    have := mul_nonpos_of_nonpos_of_nonneg hB (sub_nonneg.2 hb)
    have := mul_nonpos_of_nonpos_of_nonneg hC.le (sub_nonneg.2 hc)
    linarith
  have k2 : 0 < B → 0 ≤ C → 0 ≤ A := by
    intro hB hC
    by_contra hA
    push Not at hA
    have := mul_neg_of_neg_of_pos hA (sub_pos.2 ha)
    have := mul_nonneg hB.le (sub_nonneg.2 hb)
    have := mul_nonneg hC (sub_nonneg.2 hc)
    linarith
  by_cases hB : 0 < B <;> by_cases hC : C < 0
  · simp [hC, hB]; intro h; exact absurd hC (not_lt_of_gt h)
  · push Not at hC
    simp [hB, not_lt_of_ge hC]
    exact ⟨hC, k2 hB hC, hB.le⟩
  · exact absurd (k1 hC) hB
  · simp [hC, hB]

theorem good {yd : Bool} {p a b c : Pt K} (ht : Turns yd a b c) : Good yd p a b c := by
  have h1 := area_mean yd a b c p
  have h2 := area_sum yd a b c p
  have tc := turns_cycle ht
  have tcc := turns_cycle tc
  rcases le_or_gt a.2 p.2 with ha | ha <;> rcases le_or_gt b.2 p.2 with hb | hb <;>
    rcases le_or_gt c.2 p.2 with hc | hc
  · have e : turnsAbout yd p a b c = 0 := by
      unfold turnsAbout crossing
      simp [ha, hb, hc, not_lt_of_ge ha, not_lt_of_ge hb, not_lt_of_ge hc]
    unfold Good
    refine ⟨Or.inl e, fun h => absurd (e.symm.trans h) (by decide), fun g1 g2 g3 => ?_⟩
    exfalso
    have key : area yd b c p * (p.2 - a.2) + area yd c a p * (p.2 - b.2) + area yd a b p * (p.2 - c.2) = 0 := by
      rw [h2] at h1
      linear_combination h1
    have n1 := mul_nonneg g2.le (sub_nonneg.2 ha)
    have n2 := mul_nonneg g3.le (sub_nonneg.2 hb)
    have n3 := mul_nonneg g1.le (sub_nonneg.2 hc)
    have z1 : p.2 - a.2 = 0 := (mul_eq_zero.1 (show area yd b c p * (p.2 - a.2) = 0 by linarith)).resolve_left g2.ne'
    have z2 : p.2 - b.2 = 0 := (mul_eq_zero.1 (show area yd c a p * (p.2 - b.2) = 0 by linarith)).resolve_left g3.ne'
    have z3 : p.2 - c.2 = 0 := (mul_eq_zero.1 (show area yd a b p * (p.2 - c.2) = 0 by linarith)).resolve_left g1.ne'
    have := area_flat yd (a := a) (b := b) (c := c) (by linarith) (by linarith)
    unfold Turns at ht
    exact ht.ne' this
  · exact good_cycle (good_high tcc hc ha hb)
  · exact good_cycle (good_cycle (good_high tc hb hc ha))
  · exact good_low ht ha hb hc
  · exact good_high ht ha hb hc
  · exact good_cycle (good_cycle (good_low tc hb hc ha))
  · exact good_cycle (good_low tcc hc ha hb)
  · have e : turnsAbout yd p a b c = 0 := by
      unfold turnsAbout crossing
      simp [ha, hb, hc, not_le_of_gt ha, not_le_of_gt hb, not_le_of_gt hc]
    unfold Good
    refine ⟨Or.inl e, fun h => absurd (e.symm.trans h) (by decide), fun g1 g2 g3 => ?_⟩
    exfalso
    have key : area yd b c p * (a.2 - p.2) + area yd c a p * (b.2 - p.2) + area yd a b p * (c.2 - p.2) = 0 := by
      rw [h2] at h1
      linear_combination -h1
    have n1 := mul_pos g2 (sub_pos.2 ha)
    have n2 := mul_pos g3 (sub_pos.2 hb)
    have n3 := mul_pos g1 (sub_pos.2 hc)
    linarith

/-! ## Adding up over all edges -/

section
variable {yd : Bool} {f0 f1 f2 : Pt K} {z : E}

open Classical in
/-- The edges connected to `z`. -/
noncomputable def edges (s : Store (Pt K)) (z : E) : Finset E :=
  (((Finset.range s.size) ×ˢ (Finset.univ : Finset (Fin 4))).image (fun q => (⟨q.1, q.2⟩ : E))).filter
    (fun y => Connected s z y)

theorem mem_edges' (hi : Inv s) (ha : Allocated s z) {y : E} : y ∈ edges s z ↔ Connected s z y := by
  classical
  unfold edges
  rw [Finset.mem_filter]
  constructor
  · exact fun h => h.2
  · intro h
    refine ⟨?_, h⟩
    rw [Finset.mem_image]
    refine ⟨(y.q, y.num), ?_, rfl⟩
    rw [Finset.mem_product, Finset.mem_range]
    exact ⟨connected_alloc hi h ha, Finset.mem_univ _⟩

theorem mem_edges (hT : Triangulated yd f0 f1 f2 s z) {y : E} : y ∈ edges s z ↔ Connected s z y :=
  mem_edges' (Reached.inv hT.reached) hT.alloc

/-- The origin. -/
def org (s : Store (Pt K)) (y : E) : Pt K := (s.v y).getD (0, 0)

theorem org_eq {y : E} {p : Pt K} (h : s.v y = some p) : org s y = p := by unfold org; rw [h]; rfl

def cross' (yd : Bool) (s : Store (Pt K)) (p : Pt K) (y : E) : Int := crossing yd p (org s y) (org s (sym y))

theorem sum_cross (hT : Triangulated yd f0 f1 f2 s z) (p : Pt K) : ∑ y ∈ edges s z, cross' yd s p y = 0 := by
  have h : ∑ y ∈ edges s z, cross' yd s p y = ∑ y ∈ edges s z, - cross' yd s p y := by
    refine Finset.sum_nbij' sym sym ?_ ?_ ?_ ?_ ?_
    · intro y hy; rw [mem_edges hT] at *; exact hy.sym
    · intro y hy; rw [mem_edges hT] at *; exact hy.sym
    · intro y _; exact sym_sym y
    · intro y _; exact sym_sym y
    · intro y _
      unfold cross'
      rw [sym_sym, crossing_rev]
  rw [Finset.sum_neg_distrib] at h
  omega

theorem lnext3 (hT : Triangulated yd f0 f1 f2 s z) {y : E} (hy : Connected s z y) :
    lnext s (lnext s (lnext s y)) = y := by
  obtain ⟨o, d, t, h, _⟩ := hT.face y hy
  exact h.1.1

theorem sum_lnext (hT : Triangulated yd f0 f1 f2 s z) (g : E → Int) :
    ∑ y ∈ edges s z, g (lnext s y) = ∑ y ∈ edges s z, g y := by
  have hi := Reached.inv hT.reached
  refine Finset.sum_nbij' (lnext s) (fun y => lnext s (lnext s y)) ?_ ?_ ?_ ?_ ?_
  · intro y hy; rw [mem_edges hT] at *; exact lnext_connected hi hy
  · intro y hy; rw [mem_edges hT] at *; exact lnext_connected hi (lnext_connected hi hy)
  · intro y hy; rw [mem_edges hT] at hy; exact lnext3 hT hy
  · intro y hy; rw [mem_edges hT] at hy; exact lnext3 hT hy
  · intro y _; rfl

/-- The turns of the left face of an edge. -/
def about (yd : Bool) (s : Store (Pt K)) (p : Pt K) (y : E) : Int :=
  cross' yd s p y + cross' yd s p (lnext s y) + cross' yd s p (lnext s (lnext s y))

theorem sum_about (hT : Triangulated yd f0 f1 f2 s z) (p : Pt K) : ∑ y ∈ edges s z, about yd s p y = 0 := by
  unfold about
  rw [Finset.sum_add_distrib, Finset.sum_add_distrib, sum_cross hT]
  have h1 := sum_lnext hT (cross' yd s p)
  have h2 := sum_lnext hT (fun y => cross' yd s p (lnext s y))
  rw [h2, h1, sum_cross hT]; rfl

theorem about_face (hT : Triangulated yd f0 f1 f2 s z) {y : E} (hy : Connected s z y) {o d t p : Pt K}
    (hf : FaceOf s y o d t) : about yd s p y = turnsAbout yd p o d t := by
  have hi := Reached.inv hT.reached
  have ky := (connected_primal hi hy).2 hT.primal
  have k1 := (inv_lnext_kind hi _).2 ky
  have k2 := (inv_lnext_kind hi _).2 k1
  have g1 := face_rot hi hf
  have g2 := face_rot hi g1
  have e1 : org s (sym y) = d := org_eq (face_dest hi hT.agree ky hf)
  have e2 : org s (sym (lnext s y)) = t := org_eq (face_dest hi hT.agree k1 g1)
  have e3 : org s (sym (lnext s (lnext s y))) = o := org_eq (face_dest hi hT.agree k2 g2)
  unfold about cross' turnsAbout
  rw [e1, e2, e3, org_eq hf.2.1, org_eq hf.2.2.1, org_eq hf.2.2.2]

/-- The edges of a triangle. -/
def tri (s : Store (Pt K)) (y : E) : Finset E := {y, lnext s y, lnext s (lnext s y)}

theorem tri_card (hi : Inv s) {y : E} (h : ThreeSided s y) : (tri s y).card = 3 := by
  unfold tri
  obtain ⟨h1, h2⟩ := h
  have h3 : lnext s (lnext s y) ≠ lnext s y := fun h => h2 (lnext_inj hi h)
  have h4 : lnext s (lnext s y) ≠ y := by
    intro h
    rw [h] at h1
    exact h2 h1
  exact Finset.card_eq_three.2 ⟨_, _, _, h2.symm, h4.symm, h3.symm, rfl⟩

theorem outside_tri {y : E} : Outside s z y ↔ y ∈ tri s (sym z) := by
  unfold Outside tri; simp

/-- The turns about a point, added up over the triangles but the outer one. -/
theorem sum_inner (hT : Triangulated yd f0 f1 f2 s z) (p : Pt K) :
    ∑ y ∈ edges s z \ tri s (sym z), about yd s p y = 3 * turnsAbout yd p f0 f1 f2 := by
  classical
  have hi := Reached.inv hT.reached
  have cz : Connected s z (sym z) := Connected.refl.sym
  have c1 := lnext_connected hi cz
  have c2 := lnext_connected hi c1
  have hsub : tri s (sym z) ⊆ edges s z := by
    intro y hy
    rw [mem_edges hT]
    unfold tri at hy
    simp only [Finset.mem_insert, Finset.mem_singleton] at hy
    rcases hy with rfl | rfl | rfl <;> assumption
  have h1 := Finset.sum_sdiff (f := about yd s p) hsub
  rw [sum_about hT] at h1
  have h2 : ∑ y ∈ tri s (sym z), about yd s p y = 3 * - turnsAbout yd p f0 f1 f2 := by
    rw [Finset.sum_congr rfl (g := fun _ => - turnsAbout yd p f0 f1 f2)]
    · rw [Finset.sum_const, tri_card hi hT.outer.1]; simp
    · intro y hy
      have g := hT.outer
      have r : turnsAbout yd p f1 f0 f2 = - turnsAbout yd p f0 f1 f2 := about_rev _ _ _ _ _
      unfold tri at hy
      simp only [Finset.mem_insert, Finset.mem_singleton] at hy
      rcases hy with rfl | rfl | rfl
      · rw [about_face hT cz g, r]
      · rw [about_face hT c1 (face_rot hi g), about_cycle, r]
      · rw [about_face hT c2 (face_rot hi (face_rot hi g)), about_cycle, about_cycle, r]
  rw [h2] at h1
  omega

theorem about_nonneg (hT : Triangulated yd f0 f1 f2 s z) {y : E} (hy : y ∈ edges s z \ tri s (sym z)) (p : Pt K) :
    0 ≤ about yd s p y := by
  classical
  rw [Finset.mem_sdiff, mem_edges hT, ← outside_tri] at hy
  obtain ⟨o, d, t, hf, ht⟩ := hT.face y hy.1
  have := (good (p := p) (ht.resolve_right hy.2)).1
  rw [about_face hT hy.1 hf]
  omega

/-- The point is inside the left face of the edge, not on a side. -/
def InFace (yd : Bool) (s : Store (Pt K)) (y : E) (p : Pt K) : Prop :=
  ∃ o d t, FaceOf s y o d t ∧ 0 < area yd o d p ∧ 0 < area yd d t p ∧ 0 < area yd t o p

theorem inFace_turns {y : E} {p o d t : Pt K} (hf : FaceOf s y o d t) (h : InFace yd s y p) : Turns yd o d t := by
  obtain ⟨o', d', t', g, h1, h2, h3⟩ := h
  obtain ⟨rfl, rfl, rfl⟩ := face_unique hf g
  unfold Turns
  rw [wedge_sum yd o d t p]
  have h1 : 0 < wedge yd (arrow o d) (arrow o p) := h1
  have h2 : 0 < wedge yd (arrow d t) (arrow d p) := h2
  have h3 : 0 < wedge yd (arrow t o) (arrow t p) := h3
  linarith

theorem inFace_rot (hi : Inv s) {y : E} {p : Pt K} (h : InFace yd s y p) : InFace yd s (lnext s y) p := by
  obtain ⟨o, d, t, g, h1, h2, h3⟩ := h
  exact ⟨d, t, o, face_rot hi g, h2, h3, h1⟩

theorem inFace_about (hT : Triangulated yd f0 f1 f2 s z) {y : E} (hy : Connected s z y) {p : Pt K}
    (h : InFace yd s y p) : y ∈ edges s z \ tri s (sym z) ∧ about yd s p y = 1 := by
  classical
  have hi := Reached.inv hT.reached
  obtain ⟨o, d, t, g, h1, h2, h3⟩ := id h
  have ht := inFace_turns g h
  refine ⟨?_, ?_⟩
  · rw [Finset.mem_sdiff, mem_edges hT, ← outside_tri]
    refine ⟨hy, fun ho => ?_⟩
    rcases outside_backwards hi hT.outer ho g with ⟨rfl, rfl, rfl⟩ | ⟨rfl, rfl, rfl⟩ | ⟨rfl, rfl, rfl⟩
    · exact turns_not hT.frame ht
    · exact turns_not hT.frame (turns_cycle (turns_cycle ht))
    · exact turns_not hT.frame (turns_cycle ht)
  · rw [about_face hT hy g]
    exact (good ht).2.2 h1 h2 h3

/-- A point that is inside a triangle is in the frame. -/
theorem inFace_frame (hT : Triangulated yd f0 f1 f2 s z) {y : E} (hy : Connected s z y) {p : Pt K}
    (h : InFace yd s y p) : turnsAbout yd p f0 f1 f2 = 1 := by
  classical
  obtain ⟨h1, h2⟩ := inFace_about hT hy h
  have h3 := Finset.single_le_sum (f := about yd s p) (fun y hy => about_nonneg hT hy p) h1
  rw [sum_inner hT, h2] at h3
  have := (good (p := p) hT.frame).1
  omega

/-- The triangles do not overlap. -/
theorem inFace_unique (hT : Triangulated yd f0 f1 f2 s z) {y y' : E} (hy : Connected s z y) (hy' : Connected s z y')
    {p : Pt K} (h : InFace yd s y p) (h' : InFace yd s y' p) : y' ∈ tri s y := by
  classical
  have hi := Reached.inv hT.reached
  by_contra hn
  have three : ∀ {y}, Connected s z y → InFace yd s y p → ∀ w ∈ tri s y,
      Connected s z w ∧ InFace yd s w p := by
    intro y hy h w hw
    unfold tri at hw
    simp only [Finset.mem_insert, Finset.mem_singleton] at hw
    rcases hw with rfl | rfl | rfl
    · exact ⟨hy, h⟩
    · exact ⟨lnext_connected hi hy, inFace_rot hi h⟩
    · exact ⟨lnext_connected hi (lnext_connected hi hy), inFace_rot hi (inFace_rot hi h)⟩
  have disj : Disjoint (tri s y) (tri s y') := by
    rw [Finset.disjoint_left]
    intro w hw hw'
    apply hn
    unfold tri at *
    simp only [Finset.mem_insert, Finset.mem_singleton] at *
    have l1 := lnext3 hT hy
    have l2 := lnext3 hT hy'
    rcases hw with rfl | rfl | rfl <;> rcases hw' with h' | h' | h'
    · exact Or.inl h'.symm
    · right; right; rw [h', l2]
    · right; left; rw [h', l2]
    · right; left; exact h'.symm
    · left; exact (lnext_inj hi h').symm
    · right; right
      rw [h', l2]
    · right; right; exact h'.symm
    · right; left; exact (lnext_inj hi h').symm
    · left; exact (lnext_inj hi (lnext_inj hi h')).symm
  have hsub : tri s y ∪ tri s y' ⊆ edges s z \ tri s (sym z) := by
    intro w hw
    rw [Finset.mem_union] at hw
    rcases hw with hw | hw
    · obtain ⟨g1, g2⟩ := three hy h w hw
      exact (inFace_about hT g1 g2).1
    · obtain ⟨g1, g2⟩ := three hy' h' w hw
      exact (inFace_about hT g1 g2).1
  have h3 := Finset.sum_le_sum_of_subset_of_nonneg (f := about yd s p) hsub (fun y hy _ => about_nonneg hT hy p)
  have c1 : ∀ {y}, Connected s z y → InFace yd s y p → ∑ w ∈ tri s y, about yd s p w = 3 := by
    intro y hy h
    rw [Finset.sum_congr rfl (g := fun _ => 1)]
    · obtain ⟨o, d, t, hf, _⟩ := hT.face y hy
      rw [Finset.sum_const, tri_card hi hf.1]; rfl
    · intro w hw
      obtain ⟨g1, g2⟩ := three hy h w hw
      exact (inFace_about hT g1 g2).2
  rw [sum_inner hT, Finset.sum_union disj, c1 hy h, c1 hy' h'] at h3
  have := (good (p := p) hT.frame).1
  omega

end

end Verif.Lemmas.SubCover
