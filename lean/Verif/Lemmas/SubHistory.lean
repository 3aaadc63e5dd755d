import Verif.Lemmas.SubFlip

/-!
# Helper lemmas: triangles as sets of points
-/

namespace Verif.Lemmas.SubHistory
open Verif.Quad Verif.Spec.Quad Verif.Lemmas.Quad Verif.Spec.Subdivision Verif.Subdivision
open Verif.Spec.Planar Verif.Lemmas.SubLocate Verif.Lemmas.SubMesh Verif.Lemmas.SubCover Verif.Lemmas.Circle
open Verif.Lemmas.SubDelaunay Verif.Resolve Verif.Spec.Resolve Verif.Lemmas.Resolve

variable {K : Type} [Field K] [LinearOrder K] [IsStrictOrderedRing K]

theorem area_mix (yd : Bool) (a b o d t : Pt K) (u v w : K) (h : u + v + w = 1) :
    area yd a b (u * o.1 + v * d.1 + w * t.1, u * o.2 + v * d.2 + w * t.2) =
      u * area yd a b o + v * area yd a b d + w * area yd a b t := by
  obtain rfl : w = 1 - u - v := by linarith
  unfold area wedge arrow; cases yd <;> simp <;> ring

/-- A point is in a counterclockwise triangle if it is not to the right of one of its sides. -/
theorem inTriangle_iff {yd : Bool} {o d t p : Pt K} (ht : Turns yd o d t) :
    InTriangle p o d t ↔ 0 ≤ area yd o d p ∧ 0 ≤ area yd d t p ∧ 0 ≤ area yd t o p := by
  have hA : 0 < area yd o d t := ht
  have e1 : area yd d t o = area yd o d t := wedge_cycle yd o d t
  have e2 : area yd t o d = area yd o d t := by rw [← e1]; exact wedge_cycle yd d t o
  constructor
  · rintro ⟨u, v, w, hu, hv, hw, hs, rfl⟩
    rw [area_mix _ _ _ _ _ _ _ _ _ hs, area_mix _ _ _ _ _ _ _ _ _ hs, area_mix _ _ _ _ _ _ _ _ _ hs]
    rw [(area_self yd o d).1, (area_self yd o d).2, (area_self yd d t).1, (area_self yd d t).2,
      (area_self yd t o).1, (area_self yd t o).2, e1, e2]
    have := mul_nonneg hu hA.le
    have := mul_nonneg hv hA.le
    have := mul_nonneg hw hA.le
    refine ⟨by linarith, by linarith, by linarith⟩
  · rintro ⟨h1, h2, h3⟩
    have hne : area yd o d t ≠ 0 := hA.ne'
    have s := wedge_sum yd o d t p
    have s : area yd o d t = area yd o d p + area yd d t p + area yd t o p := s
    refine ⟨area yd d t p / area yd o d t, area yd t o p / area yd o d t, area yd o d p / area yd o d t,
      div_nonneg h2 hA.le, div_nonneg h3 hA.le, div_nonneg h1 hA.le, ?_, ?_⟩
    · field_simp; linarith
    · refine Prod.ext ?_ ?_
      · simp only
        have : area yd d t p * o.1 + area yd t o p * d.1 + area yd o d p * t.1 = p.1 * area yd o d t := by
          unfold area wedge arrow; cases yd <;> simp <;> ring
        field_simp; linarith
      · simp only
        have : area yd d t p * o.2 + area yd t o p * d.2 + area yd o d p * t.2 = p.2 * area yd o d t := by
          unfold area wedge arrow; cases yd <;> simp <;> ring
        field_simp; linarith

theorem insideTriangle_area {yd : Bool} {o d t p : Pt K} (ht : Turns yd o d t) (h : InsideTriangle p o d t) :
    0 < area yd o d p ∧ 0 < area yd d t p ∧ 0 < area yd t o p := by
  have hA : 0 < area yd o d t := ht
  have e1 : area yd d t o = area yd o d t := wedge_cycle yd o d t
  have e2 : area yd t o d = area yd o d t := by rw [← e1]; exact wedge_cycle yd d t o
  obtain ⟨u, v, w, hu, hv, hw, hs, rfl⟩ := h
  rw [area_mix _ _ _ _ _ _ _ _ _ hs, area_mix _ _ _ _ _ _ _ _ _ hs, area_mix _ _ _ _ _ _ _ _ _ hs]
  rw [(area_self yd o d).1, (area_self yd o d).2, (area_self yd d t).1, (area_self yd d t).2,
    (area_self yd t o).1, (area_self yd t o).2, e1, e2]
  have := mul_pos hu hA
  have := mul_pos hv hA
  have := mul_pos hw hA
  refine ⟨by linarith, by linarith, by linarith⟩

variable {yd : Bool} {f0 f1 f2 : Pt K} {s : Store (Pt K)} {z : E}

/-- The triangles of a Delaunay triangulation are the frame. -/
theorem cover_iff (hT : Triangulated yd f0 f1 f2 s z) (hD : Delaunay s z) (p : Pt K) :
    InTriangle p f0 f1 f2 ↔ ∃ y o d t, Connected s z y ∧ ¬ Outside s z y ∧ FaceOf s y o d t ∧ InTriangle p o d t := by
  have hi := Reached.inv hT.reached
  rw [inTriangle_iff hT.frame]
  constructor
  · intro hp
    have hz : Inner s z z := by
      have := outside_sym hT (Connected.refl.sym) (Or.inl rfl)
      rw [sym_sym] at this
      exact ⟨.refl, this⟩
    obtain ⟨y, o, d, t, hy, hf, h1, h2, h3, _⟩ := walk hT (local_of_delaunay hT hD) hp hz
    exact ⟨y, o, d, t, hy.1, hy.2, hf, (inTriangle_iff (inner_turns hT hy hf)).2 ⟨h1, h2, h3⟩⟩
  · rintro ⟨y, o, d, t, hc, ho, hf, u, v, w, hu, hv, hw, hs, rfl⟩
    obtain ⟨a1, a2, a3⟩ := vertex_inFrame hT ⟨y, hc, hf.2.1⟩
    obtain ⟨b1, b2, b3⟩ := vertex_inFrame hT ⟨_, lnext_connected hi hc, hf.2.2.1⟩
    obtain ⟨c1, c2, c3⟩ := vertex_inFrame hT ⟨_, lnext_connected hi (lnext_connected hi hc), hf.2.2.2⟩
    have key : ∀ {a b c : K}, 0 ≤ a → 0 ≤ b → 0 ≤ c → 0 ≤ u * a + v * b + w * c := fun ha hb hc =>
      add_nonneg (add_nonneg (mul_nonneg hu ha) (mul_nonneg hv hb)) (mul_nonneg hw hc)
    refine ⟨?_, ?_, ?_⟩ <;> rw [area_mix _ _ _ _ _ _ _ _ _ hs]
    · exact key a1 b1 c1
    · exact key a2 b2 c2
    · exact key a3 b3 c3

/-- The triangles do not overlap. -/
theorem cover_once (hT : Triangulated yd f0 f1 f2 s z) {y y' : E} {o d t o' d' t' p : Pt K} (hy : Inner s z y)
    (hy' : Inner s z y') (hf : FaceOf s y o d t) (hf' : FaceOf s y' o' d' t') (h : InsideTriangle p o d t)
    (h' : InsideTriangle p o' d' t') : y' = y ∨ y' = lnext s y ∨ y' = lnext s (lnext s y) := by
  have h1 := insideTriangle_area (inner_turns hT hy hf) h
  have h2 := insideTriangle_area (inner_turns hT hy' hf') h'
  have := inFace_unique hT hy.1 hy'.1 (p := p) ⟨_, _, _, hf, h1⟩ ⟨_, _, _, hf', h2⟩
  unfold tri at this
  simpa using this

/-- Three corners and no further points. -/
theorem delaunay_three {a b c : Pt K} (hT : Triangulated yd f0 f1 f2 s z)
    (hv : ∀ p, Vertex s z p ↔ p = a ∨ p = b ∨ p = c) : Delaunay s z := by
  have hi := Reached.inv hT.reached
  rintro y o d t hc ho hf p hp ⟨m, h1, h2, h3⟩
  obtain ⟨n1, n2, n3⟩ := turns_ne (inner_turns hT ⟨hc, ho⟩ hf)
  have a1 := (hv o).1 ⟨y, hc, hf.2.1⟩
  have a2 := (hv d).1 ⟨_, lnext_connected hi hc, hf.2.2.1⟩
  have a3 := (hv t).1 ⟨_, lnext_connected hi (lnext_connected hi hc), hf.2.2.2⟩
  have k : p = o ∨ p = d ∨ p = t := by
    rcases (hv p).1 hp with rfl | rfl | rfl <;> rcases a1 with rfl | rfl | rfl <;>
      rcases a2 with rfl | rfl | rfl <;> rcases a3 with rfl | rfl | rfl <;> simp_all
  rcases k with rfl | rfl | rfl <;> linarith

end Verif.Lemmas.SubHistory
