import Verif.Lemmas.SubDelaunay

/-!
# Helper lemmas: the edges of a triangulation with one origin are on one ring
-/

namespace Verif.Lemmas.SubRing
open Verif.Quad Verif.Spec.Quad Verif.Lemmas.Quad Verif.Spec.Subdivision Verif.Subdivision
open Verif.Resolve Verif.Spec.Resolve Verif.Lemmas.Resolve Verif.Lemmas.SubLocate Verif.Lemmas.SubTables
open Verif.Lemmas.SubFan Verif.Lemmas.SubWalk Verif.Lemmas.SubMesh Verif.Lemmas.SubCover Verif.Lemmas.Circle
open Verif.Lemmas.SubDelaunay

set_option linter.unusedSectionVars false

variable {K : Type} [Field K] [LinearOrder K] [IsStrictOrderedRing K]
variable {yd : Bool} {f0 f1 f2 : Pt K} {s : Store (Pt K)} {z : E}

theorem inner_of (hT : Triangulated yd f0 f1 f2 s z) {y : E} (hy : Connected s z y) {o d t : Pt K}
    (hf : FaceOf s y o d t) (ht : Turns yd o d t) : Inner s z y := by
  refine ⟨hy, fun hO => ?_⟩
  rcases outside_backwards (Reached.inv hT.reached) hT.outer hO hf with ⟨rfl, rfl, rfl⟩ | ⟨rfl, rfl, rfl⟩ | ⟨rfl, rfl, rfl⟩
  · exact turns_not hT.frame ht
  · exact turns_not hT.frame (turns_cycle (turns_cycle ht))
  · exact turns_not hT.frame (turns_cycle ht)

/-- The edges of a triangle have different origins. -/
theorem tri_orig (hT : Triangulated yd f0 f1 f2 s z) {y y' : E} (hy : Connected s z y) (h : y' ∈ tri s y)
    (ho : orig s y' = orig s y) : y' = y := by
  have hi := Reached.inv hT.reached
  obtain ⟨o, d, t, hf, ht⟩ := hT.face y hy
  have hne : o ≠ d ∧ o ≠ t := by
    rcases ht with ht | hO
    · exact ⟨(turns_ne ht).1, (turns_ne ht).2.2⟩
    · obtain ⟨n1, n2, n3⟩ := turns_ne hT.frame
      rcases outside_backwards hi hT.outer hO hf with ⟨rfl, rfl, rfl⟩ | ⟨rfl, rfl, rfl⟩ | ⟨rfl, rfl, rfl⟩
      · exact ⟨n1.symm, n2⟩
      · exact ⟨n3, n1⟩
      · exact ⟨n2.symm, n3.symm⟩
  unfold tri at h
  simp only [Finset.mem_insert, Finset.mem_singleton] at h
  rcases h with rfl | rfl | rfl
  · rfl
  · rw [hf.2.1, hf.2.2.1] at ho; exact absurd (Option.some.inj ho).symm hne.1
  · rw [hf.2.1, hf.2.2.2] at ho; exact absurd (Option.some.inj ho).symm hne.2

/-- A point inside a triangle is inside the frame. -/
theorem inFace_within (hT : Triangulated yd f0 f1 f2 s z) {y : E} (hy : Inner s z y) {p : Pt K}
    (h : InFace yd s y p) : 0 < area yd f0 f1 p ∧ 0 < area yd f1 f2 p ∧ 0 < area yd f2 f0 p := by
  have hi := Reached.inv hT.reached
  obtain ⟨o, d, t, hf, h1, h2, h3⟩ := h
  have ht : 0 < area yd o d t := inner_turns hT hy hf
  have vo : Vertex s z o := ⟨_, hy.1, hf.2.1⟩
  have vd : Vertex s z d := ⟨_, lnext_connected hi hy.1, hf.2.2.1⟩
  have vt : Vertex s z t := ⟨_, lnext_connected hi (lnext_connected hi hy.1), hf.2.2.2⟩
  have key : ∀ a b : Pt K, a ≠ b → 0 ≤ area yd a b o → 0 ≤ area yd a b d → 0 ≤ area yd a b t →
      0 < area yd a b p := by
    intro a b hab go gd gt
    have e := area_affine yd o d t p a b
    by_contra hc
    have m1 := mul_nonneg h2.le go
    have m2 := mul_nonneg h3.le gd
    have m3 := mul_nonneg h1.le gt
    have hle := mul_nonpos_of_nonpos_of_nonneg (not_lt.1 hc) ht.le
    have z1 : area yd d t p * area yd a b o = 0 := by linarith
    have z2 : area yd t o p * area yd a b d = 0 := by linarith
    have z3 : area yd o d p * area yd a b t = 0 := by linarith
    exact ht.ne' (flat hab ((mul_eq_zero.1 z1).resolve_left h2.ne') ((mul_eq_zero.1 z2).resolve_left h3.ne')
      ((mul_eq_zero.1 z3).resolve_left h1.ne'))
  obtain ⟨n1, n2, n3⟩ := turns_ne hT.frame
  have io := vertex_inFrame hT vo
  have id := vertex_inFrame hT vd
  have it := vertex_inFrame hT vt
  exact ⟨key _ _ n1 io.1 id.1 it.1, key _ _ n2 io.2.1 id.2.1 it.2.1, key _ _ n3.symm io.2.2 id.2.2 it.2.2⟩

theorem star (hT : Triangulated yd f0 f1 f2 s z) {y : E} (hy : Connected s z y) {p : Pt K}
    (hp : orig s y = some p) : Star s y p := by
  have hi := Reached.inv hT.reached
  have ky := (connected_primal hi hy).2 hT.primal
  refine ⟨ky, fun w hw => ?_⟩
  have hc : Connected s z w := around_connected hy hw
  have kw := (connected_primal hi hc).2 hT.primal
  obtain ⟨o, d, t, hf, ht⟩ := hT.face w hc
  have h1 : orig s w = some p := by rw [← hp]; exact hT.agree y w ky hw
  obtain rfl := Option.some.inj (hf.2.1.symm.trans h1)
  refine ⟨h1, d, face_dest hi hT.agree kw hf, ?_⟩
  rcases ht with ht | hO
  · exact (turns_ne ht).1.symm
  · obtain ⟨n1, n2, n3⟩ := turns_ne hT.frame
    rcases outside_backwards hi hT.outer hO hf with ⟨a, b, c⟩ | ⟨a, b, c⟩ | ⟨a, b, c⟩
    · rw [a, b]; exact n1
    · rw [a, b]; exact n3.symm
    · rw [a, b]; exact n2

theorem dest_onext (hT : Triangulated yd f0 f1 f2 s z) {y : E} {o d t : Pt K} (hf : FaceOf s y o d t) :
    dest s (onext s y) = some t := by
  unfold dest
  rw [onext_of_three (Reached.inv hT.reached) hf.1, sym_sym, hf.2.2.2]

/-- Directions to the inside of a triangle are met going round any ring with that origin, in a triangle. -/
theorem sector (hT : Triangulated yd f0 f1 f2 s z) {y y' : E} (hy : Inner s z y) (hy' : Connected s z y')
    {p q r : Pt K} (hf : FaceOf s y p q r) (hp : orig s y' = some p) {d : Pt K} (hd : InFace yd s y d) :
    ∃ x a b, Around s y' x ∧ Inner s z x ∧ FaceOf s x p a b ∧ 0 ≤ area yd p a d ∧ 0 < area yd b p d ∧
      (area yd p a d = 0 → Toward p a d) := by
  have hi := Reached.inv hT.reached
  have hS := star hT hy' hp
  have hdp : d ≠ p := by
    rintro rfl
    obtain ⟨_, _, _, g, h1, _⟩ := hd
    obtain ⟨rfl, rfl, rfl⟩ := face_unique hf g
    rw [(area_self yd d q).1] at h1; exact lt_irrefl _ h1
  have hw := inFace_within hT hy hd
  -- an edge towards `d` has a triangle to its left
  have main : ∀ x a b, Around s y' x → FaceOf s x p a b → (Toward p a d ∨ Between yd p a b d) →
      ∃ x a b, Around s y' x ∧ Inner s z x ∧ FaceOf s x p a b ∧ 0 ≤ area yd p a d ∧ 0 < area yd b p d ∧
        (area yd p a d = 0 → Toward p a d) := by
    intro x a b hx hfx h
    have hcx : Connected s z x := around_connected hy' hx
    obtain ⟨o', a', b', hfx', ht⟩ := hT.face x hcx
    obtain ⟨rfl, rfl, rfl⟩ := face_unique hfx' hfx
    rcases ht with ht | hO
    · have ht' : 0 < wedge yd (arrow o' a') (arrow o' b') := ht
      refine ⟨x, a', b', hx, inner_of hT hcx hfx ht, hfx, ?_⟩
      rcases h with ⟨t, t0, h⟩ | h
      · have e1 : area yd o' a' d = 0 := by
          show wedge yd (arrow o' a') (arrow o' d) = 0
          rw [h, wedge_smul_right, wedge_self, mul_zero]
        have e2 : area yd b' o' d = t * wedge yd (arrow o' a') (arrow o' b') := by
          have : area yd b' o' d = wedge yd (arrow o' d) (arrow o' b') := by
            unfold area wedge arrow; cases yd <;> simp <;> ring
          rw [this, h, wedge_smul_left]
        exact ⟨e1.ge, by rw [e2]; exact mul_pos t0 ht', fun _ => ⟨t, t0, h⟩⟩
      · unfold Between at h
        simp only at h
        have hz : ∀ t : K, arrow o' b' = (t * (arrow o' a').1, t * (arrow o' a').2) → False := by
          intro t h
          rw [h, wedge_smul_right, wedge_self, mul_zero] at ht'
          exact lt_irrefl _ ht'
        rcases h with ⟨_, σ, τ, s0, t0, h⟩ | ⟨h, _⟩ | ⟨⟨t, _, h⟩, _⟩ | ⟨⟨t, _, h⟩, _⟩
        · unfold Mix at h
          have e1 : area yd o' a' d = τ * wedge yd (arrow o' a') (arrow o' b') := by
            show wedge yd (arrow o' a') (arrow o' d) = _
            rw [h]; unfold wedge; cases yd <;> simp <;> ring
          have e2 : area yd b' o' d = σ * wedge yd (arrow o' a') (arrow o' b') := by
            have : area yd b' o' d = wedge yd (arrow o' d) (arrow o' b') := by
              unfold area wedge arrow; cases yd <;> simp <;> ring
            rw [this, h]; unfold wedge; cases yd <;> simp <;> ring
          have p1 := mul_pos t0 ht'
          refine ⟨by rw [e1]; exact p1.le, by rw [e2]; exact mul_pos s0 ht', fun h0 => ?_⟩
          rw [e1] at h0
          exact absurd h0 p1.ne'
        · exact absurd h (not_lt.2 ht'.le)
        · exact (hz t h).elim
        · exact (hz (-t) (by rw [h])).elim
    · exfalso
      -- the outside
      have cone : ∀ {g0 g1 g2 : Pt K}, Turns yd g0 g1 g2 → 0 < area yd g0 g1 d → 0 < area yd g2 g0 d →
          (Toward g0 g2 d ∨ Between yd g0 g2 g1 d) → False := by
        intro g0 g1 g2 ht k1 k2 h
        have ht' : 0 < wedge yd (arrow g0 g1) (arrow g0 g2) := ht
        have neg : wedge yd (arrow g0 g2) (arrow g0 g1) < 0 := by rw [wedge_swap]; linarith
        have k2' : area yd g2 g0 d = wedge yd (arrow g0 d) (arrow g0 g2) := by
          unfold area wedge arrow; cases yd <;> simp <;> ring
        rw [k2'] at k2
        rcases h with ⟨t, _, h⟩ | h
        · rw [h, wedge_smul_left, wedge_self, mul_zero] at k2; exact lt_irrefl _ k2
        · unfold Between at h
          simp only at h
          have hz : ∀ t : K, arrow g0 g1 = (t * (arrow g0 g2).1, t * (arrow g0 g2).2) → False := by
            intro t h
            rw [h, wedge_smul_right, wedge_self, mul_zero] at neg
            exact lt_irrefl _ neg
          rcases h with ⟨h, _⟩ | ⟨_, h⟩ | ⟨⟨t, _, h⟩, _⟩ | ⟨⟨t, _, h⟩, _⟩
          · exact lt_asymm h neg
          · refine h ⟨wedge yd (arrow g0 d) (arrow g0 g1) / wedge yd (arrow g0 g2) (arrow g0 g1),
              wedge yd (arrow g0 g2) (arrow g0 d) / wedge yd (arrow g0 g2) (arrow g0 g1), ?_, ?_,
              (mix_iff neg.ne _ _).2 ⟨rfl, rfl⟩⟩
            · apply div_nonneg_of_nonpos _ neg.le
              rw [wedge_swap]
              have : 0 < wedge yd (arrow g0 g1) (arrow g0 d) := k1
              linarith
            · apply div_nonneg_of_nonpos _ neg.le
              rw [wedge_swap]; linarith
          · exact hz t h
          · exact hz (-t) (by rw [h])
      rcases outside_backwards hi hT.outer hO hfx with ⟨rfl, rfl, rfl⟩ | ⟨rfl, rfl, rfl⟩ | ⟨rfl, rfl, rfl⟩
      · exact cone (turns_cycle hT.frame) hw.2.1 hw.1 h
      · exact cone hT.frame hw.1 hw.2.2 h
      · exact cone (turns_cycle (turns_cycle hT.frame)) hw.2.2 hw.2.1 h
  have faceAt : ∀ x, Around s y' x → ∃ a b, FaceOf s x p a b ∧ dest s x = some a ∧ dest s (onext s x) = some b := by
    intro x hx
    have hcx : Connected s z x := around_connected hy' hx
    obtain ⟨o', a', b', hfx, _⟩ := hT.face x hcx
    obtain rfl := Option.some.inj ((hS.2 x hx).1.symm.trans hfx.2.1)
    exact ⟨a', b', hfx, face_dest hi hT.agree ((connected_primal hi hcx).2 hT.primal) hfx, dest_onext hT hfx⟩
  obtain ⟨L, hL⟩ := around_onceRound hi y'
  obtain ⟨x, res, hx, hr, _⟩ := resolve_ends (yd := yd) hdp hS hL
  obtain ⟨a, b, hfx, ha, hb⟩ := faceAt x hx
  obtain ⟨_, a2, ha2, hao⟩ := hS.2 x hx
  obtain ⟨_, b2, hb2, hbo⟩ := hS.2 _ hx.next
  obtain rfl := Option.some.inj (ha.symm.trans ha2)
  obtain rfl := Option.some.inj (hb.symm.trans hb2)
  unfold out at hr
  simp only [ha, hb] at hr
  rcases step_signs yd p a b d hao hbo hdp with ⟨h2, _⟩ | ⟨h2, h3⟩ | ⟨h2, h3⟩ | ⟨h2, h3, _⟩ | ⟨h2, h3, h4, h5⟩
  · rw [h2] at hr; cases hr
  · exact main x a b hx hfx (Or.inr h3)
  · exact main x a b hx hfx (Or.inl h3)
  · obtain ⟨a3, b3, hf3, ha3, _⟩ := faceAt _ hx.next
    obtain rfl := Option.some.inj (hb.symm.trans ha3)
    exact main _ _ _ hx.next hf3 (Or.inl h3)
  · exfalso
    have hcx : Connected s z x := around_connected hy' hx
    obtain ⟨o', a', b', hfx', ht⟩ := hT.face x hcx
    obtain ⟨rfl, rfl, rfl⟩ := face_unique hfx' hfx
    rcases ht with ht | hO
    · exact (show 0 < wedge yd (arrow o' a') (arrow o' b') from ht).ne' h3
    · rcases outside_backwards hi hT.outer hO hfx with ⟨rfl, rfl, rfl⟩ | ⟨rfl, rfl, rfl⟩ | ⟨rfl, rfl, rfl⟩
      · have : 0 < wedge yd (arrow o' b') (arrow o' a') := turns_cycle hT.frame
        rw [wedge_swap, h3] at this; simp at this
      · have : 0 < wedge yd (arrow o' b') (arrow o' a') := hT.frame
        rw [wedge_swap, h3] at this; simp at this
      · have : 0 < wedge yd (arrow o' b') (arrow o' a') := turns_cycle (turns_cycle hT.frame)
        rw [wedge_swap, h3] at this; simp at this

/-- An edge with a triangle to its left is on every ring of its origin. -/
theorem inner_ring (hT : Triangulated yd f0 f1 f2 s z) {y y' : E} (hy : Inner s z y) (hy' : Connected s z y')
    (ho : orig s y' = orig s y) : Around s y' y := by
  have hi := Reached.inv hT.reached
  obtain ⟨p, q, r, hf, ht⟩ := inner_face hT hy
  have ht' : 0 < area yd p q r := ht
  obtain ⟨δ, hd, hn⟩ := near_corner hT hy hf one_pos
  have hIn := hn _ (half_pos hd) (half_lt_self hd)
  generalize nudge p q r 1 (δ / 2) = d at hIn
  obtain ⟨x, a, b, hx, hxI, hfx, k1, k2, k3⟩ := sector hT hy hy' hf (ho.trans hf.2.1) hIn
  obtain ⟨_, _, _, g, h1, h2, h3⟩ := hIn
  obtain ⟨rfl, rfl, rfl⟩ := face_unique hf g
  have htx : 0 < area yd p a b := inner_turns hT hxI hfx
  -- how far to turn towards `r`
  obtain ⟨l, hl, l1, l2⟩ : ∃ l : K, 0 < l ∧ 0 < area yd p a d + l * area yd p a r ∧
      0 < area yd b p d + l * area yd b p r := by
    obtain ⟨δ2, hd2, hs2⟩ := small _ (area yd b p r) k2
    rcases lt_or_eq_of_le k1 with k1 | k1
    · obtain ⟨δ1, hd1, hs1⟩ := small _ (area yd p a r) k1
      refine ⟨min δ1 δ2 / 2, half_pos (lt_min hd1 hd2), ?_, ?_⟩
      · exact hs1 _ (half_pos (lt_min hd1 hd2)) (lt_of_lt_of_le (half_lt_self (lt_min hd1 hd2)) (min_le_left _ _))
      · exact hs2 _ (half_pos (lt_min hd1 hd2)) (lt_of_lt_of_le (half_lt_self (lt_min hd1 hd2)) (min_le_right _ _))
    · obtain ⟨t, t0, hto⟩ := k3 k1.symm
      refine ⟨δ2 / 2, half_pos hd2, ?_, hs2 _ (half_pos hd2) (half_lt_self hd2)⟩
      rw [← k1, zero_add]
      refine mul_pos (half_pos hd2) ?_
      have e : area yd r p d = t * area yd p a r := by
        have : area yd r p d = wedge yd (arrow p d) (arrow p r) := by
          unfold area wedge arrow; cases yd <;> simp <;> ring
        rw [this, hto, wedge_smul_left]
      rw [e] at h3
      exact (mul_pos_iff_of_pos_left t0).1 h3
  have e1 : area yd q r p = area yd p q r := wedge_cycle yd p q r
  have e2 : area yd a b p = area yd p a b := wedge_cycle yd p a b
  obtain ⟨δ', hd', hn'⟩ := near yd p d r l [(q, r), (a, b)] (by simp [e1, e2, ht', htx])
  have h0 := half_pos hd'
  have k := hn' _ h0 (half_lt_self hd')
  have in1 : InFace yd s y (nudge p d r l (δ' / 2)) := by
    refine ⟨p, q, r, hf, ?_, k (q, r) (by simp), ?_⟩
    · rw [area_nudge, (area_self yd p q).1]
      have := mul_pos h0 (add_pos h1 (mul_pos hl ht'))
      linarith
    · rw [area_nudge, (area_self yd r p).1, (area_self yd r p).2]
      have := mul_pos h0 h3
      linarith
  have in2 : InFace yd s x (nudge p d r l (δ' / 2)) := by
    refine ⟨p, a, b, hfx, ?_, k (a, b) (by simp), ?_⟩
    · rw [area_nudge, (area_self yd p a).1]
      have := mul_pos h0 l1
      linarith
    · rw [area_nudge, (area_self yd b p).2]
      have := mul_pos h0 l2
      linarith
  have := tri_orig hT hy.1 (inFace_unique hT hy.1 hxI.1 in1 in2) (hfx.2.1.trans hf.2.1.symm)
  rw [← this]; exact hx

/-- Edges with one origin are on one ring. -/
theorem same_ring (hT : Triangulated yd f0 f1 f2 s z) {y y' : E} (hy : Connected s z y) (hy' : Connected s z y')
    (ho : orig s y' = orig s y) : Around s y y' := by
  have hi := Reached.inv hT.reached
  obtain ⟨p, d, t, hf, _⟩ := hT.face y hy
  obtain ⟨w, q, r, hw, hg⟩ := vertex_inner hT ⟨y, hy, hf.2.1⟩
  have o1 : orig s y = orig s w := hf.2.1.trans hg.2.1.symm
  have h1 := inner_ring hT hw hy o1
  have h2 := inner_ring hT hw hy' (ho.trans o1)
  exact around_trans h1 (hi.around_symm h2)

/-- A triangle is known by its corners. -/
theorem face_edge (hT : Triangulated yd f0 f1 f2 s z) {y y' : E} (hy : Connected s z y) (hy' : Connected s z y')
    {o d t : Pt K} (hf : FaceOf s y o d t) (hf' : FaceOf s y' o d t) : y' = y := by
  have hi := Reached.inv hT.reached
  obtain ⟨_, _, _, g, ht⟩ := hT.face y hy
  obtain ⟨rfl, rfl, rfl⟩ := face_unique hf g
  obtain ⟨_, _, _, g', ht'⟩ := hT.face y' hy'
  obtain ⟨rfl, rfl, rfl⟩ := face_unique hf' g'
  refine tri_orig hT hy ?_ (hf'.2.1.trans hf.2.1.symm)
  by_cases h : Turns yd o d t
  · obtain ⟨δ, hd, hn⟩ := near_corner hT (inner_of hT hy hf h) hf one_pos
    obtain ⟨δ', hd', hn'⟩ := near_corner hT (inner_of hT hy' hf' h) hf' one_pos
    have h0 : 0 < min δ δ' / 2 := half_pos (lt_min hd hd')
    have hs : min δ δ' / 2 < min δ δ' := half_lt_self (lt_min hd hd')
    exact inFace_unique hT hy hy' (hn _ h0 (lt_of_lt_of_le hs (min_le_left _ _)))
      (hn' _ h0 (lt_of_lt_of_le hs (min_le_right _ _)))
  · have o1 := ht.resolve_left h
    have o2 := ht'.resolve_left h
    have l3 := lnext3 hT (Connected.refl.sym : Connected s z (sym z))
    unfold tri
    simp only [Finset.mem_insert, Finset.mem_singleton]
    rcases o1 with rfl | rfl | rfl <;> rcases o2 with rfl | rfl | rfl <;> simp [l3]

end Verif.Lemmas.SubRing
