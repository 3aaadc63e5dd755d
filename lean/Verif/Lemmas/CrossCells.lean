import Verif.Lemmas.CrossGeom

/-!
# Helper lemmas: triangles and edges of a triangulation have no inner point in common
-/

namespace Verif.Lemmas.CrossCells
open Verif.Quad Verif.Spec.Quad Verif.Lemmas.Quad Verif.Spec.Subdivision Verif.Subdivision
open Verif.Resolve Verif.Spec.Resolve Verif.Lemmas.Resolve Verif.Lemmas.SubLocate Verif.Lemmas.SubTables
open Verif.Lemmas.SubFan Verif.Lemmas.SubWalk Verif.Lemmas.SubMesh Verif.Lemmas.SubCover Verif.Lemmas.Circle
open Verif.Lemmas.SubDelaunay Verif.Lemmas.SubRing Verif.Lemmas.CrossGeom

set_option linter.unusedSectionVars false

variable {K : Type} [Field K] [LinearOrder K] [IsStrictOrderedRing K]
variable {yd : Bool} {f0 f1 f2 : Pt K} {s : Store (Pt K)} {z : E}

/-- A point a little way off from `x`, in the direction `n`. -/
def shift (x n : Pt K) (ε : K) : Pt K := (x.1 + ε * n.1, x.2 + ε * n.2)

theorem area_shift (yd : Bool) (a b x n : Pt K) (ε : K) :
    area yd a b (shift x n ε) = area yd a b x + ε * wedge yd (arrow a b) n := by
  unfold shift area wedge arrow; cases yd <;> simp <;> ring

/-- A side is not in the way. -/
def Open (yd : Bool) (a b x n : Pt K) : Prop := 0 < area yd a b x ∨ (area yd a b x = 0 ∧ 0 < wedge yd (arrow a b) n)

theorem open_small {a b x n : Pt K} (h : Open yd a b x n) :
    ∃ δ > 0, ∀ ε, 0 < ε → ε < δ → 0 < area yd a b (shift x n ε) := by
  rcases h with h | ⟨h, h'⟩
  · obtain ⟨δ, hd, hs⟩ := small _ (wedge yd (arrow a b) n) h
    exact ⟨δ, hd, fun ε h0 h1 => by rw [area_shift]; exact hs ε h0 h1⟩
  · exact ⟨1, one_pos, fun ε h0 _ => by rw [area_shift, h, zero_add]; exact mul_pos h0 h'⟩

/-- The points near by in that direction are in the triangle. -/
def Enters (yd : Bool) (s : Store (Pt K)) (y : E) (x n : Pt K) : Prop :=
  ∃ δ > 0, ∀ ε, 0 < ε → ε < δ → InFace yd s y (shift x n ε)

theorem enters {y : E} {o d t x n : Pt K} (hf : FaceOf s y o d t) (h1 : Open yd o d x n) (h2 : Open yd d t x n)
    (h3 : Open yd t o x n) : Enters yd s y x n := by
  obtain ⟨δ1, p1, q1⟩ := open_small h1
  obtain ⟨δ2, p2, q2⟩ := open_small h2
  obtain ⟨δ3, p3, q3⟩ := open_small h3
  refine ⟨min δ1 (min δ2 δ3), lt_min p1 (lt_min p2 p3), fun ε h0 h => ?_⟩
  rw [lt_min_iff, lt_min_iff] at h
  exact ⟨o, d, t, hf, q1 ε h0 h.1, q2 ε h0 h.2.1, q3 ε h0 h.2.2⟩

/-- Two triangles that are entered from one point in one direction are the same. -/
theorem enters_same (hT : Triangulated yd f0 f1 f2 s z) {y y' : E} (hy : Connected s z y) (hy' : Connected s z y')
    {x n : Pt K} (h : Enters yd s y x n) (h' : Enters yd s y' x n) : y' ∈ tri s y := by
  obtain ⟨δ, hd, h⟩ := h
  obtain ⟨δ', hd', h'⟩ := h'
  have h0 : 0 < min δ δ' / 2 := half_pos (lt_min hd hd')
  have hs : min δ δ' / 2 < min δ δ' := half_lt_self (lt_min hd hd')
  exact inFace_unique hT hy hy' (h _ h0 (lt_of_lt_of_le hs (min_le_left _ _)))
    (h' _ h0 (lt_of_lt_of_le hs (min_le_right _ _)))

theorem enters_inFace {y : E} {x n : Pt K} (h : InFace yd s y x) : Enters yd s y x n := by
  obtain ⟨o, d, t, hf, h1, h2, h3⟩ := h
  exact enters hf (Or.inl h1) (Or.inl h2) (Or.inl h3)

/-- `x` is on the edge, between its ends. -/
def OnEdge (s : Store (Pt K)) (y : E) (x : Pt K) : Prop :=
  ∃ p q u, orig s y = some p ∧ dest s y = some q ∧ 0 < u ∧ u < 1 ∧ AtParam x p q u

theorem onEdge_sym {y : E} {x : Pt K} (h : OnEdge s y x) : OnEdge s (sym y) x := by
  obtain ⟨p, q, u, ho, hd, u0, u1, h⟩ := h
  refine ⟨q, p, 1 - u, hd, by unfold dest; rw [sym_sym]; exact ho, by linarith, by linarith, ?_⟩
  unfold AtParam at *
  rw [h]
  refine Prod.ext ?_ ?_ <;> simp <;> ring

/-- How the sides of the triangle lie to a point of its first side. -/
theorem onEdge_sides (hT : Triangulated yd f0 f1 f2 s z) {y : E} (hy : Inner s z y) {x : Pt K} (h : OnEdge s y x)
    {o d t : Pt K} (hf : FaceOf s y o d t) : area yd o d x = 0 ∧ 0 < area yd d t x ∧ 0 < area yd t o x := by
  have hi := Reached.inv hT.reached
  have ky := (connected_primal hi hy.1).2 hT.primal
  have ht : 0 < area yd o d t := inner_turns hT hy hf
  obtain ⟨p, q, u, ho, hd, u0, u1, h⟩ := h
  obtain rfl := Option.some.inj (ho.symm.trans hf.2.1)
  obtain rfl := Option.some.inj (hd.symm.trans (face_dest hi hT.agree ky hf))
  have e1 : area yd q t p = area yd p q t := wedge_cycle yd p q t
  have e2 : area yd t p q = area yd p q t := by
    have := wedge_cycle yd q t p
    exact this.trans e1
  refine ⟨?_, ?_, ?_⟩
  · rw [area_param yd p q p q x u h, (area_self0 yd p q).1, (area_self0 yd p q).2]; ring
  · rw [area_param yd q t p q x u h, (area_self0 yd q t).1, e1]
    have := mul_pos (sub_pos.2 u1) ht
    linarith
  · rw [area_param yd t p p q x u h, (area_self0 yd t p).2, e2]
    have := mul_pos u0 ht
    linarith

theorem onEdge_enters (hT : Triangulated yd f0 f1 f2 s z) {y : E} (hy : Inner s z y) {x : Pt K} (h : OnEdge s y x)
    {o d t n : Pt K} (hf : FaceOf s y o d t) (hn : 0 < wedge yd (arrow o d) n) : Enters yd s y x n := by
  obtain ⟨h1, h2, h3⟩ := onEdge_sides hT hy h hf
  exact enters hf (Or.inr ⟨h1, hn⟩) (Or.inl h2) (Or.inl h3)

theorem inner_or (hT : Triangulated yd f0 f1 f2 s z) {y : E} (hy : Connected s z y) : Inner s z y ∨ Inner s z (sym y) := by
  by_cases hO : Outside s z y
  · exact Or.inr ⟨hy.sym, outside_sym hT hy hO⟩
  · exact Or.inl ⟨hy, hO⟩

/-- A direction to the left. -/
theorem left_of (yd : Bool) {u : Pt K} (hu : u ≠ (0, 0)) : ∃ n, 0 < wedge yd u n := by
  have hp : 0 < u.1 * u.1 + u.2 * u.2 := by
    rcases lt_or_eq_of_le (add_nonneg (mul_self_nonneg u.1) (mul_self_nonneg u.2)) with h | h
    · exact h
    · exfalso
      have a := mul_self_nonneg u.1
      have b := mul_self_nonneg u.2
      have h1 : u.1 * u.1 = 0 := by linarith
      have h2 : u.2 * u.2 = 0 := by linarith
      exact hu (Prod.ext (mul_self_eq_zero.1 h1) (mul_self_eq_zero.1 h2))
  cases yd
  · refine ⟨(-u.2, u.1), ?_⟩
    unfold wedge; simp; linarith
  · refine ⟨(u.2, -u.1), ?_⟩
    unfold wedge; simp; linarith

/-- No edge runs through a triangle. -/
theorem face_edge_apart (hT : Triangulated yd f0 f1 f2 s z) {y y' : E} (hy : Connected s z y) {x : Pt K}
    (h : InFace yd s y x) (hy' : Connected s z y') (h' : OnEdge s y' x) : False := by
  have hi := Reached.inv hT.reached
  have main : ∀ y', Inner s z y' → OnEdge s y' x → False := by
    intro y' hy' h'
    obtain ⟨o, d, t, hf, ht⟩ := inner_face hT hy'
    obtain ⟨n, hn⟩ := left_of yd (arrow_ne (turns_ne ht).1.symm)
    have hm := enters_same hT hy hy'.1 (enters_inFace (n := n) h) (onEdge_enters hT hy' h' hf hn)
    have h1 : InFace yd s y' x := by
      unfold tri at hm
      simp only [Finset.mem_insert, Finset.mem_singleton] at hm
      rcases hm with rfl | rfl | rfl
      · exact h
      · exact inFace_rot hi h
      · exact inFace_rot hi (inFace_rot hi h)
    obtain ⟨o', d', t', hf', k, _⟩ := h1
    obtain ⟨rfl, rfl, rfl⟩ := face_unique hf hf'
    rw [(onEdge_sides hT hy' h' hf).1] at k
    exact lt_irrefl _ k
  rcases inner_or hT hy' with hy' | hy'
  · exact main _ hy' h'
  · exact main _ hy' (onEdge_sym h')

/-- No point of the triangulation is on an edge. -/
theorem vertex_edge_apart (hT : Triangulated yd f0 f1 f2 s z) {v : Pt K} (hv : Vertex s z v) {y : E}
    (hy : Connected s z y) (h : OnEdge s y v) : False := by
  have main : ∀ y, Inner s z y → OnEdge s y v → False := by
    intro y hy h
    obtain ⟨o, d, t, hf, ht⟩ := inner_face hT hy
    obtain ⟨h1, h2, h3⟩ := onEdge_sides hT hy h hf
    exact vertex_side hT hv hy hf h1 h2 h3
  rcases inner_or hT hy with hy | hy
  · exact main _ hy h
  · exact main _ hy (onEdge_sym h)

/-- Two edges with an inner point in common are the same, or one is the other turned round. -/
theorem edges_apart (hT : Triangulated yd f0 f1 f2 s z) {y y' : E} (hy : Connected s z y) {x : Pt K}
    (h : OnEdge s y x) (hy' : Connected s z y') (h' : OnEdge s y' x) : y' = y ∨ y' = sym y := by
  have hi := Reached.inv hT.reached
  -- both have a triangle to the left, and there is a direction to the left of both
  have main : ∀ {y y' : E}, Inner s z y → Inner s z y' → OnEdge s y x → OnEdge s y' x → ∀ {o d t o' d' t' n : Pt K},
      FaceOf s y o d t → FaceOf s y' o' d' t' → 0 < wedge yd (arrow o d) n → 0 < wedge yd (arrow o' d') n →
      y' = y := by
    intro y y' hy hy' h h' o d t o' d' t' n hf hf' hn hn'
    have hm := enters_same hT hy.1 hy'.1 (onEdge_enters hT hy h hf hn) (onEdge_enters hT hy' h' hf' hn')
    obtain ⟨_, h2, h3⟩ := onEdge_sides hT hy h hf
    unfold tri at hm
    simp only [Finset.mem_insert, Finset.mem_singleton] at hm
    rcases hm with rfl | rfl | rfl
    · rfl
    · rw [(onEdge_sides hT hy' h' (face_rot hi hf)).1] at h2; exact absurd h2 (lt_irrefl _)
    · rw [(onEdge_sides hT hy' h' (face_rot hi (face_rot hi hf))).1] at h3; exact absurd h3 (lt_irrefl _)
  have inn : ∀ {y y' : E}, Inner s z y → Inner s z y' → OnEdge s y x → OnEdge s y' x → y' = y ∨ y' = sym y := by
    intro y y' hy hy' h h'
    obtain ⟨o, d, t, hf, ht⟩ := inner_face hT hy
    obtain ⟨o', d', t', hf', ht'⟩ := inner_face hT hy'
    have nz := arrow_ne (turns_ne ht).1.symm
    have nz' := arrow_ne (turns_ne ht').1.symm
    have ws : ∀ u v w : Pt K, wedge yd u (v.1 - w.1, v.2 - w.2) = wedge yd u v - wedge yd u w := by
      intro u v w; unfold wedge; cases yd <;> simp <;> ring
    rcases lt_trichotomy 0 (wedge yd (arrow o d) (arrow o' d')) with hw | hw | hw
    · refine Or.inl (main hy hy' h h' hf hf' (n := ((arrow o' d').1 - (arrow o d).1, (arrow o' d').2 - (arrow o d).2)) ?_ ?_)
      · rw [ws, wedge_self, sub_zero]; exact hw
      · rw [ws, wedge_self, wedge_swap]; linarith
    · obtain ⟨c, hc⟩ := wedge_zero nz hw.symm
      have c0 : c ≠ 0 := by
        rintro rfl
        apply nz'
        rw [hc]; simp
      obtain ⟨n, hn⟩ := left_of yd nz
      rcases lt_or_gt_of_ne c0 with c0 | c0
      · -- the other way
        have hneg : wedge yd (arrow o' d') n < 0 := by
          rw [hc, wedge_smul_left]; exact mul_neg_of_neg_of_pos c0 hn
        obtain ⟨td, hg⟩ := across hT hy'.1 hf'
        by_cases hO : Outside s z (sym y')
        · exfalso
          obtain ⟨δ, hd, he⟩ := onEdge_enters hT hy h hf hn
          have h0 := half_pos hd
          have hin := inFace_inFrame hT hy.1 (he _ h0 (half_lt_self hd))
          have := outside_side hT hO hg hin
          rw [area_shift, (onEdge_sides hT hy' h' hf').1, zero_add] at this
          have := mul_neg_of_pos_of_neg h0 hneg
          linarith
        · refine Or.inr ?_
          have hr : wedge yd (arrow d' o') n = - wedge yd (arrow o' d') n := by
            unfold wedge arrow; cases yd <;> simp <;> ring
          have := main hy (y' := sym y') ⟨hy'.1.sym, hO⟩ h (onEdge_sym h') hf hg hn (by rw [hr]; linarith)
          rw [← this, sym_sym]
      · refine Or.inl (main hy hy' h h' hf hf' hn ?_)
        rw [hc, wedge_smul_left]; exact mul_pos c0 hn
    · refine Or.inl (main hy hy' h h' hf hf' (n := ((arrow o d).1 - (arrow o' d').1, (arrow o d).2 - (arrow o' d').2)) ?_ ?_)
      · rw [ws, wedge_self]; linarith
      · rw [ws, wedge_self, wedge_swap]; linarith
  rcases inner_or hT hy with a | a <;> rcases inner_or hT hy' with b | b
  · exact inn a b h h'
  · rcases inn a b h (onEdge_sym h') with e | e
    · right; rw [← e, sym_sym]
    · left; rw [← sym_sym y', e, sym_sym]
  · rcases inn a b (onEdge_sym h) h' with e | e
    · exact Or.inr e
    · left; rw [e, sym_sym]
  · rcases inn a b (onEdge_sym h) (onEdge_sym h') with e | e
    · left; rw [← sym_sym y', e, sym_sym]
    · right; rw [← sym_sym y', e, sym_sym]

/-- From one point in one direction there is one triangle. -/
theorem cone_unique (hT : Triangulated yd f0 f1 f2 s z) {x x' : E} (hx : Inner s z x) (hx' : Inner s z x')
    {p a b a' b' d : Pt K} (hf : FaceOf s x p a b) (hf' : FaceOf s x' p a' b') (h1 : 0 < area yd p a d)
    (h2 : 0 < area yd b p d) (h1' : 0 < area yd p a' d) (h2' : 0 < area yd b' p d) : x' = x := by
  have en : ∀ {x a b}, Inner s z x → FaceOf s x p a b → 0 < area yd p a d → 0 < area yd b p d →
      Enters yd s x p (arrow p d) := by
    intro x a b hx hf h1 h2
    have ht : 0 < area yd p a b := inner_turns hT hx hf
    refine enters hf (Or.inr ⟨(area_self0 yd p a).1, h1⟩) (Or.inl ?_) (Or.inr ⟨(area_self0 yd b p).2, ?_⟩)
    · have : area yd a b p = area yd p a b := wedge_cycle yd p a b
      rw [this]; exact ht
    · have : wedge yd (arrow b p) (arrow p d) = area yd b p d := by
        unfold area wedge arrow; cases yd <;> simp <;> ring
      rw [this]; exact h2
  exact tri_orig hT hx.1 (enters_same hT hx.1 hx'.1 (en hx hf h1 h2) (en hx' hf' h1' h2'))
    (hf'.2.1.trans hf.2.1.symm)

/-- The segment from a corner into the triangle is not an edge. -/
theorem cone_no_edge (hT : Triangulated yd f0 f1 f2 s z) {x y : E} (hx : Inner s z x)
    {p a b d : Pt K} (hf : FaceOf s x p a b) (h1 : 0 < area yd p a d) (h2 : 0 < area yd b p d)
    (hy : Connected s z y) (ho : orig s y = some p) (hd : dest s y = some d) : False := by
  have ht : 0 < area yd p a b := inner_turns hT hx hf
  have en : Enters yd s x p (arrow p d) := by
    refine enters hf (Or.inr ⟨(area_self0 yd p a).1, h1⟩) (Or.inl ?_) (Or.inr ⟨(area_self0 yd b p).2, ?_⟩)
    · have : area yd a b p = area yd p a b := wedge_cycle yd p a b
      rw [this]; exact ht
    · have : wedge yd (arrow b p) (arrow p d) = area yd b p d := by
        unfold area wedge arrow; cases yd <;> simp <;> ring
      rw [this]; exact h2
  obtain ⟨δ, hδ, en⟩ := en
  have h0 : 0 < min δ 1 / 2 := half_pos (lt_min hδ one_pos)
  have hs : min δ 1 / 2 < min δ 1 := half_lt_self (lt_min hδ one_pos)
  exact face_edge_apart hT hx.1 (en _ h0 (lt_of_lt_of_le hs (min_le_left _ _))) hy
    ⟨p, d, _, ho, hd, h0, lt_of_lt_of_le hs (min_le_right _ _), rfl⟩

end Verif.Lemmas.CrossCells
