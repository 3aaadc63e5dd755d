import Verif.Lemmas.DelaunayPoints
import Verif.Spec.ConstrainedTriangles

/-!
# Helper lemmas: a triangulation covers its frame, Delaunay or not
-/

namespace Verif.Lemmas.TriCover
open Verif.Quad Verif.Spec.Quad Verif.Lemmas.Quad Verif.Spec.Subdivision Verif.Subdivision
open Verif.Resolve Verif.Spec.Resolve Verif.Lemmas.Resolve Verif.Lemmas.SubLocate Verif.Lemmas.SubTables
open Verif.Lemmas.SubMesh Verif.Lemmas.SubCover Verif.Lemmas.SubDelaunay Verif.Lemmas.SubHistory
open Verif.Props Verif.Lemmas.SubTriangles Verif.Lemmas.SubNew Verif.Spec.Planar Verif.Spec.ConstrainedTriangles

set_option linter.unusedSectionVars false

variable {K : Type} [Field K] [LinearOrder K] [IsStrictOrderedRing K]
variable {yd : Bool} {f0 f1 f2 : Pt K} {s : Store (Pt K)} {z : E}

/-- A point inside the frame is in a triangle. -/
theorem cover_inside (hT : Triangulated yd f0 f1 f2 s z) {p : Pt K} (h1 : 0 < area yd f0 f1 p)
    (h2 : 0 < area yd f1 f2 p) (h3 : 0 < area yd f2 f0 p) :
    ∃ y o d t, Inner s z y ∧ FaceOf s y o d t ∧ InTriangle p o d t := by
  classical
  have hs := sum_inner hT p
  rw [(good (p := p) hT.frame).2.2 h1 h2 h3] at hs
  obtain ⟨y, hy, hne⟩ : ∃ y ∈ edges s z \ tri s (sym z), about yd s p y ≠ 0 := by
    by_contra hn
    push Not at hn
    rw [Finset.sum_eq_zero hn] at hs
    omega
  rw [Finset.mem_sdiff, mem_edges hT, ← outside_tri] at hy
  obtain ⟨o, d, t, hf, ht⟩ := inner_face hT hy
  rw [about_face hT hy.1 hf] at hne
  have hg := good (p := p) ht
  exact ⟨y, o, d, t, hy, hf, (inTriangle_iff ht).2 (hg.2.1 (hg.1.resolve_left hne))⟩

/-- The triangles are the frame. -/
theorem cover_iff (hT : Triangulated yd f0 f1 f2 s z) (p : Pt K) :
    InTriangle p f0 f1 f2 ↔ ∃ y o d t, Connected s z y ∧ ¬ Outside s z y ∧ FaceOf s y o d t ∧ InTriangle p o d t := by
  have hi := Reached.inv hT.reached
  constructor
  · rintro ⟨u, v, w, hu, hv, hw, hs, rfl⟩
    have side : ∀ {y : E} {a b c : Pt K}, Connected s z y → Outside s z y → FaceOf s y a b c →
        ∀ u v : K, 0 ≤ u → 0 ≤ v → u + v = 1 →
        ∃ y o d t, Connected s z y ∧ ¬ Outside s z y ∧ FaceOf s y o d t ∧
          InTriangle (u * b.1 + v * a.1, u * b.2 + v * a.2) o d t := by
      intro y a b c hc ho hf u v hu hv hs
      obtain ⟨t, ht⟩ := across hT hc hf
      exact ⟨sym y, b, a, t, hc.sym, outside_sym hT hc ho, ht, u, v, 0, hu, hv, le_rfl, by linarith, by simp⟩
    have c0 : Connected s z (sym z) := Connected.refl.sym
    have c1 := lnext_connected hi c0
    have c2 := lnext_connected hi c1
    rcases hw.eq_or_lt with rfl | hw
    · obtain ⟨y, o, d, t, h1, h2, h3, h4⟩ := side c0 (Or.inl rfl) hT.outer u v hu hv (by linarith)
      exact ⟨y, o, d, t, h1, h2, h3, by simpa using h4⟩
    rcases hu.eq_or_lt with rfl | hu
    · obtain ⟨y, o, d, t, h1, h2, h3, h4⟩ := side c2 (Or.inr (Or.inr rfl)) (face_rot hi (face_rot hi hT.outer)) v w hv hw.le (by linarith)
      exact ⟨y, o, d, t, h1, h2, h3, by simpa using h4⟩
    rcases hv.eq_or_lt with rfl | hv
    · obtain ⟨y, o, d, t, h1, h2, h3, h4⟩ := side c1 (Or.inr (Or.inl rfl)) (face_rot hi hT.outer) w u hw.le hu.le (by linarith)
      refine ⟨y, o, d, t, h1, h2, h3, ?_⟩
      convert h4 using 2 <;> ring
    obtain ⟨a1, a2, a3⟩ := insideTriangle_area hT.frame ⟨u, v, w, hu, hv, hw, hs, rfl⟩
    obtain ⟨y, o, d, t, hy, hf, hp⟩ := cover_inside hT a1 a2 a3
    exact ⟨y, o, d, t, hy.1, hy.2, hf, hp⟩
  · rintro ⟨y, o, d, t, hc, ho, hf, u, v, w, hu, hv, hw, hs, rfl⟩
    rw [inTriangle_iff hT.frame]
    obtain ⟨a1, a2, a3⟩ := vertex_inFrame hT ⟨y, hc, hf.2.1⟩
    obtain ⟨b1, b2, b3⟩ := vertex_inFrame hT ⟨_, lnext_connected hi hc, hf.2.2.1⟩
    obtain ⟨c1, c2, c3⟩ := vertex_inFrame hT ⟨_, lnext_connected hi (lnext_connected hi hc), hf.2.2.2⟩
    have key : ∀ {a b c : K}, 0 ≤ a → 0 ≤ b → 0 ≤ c → 0 ≤ u * a + v * b + w * c := fun ha hb hc =>
      add_nonneg (add_nonneg (mul_nonneg hu ha) (mul_nonneg hv hb)) (mul_nonneg hw hc)
    refine ⟨?_, ?_, ?_⟩ <;> rw [area_mix _ _ _ _ _ _ _ _ _ hs]
    · exact key a1 b1 c1
    · exact key a2 b2 c2
    · exact key a3 b3 c3

/-- The triangles but the outside one are a triangulation, and their sides are the edges. -/
theorem triangles_list (hT : Triangulated yd f0 f1 f2 s z) :
    ∃ l1 T l2, walkAllTriangles s z = some (l1 ++ T :: l2) ∧ SameTriangle T (f1, f0, f2) ∧
      Triangulation yd f0 f1 f2 (Vertex s z) (l1 ++ l2) ∧
      (∀ p q, Side (l1 ++ l2) p q ↔ Spec.Constrained.Joined s z p q) ∧
      ∀ p q, Side (l1 ++ T :: l2) p q → Spec.Constrained.Joined s z p q := by
  have hi := Reached.inv hT.reached
  obtain ⟨ts, h1, h2, h3⟩ := walk_triangles hT
  obtain ⟨l1, T, l2, rfl, h5, h6⟩ := countP_one (h3 (sym z) f1 f0 f2 Connected.refl.sym hT.outer)
  rw [decide_eq_true_eq] at h5
  have sub : ∀ x ∈ l1 ++ l2, x ∈ l1 ++ T :: l2 := by
    intro x hx
    rw [List.mem_append] at *
    exact hx.imp_right (List.mem_cons_of_mem _)
  have inner : ∀ x ∈ l1 ++ l2, ∃ y, Inner s z y ∧ FaceOf s y x.1 x.2.1 x.2.2 := by
    intro x hx
    obtain ⟨y, hc, hf⟩ := h2 x (sub x hx)
    refine ⟨y, ⟨hc, fun hO => ?_⟩, hf⟩
    have := h6 x hx
    rw [decide_eq_false_iff_not] at this
    apply this
    obtain ⟨x1, x2, x3⟩ := x
    rcases outside_backwards hi hT.outer hO hf with ⟨a, b, c⟩ | ⟨a, b, c⟩ | ⟨a, b, c⟩ <;> simp only at a b c <;>
      subst a b c
    · exact Or.inl rfl
    · exact Or.inr (Or.inl rfl)
    · exact Or.inr (Or.inr rfl)
  have listed : ∀ y o d t, Inner s z y → FaceOf s y o d t → ∃ x ∈ l1 ++ l2, SameTriangle x (o, d, t) := by
    intro y o d t hy hf
    have hp : 0 < cnt (l1 ++ T :: l2) o d t := by rw [h3 y o d t hy.1 hf]; omega
    obtain ⟨x, hx, hs⟩ := List.countP_pos_iff.1 hp
    rw [decide_eq_true_eq] at hs
    refine ⟨x, ?_, hs⟩
    rw [List.mem_append, List.mem_cons] at hx
    rw [List.mem_append]
    rcases hx with hx | rfl | hx
    · exact Or.inl hx
    · exfalso
      have ht := inner_turns hT hy hf
      have hb : Turns yd f1 f0 f2 := by
        rcases h5 with h5 | h5 | h5 <;> rcases hs with hs | hs | hs <;> rw [h5] at hs <;>
          simp only [Prod.mk.injEq] at hs <;> obtain ⟨rfl, rfl, rfl⟩ := hs
        all_goals first
          | exact ht
          | exact turns_cycle ht
          | exact turns_cycle (turns_cycle ht)
      have := hT.frame
      unfold Turns at hb this
      have e : wedge yd (arrow f1 f0) (arrow f1 f2) = - wedge yd (arrow f0 f1) (arrow f0 f2) := by
        unfold wedge arrow; cases yd <;> simp <;> ring
      linarith
    · exact Or.inr hx
  have side : ∀ p q, Side (l1 ++ T :: l2) p q → Spec.Constrained.Joined s z p q := by
    rintro p q ⟨x, hx, h⟩
    obtain ⟨y, hy, hf⟩ := h2 x hx
    have hf1 := face_rot hi hf
    have hf2 := face_rot hi hf1
    have c1 := lnext_connected hi hy
    have c2 := lnext_connected hi c1
    have fwd : ∀ {y : E} {o d t : Pt K}, Connected s z y → FaceOf s y o d t →
        Spec.Constrained.Joined s z o d ∧ Spec.Constrained.Joined s z d o := by
      intro y o d t hy hf
      obtain ⟨td, hg⟩ := across hT hy hf
      exact ⟨⟨y, hy, hf.2.1, hg.2.1⟩, ⟨sym y, hy.sym, hg.2.1, by unfold dest; rw [sym_sym]; exact hf.2.1⟩⟩
    simp only [List.mem_cons, List.not_mem_nil, or_false, Prod.mk.injEq] at h
    rcases h with ⟨rfl, rfl⟩ | ⟨rfl, rfl⟩ | ⟨rfl, rfl⟩ | ⟨rfl, rfl⟩ | ⟨rfl, rfl⟩ | ⟨rfl, rfl⟩
    · exact (fwd hy hf).1
    · exact (fwd c1 hf1).1
    · exact (fwd c2 hf2).1
    · exact (fwd hy hf).2
    · exact (fwd c1 hf1).2
    · exact (fwd c2 hf2).2
  refine ⟨l1, T, l2, h1, h5, ⟨?_, ?_, ?_, ?_⟩, ?_, side⟩
  · intro x hx
    obtain ⟨y, hy, hf⟩ := inner x hx
    exact inner_turns hT hy hf
  · intro p
    rw [cover_iff hT p]
    constructor
    · rintro ⟨y, o, d, t, c1, c2, hf, hp⟩
      obtain ⟨x, hx, hs⟩ := listed y o d t ⟨c1, c2⟩ hf
      exact ⟨x, hx, (inTriangle_same hs).2 hp⟩
    · rintro ⟨x, hx, hp⟩
      obtain ⟨y, hy, hf⟩ := inner x hx
      exact ⟨y, _, _, _, hy.1, hy.2, hf, hp⟩
  · apply pairwise_of_cnt
    · intro x hx
      obtain ⟨y, hy, hf⟩ := inner x hx
      rw [← h3 y _ _ _ hy.1 hf]
      unfold cnt
      exact List.Sublist.countP_le (List.Sublist.append_left (List.sublist_cons_self _ _) _)
    · intro x hx x' hx' hn
      push Not at hn
      obtain ⟨p, p1, p2⟩ := hn
      obtain ⟨y, hy, hf⟩ := inner x hx
      obtain ⟨y', hy', hf'⟩ := inner x' hx'
      obtain ⟨a, b, c⟩ := x
      obtain ⟨a', b', c'⟩ := x'
      rcases cover_once hT hy hy' hf hf' p1 p2 with rfl | rfl | rfl
      · obtain ⟨e1, e2, e3⟩ := face_unique hf' hf
        simp only at e1 e2 e3
        subst e1 e2 e3
        exact Or.inl rfl
      · obtain ⟨e1, e2, e3⟩ := face_unique hf' (face_rot hi hf)
        simp only at e1 e2 e3
        subst e1 e2 e3
        exact Or.inr (Or.inl rfl)
      · obtain ⟨e1, e2, e3⟩ := face_unique hf' (face_rot hi (face_rot hi hf))
        simp only at e1 e2 e3
        subst e1 e2 e3
        exact Or.inr (Or.inr rfl)
  · intro p
    constructor
    · intro hv
      obtain ⟨y, q, r, hy, hf⟩ := vertex_inner hT hv
      obtain ⟨x, hx, hs⟩ := listed y p q r hy hf
      refine ⟨x, hx, ?_⟩
      rcases hs with rfl | rfl | rfl <;> simp
    · rintro ⟨x, hx, h⟩
      obtain ⟨y, hy, hf⟩ := inner x hx
      rcases h with rfl | rfl | rfl
      · exact ⟨y, hy.1, hf.2.1⟩
      · exact ⟨_, lnext_connected hi hy.1, hf.2.2.1⟩
      · exact ⟨_, lnext_connected hi (lnext_connected hi hy.1), hf.2.2.2⟩
  · intro p q
    have dest_of : ∀ {y : E} {o d t : Pt K}, Connected s z y → FaceOf s y o d t → dest s y = some d := by
      intro y o d t hy hf
      obtain ⟨td, hg⟩ := across hT hy hf
      exact hg.2.1
    constructor
    · rintro ⟨x, hx, h⟩
      exact side p q ⟨x, sub x hx, h⟩
    · rintro ⟨y, hy, ho, hd⟩
      have via : ∀ {y : E} {p q : Pt K}, Inner s z y → orig s y = some p → dest s y = some q →
          Side (l1 ++ l2) p q ∧ Side (l1 ++ l2) q p := by
        intro y p q hy ho hd
        obtain ⟨o, d, t, hf, _⟩ := hT.face y hy.1
        obtain rfl := Option.some.inj (hf.2.1.symm.trans ho)
        obtain rfl := Option.some.inj ((dest_of hy.1 hf).symm.trans hd)
        obtain ⟨x, hx, hs⟩ := listed y _ _ _ hy hf
        refine ⟨⟨x, hx, ?_⟩, ⟨x, hx, ?_⟩⟩ <;> rcases hs with rfl | rfl | rfl <;> simp
      by_cases hO : Outside s z y
      · exact (via ⟨hy.sym, outside_sym hT hy hO⟩ hd (by unfold dest; rw [sym_sym]; exact ho)).2
      · exact (via ⟨hy, hO⟩ ho hd).1

/-- What `Triangles` lists of a triangulation of the frame. -/
theorem triangles_good {yd : Bool} {a b c : Pt K} {sd : Subdiv K} (h4 : Triangulates yd a b c sd)
    (frame : sd.frame = (a, b, c)) :
    ∃ l1 T l2, sd.triangles true = some (l1 ++ T :: l2) ∧
      (SameTriangle T (a, b, c) ∨ SameTriangle T (b, a, c)) ∧ ¬ Turns yd T.1 T.2.1 T.2.2 ∧
      Triangulation yd a b c (Vertex sd.store sd.start) (l1 ++ l2) ∧
      (∀ p q, Side (l1 ++ l2) p q ↔ Spec.Constrained.Joined sd.store sd.start p q) ∧
      (∀ p q, Side (l1 ++ T :: l2) p q ↔ Spec.Constrained.Joined sd.store sd.start p q) ∧
      sd.triangles false =
        some ((l1 ++ l2).filter fun T : _ × _ × _ => decide (∀ v ∈ [T.1, T.2.1, T.2.2], v ≠ a ∧ v ≠ b ∧ v ≠ c)) := by
  have swap : ∀ p, InTriangle p a c b ↔ InTriangle p a b c := by
    intro p
    constructor <;> rintro ⟨u, v, w, hu, hv, hw, hs, rfl⟩ <;>
      exact ⟨u, w, v, hu, hw, hv, by linarith, Prod.ext (by simp only; ring) (by simp only; ring)⟩
  have list : ∃ l1 T l2, walkAllTriangles sd.store sd.start = some (l1 ++ T :: l2) ∧
      (SameTriangle T (a, b, c) ∨ SameTriangle T (b, a, c)) ∧ ¬ Turns yd T.1 T.2.1 T.2.2 ∧
      Triangulation yd a b c (Vertex sd.store sd.start) (l1 ++ l2) ∧
      (∀ p q, Side (l1 ++ l2) p q ↔ Spec.Constrained.Joined sd.store sd.start p q) ∧
      ∀ p q, Side (l1 ++ T :: l2) p q ↔ Spec.Constrained.Joined sd.store sd.start p q := by
    have both : ∀ {l1 l2 : List (Pt K × Pt K × Pt K)} {T : Pt K × Pt K × Pt K},
        ((∀ p q, Side (l1 ++ l2) p q ↔ Spec.Constrained.Joined sd.store sd.start p q) ∧
          ∀ p q, Side (l1 ++ T :: l2) p q → Spec.Constrained.Joined sd.store sd.start p q) →
        (∀ p q, Side (l1 ++ l2) p q ↔ Spec.Constrained.Joined sd.store sd.start p q) ∧
          ∀ p q, Side (l1 ++ T :: l2) p q ↔ Spec.Constrained.Joined sd.store sd.start p q := by
      rintro l1 l2 T ⟨h1, h2⟩
      refine ⟨h1, fun p q => ⟨h2 p q, fun h => ?_⟩⟩
      obtain ⟨x, hx, h⟩ := (h1 p q).2 h
      refine ⟨x, ?_, h⟩
      rw [List.mem_append] at *
      exact hx.imp_right (List.mem_cons_of_mem _)
    have wrong : ∀ {f0 f1 f2 : Pt K} {T : Pt K × Pt K × Pt K}, Turns yd f0 f1 f2 → SameTriangle T (f1, f0, f2) →
        ¬ Turns yd T.1 T.2.1 T.2.2 := by
      intro f0 f1 f2 T ht hs hn
      unfold Turns Spec.Resolve.wedge Spec.Resolve.arrow at *
      rcases hs with rfl | rfl | rfl <;> cases yd <;> simp only [Bool.false_eq_true, if_true, if_false] at * <;>
        linarith
    rcases h4 with h4 | h4
    · obtain ⟨l1, T, l2, g1, g2, g3, g4⟩ := triangles_list h4
      exact ⟨l1, T, l2, g1, Or.inr g2, wrong h4.frame g2, g3, both g4⟩
    · obtain ⟨l1, T, l2, g1, g2, g3, g4⟩ := triangles_list h4
      refine ⟨l1, T, l2, g1, Or.inl ?_, wrong h4.frame g2,
        ⟨g3.turns, fun p => (swap p).symm.trans (g3.cover p), g3.apart, g3.corners⟩, both g4⟩
      exact same_rot.1 g2
  obtain ⟨l1, T, l2, g1, g2, g3, g4, g5, g6⟩ := list
  have tf : ∀ x : Pt K × Pt K × Pt K, (!(isFramePoint (a, b, c) [x.1, x.2.1, x.2.2])) =
      decide (∀ v ∈ [x.1, x.2.1, x.2.2], v ≠ a ∧ v ≠ b ∧ v ≠ c) := by
    intro x
    unfold isFramePoint
    simp only [List.any_cons, List.any_nil, List.forall_mem_cons, List.not_mem_nil, false_implies, implies_true]
    rw [Bool.eq_iff_iff]
    simp
    tauto
  refine ⟨l1, T, l2, ?_, g2, g3, g4, g5, g6, ?_⟩
  · unfold Subdiv.triangles
    rw [g1]
    simp
  · unfold Subdiv.triangles
    rw [g1, frame]
    simp only [Option.map_some, Bool.not_false, Bool.and_true, tf]
    rw [List.filter_append, List.filter_append, List.filter_cons_of_neg]
    rw [decide_eq_true_eq]
    intro hn
    have := hn T.1 (by simp)
    rcases g2 with (rfl | rfl | rfl) | (rfl | rfl | rfl) <;> simp at this

end Verif.Lemmas.TriCover
