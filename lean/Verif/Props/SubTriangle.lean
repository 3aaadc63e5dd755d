import Verif.Lemmas.SubTriangle
import Verif.Lemmas.SubNew
import Verif.Props.InsertSite
import Verif.Model.Shapes

/-!
# C195, C196: triangles of a subdivision

`Triangle` of `planar/triangulate/delaunay/subdivision`, in exact arithmetic.
-/

namespace Verif.Props
open Verif Verif.Quad Verif.Spec.Quad Verif.Subdivision Verif.Spec.Subdivision
open Verif.Lemmas.SubTriangle Verif.Lemmas.SubNew
open Verif.Spec.Planar (InTriangle OnSegment)

variable {K : Type} [Field K] [LinearOrder K] [IsStrictOrderedRing K]

/-! ## C195 -/

/-- C195, in full: a triangle intersects just the points that are in it, on its sides or inside, whichever way the y
axis points. -/
def C195_full (K : Type) [Field K] [LinearOrder K] : Prop :=
  ∀ (yd : Bool) (s : Store (Pt K)) (e : E) (a b c p : Pt K), RightTriangle yd s e a b c →
    ∃ r, intersectsPoint s (some e) p = some r ∧ (r = true ↔ InTriangle p a b c)

/-- C195, for a y axis that points up; and no point is in the triangle that has no edge. -/
theorem C195_up_partial (s : Store (Pt K)) (e : E) (a b c p : Pt K) (h : RightTriangle false s e a b c) :
    (∃ r, intersectsPoint s (some e) p = some r ∧ (r = true ↔ InTriangle p a b c)) ∧
      intersectsPoint s none p = some false := by
  refine ⟨?_, rfl⟩
  obtain ⟨⟨a1, a2⟩, ⟨b1, b2⟩, ⟨c1, c2⟩, e3⟩ := ends h
  have hs : side a b c < 0 := by
    have ht := h.turns
    unfold Turns at ht
    rw [wedge_side] at ht
    have : side b a c = - side a b c := by unfold side; ring
    rw [this] at ht
    exact neg_pos.1 ht
  have hs1 : side c a b < 0 := by rw [side_turn]; exact hs
  have hs2 : side b c a < 0 := by rw [side_turn]; exact hs1
  have k0 := classify_in (p := p) hs
  have k1 := classify_in (p := p) hs1
  have k2 := classify_in (p := p) hs2
  rw [inTri_turn hs1, inTri_turn hs] at k2
  rw [inTri_turn hs] at k1
  unfold intersectsPoint
  simp only [intersectsLoop, a1, a2, b1, b2, c1, c2]
  cases g0 : Resolve.classify (fun p q => p == q) p a b <;> rw [g0] at k0 <;> simp only at k0 ⊢ <;>
    first
    | exact ⟨true, rfl, iff_of_true rfl k0⟩
    | exact ⟨false, rfl, iff_of_false (by decide) k0⟩
    | skip
  cases g1 : Resolve.classify (fun p q => p == q) p c a <;> rw [g1] at k1 <;> simp only at k1 ⊢ <;>
    first
    | exact ⟨true, rfl, iff_of_true rfl k1⟩
    | exact ⟨false, rfl, iff_of_false (by decide) k1⟩
    | skip
  cases g2 : Resolve.classify (fun p q => p == q) p b c <;> rw [g2] at k2 <;> simp only at k2 ⊢ <;>
    first
    | exact ⟨true, rfl, iff_of_true rfl k2⟩
    | exact ⟨false, rfl, iff_of_false (by decide) k2⟩
    | exact ⟨true, rfl, iff_of_true rfl ((inTri_iff hs).2 ⟨k0.le, k1.le, k2.le⟩)⟩

/-- The triangle right of an edge of a new subdivision. -/
theorem newStore_right (yd : Bool) (a b c : Pt ℚ) (h : Turns yd a b c)
    (hf : FaceOf (newStore a b c) ⟨0, 0⟩ a b c) : RightTriangle yd (newStore a b c) ⟨0, 2⟩ b a c :=
  ⟨newStore_reached _ _ _, newStore_agree _ _ _, by unfold Allocated; exact (by decide : 0 < 3), by decide, hf, h⟩

/-- Non-vacuous: a triangle, with a point inside, one on a side and one outside. -/
example : RightTriangle false (newStore ((0 : ℚ), (0 : ℚ)) (3, 0) (0, 3)) ⟨0, 2⟩ (3, 0) (0, 0) (0, 3) ∧
    intersectsPoint (newStore ((0 : ℚ), (0 : ℚ)) (3, 0) (0, 3)) (some ⟨0, 2⟩) (1, 1) = some true ∧
    intersectsPoint (newStore ((0 : ℚ), (0 : ℚ)) (3, 0) (0, 3)) (some ⟨0, 2⟩) (1, 2) = some true ∧
    intersectsPoint (newStore ((0 : ℚ), (0 : ℚ)) (3, 0) (0, 3)) (some ⟨0, 2⟩) (2, 2) = some false :=
  ⟨newStore_right false _ _ _ (by unfold Turns; decide +kernel)
    ⟨⟨by decide +kernel, by decide +kernel⟩, by decide +kernel, by decide +kernel, by decide +kernel⟩,
    by decide +kernel, by decide +kernel, by decide +kernel⟩

/-- C195, for a y axis that points down: the points inside are all said to be outside. -/
theorem C195_down_partial (s : Store (Pt K)) (e : E) (a b c p : Pt K) (h : RightTriangle true s e a b c)
    (hp : InsideTriangle p a b c) : intersectsPoint s (some e) p = some false := by
  obtain ⟨⟨a1, a2⟩, _⟩ := ends h
  obtain ⟨n1, _, _⟩ := distinct h
  have hs : 0 < side a b c := by
    have ht := h.turns
    unfold Turns Spec.Resolve.wedge Spec.Resolve.arrow at ht
    simp only [if_true] at ht
    unfold side
    linarith
  obtain ⟨u, v, w, hu, hv, hw, h1, rfl⟩ := hp
  have hu' : u = 1 - v - w := by linarith
  have e0 : side a b (u * a.1 + v * b.1 + w * c.1, u * a.2 + v * b.2 + w * c.2) = w * side a b c := by
    unfold side; rw [hu']; ring
  have hl : 0 < side a b (u * a.1 + v * b.1 + w * c.1, u * a.2 + v * b.2 + w * c.2) := by
    rw [e0]; exact mul_pos hw hs
  unfold intersectsPoint
  simp only [intersectsLoop, a1, a2]
  rcases Lemmas.Resolve.classify_spec (u * a.1 + v * b.1 + w * c.1, u * a.2 + v * b.2 + w * c.2) a b n1 with
    ⟨g, _⟩ | ⟨_, g⟩ | ⟨t, ht, _⟩
  · rw [g]
  · rw [wedge_side] at g
    exact absurd g (not_lt.2 hl.le)
  · rw [ht] at hl
    have : side a b (a.1 + t * (b.1 - a.1), a.2 + t * (b.2 - a.2)) = 0 := by unfold side; ring
    rw [this] at hl
    exact absurd hl (lt_irrefl _)

theorem downTriangle : RightTriangle true (newStore ((0 : ℚ), (0 : ℚ)) (0, 3) (3, 0)) ⟨0, 2⟩ (0, 3) (0, 0) (3, 0) :=
  newStore_right true _ _ _ (by unfold Turns; decide +kernel)
    ⟨⟨by decide +kernel, by decide +kernel⟩, by decide +kernel, by decide +kernel, by decide +kernel⟩

/-- Non-vacuous: the middle of a triangle. -/
example : intersectsPoint (newStore ((0 : ℚ), (0 : ℚ)) (0, 3) (3, 0)) (some ⟨0, 2⟩) (1, 1) = some false :=
  C195_down_partial _ _ _ _ _ _ downTriangle
    ⟨1 / 3, 1 / 3, 1 / 3, by norm_num, by norm_num, by norm_num, by norm_num, by norm_num⟩

/-- **C195 is violated**: with a y axis that points down the middle of a triangle is not in it. -/
theorem C195_violated : ¬ C195_full ℚ := by
  intro h
  obtain ⟨r, h1, h2⟩ := h true _ _ _ _ _ (1, 1) downTriangle
  have h3 : intersectsPoint (newStore ((0 : ℚ), (0 : ℚ)) (0, 3) (3, 0)) (some ⟨0, 2⟩) (1, 1) = some false := by
    decide +kernel
  rw [h3] at h1
  have h4 := h2.2 ⟨1 / 3, 1 / 3, 1 / 3, by norm_num, by norm_num, by norm_num, by norm_num, by norm_num⟩
  rw [← Option.some.inj h1] at h4
  exact absurd h4 (by decide)

/-! ## C196 -/

/-- C196, in full: the opposite vertex of two triangles with a side in common is the corner of the other triangle that
is not on this side. -/
def C196_full (K : Type) [Field K] [LinearOrder K] : Prop :=
  ∀ (yd : Bool) (s : Store (Pt K)) (e f x : E) (a b c a' b' c' t : Pt K), RightTriangle yd s e a b c →
    RightTriangle yd s f a' b' c' → sharedEdge s e f = some (some x) → (t = a' ∨ t = b' ∨ t = c') →
    orig s x ≠ some t → dest s x ≠ some t → oppositeVertex s e f = some (some t)

/-- C196: the shared edge is the first side of the triangle that is a side of the other one, turned round; nil if there
is none. -/
theorem C196_shared_edge_partial (yd : Bool) (s : Store (Pt K)) (e f : E) (a b c a' b' c' : Pt K)
    (h : RightTriangle yd s e a b c) (hf : RightTriangle yd s f a' b' c') :
    sharedEdge s e f = some ((sides s e).find? fun x => (sides s f).any fun y => decide (Turned s x y)) :=
  sharedEdge_eq h hf

/-- A subdivision with three triangles. -/
def threeSub : Subdiv ℚ := ⟨newStore (0, 0) (3, 0) (0, 3), ⟨0, 0⟩, 3, ((0, 0), (3, 0), (0, 3))⟩

/-- Two triangles with a common side: the one of the corners `(3, 0)`, `(0, 0)` and `(1, 1)`, and the one of `(0, 0)`,
`(0, 3)` and `(1, 1)`. -/
theorem twoTriangles : ∃ (s : Store (Pt ℚ)) (e f x : E),
    RightTriangle false s e (3, 0) (0, 0) (1, 1) ∧ RightTriangle false s f (0, 0) (0, 3) (1, 1) ∧
    sharedEdge s e f = some (some x) ∧ orig s x = some (0, 0) ∧ dest s x = some (1, 1) ∧
    oppositeVertex s e f = some (some (3, 0)) := by
  have hn : newSub false ((0 : ℚ), (0 : ℚ)) (3, 0) (0, 3) = some threeSub := by
    rw [newSub_eq, if_pos (by decide +kernel)]
    rfl
  have off : ∀ x ∈ [((1 : ℚ), (1 : ℚ))], ¬ OnSegment x (0, 0) (3, 0) ∧ ¬ OnSegment x (3, 0) (0, 3) ∧
      ¬ OnSegment x (0, 3) (0, 0) := by
    simp only [← Verif.Planar.isPointOnLineSegment_iff]
    decide +kernel
  obtain ⟨o1, o2, o3⟩ := off (1, 1) (by simp)
  obtain ⟨r, sd', h1, h2, _⟩ :=
    C134_insert_one_partial false (0, 0) (3, 0) (0, 3) threeSub (1, 1) (C134_new _ _ _ _ _ hn).1 o1 o2 o3
  have get : ∀ {α : Type} (f : Bool × Subdiv ℚ → α) (a : α),
      (insertSite false threeSub (1, 1)).map f = some a → f (r, sd') = a := by
    intro α f a h
    rw [h1] at h
    exact Option.some.inj h
  have hra : Reached sd'.store ∧ OriginsAgree sd'.store := by
    rcases h2 with h | h <;> exact ⟨h.reached, h.agree⟩
  have face : ∀ (g : E) (o d t : Pt ℚ),
      (insertSite false threeSub (1, 1)).map (fun q =>
        decide (lnext q.2.store (lnext q.2.store (lnext q.2.store g)) = g ∧ lnext q.2.store g ≠ g ∧
          orig q.2.store g = some o ∧ orig q.2.store (lnext q.2.store g) = some d ∧
          orig q.2.store (lnext q.2.store (lnext q.2.store g)) = some t)) = some true →
      FaceOf sd'.store g o d t := by
    intro g o d t h
    obtain ⟨k1, k2, k3, k4, k5⟩ := of_decide_eq_true (get _ _ h)
    exact ⟨⟨k1, k2⟩, k3, k4, k5⟩
  have size : sd'.store.size = 6 := get (·.2.store.size) 6 (by decide +kernel)
  refine ⟨sd'.store, ⟨0, 2⟩, ⟨2, 2⟩, ⟨3, 0⟩,
    ⟨hra.1, hra.2, by unfold Allocated; rw [size]; decide, by decide,
      face ⟨0, 0⟩ (0, 0) (3, 0) (1, 1) (by decide +kernel), by unfold Turns; decide +kernel⟩,
    ⟨hra.1, hra.2, by unfold Allocated; rw [size]; decide, by decide,
      face ⟨2, 0⟩ (0, 3) (0, 0) (1, 1) (by decide +kernel), by unfold Turns; decide +kernel⟩,
    get (fun q => sharedEdge q.2.store ⟨0, 2⟩ ⟨2, 2⟩) _ (by decide +kernel),
    get (fun q => orig q.2.store ⟨3, 0⟩) _ (by decide +kernel),
    get (fun q => dest q.2.store ⟨3, 0⟩) _ (by decide +kernel),
    get (fun q => oppositeVertex q.2.store ⟨0, 2⟩ ⟨2, 2⟩) _ (by decide +kernel)⟩

/-- Non-vacuous: two triangles of a subdivision, and their common side. -/
example : ∃ (s : Store (Pt ℚ)) (e f x : E), RightTriangle false s e (3, 0) (0, 0) (1, 1) ∧
    RightTriangle false s f (0, 0) (0, 3) (1, 1) ∧
    ((sides s e).find? fun x => (sides s f).any fun y => decide (Turned s x y)) = some x := by
  obtain ⟨s, e, f, x, h1, h2, h3, _⟩ := twoTriangles
  rw [C196_shared_edge_partial _ _ _ _ _ _ _ _ _ _ h1 h2] at h3
  exact ⟨s, e, f, x, h1, h2, Option.some.inj h3⟩

/-- **C196 is violated**: asked for the vertex of the other triangle, `OppositeVertex` gives the one of its own. -/
theorem C196_violated : ¬ C196_full ℚ := by
  intro h
  obtain ⟨s, e, f, x, h1, h2, h3, h4, h5, h6⟩ := twoTriangles
  have h7 := h false s e f x _ _ _ _ _ _ (0, 3) h1 h2 h3 (Or.inr (Or.inl rfl)) (by rw [h4]; decide) (by rw [h5]; decide)
  rw [h6] at h7
  exact absurd h7 (by decide)

/-- C196: what `OppositeVertex` gives is the corner of the triangle itself that is not on the shared edge, and nil if no
edge is shared. -/
theorem C196_own_vertex_partial (yd : Bool) (s : Store (Pt K)) (e f : E) (a b c a' b' c' : Pt K)
    (h : RightTriangle yd s e a b c) (hf : RightTriangle yd s f a' b' c') :
    (sharedEdge s e f = some none → oppositeVertex s e f = some none) ∧
    ∀ x, sharedEdge s e f = some (some x) → ∃ t, (t = a ∨ t = b ∨ t = c) ∧ orig s x ≠ some t ∧ dest s x ≠ some t ∧
      oppositeVertex s e f = some (some t) := by
  refine ⟨fun k => by unfold oppositeVertex; rw [k], fun x k => ?_⟩
  have step : ∀ {x : E} {a b c : Pt K}, RightTriangle yd s x a b c → sharedEdge s e f = some (some x) →
      orig s x ≠ some c ∧ dest s x ≠ some c ∧ oppositeVertex s e f = some (some c) := by
    intro x a b c hx k
    obtain ⟨⟨a1, a2⟩, _, ⟨_, c2⟩, _⟩ := ends hx
    obtain ⟨_, n2, n3⟩ := distinct hx
    refine ⟨by rw [a1]; exact fun q => n3 (Option.some.inj q), by rw [a2]; exact fun q => n2 (Option.some.inj q), ?_⟩
    unfold oppositeVertex
    rw [k]
    simp only [rprev_third hx, c2]
  have hx : x ∈ sides s e := by
    rw [C196_shared_edge_partial yd s e f a b c a' b' c' h hf] at k
    exact List.mem_of_find?_eq_some (Option.some.inj k)
  unfold sides at hx
  rw [List.mem_cons, List.mem_cons, List.mem_singleton] at hx
  rcases hx with rfl | rfl | rfl
  · exact ⟨c, by simp, step h k⟩
  · exact ⟨b, by simp, step (next h) k⟩
  · exact ⟨a, by simp, step (next (next h)) k⟩

/-- Non-vacuous: the same two triangles. -/
example : ∃ (s : Store (Pt ℚ)) (e f x : E), RightTriangle false s e (3, 0) (0, 0) (1, 1) ∧
    RightTriangle false s f (0, 0) (0, 3) (1, 1) ∧ sharedEdge s e f = some (some x) := by
  obtain ⟨s, e, f, x, h1, h2, h3, _⟩ := twoTriangles
  exact ⟨s, e, f, x, h1, h2, h3⟩

/-- C196: the triangle opposite to a corner is given by the other side of the side that is opposite to the corner; for a
point that is no corner there is an error. -/
theorem C196_opposite_triangle_partial (yd : Bool) (s : Store (Pt K)) (e : E) (a b c p : Pt K)
    (h : RightTriangle yd s e a b c) :
    (oppositeTriangle s e p = some none ↔ p ≠ a ∧ p ≠ b ∧ p ≠ c) ∧
    ∀ x, oppositeTriangle s e p = some (some x) → sym x ∈ sides s e ∧
      ((p = a ∧ orig s x = some c ∧ dest s x = some b) ∨ (p = b ∧ orig s x = some a ∧ dest s x = some c) ∨
        (p = c ∧ orig s x = some b ∧ dest s x = some a)) := by
  obtain ⟨⟨a1, a2⟩, ⟨b1, b2⟩, ⟨c1, c2⟩, e3⟩ := ends h
  have o : ∀ x : E, dest s (sym x) = orig s x := fun x => by unfold dest; rw [Lemmas.Quad.sym_sym]
  rw [opposite_eq h]
  constructor
  · split_ifs with k0 k1 k2 <;> simp [*]
  · intro x
    split_ifs with k0 k1 k2
    · intro k
      obtain rfl := Option.some.inj (Option.some.inj k)
      exact ⟨by simp [sides, Lemmas.Quad.sym_sym], Or.inl ⟨k0, c2, by rw [o, c1]⟩⟩
    · intro k
      obtain rfl := Option.some.inj (Option.some.inj k)
      exact ⟨by simp [sides, Lemmas.Quad.sym_sym], Or.inr (Or.inr ⟨k1, a2, by rw [o, a1]⟩)⟩
    · intro k
      obtain rfl := Option.some.inj (Option.some.inj k)
      exact ⟨by simp [sides, Lemmas.Quad.sym_sym], Or.inr (Or.inl ⟨k2, b2, by rw [o, b1]⟩)⟩
    · intro k
      exact absurd k (by simp)

/-- Non-vacuous: the three corners, and a point that is none. -/
example : let s := newStore ((0 : ℚ), (0 : ℚ)) (3, 0) (0, 3)
    RightTriangle false s ⟨0, 2⟩ (3, 0) (0, 0) (0, 3) ∧ oppositeTriangle s ⟨0, 2⟩ (3, 0) = some (some ⟨2, 0⟩) ∧
    oppositeTriangle s ⟨0, 2⟩ (0, 0) = some (some ⟨1, 0⟩) ∧ oppositeTriangle s ⟨0, 2⟩ (0, 3) = some (some ⟨0, 0⟩) ∧
    oppositeTriangle s ⟨0, 2⟩ (1, 1) = some none :=
  ⟨newStore_right false _ _ _ (by unfold Turns; decide +kernel)
    ⟨⟨by decide +kernel, by decide +kernel⟩, by decide +kernel, by decide +kernel, by decide +kernel⟩,
    by decide +kernel, by decide +kernel, by decide +kernel, by decide +kernel⟩

/-! ## C197 -/

/-- **C197**: the geometry of a triangle has its three corners, first the one its edge starts from, in an order that is
counterclockwise to the eye; so its area is positive just if the y axis points up, and it is the area with which any
side and the third corner are seen. -/
theorem C197_as_geom (yd : Bool) (s : Store (Pt K)) (e : E) (a b c : Pt K) (h : RightTriangle yd s e a b c) :
    asGeom s e = some [a, c, b] ∧ Turns yd a c b ∧ (0 < Shapes.area (a, c, b) ↔ yd = false) ∧
      asGeom s (rnext s e) = some [c, b, a] ∧ asGeom s (rnext s (rnext s e)) = some [b, a, c] := by
  have key : ∀ {e : E} {a b c : Pt K}, RightTriangle yd s e a b c → asGeom s e = some [a, c, b] := by
    intro e a b c h
    obtain ⟨⟨a1, _⟩, ⟨b1, _⟩, ⟨c1, _⟩, _⟩ := ends h
    simp [asGeom, asGeomLoop, a1, b1, c1]
  have ht : Turns yd a c b := by
    have ht := h.turns
    unfold Turns Spec.Resolve.wedge Spec.Resolve.arrow at ht ⊢
    cases yd <;> simp only [if_true, if_false, Bool.false_eq_true] at ht ⊢ <;> linarith
  refine ⟨key h, ht, ?_, key (next h), key (next (next h))⟩
  unfold Turns Spec.Resolve.wedge Spec.Resolve.arrow at ht
  unfold Shapes.area
  cases yd <;> simp only [if_true, if_false, Bool.false_eq_true] at ht ⊢
  · exact iff_of_true (by linarith) trivial
  · exact iff_of_false (by linarith) (by decide)

/-- Non-vacuous: a triangle, with the y axis down. -/
example : asGeom (newStore ((0 : ℚ), (0 : ℚ)) (0, 3) (3, 0)) ⟨0, 2⟩ = some [(0, 3), (3, 0), (0, 0)] :=
  (C197_as_geom _ _ _ _ _ _ downTriangle).1

end Verif.Props
