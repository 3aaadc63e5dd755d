import Verif.Lemmas.GeoEqual
import Verif.Props.Cmp

/-!
# Comparing geometries of any type (C163)
-/

namespace Verif.Props
open Verif Verif.Cmp Verif.Spec.Extent Verif.Spec.Cmp Verif.Spec.GeoEqual Verif.Lemmas.GeoEqual

/-- C163, full claim on types: `GeometryEqual` says yes only to values of one type. -/
def C163_type_full : Prop := ∀ (dflt c : Compare) (s1 s2 : List (Pt F64) → List (Pt F64)) (g h g' h' : Geo),
  Positive dflt → Positive c → geometryEqual dflt c s1 s2 g h = some (true, g', h') → typeOf g = typeOf h

/-- C163, full claim on order: the order of the polygons of a multipolygon does not
matter. -/
def C163_order_full : Prop := ∀ (dflt c : Compare) (s1 s2 : List (Pt F64) → List (Pt F64))
  (l l' : List (List (List (Pt F64)))), Positive dflt → Positive c → l.length ≤ 12 → Solid l → l.Perm l' →
  ∃ g h, geometryEqual dflt c s1 s2 (.multiPolygon l) (.multiPolygon l') = some (true, g, h)

/-- C163, full claim on arguments: comparing changes neither geometry. -/
def C163_quiet_full : Prop := ∀ (dflt c : Compare) (s1 s2 : List (Pt F64) → List (Pt F64)) (r : Bool) (g h g' h' : Geo),
  geometryEqual dflt c s1 s2 g h = some (r, g', h') → g' = g ∧ h' = h

/-- C163, full claim on panics: comparing returns. -/
def C163_returns_full : Prop := ∀ (dflt c : Compare) (s1 s2 : List (Pt F64) → List (Pt F64)) (g h : Geo),
  geometryEqual dflt c s1 s2 g h ≠ none

/-- C163: a yes means that the geometries are of one kind and their parts agree; if
no multipolygon is involved a no means that they do not.  Missing: multipolygons,
where a yes can be missed (`C163_order_violated`), and the type (`C163_type_violated`). -/
theorem C163_decides_partial (dflt c : Compare) (s1 s2 : List (Pt F64) → List (Pt F64)) (r : Bool) (g h g' h' : Geo)
    (he : geometryEqual dflt c s1 s2 g h = some (r, g', h')) :
    (r = true → Agree dflt c s1 s2 g h) ∧
    (Throughout NotMultiPolygon g → (r = true ↔ Agree dflt c s1 s2 g h)) := by
  obtain ⟨h1, h2, _, _⟩ := (good_all dflt c s1 s2 g h).2 r g' h' he
  exact ⟨h1, fun h => ⟨h1, h2 h⟩⟩

/-- A triangle given as a polygon. -/
def tri : List (List (Pt F64)) := [[(f1, f1), (f2, f1), (f2, f3)]]

example : ∃ r g' h', geometryEqual cmp4 cmp4 id id
    (.collection [.pointer (.point (f1, f2)), .collection [.polygoner (.polygon tri)]])
    (.collection [.pointer (.pointZ (f1, f2) f3), .collection [.polygoner (.triangle (f1, f1) (f2, f1) (f2, f3))]]) =
      some (r, g', h') ∧ r = true := by
  obtain ⟨r, h⟩ := (good_all cmp4 cmp4 id id
    (.collection [.pointer (.point (f1, f2)), .collection [.polygoner (.polygon tri)]])
    (.collection [.pointer (.pointZ (f1, f2) f3), .collection [.polygoner (.triangle (f1, f1) (f2, f1) (f2, f3))]])).1
    (.collection trivial (.cons (.leaf (by simp) (by simp [Harmless])) (.cons (.collection trivial (.cons
      (.leaf (by simp) (by simp [Harmless, FewEmpty, tri])) .nil)) .nil)))
    (.collection trivial (.cons (.leaf (by simp) (by simp [Harmless])) (.cons (.collection trivial (.cons
      (.leaf (by simp) trivial) .nil)) .nil)))
  refine ⟨r.1, r.2.1, r.2.2, h, ?_⟩
  rw [(C163_decides_partial _ _ _ _ _ _ _ _ _ h).2 (.collection (by simp [NotMultiPolygon])
    (.cons (.leaf (by simp) (by simp [NotMultiPolygon])) (.cons (.collection (by simp [NotMultiPolygon]) (.cons
      (.leaf (by simp) (by simp [NotMultiPolygon])) .nil)) .nil)))]
  refine .collections (.cons (.points (.point _) (.pointZ _ _) (by decide) (by decide)) (.cons (.collections (.cons ?_ .nil)) .nil))
  refine .polygons (.polygon _) (.triangle _ _ _) ⟨tri, tri, by decide +kernel⟩

/-- C163: with nothing in the geometries that makes it panic, comparing returns. -/
theorem C163_returns_partial (dflt c : Compare) (s1 s2 : List (Pt F64) → List (Pt F64)) (g h : Geo)
    (hg : Throughout Harmless g) (hh : Throughout Harmless h) : geometryEqual dflt c s1 s2 g h ≠ none := by
  obtain ⟨r, hr⟩ := (good_all dflt c s1 s2 g h).1 hg hh
  rw [hr]; simp

example : Throughout Harmless (.collection [.pointer .nilPoint, .multiPolygon [[[], [(f1, f1)], []], tri], .other]) :=
  .collection trivial (.cons (.leaf (by simp) (by simp [Harmless])) (.cons (.leaf (by simp)
    ⟨by simp [FewEmpty, tri], by decide⟩) (.cons (.leaf (by simp) trivial) .nil)))

/-- C163: what may change in the arguments is the order of interior rings and of the
polygons of multipolygons. -/
theorem C163_quiet_partial (dflt c : Compare) (s1 s2 : List (Pt F64) → List (Pt F64)) (r : Bool) (g h g' h' : Geo)
    (he : geometryEqual dflt c s1 s2 g h = some (r, g', h')) : Moved g g' ∧ Moved h h' :=
  ((good_all dflt c s1 s2 g h).2 r g' h' he).2.2

/-- C163: a geometry of one of the seven kinds, and made of such, equals a copy of
itself. -/
theorem C163_self (dflt c : Compare) (s : List (Pt F64) → List (Pt F64)) (g : Geo) (hd : Positive dflt)
    (hc : Positive c) (h : Throughout Harmless g) (hk : Throughout HasKind g) :
    ∃ g', geometryEqual dflt c s s g g = some (true, g', g') :=
  self_equal dflt c s hd hc g h hk

example : Throughout HasKind (.collection [.pointer .nilPoint, .multiPolygon [[[], [(f1, f1)], []], tri]]) :=
  .collection (by simp [HasKind]) (.cons (.leaf (by simp) (by simp [HasKind])) (.cons (.leaf (by simp)
    (by simp [HasKind])) .nil))

/-- C163: where the exterior rings of the polygons of each multipolygon differ in
length or lowest vertex, their order does not matter. -/
theorem C163_order_partial (dflt c : Compare) (s1 s2 : List (Pt F64) → List (Pt F64))
    (l l' m m' : List (List (List (Pt F64)))) (_h12 : l.length ≤ 12 ∧ m.length ≤ 12) (hl : Solid l) (hm : Solid m)
    (al : l.Pairwise Apart) (am : m.Pairwise Apart) (pl : l.Perm l') (pm : m.Perm m') :
    (geometryEqual dflt c s1 s2 (.multiPolygon l) (.multiPolygon m)).map (·.1) =
      (geometryEqual dflt c s1 s2 (.multiPolygon l') (.multiPolygon m')).map (·.1) := by
  rw [leaf_eq _ _ _ _ _ _ (by simp), leaf_eq _ _ _ _ _ _ (by simp)]
  simp only [leafEqual, multiPolygonEqual]
  rw [pl.length_eq, pm.length_eq, sortPolys_order hl al pl, sortPolys_order hm am pm]
  split <;> rfl

/-- C163: such a multipolygon equals the one with its polygons in another order. -/
theorem C163_permuted_partial (dflt c : Compare) (s : List (Pt F64) → List (Pt F64)) (l l' : List (List (List (Pt F64))))
    (hd : Positive dflt) (hc : Positive c) (h12 : l.length ≤ 12) (hl : Solid l) (al : l.Pairwise Apart)
    (hh : Harmless (.multiPolygon l)) (pl : l.Perm l') :
    ∃ g h, geometryEqual dflt c s s (.multiPolygon l) (.multiPolygon l') = some (true, g, h) := by
  obtain ⟨g, hg⟩ := C163_self dflt c s (.multiPolygon l) hd hc (.leaf (by simp) hh) (.leaf (by simp) (by simp [HasKind]))
  have := C163_order_partial dflt c s s l l l l' ⟨h12, h12⟩ hl hl al al (List.Perm.refl _) pl
  rw [hg] at this
  obtain ⟨⟨r, g', h'⟩, h1, h2⟩ := Option.map_eq_some_iff.1 this.symm
  cases h2
  exact ⟨g', h', h1⟩

/-- Another polygon, to the right of `tri`. -/
def tri2 : List (List (Pt F64)) := [[(f2, f1), (f3, f1), (f3, f3)]]

theorem lowest_f1 (v : Pt F64) (h : Lowest v [(f1, f1), (f2, f1), (f2, f3)]) : v = (f1, f1) := by
  obtain ⟨h1, h2⟩ := h
  simp only [List.mem_cons, List.not_mem_nil, or_false] at h1
  rcases h1 with rfl | rfl | rfl
  · rfl
  · exact absurd (by decide : before (f1, f1) (f2, f1)) (h2 _ (by simp))
  · exact absurd (by decide : before (f1, f1) (f2, f3)) (h2 _ (by simp))

theorem lowest_f2 (v : Pt F64) (h : Lowest v [(f2, f1), (f3, f1), (f3, f3)]) : v = (f2, f1) := by
  obtain ⟨h1, h2⟩ := h
  simp only [List.mem_cons, List.not_mem_nil, or_false] at h1
  rcases h1 with rfl | rfl | rfl
  · rfl
  · exact absurd (by decide : before (f2, f1) (f3, f1)) (h2 _ (by simp))
  · exact absurd (by decide : before (f2, f1) (f3, f3)) (h2 _ (by simp))

example : Solid [tri, tri2, []] ∧ [tri, tri2, []].Pairwise Apart ∧ Harmless (.multiPolygon [tri, tri2, []]) := by
  refine ⟨?_, ?_, ⟨?_, by decide⟩⟩
  · intro p hp
    simp only [List.mem_cons, List.not_mem_nil, or_false] at hp
    rcases hp with rfl | rfl | rfl
    · intro r rs h; cases h; exact ⟨by simp, by decide⟩
    · intro r rs h; cases h; exact ⟨by simp, by decide⟩
    · intro r rs h; cases h
  · refine .cons (fun q hq => ?_) (.cons ?_ (.cons (by simp) .nil))
    rotate_left
    · intro q hq
      simp only [List.mem_cons, List.not_mem_nil, or_false] at hq
      subst hq
      intro r rs s ss h1 h2
      cases h2
    simp only [List.mem_cons, List.not_mem_nil, or_false] at hq
    rcases hq with rfl | rfl
    rotate_left
    · intro r rs s ss h1 h2
      cases h2
    intro r rs s ss h1 h2 _ v w hv hw
    cases h1; cases h2
    rw [lowest_f1 v hv, lowest_f2 w hw]
    decide
  · intro p hp
    simp only [List.mem_cons, List.not_mem_nil, or_false] at hp
    rcases hp with rfl | rfl | rfl <;> simp [FewEmpty, tri, tri2]

/-- C163 fails on types: a `Point` equals a `PointZ`, whatever its z. -/
theorem C163_type_violated : ¬ C163_type_full := by
  intro h
  have := h cmp4 cmp4 id id (.pointer (.point (f1, f2))) (.pointer (.pointZ (f1, f2) f3))
    (.pointer (.point (f1, f2))) (.pointer (.pointZ (f1, f2) f3)) (by decide) (by decide)
    (by
      rw [leaf_eq _ _ _ _ _ _ (by simp)]
      have : pointerEqual cmp4 (.point (f1, f2)) (.pointZ (f1, f2) f3) = some true := by decide
      simp [leafEqual, this, keep])
  cases this

/-- C163 fails on order: two polygons with the same number of vertices that touch in
their lowest one. -/
theorem C163_order_violated : ¬ C163_order_full := by
  intro h
  obtain ⟨g, g', hg⟩ := h cmp4 cmp4 id id [[[(f1, f1), (f2, f1), (f2, f2)]], [[(f1, f1), (f2, f3), (f1, f3)]]]
    [[[(f1, f1), (f2, f3), (f1, f3)]], [[(f1, f1), (f2, f1), (f2, f2)]]] (by decide) (by decide) (by decide)
    (by
      intro p hp
      simp only [List.mem_cons, List.not_mem_nil, or_false] at hp
      rcases hp with rfl | rfl
      · intro r rs h; cases h; exact ⟨by simp, by decide⟩
      · intro r rs h; cases h; exact ⟨by simp, by decide⟩)
    (List.Perm.swap _ _ _)
  rw [leaf_eq _ _ _ _ _ _ (by simp)] at hg
  have h2 : (multiPolygonEqual cmp4 cmp4 [[[(f1, f1), (f2, f1), (f2, f2)]], [[(f1, f1), (f2, f3), (f1, f3)]]]
    [[[(f1, f1), (f2, f3), (f1, f3)]], [[(f1, f1), (f2, f1), (f2, f2)]]]).map (·.1) = some false := by decide +kernel
  simp only [leafEqual] at hg
  obtain ⟨x, h3, h4⟩ := Option.map_eq_some_iff.1 hg
  rw [h3] at h2
  obtain ⟨x1, x2, x3⟩ := x
  cases h4
  cases h2

instance : DecidableEq (List (List (List (Pt F64)))) := inferInstance
instance : DecidableEq (Bool × List (List (List (Pt F64))) × List (List (List (Pt F64)))) :=
  inferInstanceAs (DecidableEq (Prod _ (Prod _ _)))

/-- C163 fails on arguments: the polygons of a multipolygon are put in another order. -/
theorem C163_quiet_violated : ¬ C163_quiet_full := by
  intro h
  have h1 : multiPolygonEqual cmp4 cmp4 [tri2, tri] [tri2, tri] = some (true, [tri, tri2], [tri, tri2]) := by
    decide +kernel
  have := h cmp4 cmp4 id id true (.multiPolygon [tri2, tri]) (.multiPolygon [tri2, tri])
    (.multiPolygon [tri, tri2]) (.multiPolygon [tri, tri2]) (by
      rw [leaf_eq _ _ _ _ _ _ (by simp)]
      simp [leafEqual, h1])
  have := this.1
  simp only [Geo.multiPolygon.injEq, List.cons.injEq] at this
  exact absurd this.1 (by decide)

/-- C163 fails on panics: a nil `*PointZ`, and a polygon with two empty interior rings. -/
theorem C163_returns_violated : ¬ C163_returns_full ∧
    geometryEqual cmp4 cmp4 id id (.polygoner (.polygon [[], [], []])) (.polygoner (.polygon [[], [], []])) = none := by
  constructor
  · intro h
    refine h cmp4 cmp4 id id (.pointer (.point (f1, f2))) (.pointer .nilPointZ) ?_
    rw [leaf_eq _ _ _ _ _ _ (by simp)]
    rfl
  · rw [leaf_eq _ _ _ _ _ _ (by simp)]
    have : polygonEqual cmp4 cmp4 [[], [], []] [[], [], []] = none := by decide +kernel
    simp [leafEqual, polygonerEqual, PolyVal.rings, this]

end Verif.Props
