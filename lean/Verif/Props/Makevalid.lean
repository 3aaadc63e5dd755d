import Verif.Lemmas.Makevalid
import Verif.Props.HitMap
import Verif.Props.WalkerRing
import Verif.Props.Destructure

/-!
# C120-C123: making polygons valid

The triangulation (`triangulate`) and the clipper are taken as given, whatever they return.
-/

set_option linter.unusedSectionVars false

namespace Verif.Props
open Verif.Planar (Line)
open Verif.Shapes (Triangle center)
open Verif.HitMap (Label newFromPolygons)
open Verif.Simplify (Ctx)
open Verif.Makevalid
open Verif.Walker (multiPolygon ringForTriangle)
open Verif.Spec.Walker
open Verif.Spec.Makevalid
open Verif.Spec.Winding (area2)
open Verif.Winding (orientation clockwise counterClockwise)

section Field
variable {K E : Type} [Field K] [LinearOrder K] [IsStrictOrderedRing K]

/-- `walker.New(·).MultiPolygon` with a context that does not end. -/
abbrev walkAll (yd : Bool) (ts : List (Triangle K)) : Option (List (List (List (Pt K)))) :=
  multiPolygon (fun x y => decide (x = y)) (fun p q => decide (p = q)) yd (fun _ => false) (fun _ _ => false)
    (fun _ _ => false) ts

/-- The triangles whose centre the hit map labels inside. -/
abbrev insideOf (label : Pt K → Label) (all : List (Triangle K)) : List (Triangle K) :=
  all.filter (fun t => decide (label (center t) = .inside))

/-- **C120**, where no ring that is walked comes to a point twice: for a triangulation whose triangles
lie on the two sides of their common edges, the polygons that `Makevalid` returns have together the
area of the triangles whose centre is labelled inside. -/
theorem C120_area_partial (yd : Bool) (clipper : Option (Geom K → Except E (Geom K)))
    (destr : List (List (List (Pt K))) → Option (List (Line K)))
    (triangulate : List (Line K) → Except E (List (Triangle K)))
    (label : List (List (List (Pt K))) → Pt K → Label) (g : Geom K) (mp : List (List (List (Pt K))))
    (hg : Polygonal g mp) (segs : List (Line K)) (hsegs : destr mp = some segs) (hne : segs ≠ [])
    (all : List (Triangle K)) (hall : triangulate segs = .ok all) (ho : OppositeSides all)
    (hout : ∀ i seen rng seen', ringForTriangle (fun p q => decide (p = q)) (fun _ => false)
      (insideOf (label mp) all) i seen = some (rng, seen') → rng.Nodup) :
    ∃ out, makevalid clipper destr triangulate (fun _ => false) (walkAll yd) label g =
        some (.ok (.multiPolygon out, true)) ∧
      ((out.getD []).map net2).sum = ((insideOf (label mp) all).map size2).sum := by
  rw [makevalid_polygonal _ _ _ _ _ _ g mp hg]
  obtain ⟨s, ss, rfl⟩ := List.exists_cons_of_ne_nil hne
  have h1 : insideForMultiPolygon triangulate (fun _ => false) (label mp) (destr mp) =
      .ok (insideOf (label mp) all) := by
    rw [hsegs]
    exact insideForSegments_ok _ _ hall (fun _ _ => rfl)
  have ho' : OppositeSides (insideOf (label mp) all) := opposite_sublist List.filter_sublist ho
  obtain ⟨res, hw, ha⟩ := C110_simple_partial yd _ ho' hout
  rw [makevalidPolygon, h1]
  generalize insideOf (label mp) all = ts at *
  cases ts with
  | nil => exact ⟨none, rfl, by simp⟩
  | cons t ts =>
    refine ⟨some res, ?_, ha⟩
    show finish ((walkAll yd (t :: ts)).map (fun mp => Except.ok (some mp))) = _
    rw [show walkAll yd (t :: ts) = some res from hw]
    rfl

/-- **C121** where `Destructure` and the triangulation are done before the context ends: if it has
ended before all triangles are labelled, the error is that of the context. -/
theorem C121_labelling_partial (clipper : Option (Geom K → Except E (Geom K)))
    (destr : List (List (List (Pt K))) → Option (List (Line K)))
    (triangulate : List (Line K) → Except E (List (Triangle K))) (ctx : Ctx)
    (walk : List (Triangle K) → Option (List (List (List (Pt K)))))
    (label : List (List (List (Pt K))) → Pt K → Label) (g : Geom K) (mp : List (List (List (Pt K))))
    (hg : Polygonal g mp) (segs : List (Line K)) (hsegs : destr mp = some segs) (hne : segs ≠ [])
    (all : List (Triangle K)) (hall : triangulate segs = .ok all) (k : Nat) (hk : k < all.length)
    (hctx : ctx k = true) :
    makevalid clipper destr triangulate ctx walk label g = some (.error .context) := by
  rw [makevalid_polygonal _ _ _ _ _ _ g mp hg]
  obtain ⟨s, ss, rfl⟩ := List.exists_cons_of_ne_nil hne
  have h1 : insideForMultiPolygon triangulate ctx (label mp) (destr mp) = .error .context := by
    rw [hsegs, insideForMultiPolygon, insideForSegments, hall]
    show (if all.length = 0 then _ else _) = _
    rw [if_neg (by omega), labelLoop_stop ctx (label mp) all 0 [] k hk (by simpa using hctx)]
  rw [makevalidPolygon, h1]
  rfl

/-- **C123**.  If the triangulation fails, so does `Makevalid`, with its error. -/
theorem C123_triangulation_error (clipper : Option (Geom K → Except E (Geom K)))
    (destr : List (List (List (Pt K))) → Option (List (Line K)))
    (triangulate : List (Line K) → Except E (List (Triangle K))) (ctx : Ctx)
    (walk : List (Triangle K) → Option (List (List (List (Pt K)))))
    (label : List (List (List (Pt K))) → Pt K → Label) (g : Geom K) (mp : List (List (List (Pt K))))
    (hg : Polygonal g mp) (segs : List (Line K)) (hsegs : destr mp = some segs) (hne : segs ≠ []) (e : E)
    (he : triangulate segs = .error e) :
    makevalid clipper destr triangulate ctx walk label g = some (.error (.inner e)) := by
  rw [makevalid_polygonal _ _ _ _ _ _ g mp hg]
  obtain ⟨s, ss, rfl⟩ := List.exists_cons_of_ne_nil hne
  have h1 : insideForMultiPolygon triangulate ctx (label mp) (destr mp) = .error (.inner e) := by
    rw [hsegs, insideForMultiPolygon, insideForSegments, he]
  rw [makevalidPolygon, h1]
  rfl

/-- What there is of **C122**: for a triangulation into triangles with three different corners,
`Makevalid` returns a nil `*MultiPolygon` iff no triangle has its centre inside; else it returns
polygons, each with a clockwise first ring and counter-clockwise others, of three points or more,
all of which are corners of those triangles. -/
theorem C122_shape_partial (yd : Bool) (clipper : Option (Geom K → Except E (Geom K)))
    (destr : List (List (List (Pt K))) → Option (List (Line K)))
    (triangulate : List (Line K) → Except E (List (Triangle K)))
    (label : List (List (List (Pt K))) → Pt K → Label) (g : Geom K) (mp : List (List (List (Pt K))))
    (hg : Polygonal g mp) (segs : List (Line K)) (hsegs : destr mp = some segs) (hne : segs ≠ [])
    (all : List (Triangle K)) (hall : triangulate segs = .ok all) (h3 : ∀ t ∈ all, ThreeCorners t) :
    ∃ out, makevalid clipper destr triangulate (fun _ => false) (walkAll yd) label g =
        some (.ok (.multiPolygon out, true)) ∧
      (out = none ↔ ∀ t ∈ all, label mp (center t) = .outside) ∧
      ∀ polys, out = some polys → ∀ p ∈ polys,
        (∃ first others, p = first :: others ∧ orientation yd first = clockwise ∧
          ∀ r ∈ others, orientation yd r = counterClockwise) ∧
        ∀ r ∈ p, 3 ≤ r.length ∧ ∀ x ∈ r, ∃ t ∈ all, label mp (center t) = .inside ∧
          ∃ y z, Corners t x y z := by
  rw [makevalid_polygonal _ _ _ _ _ _ g mp hg]
  obtain ⟨s, ss, rfl⟩ := List.exists_cons_of_ne_nil hne
  have h1 : insideForMultiPolygon triangulate (fun _ => false) (label mp) (destr mp) =
      .ok (insideOf (label mp) all) := by
    rw [hsegs]
    exact insideForSegments_ok _ _ hall (fun _ _ => rfl)
  have hmem : ∀ t, t ∈ insideOf (label mp) all ↔ t ∈ all ∧ label mp (center t) = .inside := by
    intro t
    simp
  obtain ⟨res, hw, hs⟩ := C111_polygons yd (fun _ => false) (fun _ _ => false) (fun _ _ => false)
    (insideOf (label mp) all) (fun t ht => h3 t ((hmem t).1 ht).1)
  rw [makevalidPolygon, h1]
  generalize insideOf (label mp) all = ts at *
  cases ts with
  | nil =>
    refine ⟨none, rfl, ⟨fun _ t ht => ?_, fun _ => rfl⟩, by simp⟩
    cases hl : label mp (center t) with
    | outside => rfl
    | inside => exact absurd ((hmem t).2 ⟨ht, hl⟩) (by simp)
  | cons t ts =>
    refine ⟨some res, ?_, ⟨by simp, fun h => ?_⟩, ?_⟩
    · show finish ((walkAll yd (t :: ts)).map (fun mp => Except.ok (some mp))) = _
      rw [show walkAll yd (t :: ts) = some res from hw]
      rfl
    · obtain ⟨ht, hi⟩ := (hmem t).1 List.mem_cons_self
      rw [h t ht] at hi
      exact absurd hi (by simp)
    · intro polys hp p hpm
      obtain rfl := Option.some.inj hp
      obtain ⟨a, b⟩ := hs p hpm
      refine ⟨a, fun r hr => ⟨(b r hr).1, fun x hx => ?_⟩⟩
      obtain ⟨u, hu, y, z, hc⟩ := (b r hr).2 x hx
      exact ⟨u, ((hmem u).1 hu).1, ((hmem u).1 hu).2, y, z, hc⟩

/-- **C123**.  `Makevalid` says that it did not clip iff the geometry is made of points or lines and
there is no clipper, and then it returns the geometry as it is. -/
theorem C123_not_clipped (clipper : Option (Geom K → Except E (Geom K)))
    (destr : List (List (List (Pt K))) → Option (List (Line K)))
    (triangulate : List (Line K) → Except E (List (Triangle K))) (ctx : Ctx)
    (walk : List (Triangle K) → Option (List (List (List (Pt K)))))
    (label : List (List (List (Pt K))) → Pt K → Label) (g : Geom K) (r : Result K) :
    makevalid clipper destr triangulate ctx walk label g = some (.ok (r, false)) ↔
      PointsOrLines g ∧ clipper = none ∧ r = .geom g := by
  cases g with
  | point p => exact (passOn_false clipper (.point p) r).trans (by simp [PointsOrLines])
  | multiPoint p => exact (passOn_false clipper (.multiPoint p) r).trans (by simp [PointsOrLines])
  | lineString p => exact (passOn_false clipper (.lineString p) r).trans (by simp [PointsOrLines])
  | multiLineString p => exact (passOn_false clipper (.multiLineString p) r).trans (by simp [PointsOrLines])
  | polygon rs => exact iff_of_false (finish_clipped _ r) (fun h => h.1)
  | multiPolygon ps => exact iff_of_false (finish_clipped _ r) (fun h => h.1)
  | collection gs => simp [makevalid, PointsOrLines]
  | other => simp [makevalid, PointsOrLines]

example : PointsOrLines (.point (1, 2) : Geom ℚ) ∧ ¬ PointsOrLines (.polygon [[(1, 2)]] : Geom ℚ) :=
  ⟨trivial, id⟩

/-- **C123**.  Points and lines are what the clipper makes of them, if there is one, or its error. -/
theorem C123_clipped (clip : Geom K → Except E (Geom K))
    (destr : List (List (List (Pt K))) → Option (List (Line K)))
    (triangulate : List (Line K) → Except E (List (Triangle K))) (ctx : Ctx)
    (walk : List (Triangle K) → Option (List (List (List (Pt K)))))
    (label : List (List (List (Pt K))) → Pt K → Label) (g : Geom K) (hg : PointsOrLines g) :
    (∀ gg, clip g = .ok gg →
      makevalid (some clip) destr triangulate ctx walk label g = some (.ok (.geom gg, true))) ∧
    (∀ e, clip g = .error e →
      makevalid (some clip) destr triangulate ctx walk label g = some (.error (.inner e))) := by
  have : makevalid (some clip) destr triangulate ctx walk label g = passOn (some clip) g := by
    cases g <;> first | rfl | exact absurd hg id
  rw [this]
  constructor
  · intro gg h
    simp [passOn, h]
  · intro e h
    simp [passOn, h]

example : PointsOrLines (.lineString [(1, 2), (3, 4)] : Geom ℚ) := trivial

/-- **C123**.  An unknown kind of geometry, or a collection, is refused, whatever the clipper and the
context. -/
theorem C123_unknown (clipper : Option (Geom K → Except E (Geom K)))
    (destr : List (List (List (Pt K))) → Option (List (Line K)))
    (triangulate : List (Line K) → Except E (List (Triangle K))) (ctx : Ctx)
    (walk : List (Triangle K) → Option (List (List (List (Pt K)))))
    (label : List (List (List (Pt K))) → Pt K → Label) (g : Geom K) :
    makevalid clipper destr triangulate ctx walk label g = some (.error .unknownGeometry) ↔
      ¬ PointsOrLines g ∧ ¬ ∃ mp, Polygonal g mp := by
  cases g with
  | point p => exact iff_of_false (passOn_known clipper (.point p)) (fun h => h.1 trivial)
  | multiPoint p => exact iff_of_false (passOn_known clipper (.multiPoint p)) (fun h => h.1 trivial)
  | lineString p => exact iff_of_false (passOn_known clipper (.lineString p)) (fun h => h.1 trivial)
  | multiLineString p => exact iff_of_false (passOn_known clipper (.multiLineString p)) (fun h => h.1 trivial)
  | polygon rs =>
    exact iff_of_false (finish_known _ _ _ _ _) (fun h => h.2 ⟨_, .inl ⟨rs, rfl, rfl⟩⟩)
  | multiPolygon ps => exact iff_of_false (finish_known _ _ _ _ _) (fun h => h.2 ⟨_, .inr rfl⟩)
  | collection gs => simp [makevalid, PointsOrLines, Polygonal]
  | other => simp [makevalid, PointsOrLines, Polygonal]

end Field

example : (¬ PointsOrLines (.collection [.point (1, 2)] : Geom ℚ) ∧
    ¬ ∃ mp, Polygonal (.collection [.point (1, 2)] : Geom ℚ) mp) := by
  refine ⟨id, ?_⟩
  rintro ⟨mp, ⟨rs, h, -⟩ | h⟩ <;> cases h

/-! ## What does not hold -/

/-- `Destructure` without a clip box, in a context. -/
abbrev cutIn (ctx : Ctx) (mp : List (List (List (Pt ℚ)))) : Option (List (Line ℚ)) :=
  cutUp ctx none mp (queueFor (Destructure.allSegments none mp))

/-- The labels of the hit map of the polygons. -/
abbrev labelIn (mp : List (List (List (Pt ℚ)))) : Pt ℚ → Label :=
  (newFromPolygons hmSort none mp).labelFor hmEq hmSearch

/-- **C120** in full: for a triangulation whose triangles lie on the two sides of their common edges,
the polygons that `Makevalid` returns have together the area of the triangles whose centre is labelled
inside. -/
def C120_full : Prop :=
  ∀ (yd : Bool) (triangulate : List (Line ℚ) → Except Unit (List (Triangle ℚ)))
    (g : Geom ℚ) (mp : List (List (List (Pt ℚ)))), Polygonal g mp →
    ∀ segs, cutIn (fun _ => false) mp = some segs → segs ≠ [] →
    ∀ all, triangulate segs = .ok all → OppositeSides all →
    ∃ out, makevalid none (cutIn (fun _ => false)) triangulate (fun _ => false) (walkAll yd) labelIn g =
        some (.ok (.multiPolygon out, true)) ∧
      ((out.getD []).map net2).sum = ((insideOf (labelIn mp) all).map size2).sum

/-- A polygon with a hole that touches its leftmost point. -/
def pinchedPolygon : List (List (Pt ℚ)) := [[(0, 0), (4, -4), (8, 0), (4, 4)], [(0, 0), (3, 1), (3, -1)]]

/-- C120 does not hold in full: a polygon with a hole that touches its leftmost point comes back inside
out. -/
theorem C120_violated : ¬ C120_full := by
  intro h
  obtain ⟨segs, hs⟩ : ∃ segs, cutIn (fun _ => false) [pinchedPolygon] = some segs ∧ segs ≠ [] := by
    refine ⟨(cutIn (fun _ => false) [pinchedPolygon]).getD [], ?_, ?_⟩ <;> decide +kernel
  obtain ⟨out, h1, h2⟩ := h false (fun _ => .ok pinched) (.polygon pinchedPolygon) [pinchedPolygon]
    (.inl ⟨_, rfl, rfl⟩) segs hs.1 hs.2 pinched rfl (opposite_of_check _ (by decide +kernel))
  have hin : insideOf (labelIn [pinchedPolygon]) pinched = pinched := by decide +kernel
  have hw : walkAll false pinched = some [[[(0, 0), (3, 1), (3, -1)], [(0, 0), (4, -4), (8, 0), (4, 4)]]] := by
    decide +kernel
  have h3 : insideForMultiPolygon (fun _ => (.ok pinched : Except Unit _)) (fun _ => false)
      (labelIn [pinchedPolygon]) (cutIn (fun _ => false) [pinchedPolygon]) = .ok pinched := by
    rw [hs.1]
    obtain ⟨a, l, rfl⟩ := List.exists_cons_of_ne_nil hs.2
    rw [insideForMultiPolygon, insideForSegments_ok _ _ rfl (fun _ _ => rfl)]
    exact congrArg _ hin
  rw [makevalid_polygonal _ _ _ _ _ _ _ [pinchedPolygon] (.inl ⟨_, rfl, rfl⟩), makevalidPolygon, h3] at h1
  replace h1 : finish ((walkAll false pinched).map (fun mp => Except.ok (some mp))) = _ := h1
  rw [hw] at h1
  simp only [Option.map_some, finish, Option.some.injEq, Except.ok.injEq, Prod.mk.injEq,
    Result.multiPolygon.injEq, and_true] at h1
  subst h1
  rw [hin] at h2
  revert h2
  decide +kernel

/-- The hypotheses of `C120_area_partial` and `C122_shape_partial` are met: two triangles in one group
and one alone, all labelled inside. -/
example : OppositeSides square3 ∧ (∀ t ∈ square3, ThreeCorners t) ∧
    insideOf (fun _ => Label.inside) square3 = square3 ∧
    ∀ i seen rng seen', ringForTriangle (fun p q => decide (p = q)) (fun _ => false)
      (insideOf (fun _ => Label.inside) square3) i seen = some (rng, seen') → rng.Nodup := by
  refine ⟨square3_opposite, by unfold ThreeCorners; decide +kernel, by decide +kernel, ?_⟩
  rw [show insideOf (fun _ => Label.inside) square3 = square3 by decide +kernel]
  exact square3_nodup

/-- **C121** in full: if the context has ended before `Makevalid` is called for a polygon, it returns
the error of the context. -/
def C121_full : Prop :=
  ∀ (yd : Bool) (triangulate : List (Line ℚ) → Except Unit (List (Triangle ℚ)))
    (g : Geom ℚ) (mp : List (List (List (Pt ℚ)))), Polygonal g mp →
    makevalid none (cutIn (fun _ => true)) triangulate (fun _ => true) (walkAll yd) labelIn g =
      some (.error .context)

/-- C121 does not hold in full: for a square `Makevalid` returns a nil multipolygon, `true` and no
error. -/
theorem C121_violated : ¬ C121_full := by
  intro h
  have h1 := h false (fun _ => .ok []) (.polygon island) [island] (.inl ⟨_, rfl, rfl⟩)
  rw [makevalid_polygonal _ _ _ _ _ _ _ [island] (.inl ⟨_, rfl, rfl⟩), makevalidPolygon,
    show cutIn (fun _ => true) [island] = none by decide +kernel] at h1
  simp [insideForMultiPolygon, finish] at h1

/-- **C122** in full: if `Makevalid` succeeds for a polygon, the multipolygon that it returns is not
nil. -/
def C122_full : Prop :=
  ∀ (yd : Bool) (triangulate : List (Line ℚ) → Except Unit (List (Triangle ℚ)))
    (g : Geom ℚ) (mp : List (List (List (Pt ℚ)))), Polygonal g mp →
    makevalid none (cutIn (fun _ => false)) triangulate (fun _ => false) (walkAll yd) labelIn g ≠
      some (.ok (.multiPolygon none, true))

/-- C122 does not hold in full: for a polygon without rings `Makevalid` returns a nil `*MultiPolygon`,
which is not a nil `Geometry`. -/
theorem C122_violated : ¬ C122_full := by
  intro h
  refine h false (fun _ => .ok []) (.polygon []) [[]] (.inl ⟨_, rfl, rfl⟩) ?_
  rw [makevalid_polygonal _ _ _ _ _ _ _ [[]] (.inl ⟨_, rfl, rfl⟩), makevalidPolygon,
    show cutIn (fun _ => false) [[]] = some [] by decide +kernel]
  rfl

/-- The hypotheses of `C123_triangulation_error` are met. -/
example : Polygonal (.polygon island : Geom ℚ) [island] ∧
    ∃ segs, cutIn (fun _ => false) [island] = some segs ∧ segs ≠ [] ∧
      (fun _ => .error 7 : List (Line ℚ) → Except Nat (List (Triangle ℚ))) segs = .error 7 :=
  ⟨.inl ⟨_, rfl, rfl⟩, (cutIn (fun _ => false) [island]).getD [], by decide +kernel, by decide +kernel, rfl⟩

/-- The hypotheses of `C121_labelling_partial` are met: the context ends before the last of three
triangles is labelled. -/
example : ∃ segs, cutIn (fun _ => false) [island] = some segs ∧ segs ≠ [] ∧ 2 < square3.length ∧
    (fun n : Nat => decide (2 ≤ n)) 2 = true :=
  ⟨(cutIn (fun _ => false) [island]).getD [], by decide +kernel, by decide +kernel, by decide, by decide⟩

end Verif.Props
