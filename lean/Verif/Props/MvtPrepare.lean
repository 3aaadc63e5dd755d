import Verif.Lemmas.MvtPrepare
import Mathlib.Algebra.Order.Ring.Rat
import Mathlib.Tactic.Linarith
import Mathlib.Algebra.Order.Field.Rat

/-!
# Tile pixels (C141, C142, C143)

Coordinates lie in any linearly ordered field; the comparison of two coordinates
is any function `feq`.
-/

namespace Verif.Props
open Verif Verif.MvtPrepare Verif.Spec.MvtPrepare Verif.Lemmas.MvtPrepare Verif.Spec.Winding

set_option linter.unusedSectionVars false

variable {K : Type} [Field K] [LinearOrder K] [IsStrictOrderedRing K]

/-- A tile from (10, 20) to (30, 60), used in the examples. -/
def tileSample : Tile ℚ := ⟨10, 20, 30, 60⟩

/-- Exact comparison, used in the examples. -/
def sameQ (a b : ℚ) : Bool := decide (a = b)

theorem tileSample_proper : tileSample.Proper := by unfold Tile.Proper tileSample; decide +kernel

/-! ## C141 -/

/-- C141: a point becomes its pixel position. -/
theorem C141_point (feq : K → K → Bool) (tile : Tile K) (h : tile.Proper) (px : K) (p : Pt K) :
    ∃ q, PixelOf tile px p q ∧ prepareGeo feq tile px (.point p) = some (some (.point q)) :=
  ⟨_, (pixel_iff h px p _).2 rfl, rfl⟩

example : prepareGeo sameQ tileSample 4096 (.point (15, 50)) = some (some (.point (1024, 1024))) ∧
    PixelOf tileSample 4096 (15, 50) (1024, 1024) := by
  unfold PixelOf; decide +kernel

/-- C141: the position in pixels is one point only, and it lies within the pixel
square just if the point lies in the tile. -/
theorem C141_inside (tile : Tile K) (hx : tile.minX < tile.maxX) (hy : tile.minY < tile.maxY) (px : K)
    (hp : 0 < px) (p q : Pt K) (h : PixelOf tile px p q) :
    (∀ q', PixelOf tile px p q' → q' = q) ∧
    (0 ≤ q.1 ∧ q.1 ≤ px ↔ tile.minX ≤ p.1 ∧ p.1 ≤ tile.maxX) ∧
    (0 ≤ q.2 ∧ q.2 ≤ px ↔ tile.minY ≤ p.2 ∧ p.2 ≤ tile.maxY) := by
  have hpr : tile.Proper := ⟨hx.ne, hy.ne⟩
  refine ⟨fun q' h' => ?_, ?_, ?_⟩
  · rw [(pixel_iff hpr px p q).1 h, (pixel_iff hpr px p q').1 h']
  · have hs : 0 < tile.maxX - tile.minX := by linarith
    have h1 := h.1
    refine and_congr ?_ ?_
    · rw [← mul_nonneg_iff_of_pos_right hs, h1, mul_nonneg_iff_of_pos_right hp, sub_nonneg]
    · rw [← mul_le_mul_iff_of_pos_right hs, h1, mul_comm px, mul_le_mul_iff_of_pos_right hp]
      constructor <;> intro <;> linarith
  · have hs : 0 < tile.maxY - tile.minY := by linarith
    have h1 := h.2
    rw [and_comm (a := tile.minY ≤ p.2)]
    refine and_congr ?_ ?_
    · rw [← mul_nonneg_iff_of_pos_right hs, h1, mul_nonneg_iff_of_pos_right hp, sub_nonneg]
    · rw [← mul_le_mul_iff_of_pos_right hs, h1, mul_comm px, mul_le_mul_iff_of_pos_right hp]
      constructor <;> intro <;> linarith

example : tileSample.minX < tileSample.maxX ∧ tileSample.minY < tileSample.maxY ∧ (0 : ℚ) < 4096 ∧
    PixelOf tileSample 4096 (15, 50) (1024, 1024) := by
  unfold PixelOf; decide +kernel

/-- C141: every point of a multi point becomes its pixel position; a multi point
without points becomes the nil geometry. -/
theorem C141_points (feq : K → K → Bool) (tile : Tile K) (h : tile.Proper) (px : K) (ps : List (Pt K)) :
    ∃ qs, PixelsOf tile px ps qs ∧ prepareGeo feq tile px (.multiPoint ps) =
      some (if ps = [] then none else some (.multiPoint qs)) := by
  refine ⟨_, (pixels_iff h px ps _).2 rfl, ?_⟩
  rw [prepareGeo]
  cases ps <;> simp

example : prepareGeo sameQ tileSample 4096 (.multiPoint [(15, 50), (10, 60)]) =
    some (some (.multiPoint [(1024, 1024), (0, 0)])) := by decide +kernel

/-- C141: a line string becomes the pixel positions of its points, each left out
that is equal to the one kept before it; nothing stays of a line string with less
than two points left. -/
theorem C141_line (feq : K → K → Bool) (tile : Tile K) (h : tile.Proper) (px : K) (ps : List (Pt K)) :
    ∃ qs, PixelsOf tile px ps qs ∧ prepareGeo feq tile px (.lineString ps) =
      some (some (.lineString (if 2 ≤ (thin feq qs).length then thin feq qs else []))) := by
  refine ⟨_, (pixels_iff h px ps _).2 rfl, ?_⟩
  rw [prepareGeo, prepareLine_eq]

example : prepareGeo sameQ tileSample 4096 (.lineString [(15, 50), (15, 50), (10, 60), (15, 50)]) =
      some (some (.lineString [(1024, 1024), (0, 0), (1024, 1024)])) ∧
    prepareGeo sameQ tileSample 4096 (.lineString [(15, 50), (15, 50)]) = some (some (.lineString [])) := by
  decide +kernel

/-- C141: the line strings of a multi line string are treated one by one; those of
which nothing stays are left out. -/
theorem C141_lines (feq : K → K → Bool) (tile : Tile K) (h : tile.Proper) (px : K)
    (ls : List (List (Pt K))) :
    ∃ qss, List.Forall₂ (PixelsOf tile px) ls qss ∧ prepareGeo feq tile px (.multiLineString ls) =
      some (some (.multiLineString ((qss.map (thin feq)).filter fun l => decide (2 ≤ l.length)))) := by
  refine ⟨ls.map (List.map (preparePt tile px)), ?_, ?_⟩
  · rw [List.forall₂_map_right_iff]
    exact List.forall₂_same.2 fun l _ => (pixels_iff h px l _).2 rfl
  · rw [prepareGeo, linesLoop_eq]
    simp [Function.comp_def]

example : prepareGeo sameQ tileSample 4096 (.multiLineString [[(15, 50), (10, 60)], [(15, 50), (15, 50)]]) =
    some (some (.multiLineString [[(1024, 1024), (0, 0)]])) := by decide +kernel

/-- The rings of a polygon in pixels: rings of less than two points are left out,
of the others each point equal to the one kept before it and a last point equal to
the first. -/
def pixelRings (feq : K → K → Bool) (qss : List (List (Pt K))) : List (List (Pt K)) :=
  (qss.filter fun q => decide (2 ≤ q.length)).map fun q => opened feq (thin feq q)

theorem pixelRings_for {feq : K → K → Bool} {tile : Tile K} {px : K} (g : List (List (Pt K))) :
    ringsFor feq tile px g = pixelRings feq (g.map (List.map (preparePt tile px))) := by
  unfold ringsFor pixelRings
  rw [List.filter_map, List.map_map]
  simp [Function.comp_def]

/-- C141: of a polygon with no ring collapsing to one pixel position the rings are
brought to pixel positions and turned: a first ring of zero area leaves nothing,
other rings of zero area are left out, the first ring is turned clockwise and the
others counter-clockwise (y upwards, as the code has it). -/
theorem C141_polygon (feq : K → K → Bool) (tile : Tile K) (h : tile.Proper) (px : K)
    (g : List (List (Pt K))) (hc : ∀ r ∈ g, ¬ Collapses feq tile px r) :
    ∃ qss, List.Forall₂ (PixelsOf tile px) g qss ∧ prepareGeo feq tile px (.polygon g) =
      some (some (.polygon (rectified false (pixelRings feq qss)))) := by
  refine ⟨g.map (List.map (preparePt tile px)), ?_, ?_⟩
  · rw [List.forall₂_map_right_iff]
    exact List.forall₂_same.2 fun l _ => (pixels_iff h px l _).2 rfl
  · rw [prepareGeo, preparePolygon_eq h feq px g (by push Not; exact hc), pixelRings_for]
    rfl

/-- A closed square with a hole and a ring of zero area in the tile of the examples. -/
def polySample : List (List (Pt ℚ)) :=
  [[(10, 20), (30, 20), (30, 60), (10, 60), (10, 20)], [(15, 30), (20, 30), (20, 40), (15, 30)],
   [(15, 30), (20, 30), (15, 30)]]

example : (∀ r ∈ polySample, ¬ Collapses sameQ tileSample 4096 r) ∧
    prepareGeo sameQ tileSample 4096 (.polygon polySample) =
      some (some (.polygon [[(0, 4096), (4096, 4096), (4096, 0), (0, 0)],
        [(2048, 2048), (2048, 3072), (1024, 3072)]])) := by
  refine ⟨fun r hr => ?_, by decide +kernel⟩
  rw [collapses_iff tileSample_proper]
  revert r
  decide +kernel

/-- C141: the direction of the rings of a prepared polygon: the first has negative,
the others have positive area (y upwards). -/
theorem C141_directions (feq : K → K → Bool) (tile : Tile K) (h : tile.Proper) (px : K)
    (g out : List (List (Pt K))) (ho : prepareGeo feq tile px (.polygon g) = some (some (.polygon out))) :
    (∀ r ∈ out.head?, area2 r < 0) ∧ (∀ r ∈ out.tail, 0 < area2 r) := by
  by_cases hc : ∃ r ∈ g, Collapses feq tile px r
  · rw [prepareGeo, preparePolygon_panics h feq px g hc] at ho
    simp at ho
  · rw [prepareGeo, preparePolygon_eq h feq px g hc] at ho
    simp only [Option.map_some, Option.some.injEq, Geo.polygon.injEq] at ho
    obtain ⟨h1, h2⟩ := C32_rectify_windings false (ringsFor feq tile px g)
    rw [C32_rectify, ho] at h1 h2
    exact ⟨fun r hr => (C31_winding_is_area_sign r false).2.2.2.1.1 (h1 r hr),
      fun r hr => (C31_winding_is_area_sign r false).2.2.2.2.1 (h2 r hr)⟩

example : prepareGeo sameQ tileSample 4096 (.polygon polySample) =
      some (some (.polygon [[(0, 4096), (4096, 4096), (4096, 0), (0, 0)],
        [(2048, 2048), (2048, 3072), (1024, 3072)]])) ∧
    area2 [((0 : ℚ), (4096 : ℚ)), (4096, 4096), (4096, 0), (0, 0)] < 0 := by decide +kernel

/-- C141: the polygons of a multi polygon, given as such or through a pointer, are
treated one by one; those of which nothing stays are left out. -/
theorem C141_polygons (feq : K → K → Bool) (tile : Tile K) (h : tile.Proper) (px : K)
    (ps : List (List (List (Pt K)))) (hc : ∀ p ∈ ps, ∀ r ∈ p, ¬ Collapses feq tile px r) :
    ∃ qs, List.Forall₂ (List.Forall₂ (PixelsOf tile px)) ps qs ∧
      let out := (qs.map fun q => rectified false (pixelRings feq q)).filter (· ≠ [])
      prepareGeo feq tile px (.multiPolygon ps) = some (some (.multiPolygon out)) ∧
      prepareGeo feq tile px (.multiPolygonPtr (some ps)) = some (some (.multiPolygonPtr (some out))) := by
  refine ⟨ps.map (List.map (List.map (preparePt tile px))), ?_, ?_⟩
  · rw [List.forall₂_map_right_iff]
    refine List.forall₂_same.2 fun p _ => ?_
    rw [List.forall₂_map_right_iff]
    exact List.forall₂_same.2 fun l _ => (pixels_iff h px l _).2 rfl
  · have hc' : ¬ ∃ r ∈ ps.flatten, Collapses feq tile px r := by
      rintro ⟨r, hr, hcr⟩
      obtain ⟨p, hp, hr⟩ := List.mem_flatten.1 hr
      exact hc p hp r hr hcr
    have := (polygonsLoop_eq h feq px [] ps).2 hc'
    rw [prepareGeo, prepareGeo, this]
    simp only [List.nil_append, Option.map_some, List.map_map, Function.comp_def, pixelRings_for]
    simp

example : prepareGeo sameQ tileSample 4096 (.multiPolygon [polySample.drop 2, polySample]) =
    some (some (.multiPolygon [[[(0, 4096), (4096, 4096), (4096, 0), (0, 0)],
      [(2048, 2048), (2048, 3072), (1024, 3072)]]])) := by decide +kernel

/-- C141: nil, collections and pointers to other geometries become the nil geometry. -/
theorem C141_other (feq : K → K → Bool) (tile : Tile K) (px : K) :
    prepareGeo feq tile px .other = some none ∧
    prepareGeo feq tile px (.multiPolygonPtr none) = some none := ⟨rfl, rfl⟩

/-! ## C142 -/

/-- C142: no geometry makes `PrepareGeo` panic. -/
def C142_full : Prop :=
  ∀ (feq : ℚ → ℚ → Bool), (∀ x, feq x x = true) → ∀ (tile : Tile ℚ), tile.Proper → ∀ (px : ℚ), 0 < px →
    ∀ g, prepareGeo feq tile px g ≠ none

/-- C142: what does hold: a panic comes just from a polygon with a ring of two or
more points which all have one and the same pixel position. -/
theorem C142_panics_iff_partial (feq : K → K → Bool) (tile : Tile K) (h : tile.Proper) (px : K) (g : Geo K) :
    prepareGeo feq tile px g = none ↔ ∃ r ∈ ringsOf g, Collapses feq tile px r := by
  cases g with
  | polygon p =>
    simp only [ringsOf]
    by_cases hc : ∃ r ∈ p, Collapses feq tile px r
    · simp [prepareGeo, preparePolygon_panics h feq px p hc, hc]
    · simp [prepareGeo, preparePolygon_eq h feq px p hc, hc]
  | multiPolygon ps =>
    simp only [ringsOf]
    by_cases hc : ∃ r ∈ ps.flatten, Collapses feq tile px r
    · simp only [prepareGeo, (polygonsLoop_eq h feq px [] ps).1 hc, hc, Option.map_none]
    · simp only [prepareGeo, (polygonsLoop_eq h feq px [] ps).2 hc, hc, Option.map_some, reduceCtorEq]
  | multiPolygonPtr ps =>
    cases ps with
    | none => simp [prepareGeo, ringsOf]
    | some ps =>
      simp only [ringsOf]
      by_cases hc : ∃ r ∈ ps.flatten, Collapses feq tile px r
      · simp only [prepareGeo, (polygonsLoop_eq h feq px [] ps).1 hc, hc, Option.map_none]
      · simp only [prepareGeo, (polygonsLoop_eq h feq px [] ps).2 hc, hc, Option.map_some, reduceCtorEq]
  | multiPoint ps => cases ps <;> simp [prepareGeo, ringsOf]
  | _ => simp [prepareGeo, ringsOf]

example : prepareGeo sameQ tileSample 4096 (.polygon polySample) ≠ none ∧
    prepareGeo sameQ tileSample 4096 (.polygon (polySample ++ [[(15, 30), (15, 30), (15, 30)]])) = none := by
  decide +kernel

/-- C142 does not hold: a polygon with a ring that shrinks to one pixel position
makes `PrepareGeo` index a nil slice. -/
theorem C142_violated : ¬ C142_full := by
  intro h
  exact h sameQ (by simp [sameQ]) tileSample tileSample_proper 4096 (by norm_num)
    (.polygon (polySample ++ [[(15, 30), (15, 30), (15, 30)]])) (by decide +kernel)

/-! ## C143 -/

/-- C143: the outer ring of a prepared polygon comes from the outer ring of the
polygon: its points are pixel positions of points of the latter. -/
def C143_full : Prop :=
  ∀ (feq : ℚ → ℚ → Bool), (∀ x, feq x x = true) → ∀ (tile : Tile ℚ), tile.Proper → ∀ (px : ℚ), 0 < px →
    ∀ g out, prepareGeo feq tile px (.polygon g) = some (some (.polygon out)) →
      ∀ r ∈ out.head?, ∃ o ∈ g.head?, ∀ q ∈ r, ∃ p ∈ o, PixelOf tile px p q

/-- C143: holds whenever the outer ring of the polygon has at least two points. -/
theorem C143_outer_partial (feq : K → K → Bool) (tile : Tile K) (h : tile.Proper) (px : K)
    (o : List (Pt K)) (g out : List (List (Pt K))) (ho : 2 ≤ o.length)
    (hg : prepareGeo feq tile px (.polygon (o :: g)) = some (some (.polygon out))) :
    ∀ r ∈ out.head?, ∀ q ∈ r, ∃ p ∈ o, PixelOf tile px p q := by
  by_cases hc : ∃ r ∈ (o :: g), Collapses feq tile px r
  · rw [prepareGeo, preparePolygon_panics h feq px _ hc] at hg
    simp at hg
  · rw [prepareGeo, preparePolygon_eq h feq px _ hc] at hg
    simp only [Option.map_some, Option.some.injEq, Geo.polygon.injEq] at hg
    have he : ringsFor feq tile px (o :: g) =
        opened feq (thin feq (o.map (preparePt tile px))) :: ringsFor feq tile px g := by
      unfold ringsFor
      rw [List.filter_cons_of_pos (by simpa using ho)]; rfl
    rw [he, rectified] at hg
    intro r hr q hq
    split at hg
    · subst hg; simp at hr
    · subst hg
      simp only [List.head?_cons, Option.mem_def, Option.some.injEq] at hr
      subst hr
      have h1 : q ∈ opened feq (thin feq (o.map (preparePt tile px))) := by
        unfold turn at hq
        split at hq
        · exact hq
        · exact List.mem_reverse.1 hq
      have h2 : q ∈ thin feq (o.map (preparePt tile px)) := by
        unfold opened at h1
        split at h1
        · exact List.dropLast_subset _ h1
        · exact h1
      have h3 : q ∈ o.map (preparePt tile px) := (List.destutter_sublist _ _).subset h2
      obtain ⟨p, hp, rfl⟩ := List.mem_map.1 h3
      exact ⟨p, hp, (pixel_iff h px p _).2 rfl⟩

example : 2 ≤ (polySample.head?.getD []).length ∧
    (prepareGeo sameQ tileSample 4096 (.polygon polySample)).isSome = true := by decide +kernel

/-- C143 does not hold: an outer ring of a single point is passed over and the first
hole becomes the outer ring. -/
theorem C143_violated : ¬ C143_full := by
  intro h
  obtain ⟨o, ho, hp⟩ := h sameQ (by simp [sameQ]) tileSample tileSample_proper 4096 (by norm_num)
    ([(10, 20)] :: polySample.tail) [[(2048, 2048), (2048, 3072), (1024, 3072)].reverse]
    (by decide +kernel) _ rfl
  simp only [List.head?_cons, Option.mem_def, Option.some.injEq] at ho
  subst ho
  obtain ⟨p, hp, h1, _⟩ := hp (1024, 3072) (by simp)
  simp only [List.mem_singleton] at hp
  subst hp
  revert h1
  decide +kernel

end Verif.Props
