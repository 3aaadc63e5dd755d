import Verif.Lemmas.HitMap
import Mathlib.Data.Rat.Floor

/-!
# C116-C119: labelling points as inside or outside

`sort` is `sort.Sort` on the rings, `search` the index of large rings, `peq` exact equality.
-/

namespace Verif.Props
open Verif.Planar (Line)
open Verif.KdTree (Box)
open Verif.HitMap
open Verif.Spec.HitMap

section Field
variable {K : Type} [Field K] [LinearOrder K] [IsStrictOrderedRing K] [FloorRing K]

/-- The hit map made from the polygons labels a point of at most 20 significant bits inside iff it is
inside of the outer ring of one of the polygons or on it, and not inside of any hole of any of the
polygons.  (**C116** asks that the holes are only those of the same polygon.) -/
theorem C116_exact_partial (peq : Pt K → Pt K → Bool) (hpeq : ∀ a b, peq a b = true ↔ a = b)
    (search : List (Line K) → Line K → List Nat) (hs : GoodSearch search)
    (sort : List (HitMap.Ring K) → List (HitMap.Ring K)) (hsort : Sorts sort)
    (plys : List (List (List (Pt K)))) (p : Pt K) (h1 : Fits20 p.1) (h2 : Fits20 p.2) :
    (newFromPolygons sort none plys).labelFor peq search p = .inside ↔
      (∃ poly ∈ plys, ∃ outer holes, poly = outer :: holes ∧ Within outer p) ∧
      ∀ poly ∈ plys, ∀ outer holes, poly = outer :: holes → outer ≠ [] →
        ∀ hole ∈ holes, ¬ Strictly hole p := by
  have h := labelFor_iff hpeq hs hsort plys p
  have e : seen p = p := Prod.ext (prec20_fits h1) (prec20_fits h2)
  rw [e] at h
  exact h

/-- **C116**, for a point of at most 20 significant bits that is not at the same time in one polygon
and in a hole of another: it is labelled inside iff it belongs to one of the polygons. -/
theorem C116_polygons_partial (peq : Pt K → Pt K → Bool) (hpeq : ∀ a b, peq a b = true ↔ a = b)
    (search : List (Line K) → Line K → List Nat) (hs : GoodSearch search)
    (sort : List (HitMap.Ring K) → List (HitMap.Ring K)) (hsort : Sorts sort)
    (plys : List (List (List (Pt K)))) (p : Pt K) (h1 : Fits20 p.1) (h2 : Fits20 p.2)
    (hd : ∀ a ∈ plys, ∀ b ∈ plys, InPolygon a p → ∀ hole ∈ b.tail, ¬ Strictly hole p) :
    (newFromPolygons sort none plys).labelFor peq search p = .inside ↔ ∃ poly ∈ plys, InPolygon poly p := by
  rw [C116_exact_partial peq hpeq search hs sort hsort plys p h1 h2]
  constructor
  · rintro ⟨⟨poly, hp, outer, holes, rfl, hw⟩, hh⟩
    refine ⟨_, hp, outer, holes, rfl, hw, hh _ hp _ _ rfl ?_⟩
    rintro rfl
    exact not_within_nil p hw
  · rintro ⟨poly, hp, hin⟩
    refine ⟨?_, ?_⟩
    · obtain ⟨outer, holes, rfl, hw, _⟩ := hin
      exact ⟨_, hp, outer, holes, rfl, hw⟩
    · rintro b hb outer holes rfl _ hole hh
      exact hd poly hp _ hb hin hole hh

/-- **C116** for a single polygon and a point of at most 20 significant bits. -/
theorem C116_single_partial (peq : Pt K → Pt K → Bool) (hpeq : ∀ a b, peq a b = true ↔ a = b)
    (search : List (Line K) → Line K → List Nat) (hs : GoodSearch search)
    (sort : List (HitMap.Ring K) → List (HitMap.Ring K)) (hsort : Sorts sort)
    (poly : List (List (Pt K))) (p : Pt K) (h1 : Fits20 p.1) (h2 : Fits20 p.2) :
    (newFromPolygons sort none [poly]).labelFor peq search p = .inside ↔ InPolygon poly p := by
  rw [C116_polygons_partial peq hpeq search hs sort hsort [poly] p h1 h2]
  · simp
  · simp only [List.mem_singleton, forall_eq]
    rintro ⟨outer, holes, rfl, _, h⟩
    exact h

/-- **C116** for any point, as far as it goes: the label is that of a point whose coordinates differ from
those of the point by at most their 2^20th part.  (That there is such a search and sort is shown by the
example below, for `C116_exact_partial`.) -/
theorem C116_near_partial (peq : Pt K → Pt K → Bool) (hpeq : ∀ a b, peq a b = true ↔ a = b)
    (search : List (Line K) → Line K → List Nat) (hs : GoodSearch search)
    (sort : List (HitMap.Ring K) → List (HitMap.Ring K)) (hsort : Sorts sort)
    (poly : List (List (Pt K))) (p : Pt K) :
    ∃ q : Pt K, |q.1 - p.1| ≤ |p.1| / 2 ^ 20 ∧ |q.2 - p.2| ≤ |p.2| / 2 ^ 20 ∧
      ((newFromPolygons sort none [poly]).labelFor peq search p = .inside ↔ InPolygon poly q) := by
  refine ⟨seen p, prec20_near _, prec20_near _, ?_⟩
  rw [labelFor_iff hpeq hs hsort [poly] p]
  constructor
  · rintro ⟨⟨poly', hp, outer, holes, rfl, hw⟩, hh⟩
    obtain rfl := List.mem_singleton.1 hp
    refine ⟨outer, holes, rfl, hw, hh _ hp _ _ rfl ?_⟩
    rintro rfl
    exact not_within_nil _ hw
  · rintro ⟨outer, holes, rfl, hw, hh⟩
    refine ⟨⟨_, List.mem_singleton.2 rfl, outer, holes, rfl, hw⟩, ?_⟩
    rintro b hb o' h' rfl _ hole hm
    obtain ⟨rfl, rfl⟩ := List.cons.inj (List.mem_singleton.1 hb)
    exact hh hole hm

/-- With a clip box the hit map labels every point but the origin outside.  (**C117** asks that it
labels the points in the clip box as it does without one.) -/
theorem C117_outside_partial (peq : Pt K → Pt K → Bool) (search : List (Line K) → Line K → List Nat)
    (sort : List (HitMap.Ring K) → List (HitMap.Ring K)) (clip : Box K)
    (plys : List (List (List (Pt K)))) (p : Pt K) (hp : p ≠ (0, 0)) :
    (newFromPolygons sort (some clip) plys).labelFor peq search p = .outside :=
  clipped_outside clip plys p hp

/-- **C118**.  The hit map of a geometry labels a point inside iff that of one of the polygons and
multipolygons in it does, however deep they are in collections and in whatever order their areas
put them. -/
theorem C118_collection (peq : Pt K → Pt K → Bool) (search : List (Line K) → Line K → List Nat)
    (sort : List (HitMap.Ring K) → List (HitMap.Ring K)) (sortHM : List (HM K) → List (HM K))
    (hperm : ∀ l, (sortHM l).Perm l) (g : Geom K) (hm : HM K) (h : new sort sortHM g = some (some hm))
    (p : Pt K) :
    hm.labelFor peq search p = .inside ↔
      ∃ mp ∈ areas g, (newFromPolygons sort none mp).labelFor peq search p = .inside :=
  (new_label sortHM hperm p g).1 hm h

/-- **C118**.  There is an error iff something in the geometry is of an unknown kind; there is no hit
map, and no error, iff the geometry is a point, a line or several of these. -/
theorem C118_new (sort : List (HitMap.Ring K) → List (HitMap.Ring K)) (sortHM : List (HM K) → List (HM K))
    (g : Geom K) :
    (new sort sortHM g = none ↔ ¬ Known g) ∧
    (new sort sortHM g = some none ↔ match g with
      | .point _ | .multiPoint _ | .lineString _ | .multiLineString _ => True
      | _ => False) := by
  refine ⟨new_none sortHM g, ?_⟩
  cases g <;> simp [new]

/-- **C119**.  The label of a point depends neither on the order of the polygons and of the holes, nor
on where the rings start and on their direction, nor on how the sorting of the rings breaks ties. -/
theorem C119_same_label (peq : Pt K → Pt K → Bool) (hpeq : ∀ a b, peq a b = true ↔ a = b)
    (search search' : List (Line K) → Line K → List Nat) (hs : GoodSearch search) (hs' : GoodSearch search')
    (sort sort' : List (HitMap.Ring K) → List (HitMap.Ring K)) (hsort : Sorts sort) (hsort' : Sorts sort')
    (as bs : List (List (List (Pt K)))) (h : SamePolygons as bs) (p : Pt K) :
    (newFromPolygons sort none as).labelFor peq search p =
      (newFromPolygons sort' none bs).labelFor peq search' p := by
  have h1 := labelFor_iff hpeq hs hsort as p
  have h2 := labelFor_iff hpeq hs' hsort' bs p
  obtain ⟨e1, e2⟩ := samePolygons_iff h (seen p)
  rw [e1, e2, ← h2] at h1
  revert h1
  cases (newFromPolygons sort none as).labelFor peq search p <;>
    cases (newFromPolygons sort' none bs).labelFor peq search' p <;> simp

end Field

/-! ### The full statements, and points that they do not hold for -/

/-- Sorting the rings by insertion. -/
abbrev hmSort : List (HitMap.Ring ℚ) → List (HitMap.Ring ℚ) :=
  fun l => l.insertionSort (fun a b => ringLess b a = false)

/-- No index: all segments. -/
abbrev hmSearch : List (Line ℚ) → Line ℚ → List Nat := fun segs _ => List.range segs.length

/-- Equality of points. -/
abbrev hmEq : Pt ℚ → Pt ℚ → Bool := fun a b => decide (a = b)

/-- **C116** as it should be: the label is inside iff the point belongs to one of the polygons. -/
def C116_full : Prop :=
  ∀ (search : List (Line ℚ) → Line ℚ → List Nat), GoodSearch search →
  ∀ (sort : List (HitMap.Ring ℚ) → List (HitMap.Ring ℚ)), Sorts sort →
  ∀ (plys : List (List (List (Pt ℚ)))) (p : Pt ℚ),
    (newFromPolygons sort none plys).labelFor hmEq search p = .inside ↔ ∃ poly ∈ plys, InPolygon poly p

/-- A square of side 8 with a square hole of side 6. -/
def frame8 : List (List (Pt ℚ)) := [[(0, 0), (8, 0), (8, 8), (0, 8)], [(1, 1), (7, 1), (7, 7), (1, 7)]]

/-- A square of side 2 in the hole. -/
def island : List (List (Pt ℚ)) := [[(3, 3), (5, 3), (5, 5), (3, 5)]]

/-- The middle of the island is labelled outside. -/
theorem C116_violated : ¬ C116_full := by
  intro h
  have hsort : Sorts hmSort := sorts_insertion
  have hs : GoodSearch hmSearch := good_all
  have h1 : (newFromPolygons hmSort none [island]).labelFor hmEq hmSearch (4, 4) = .inside := by decide +kernel
  have h2 : (newFromPolygons hmSort none [frame8, island]).labelFor hmEq hmSearch (4, 4) = .outside := by
    decide +kernel
  obtain ⟨poly, hp, hin⟩ := (h hmSearch hs hmSort hsort [island] (4, 4)).1 h1
  have := (h hmSearch hs hmSort hsort [frame8, island] (4, 4)).2
    ⟨poly, List.mem_cons_of_mem _ hp, hin⟩
  rw [h2] at this
  exact absurd this (by simp)

/-- Nor is it enough that there is just one polygon, without holes: a point one unit right of a large
square is labelled inside, since it is first rounded to 20 bits. -/
theorem C116_rounding_violated : ¬ ∀ (ring : List (Pt ℚ)) (p : Pt ℚ),
    (newFromPolygons hmSort none [[ring]]).labelFor hmEq hmSearch p = .inside ↔ Within ring p := by
  intro h
  have h1 := (h [(0, 0), (1048576, 0), (1048576, 1048576), (0, 1048576)] (1048577, 4)).1 (by decide +kernel)
  have h2 := (contains_inside (peq := hmEq) (by simp) good_all _ _).2 h1
  revert h2
  decide +kernel

/-- The hypotheses of the theorems on C116 hold, and the labels are as they should be, for a point of
the frame, one in the hole, one on the border of the hole, and one outside. -/
example : Sorts hmSort ∧ GoodSearch hmSearch ∧ (Fits20 (1 / 2 : ℚ) ∧ Fits20 (4 : ℚ)) ∧
    [(1 / 2, 4), (4, 4), (1, 4), (9, 4)].map ((newFromPolygons hmSort none [frame8]).labelFor hmEq hmSearch) =
      [.inside, .outside, .inside, .outside] := by
  refine ⟨sorts_insertion, good_all, ⟨⟨1, -1, by norm_num, by norm_num⟩, ⟨4, 0, by norm_num, by norm_num⟩⟩, ?_⟩
  decide +kernel

/-- A point that is in one of two polygons and in no hole of the other. -/
example : ∀ a ∈ [island, frame8], ∀ b ∈ [island, frame8], InPolygon a (1 / 2, 4) →
    ∀ hole ∈ b.tail, ¬ Strictly hole ((1 / 2 : ℚ), (4 : ℚ)) := by
  intro a _ b hb _ hole hh hst
  have hc := (contains_outside (peq := hmEq) (by simp) good_all _ _).2 hst
  simp only [List.mem_cons, List.not_mem_nil, or_false] at hb
  rcases hb with rfl | rfl
  · simp [island] at hh
  · simp only [frame8, List.tail_cons, List.mem_singleton] at hh
    subst hh
    revert hc
    decide +kernel

/-- **C117** as it should be: in the clip box the labels are those without one. -/
def C117_full : Prop :=
  ∀ (search : List (Line ℚ) → Line ℚ → List Nat), GoodSearch search →
  ∀ (sort : List (HitMap.Ring ℚ) → List (HitMap.Ring ℚ)), Sorts sort →
  ∀ (clip : Box ℚ) (plys : List (List (List (Pt ℚ)))) (p : Pt ℚ),
    (clip.minx ≤ p.1 ∧ p.1 ≤ clip.maxx ∧ clip.miny ≤ p.2 ∧ p.2 ≤ clip.maxy) →
    (newFromPolygons sort (some clip) plys).labelFor hmEq search p =
      (newFromPolygons sort none plys).labelFor hmEq search p

/-- A point in the island, with a clip box around everything. -/
theorem C117_violated : ¬ C117_full := by
  intro h
  have h1 := h hmSearch good_all hmSort sorts_insertion ⟨0, 0, 8, 8⟩ [island] (4, 4) (by norm_num)
  revert h1
  decide +kernel

example : ((4 : ℚ), (4 : ℚ)) ≠ (0, 0) ∧
    (newFromPolygons hmSort (some ⟨0, 0, 8, 8⟩) [island]).labelFor hmEq hmSearch (4, 4) = .outside := by
  decide +kernel

/-- A collection of a point, and a collection of the frame and the island: both are inside. -/
example : ((new hmSort id (.collection [.point (1, 1), .collection [.polygon frame8, .multiPolygon [island]]])).bind id).map
    (fun hm => [(4, 4), (2, 2), (1 / 2, 4)].map (hm.labelFor hmEq hmSearch)) =
      some [.inside, .outside, .inside] := by
  decide +kernel

example : ∀ l : List (HM ℚ), (id l).Perm l := fun l => .refl l

example : Known (.collection [.point ((1 : ℚ), (1 : ℚ)), .polygon frame8]) ∧
    ¬ Known (.collection [.polygon frame8, .other]) := by
  simp [Known, KnownAll]

/-- The frame and the island, and the same with the island first, its ring the other way round, and
another starting point of the frame. -/
example : SamePolygons [frame8, island] [[[(3, 5), (5, 5), (5, 3), (3, 3)]],
    [[(8, 0), (8, 8), (0, 8), (0, 0)], [(1, 1), (7, 1), (7, 7), (1, 7)]]] := by
  refine ⟨[island, frame8], List.Perm.swap _ _ _, ?_⟩
  refine .cons ⟨_, [], _, [], [], rfl, rfl, .inr ⟨0, rfl⟩, .refl _, .nil⟩ (.cons ?_ .nil)
  exact ⟨_, [[(1, 1), (7, 1), (7, 7), (1, 7)]], _, [[(1, 1), (7, 1), (7, 7), (1, 7)]],
    [[(1, 1), (7, 1), (7, 7), (1, 7)]], rfl, rfl, .inl ⟨1, rfl⟩, .refl _, .cons (.inl ⟨0, rfl⟩) .nil⟩

end Verif.Props
