import Verif.Lemmas.HitMapExtent
import Mathlib.Data.Rat.Floor
import Mathlib.Data.List.Sort

/-!
# C185, C186: the extent of a hit map

`sort` is `sort.Sort` on the rings, `sortHM` on the hit maps of the members of a collection, `search`
the index of large rings, `peq` the equality of points.
-/

namespace Verif.Props
open Verif.Planar (Line)
open Verif.HitMap
open Verif.Spec.HitMap Verif.Spec.HitMapExtent

section Field
variable {K : Type} [Field K] [LinearOrder K] [IsStrictOrderedRing K]

/-- **C185**, but for the origin: the extent of the hit map for a geometry is the least box around the
origin and all vertices of its polygons, and its area is that of this box. -/
theorem C185_extent_partial (sort : List (HitMap.Ring K) → List (HitMap.Ring K))
    (sortHM : List (HM K) → List (HM K)) (hperm : ∀ l, (sortHM l).Perm l) (g : Geom K) (hm : HM K)
    (h : new sort sortHM g = some (some hm)) :
    LeastAround (origin :: verticesOf g) hm.extent.minx hm.extent.miny hm.extent.maxx hm.extent.maxy ∧
      hm.area = (hm.extent.maxx - hm.extent.minx) * (hm.extent.maxy - hm.extent.miny) := by
  have hf := (fits_new sort sortHM hperm g).1 hm h
  refine ⟨hf, ?_⟩
  have h0 := hf.1 origin List.mem_cons_self
  rw [area_extent, boxArea, abs_of_nonneg, mul_comm]
  exact mul_nonneg (sub_nonneg.2 (h0.2.2.1.trans h0.2.2.2)) (sub_nonneg.2 (h0.1.trans h0.2.1))

/-- **C185** holds for a geometry whose polygons have the origin among their vertices, or more generally
reach to both sides of it in both directions. -/
theorem C185_around_origin_partial (sort : List (HitMap.Ring K) → List (HitMap.Ring K))
    (sortHM : List (HM K) → List (HM K)) (hperm : ∀ l, (sortHM l).Perm l) (g : Geom K) (hm : HM K)
    (h : new sort sortHM g = some (some hm)) :
    LeastAround (verticesOf g) hm.extent.minx hm.extent.miny hm.extent.maxx hm.extent.maxy ↔
      (∃ p ∈ verticesOf g, p.1 ≤ 0) ∧ (∃ p ∈ verticesOf g, p.2 ≤ 0) ∧ (∃ p ∈ verticesOf g, 0 ≤ p.1) ∧
        ∃ p ∈ verticesOf g, 0 ≤ p.2 := by
  obtain ⟨h0, h1, h2, h3, h4⟩ := (C185_extent_partial sort sortHM hperm g hm h).1
  have ho := h0 origin List.mem_cons_self
  constructor
  · rintro ⟨_, ⟨a, ha, ea⟩, ⟨b, hb, eb⟩, ⟨c, hc, ec⟩, d, hd, ed⟩
    exact ⟨⟨a, ha, ea ▸ ho.1⟩, ⟨b, hb, eb ▸ ho.2.2.1⟩, ⟨c, hc, ec ▸ ho.2.1⟩, d, hd, ed ▸ ho.2.2.2⟩
  · rintro ⟨⟨a, ha, ea⟩, ⟨b, hb, eb⟩, ⟨c, hc, ec⟩, d, hd, ed⟩
    refine ⟨fun p hp => h0 p (List.mem_cons_of_mem _ hp), ?_, ?_, ?_, ?_⟩
    · obtain ⟨p, hp, e⟩ := h1
      rcases List.mem_cons.1 hp with rfl | hp
      · exact ⟨a, ha, le_antisymm (e ▸ ea) (h0 a (List.mem_cons_of_mem _ ha)).1⟩
      · exact ⟨p, hp, e⟩
    · obtain ⟨p, hp, e⟩ := h2
      rcases List.mem_cons.1 hp with rfl | hp
      · exact ⟨b, hb, le_antisymm (e ▸ eb) (h0 b (List.mem_cons_of_mem _ hb)).2.2.1⟩
      · exact ⟨p, hp, e⟩
    · obtain ⟨p, hp, e⟩ := h3
      rcases List.mem_cons.1 hp with rfl | hp
      · exact ⟨c, hc, le_antisymm (h0 c (List.mem_cons_of_mem _ hc)).2.1 (e ▸ ec)⟩
      · exact ⟨p, hp, e⟩
    · obtain ⟨p, hp, e⟩ := h4
      rcases List.mem_cons.1 hp with rfl | hp
      · exact ⟨d, hd, le_antisymm (h0 d (List.mem_cons_of_mem _ hd)).2.2.2 (e ▸ ed)⟩
      · exact ⟨p, hp, e⟩

omit [IsStrictOrderedRing K] in
/-- **C186**: the hit map of a collection consists of those of the members that have one, each as often as
it comes, and of two of them the one with the larger extent comes first. -/
theorem C186_largest_first (sort : List (HitMap.Ring K) → List (HitMap.Ring K))
    (sortHM : List (HM K) → List (HM K)) (hs : SortsHM sortHM) (gs : List (Geom K)) (hm : HM K)
    (h : new sort sortHM (.collection gs) = some (some hm)) :
    ∃ parts, hm = .ordered parts ∧ parts.Perm (gs.filterMap fun g => (new sort sortHM g).join) ∧
      parts.Pairwise fun a b => b.area ≤ a.area := by
  simp only [new, Option.map_eq_some_iff, Option.some.injEq] at h
  obtain ⟨hms, h, rfl⟩ := h
  obtain ⟨h1, h2⟩ := hs hms
  refine ⟨_, rfl, ?_, ?_⟩
  · rw [← newList_eq sort sortHM gs hms h]
    exact (List.reverse_perm _).trans h1
  · rw [List.pairwise_reverse]
    refine h2.imp fun {a b} hab => ?_
    simpa [hmLess] using hab

/-- A point of at most 20 significant bits that a hit map labels inside lies in its extent. -/
theorem C185_inside_partial [FloorRing K] (peq : Pt K → Pt K → Bool) (search : List (Line K) → Line K → List Nat)
    (hm : HM K) (p : Pt K) (h1 : Fits20 p.1) (h2 : Fits20 p.2) (h : hm.labelFor peq search p = .inside) :
    Between hm.extent.minx hm.extent.miny hm.extent.maxx hm.extent.maxy p := by
  have hb := inside_extent p hm h
  have e : seen p = p := Prod.ext (prec20_fits h1) (prec20_fits h2)
  rw [e, boxContains_iff] at hb
  exact ⟨hb.1.1.1, hb.1.1.2, hb.1.2, hb.2⟩

end Field

/-- **C185**: the extent of the hit map for a geometry that has vertices is the least box around those of
its polygons. -/
def C185_full : Prop :=
  ∀ (sort : List (HitMap.Ring ℚ) → List (HitMap.Ring ℚ)) (sortHM : List (HM ℚ) → List (HM ℚ)),
    (∀ l, (sort l).Perm l) → (∀ l, (sortHM l).Perm l) → ∀ (g : Geom ℚ) (hm : HM ℚ),
    new sort sortHM g = some (some hm) → verticesOf g ≠ [] →
    LeastAround (verticesOf g) hm.extent.minx hm.extent.miny hm.extent.maxx hm.extent.maxy

/-- A square away from the origin, in a collection together with a point. -/
def farSquare : Geom ℚ :=
  .collection [.point (9, 9), .multiPolygon [[[(2, 3), (4, 3), (4, 5), (2, 5)]], [[], [(7, 7), (8, 7), (8, 8)]]]]

/-- The extent for a square that is away from the origin reaches to the origin all the same. -/
theorem C185_violated : ¬ C185_full := by
  intro h
  obtain ⟨hm, hn⟩ : ∃ hm, new id id farSquare = some (some hm) := ⟨_, rfl⟩
  have h1 := h id id (fun l => .refl l) (fun l => .refl l) farSquare hm hn (by decide +kernel)
  rw [C185_around_origin_partial id id (fun l => .refl l) farSquare hm hn] at h1
  revert h1
  decide +kernel

/-- The hypotheses of C185 hold, and its extent is the box from the origin to the far corner of the first
polygon; the second has an empty outer ring. -/
example : ∃ hm, new id id farSquare = some (some hm) ∧
    (hm.extent.minx, hm.extent.miny, hm.extent.maxx, hm.extent.maxy) = (0, 0, 4, 5) ∧ hm.area = 20 ∧
    verticesOf farSquare = [(2, 3), (4, 3), (4, 5), (2, 5)] ∧
    hm.labelFor (fun a b => a == b) (fun s _ => List.range s.length) (3, 4) = .inside :=
  ⟨_, rfl, by decide +kernel, by decide +kernel, by decide +kernel, by decide +kernel⟩

/-- A polygon around the origin meets the condition of the second theorem. -/
example : ∃ hm, new id id (.polygon [[(-1, -2), (3, -2), (3, (4 : ℚ))]]) = some (some hm) ∧
    (hm.extent.minx, hm.extent.miny, hm.extent.maxx, hm.extent.maxy) = (-1, -2, 3, 4) ∧ hm.area = 24 :=
  ⟨_, rfl, by decide +kernel, by decide +kernel⟩

/-- Insertion sort meets the hypothesis of C186. -/
example : SortsHM (K := ℚ) (List.insertionSort fun a b => a.area ≤ b.area) := by
  intro l
  have : Std.Total (fun a b : HM ℚ => a.area ≤ b.area) := ⟨fun a b => le_total _ _⟩
  have : IsTrans (HM ℚ) (fun a b => a.area ≤ b.area) := ⟨fun _ _ _ h1 h2 => le_trans h1 h2⟩
  refine ⟨List.perm_insertionSort _ _, (List.pairwise_insertionSort _ _).imp fun {a b} h => ?_⟩
  simpa [hmLess] using h

/-- Two squares: the larger comes first though it is the last member. -/
example : (new id (List.insertionSort fun a b => a.area ≤ b.area) (.collection
    [.polygon [[(-1, -1), (1, -1), (1, 1), (-1, (1 : ℚ))]], .point (0, 0),
      .polygon [[(-2, -2), (2, -2), (2, 2), (-2, 2)]]])).map
    (fun o => o.map fun | .poly _ => [] | .ordered l => l.map HM.area) = some (some [16, 4]) := by
  decide +kernel

/-- The point of the example has few enough bits. -/
example : Fits20 (3 : ℚ) := ⟨3, 0, by norm_num, by norm_num⟩

end Verif.Props
