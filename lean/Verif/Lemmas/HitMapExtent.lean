import Verif.Lemmas.HitMap
import Verif.Model.HitMapExtent
import Verif.Spec.HitMapExtent

/-!
# Lemmas on the extent of a hit map
-/

namespace Verif.HitMap
open Verif.Planar (Line)
open Verif.KdTree (Box)
open Verif.Spec.HitMapExtent
open Verif.Spec.HitMap
open Verif.Intersect (ringSegs ringSegsFrom ringBox boxContains)

set_option linter.unusedSectionVars false

variable {K : Type} [Field K] [LinearOrder K]

/-- The box is the least one around the points. -/
def Fits (ps : List (Pt K)) (b : Box K) : Prop := LeastAround ps b.minx b.miny b.maxx b.maxy

theorem Fits.congr {ps qs : List (Pt K)} {b : Box K} (h : ∀ p, p ∈ ps ↔ p ∈ qs) (hf : Fits ps b) : Fits qs b := by
  obtain ⟨h0, ⟨a, a1, a2⟩, ⟨c, c1, c2⟩, ⟨d, d1, d2⟩, e, e1, e2⟩ := hf
  exact ⟨fun p hp => h0 p ((h p).2 hp), ⟨a, (h a).1 a1, a2⟩, ⟨c, (h c).1 c1, c2⟩, ⟨d, (h d).1 d1, d2⟩,
    e, (h e).1 e1, e2⟩

theorem Fits.merge {ps qs : List (Pt K)} {b c : Box K} (hb : Fits ps b) (hc : Fits qs c) :
    Fits (ps ++ qs) (boxMerge b c) := by
  obtain ⟨b0, ⟨p1, p1m, p1e⟩, ⟨p2, p2m, p2e⟩, ⟨p3, p3m, p3e⟩, p4, p4m, p4e⟩ := hb
  obtain ⟨c0, ⟨q1, q1m, q1e⟩, ⟨q2, q2m, q2e⟩, ⟨q3, q3m, q3e⟩, q4, q4m, q4e⟩ := hc
  refine ⟨?_, ?_, ?_, ?_, ?_⟩
  · intro p hp
    rcases List.mem_append.1 hp with hp | hp
    · obtain ⟨h1, h2, h3, h4⟩ := b0 p hp
      exact ⟨min_le_of_left_le h1, le_max_of_le_left h2, min_le_of_left_le h3, le_max_of_le_left h4⟩
    · obtain ⟨h1, h2, h3, h4⟩ := c0 p hp
      exact ⟨min_le_of_right_le h1, le_max_of_le_right h2, min_le_of_right_le h3, le_max_of_le_right h4⟩
  · rcases min_choice b.minx c.minx with h | h
    · exact ⟨p1, List.mem_append_left _ p1m, p1e.trans h.symm⟩
    · exact ⟨q1, List.mem_append_right _ q1m, q1e.trans h.symm⟩
  · rcases min_choice b.miny c.miny with h | h
    · exact ⟨p2, List.mem_append_left _ p2m, p2e.trans h.symm⟩
    · exact ⟨q2, List.mem_append_right _ q2m, q2e.trans h.symm⟩
  · rcases max_choice b.maxx c.maxx with h | h
    · exact ⟨p3, List.mem_append_left _ p3m, p3e.trans h.symm⟩
    · exact ⟨q3, List.mem_append_right _ q3m, q3e.trans h.symm⟩
  · rcases max_choice b.maxy c.maxy with h | h
    · exact ⟨p4, List.mem_append_left _ p4m, p4e.trans h.symm⟩
    · exact ⟨q4, List.mem_append_right _ q4m, q4e.trans h.symm⟩

theorem fits_point (p : Pt K) : Fits [p] ⟨p.1, p.2, p.1, p.2⟩ := by
  simp [Fits, LeastAround, Between]

theorem fits_zero : Fits [(origin : Pt K)] ⟨0, 0, 0, 0⟩ := fits_point origin

theorem Fits.add {ps : List (Pt K)} {b : Box K} (hb : Fits ps b) (p : Pt K) : Fits (p :: ps) (b.add p) := by
  have h := (fits_point p).merge hb
  simpa [boxMerge, Box.add] using h

theorem fits_fold : ∀ (segs : List (Line K)) (ps : List (Pt K)) (e : Box K), Fits ps e →
    Fits (ps ++ segs.flatMap (fun s => [s.1, s.2])) (segs.foldl (fun e s => (e.add s.1).add s.2) e)
  | [], ps, e, h => by simpa using h
  | s :: segs, ps, e, h => by
    rw [List.foldl_cons]
    refine (fits_fold segs _ _ ((h.add s.1).add s.2)).congr fun p => ?_
    simp only [List.mem_append, List.mem_cons, List.flatMap_cons, List.not_mem_nil, or_false]
    tauto

theorem mem_segsFrom (p : Pt K) : ∀ (pts : List (Pt K)) (lp : Pt K),
    (p ∈ (ringSegsFrom lp pts).flatMap (fun s => [s.1, s.2]) → p = lp ∨ p ∈ pts) ∧
      (p ∈ pts → p ∈ (ringSegsFrom lp pts).flatMap (fun s => [s.1, s.2]))
  | [], lp => by simp [ringSegsFrom]
  | q :: pts, lp => by
    have ih := mem_segsFrom p pts q
    simp only [ringSegsFrom, List.flatMap_cons, List.mem_append, List.mem_cons, List.not_mem_nil, or_false]
    constructor
    · rintro ((h | h) | h)
      · exact .inl h
      · exact .inr (.inl h)
      · exact .inr (ih.1 h)
    · rintro (h | h)
      · exact .inl (.inr h)
      · exact .inr (ih.2 h)

theorem mem_segs (p : Pt K) (pts : List (Pt K)) :
    p ∈ (ringSegs pts).flatMap (fun s => [s.1, s.2]) ↔ p ∈ pts := by
  rw [ringSegs]
  cases h : pts.getLast? with
  | none => simp [List.getLast?_eq_none_iff.1 h]
  | some lp =>
    obtain ⟨h1, h2⟩ := mem_segsFrom p pts lp
    refine ⟨fun hp => ?_, h2⟩
    rcases h1 hp with rfl | hp
    · exact List.mem_of_getLast? h
    · exact hp

theorem fits_ring (pts : List (Pt K)) : Fits (origin :: pts) (ringBox (ringSegs pts)) := by
  refine (fits_fold (ringSegs pts) [origin] _ fits_zero).congr fun p => ?_
  rw [List.mem_append, mem_segs]
  simp

theorem fits_rings : ∀ (rings : List (List (Pt K))) (l : List (Ring K)), l.map (·.segs) = rings.map ringSegs →
    ∀ (ps : List (Pt K)) (e : Box K), origin ∈ ps → Fits ps e →
    Fits (ps ++ rings.flatten) (l.foldl (fun e r => boxMerge e (ringBox r.segs)) e)
  | [], l, hl, ps, e, _, h => by
    have : l = [] := by simpa using hl
    subst this
    simpa using h
  | r :: rings, l, hl, ps, e, ho, h => by
    match l, hl with
    | a :: l, hl =>
      simp only [List.map_cons, List.cons.injEq] at hl
      rw [List.foldl_cons, hl.1]
      refine (fits_rings rings l hl.2 _ _ (List.mem_append_left _ ho) (h.merge (fits_ring r))).congr fun p => ?_
      simp only [List.mem_append, List.mem_cons, List.flatten_cons]
      constructor
      · rintro ((h | rfl | h) | h)
        · exact .inl h
        · exact .inl ho
        · exact .inr (.inl h)
        · exact .inr (.inr h)
      · tauto

/-- The rings that a polygon adds. -/
def usedRings (poly : List (List (Pt K))) : List (List (Pt K)) :=
  if (poly.head?.getD []).isEmpty then [] else poly.filter (fun r => !r.isEmpty)

theorem segs_polyRings (poly : List (List (Pt K))) :
    (polyRings poly).map (·.segs) = (usedRings poly).map ringSegs := by
  match poly with
  | [] => simp [polyRings, usedRings]
  | [] :: hs => simp [polyRings, usedRings]
  | (p :: ps) :: hs => simp [polyRings, usedRings, newRing, Function.comp_def]

theorem segs_polys (plys : List (List (List (Pt K)))) :
    ((plys.map polyRings).flatten).map (·.segs) = (plys.flatMap usedRings).map ringSegs := by
  induction plys with
  | nil => simp
  | cons a l ih =>
    simp only [List.map_cons, List.flatten_cons, List.map_append, List.flatMap_cons, ih, segs_polyRings]

theorem mem_usedRings (p : Pt K) (poly : List (List (Pt K))) : p ∈ (usedRings poly).flatten ↔ p ∈ vertices poly := by
  unfold usedRings vertices
  split
  · simp
  · simp only [List.mem_flatten, List.mem_filter, Bool.not_eq_true', List.isEmpty_eq_false_iff]
    constructor
    · rintro ⟨l, ⟨h, _⟩, hp⟩
      exact ⟨l, h, hp⟩
    · rintro ⟨l, h, hp⟩
      exact ⟨l, ⟨h, List.ne_nil_of_mem hp⟩, hp⟩

theorem fits_polygons (sort : List (Ring K) → List (Ring K)) (plys : List (List (List (Pt K)))) :
    Fits (origin :: plys.flatMap vertices) (newFromPolygons sort none plys).clipBox := by
  refine (fits_rings (plys.flatMap usedRings) _ (segs_polys plys) [origin] _ (by simp) fits_zero).congr fun p => ?_
  simp only [List.cons_append, List.nil_append, List.mem_cons]
  refine or_congr Iff.rfl ?_
  simp only [List.mem_flatten, List.mem_flatMap]
  constructor
  · rintro ⟨l, ⟨a, ha, hl⟩, hp⟩
    exact ⟨a, ha, (mem_usedRings p a).1 (List.mem_flatten.2 ⟨l, hl, hp⟩)⟩
  · rintro ⟨a, ha, hp⟩
    obtain ⟨l, hl, hp⟩ := List.mem_flatten.1 ((mem_usedRings p a).2 hp)
    exact ⟨l, ⟨a, ha, hl⟩, hp⟩

theorem extentFrom_eq : ∀ (hms : List (HM K)) (e : Box K),
    extentFrom e hms = hms.foldl (fun e hm => boxMerge e hm.extent) e
  | [], _ => by simp [extentFrom]
  | hm :: hms, e => by rw [extentFrom, extentFrom_eq hms, List.foldl_cons]

theorem extentFrom_perm {a b : List (HM K)} (h : a.Perm b) (e : Box K) : extentFrom e a = extentFrom e b := by
  rw [extentFrom_eq, extentFrom_eq]
  refine h.foldl_eq' (fun x _ y _ z => ?_) e
  simp only [boxMerge, Box.mk.injEq]
  exact ⟨min_right_comm _ _ _, min_right_comm _ _ _, max_right_comm _ _ _, max_right_comm _ _ _⟩

mutual
/-- The extent of a hit map is the least box around the origin and the vertices. -/
theorem fits_new (sort : List (Ring K) → List (Ring K)) (sortHM : List (HM K) → List (HM K))
    (hperm : ∀ l, (sortHM l).Perm l) : ∀ (g : Geom K),
    (∀ hm : HM K, new sort sortHM g = some (some hm) → Fits (origin :: verticesOf g) hm.extent) ∧
      (new sort sortHM g = some none → verticesOf g = [])
  | .polygon rs => by
    refine ⟨fun hm h => ?_, fun h => by simp [new] at h⟩
    simp only [new, Option.some.injEq] at h
    subst h
    simpa [HM.extent, PolygonHM.extent, verticesOf, areas] using fits_polygons sort [rs]
  | .multiPolygon ps => by
    refine ⟨fun hm h => ?_, fun h => by simp [new] at h⟩
    simp only [new, Option.some.injEq] at h
    subst h
    simpa [HM.extent, PolygonHM.extent, verticesOf, areas] using fits_polygons sort ps
  | .collection gs => by
    refine ⟨fun hm h => ?_, fun h => by simp [new] at h⟩
    simp only [new, Option.map_eq_some_iff, Option.some.injEq] at h
    obtain ⟨hms, h, rfl⟩ := h
    rw [HM.extent, extentFrom_perm ((List.reverse_perm _).trans (hperm hms))]
    have := fits_newList sort sortHM hperm gs hms h [origin] _ (by simp) fits_zero
    simpa [verticesOf, areas] using this
  | .point _ => by simp [new, verticesOf, areas]
  | .multiPoint _ => by simp [new, verticesOf, areas]
  | .lineString _ => by simp [new, verticesOf, areas]
  | .multiLineString _ => by simp [new, verticesOf, areas]
  | .other => by simp [new]

/-- The same for the members of a collection. -/
theorem fits_newList (sort : List (Ring K) → List (Ring K)) (sortHM : List (HM K) → List (HM K))
    (hperm : ∀ l, (sortHM l).Perm l) : ∀ (gs : List (Geom K)) (hms : List (HM K)), newList sort sortHM gs = some hms →
    ∀ (ps : List (Pt K)) (e : Box K), origin ∈ ps → Fits ps e →
    Fits (ps ++ (areasOf gs).flatMap fun mp => mp.flatMap vertices) (extentFrom e hms)
  | [], hms, h, ps, e, _, hf => by
    simp only [newList, Option.some.injEq] at h
    subst h
    simpa [extentFrom, areasOf] using hf
  | g :: gs, hms, h, ps, e, ho, hf => by
    obtain ⟨g1, g2⟩ := fits_new sort sortHM hperm g
    rw [newList] at h
    cases hg : new sort sortHM g with
    | none => simp [hg] at h
    | some o =>
      cases o with
      | none =>
        simp only [hg] at h
        have e1 := g2 hg
        have := fits_newList sort sortHM hperm gs hms h ps e ho hf
        rw [verticesOf] at e1
        simpa [areasOf, e1] using this
      | some hm =>
        simp only [hg, Option.map_eq_some_iff] at h
        obtain ⟨l, hl, rfl⟩ := h
        rw [extentFrom]
        refine (fits_newList sort sortHM hperm gs l hl _ _ (List.mem_append_left _ ho) (hf.merge (g1 hm hg))).congr
          fun p => ?_
        simp only [List.mem_append, List.mem_cons, areasOf, List.flatMap_append, verticesOf]
        constructor
        · rintro ((h | rfl | h) | h)
          · exact .inl h
          · exact .inl ho
          · exact .inr (.inl h)
          · exact .inr (.inr h)
        · tauto
end

/-- `Area` is that of the extent. -/
theorem area_extent (hm : HM K) : hm.area = boxArea hm.extent := by
  cases hm <;> simp [HM.area, PolygonHM.area, HM.extent, PolygonHM.extent]

theorem newList_eq (sort : List (Ring K) → List (Ring K)) (sortHM : List (HM K) → List (HM K)) :
    ∀ (gs : List (Geom K)) (hms : List (HM K)), newList sort sortHM gs = some hms →
      hms = gs.filterMap fun g => (new sort sortHM g).join
  | [], hms, h => by
    simp only [newList, Option.some.injEq] at h
    simp [← h]
  | g :: gs, hms, h => by
    rw [newList] at h
    cases hg : new sort sortHM g with
    | none => simp [hg] at h
    | some o =>
      cases o with
      | none =>
        simp only [hg] at h
        simp [newList_eq sort sortHM gs hms h, List.filterMap_cons, hg]
      | some hm =>
        simp only [hg, Option.map_eq_some_iff] at h
        obtain ⟨l, hl, rfl⟩ := h
        simp [newList_eq sort sortHM gs l hl, List.filterMap_cons, hg]

section Label
variable [IsStrictOrderedRing K] [FloorRing K] {peq : Pt K → Pt K → Bool}
  {search : List (Line K) → Line K → List Nat}

theorem extentFrom_mono (p : Pt K) : ∀ (hms : List (HM K)) (e : Box K), boxContains e p = true →
    boxContains (extentFrom e hms) p = true
  | [], _, h => by simpa [extentFrom] using h
  | hm :: hms, e, h => by
    rw [extentFrom]
    exact extentFrom_mono p hms _ (merge_left e _ p h)

mutual
/-- A point that is labelled inside is in the extent, as the hit map sees it. -/
theorem inside_extent (p : Pt K) : ∀ hm : HM K, hm.labelFor peq search p = .inside →
    boxContains hm.extent (seen p) = true
  | .poly hm, h => by
    rw [HM.labelFor, PolygonHM.labelFor] at h
    by_contra hc
    rw [HM.extent, PolygonHM.extent, seen] at hc
    simp [hc] at h
  | .ordered hms, h => by
    rw [HM.labelFor] at h
    exact inside_extentFrom p hms _ h

/-- The same for the members. -/
theorem inside_extentFrom (p : Pt K) : ∀ (hms : List (HM K)) (e : Box K), labelForAny peq search p hms = .inside →
    boxContains (extentFrom e hms) (seen p) = true
  | [], _, h => by simp [labelForAny] at h
  | hm :: hms, e, h => by
    rw [labelForAny] at h
    rw [extentFrom]
    by_cases hc : hm.labelFor peq search p = .inside
    · exact extentFrom_mono _ hms _ (merge_right e _ _ (inside_extent p hm hc))
    · rw [if_neg hc] at h
      exact inside_extentFrom p hms _ h
end
end Label

end Verif.HitMap
