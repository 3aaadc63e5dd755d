import Verif.Lemmas.Traverse

/-!
# Traversal properties (C24, C25)
-/

namespace Verif.Props
open Verif Verif.Geom Verif.Spec.Extent Verif.Spec.Traverse

/-! ## C24 -/

/-- C24: `GetCoordinates` returns the vertices, each once, in order. -/
theorem C24_getCoordinates {α : Type} (g : Geom α) (hk : known g = true) :
    getCoordinates g = (verticesOf g, false) := Ext.coords_known g hk

example : known (.collection [.point ((1 : Nat), 2), .collection [.polygon [[(1, 2), (3, 4)], []]]]) = true := by
  decide

/-- C24: an error is reported exactly if something unknown is inside. -/
theorem C24_getCoordinates_error_iff {α : Type} (g : Geom α) :
    (getCoordinates g).2 = true ↔ known g = false := by
  rw [getCoordinates, Ext.coords_err]; cases known g <;> simp

example : known (.collection [.point ((1 : Nat), 2), .other]) = false := by decide

/-- C24: `ExtractLines` returns the edges of all paths and closed rings, each once,
in order. -/
theorem C24_extractLines (g : Geom F64) (hk : known g = true) :
    extract g = (edgesOf g, false) := extract_known g hk

example : known (.polygon [[(F64.zero, F64.zero), (F64.one, F64.zero), (F64.one, F64.one)]]) = true ∧
    (edgesOf (.polygon [[(F64.zero, F64.zero), (F64.one, F64.zero), (F64.one, F64.one)]])).length = 3 := by
  decide

/-- C24: `ExtractLines` reports an error exactly if something unknown is inside. -/
theorem C24_extractLines_error_iff (g : Geom F64) :
    (extract g).2 = true ↔ known g = false := by
  rw [extract_err]; cases known g <;> simp

example : known (.collection [.point (F64.one, F64.one), .other]) = false := by decide

/-- C24: the edges extracted from a ring of at least three vertices form a closed
walk through its vertices: consecutive edges meet, the walk starts at the first
vertex and ends at a point numerically equal to it. -/
theorem C24_ring_closed (a b c : Pt F64) (t : List (Pt F64))
    (ha : a.1.isNaN = false ∧ a.2.isNaN = false) :
    ∃ es, extract (.polygon [a :: b :: c :: t]) = (es, false) ∧ Connected es ∧
      (∃ e ∈ es.head?, e.1 = a) ∧ (∃ e ∈ es.getLast?, samePt a e.2 = true) := by
  refine ⟨_, extract_known _ rfl, ?_, ?_, ?_⟩
  · simp only [edgesOf, List.flatMap_cons, List.flatMap_nil, List.append_nil]
    exact connected_pathEdges _
  · simp only [edgesOf, List.flatMap_cons, List.flatMap_nil, List.append_nil, closed]
    split <;> exact ⟨(a, b), by simp [pathEdges], rfl⟩
  · simp only [edgesOf, List.flatMap_cons, List.flatMap_nil, List.append_nil, closed]
    have hl : (a :: b :: c :: t).getLast? = some ((c :: t).getLast (by simp)) := by
      simp [List.getLast?_eq_some_getLast]
    split
    · rename_i hs
      have hd : ∃ v l, a :: b :: c :: t = v ++ [(c :: t).getLast (by simp)] ∧ v.getLast? = some l := by
        have h1 := List.dropLast_concat_getLast (l := a :: b :: c :: t) (by simp)
        have h2 : (a :: b :: c :: t).getLast (by simp) = (c :: t).getLast (by simp) := by simp
        rw [h2] at h1
        refine ⟨_, ((a :: b :: c :: t).dropLast).getLast (by simp), h1.symm, ?_⟩
        exact List.getLast?_eq_some_getLast _
      obtain ⟨v, l, hv, hvl⟩ := hd
      refine ⟨(l, (c :: t).getLast (by simp)), ?_, hs⟩
      rw [congrArg pathEdges hv, pathEdges_concat v l _ hvl]
      simp
    · refine ⟨((c :: t).getLast (by simp), a), ?_, ?_⟩
      · rw [pathEdges_concat _ _ _ hl]; simp
      · simp [samePt, F64.eq, ha]

example : F64.one.isNaN = false ∧ F64.zero.isNaN = false := by decide

/-- C24: `LineString.AsSegments` gives the edges of the path, and fails exactly for a
single vertex. -/
theorem C24_lineString_asSegments {α : Type} (v : List (Pt α)) :
    (v.length = 1 → lsSegments v = none) ∧
    (v.length ≠ 1 → lsSegments v = some (pathEdges v)) := by
  refine ⟨?_, lsSegments_eq v⟩
  intro h
  match v with
  | [_] => rfl

example : ([((1 : Nat), 2), (3, 4), (5, 6)] : List (Pt Nat)).length ≠ 1 := by decide

/-- C24: `Polygon.AsSegments` gives for each ring of at least three vertices the
cyclic edges, starting with the one from the last vertex to the first. -/
theorem C24_polygon_asSegments {α : Type} (rs : List (List (Pt α))) :
    polySegments rs = (rs.filter (fun r => decide (3 ≤ r.length))).map
      (fun r => pathEdges (r.getLast?.toList ++ r)) := by
  induction rs with
  | nil => rfl
  | cons r rs ih =>
    rw [polySegments, List.filterMap_cons]
    match r with
    | [] => simpa [polySegments] using ih
    | [a] => simpa [polySegments] using ih
    | [a, b] => simpa [polySegments] using ih
    | a :: b :: c :: t =>
      have : (a :: b :: c :: t).getLast? = some ((c :: t).getLast (by simp)) := by
        simp [List.getLast?_eq_some_getLast]
      rw [polySegments] at ih
      rw [List.filter_cons_of_pos (by simp), List.map_cons, this, ← ih]
      simp only [ringLoop_eq]
      rfl

/-- C24: `MultiLineString.AsSegments` gives the edges of every line in order, and fails exactly if a line has a
single vertex. -/
theorem C24_multiLineString_asSegments {α : Type} (ls : List (List (Pt α))) :
    ((∃ l ∈ ls, l.length = 1) → mlsSegments ls = none) ∧
    ((∀ l ∈ ls, l.length ≠ 1) → mlsSegments ls = some (ls.map pathEdges)) := by
  induction ls with
  | nil => exact ⟨fun ⟨l, hl, _⟩ => by simp at hl, fun _ => rfl⟩
  | cons l ls ih =>
    rw [mlsSegments]
    constructor
    · rintro ⟨x, hx, h1⟩
      by_cases hl : l.length = 1
      · rw [(C24_lineString_asSegments l).1 hl]
      · rw [(C24_lineString_asSegments l).2 hl]
        rcases List.mem_cons.1 hx with rfl | hx
        · exact absurd h1 hl
        · simp [ih.1 ⟨x, hx, h1⟩]
    · intro h
      rw [(C24_lineString_asSegments l).2 (h l List.mem_cons_self)]
      simp [ih.2 fun x hx => h x (List.mem_cons_of_mem _ hx)]

example : mlsSegments [[((1 : Nat), 2), (3, 4)], [], [(5, 6), (7, 8), (9, 9)]] =
    some [[((1, 2), (3, 4))], [], [((5, 6), (7, 8)), ((7, 8), (9, 9))]] :=
  (C24_multiLineString_asSegments _).2 (by decide)
example : mlsSegments [[((1 : Nat), 2), (3, 4)], [(5, 6)]] = none :=
  (C24_multiLineString_asSegments _).1 (by decide)

/-- C24: `MultiPolygon.AsSegments` gives for each polygon in order, also one without edges, the edges of its rings of
at least three vertices. -/
theorem C24_multiPolygon_asSegments {α : Type} (ps : List (List (List (Pt α)))) :
    mpolySegments ps = ps.map fun rs => (rs.filter (fun r => decide (3 ≤ r.length))).map
      (fun r => pathEdges (r.getLast?.toList ++ r)) := by
  rw [mpolySegments]
  exact List.map_congr_left fun rs _ => C24_polygon_asSegments rs

example : mpolySegments [[[((1 : Nat), 2), (3, 4), (5, 6)], [(0, 0)]], []] =
    [[[((5, 6), (1, 2)), ((1, 2), (3, 4)), ((3, 4), (5, 6))]], []] :=
  C24_multiPolygon_asSegments _

/-! ## C25 -/

/-- C25: whatever the function does (it may keep state and may fail), it is called
once per vertex in order until the first failure; if it never fails the result
has the same vertices replaced by its results. -/
theorem C25_applyToPoints_visits {σ α : Type} (f : PointFn σ α) (s : σ) (g : Geom α)
    (hg : simple g = true) :
    ((applyToPoints f s g).1.map verticesOf, (applyToPoints f s g).2) =
      applyList (applyPt f) s (verticesOf g) := by
  cases g with
  | point p =>
    simp only [applyToPoints, verticesOf, applyList]
    rcases applyPt f s p with ⟨_ | y, s'⟩ <;> rfl
  | multiPoint ps =>
    simp only [applyToPoints, verticesOf]
    rcases applyList (applyPt f) s ps with ⟨_ | y, s'⟩ <;> rfl
  | lineString ps =>
    simp only [applyToPoints, verticesOf]
    rcases applyList (applyPt f) s ps with ⟨_ | y, s'⟩ <;> rfl
  | multiLineString ls =>
    simp only [applyToPoints, verticesOf, applyList_flatten]
    rcases applyList (applyList (applyPt f)) s ls with ⟨_ | y, s'⟩ <;> rfl
  | polygon ls =>
    simp only [applyToPoints, verticesOf, applyList_flatten]
    rcases applyList (applyList (applyPt f)) s ls with ⟨_ | y, s'⟩ <;> rfl
  | multiPolygon ps =>
    simp only [applyToPoints, verticesOf, applyList_flatten]
    rcases applyList (applyList (applyList (applyPt f))) s ps with ⟨_ | y, s'⟩ <;> rfl
  | collection gs => simp [simple] at hg
  | other => simp [simple] at hg

example : simple (.multiPolygon [[[((1 : Nat), 2)]], []]) = true := rfl

/-- C25: the result has the kind and shape of the argument. -/
theorem C25_applyToPoints_shape {σ α : Type} (f : PointFn σ α) (s s' : σ) (g g' : Geom α)
    (h : applyToPoints f s g = (some g', s')) :
    mapVertices (fun _ => ((), ())) g' = mapVertices (fun _ => ((), ())) g := by
  have one : ∀ (xs ys : List (Pt α)) s s', applyList (applyPt f) s xs = (some ys, s') →
      xs.map (fun _ => ((), ())) = ys.map (fun _ => ((), ())) := fun xs ys s s' h =>
    applyList_shape _ _ (fun _ _ _ _ _ => rfl) _ _ _ _ h
  have two : ∀ (xs ys : List (List (Pt α))) s s', applyList (applyList (applyPt f)) s xs = (some ys, s') →
      xs.map (·.map (fun _ => ((), ()))) = ys.map (·.map (fun _ => ((), ()))) := fun xs ys s s' h =>
    applyList_shape _ _ (fun s x y s' h => one x y s s' h) _ _ _ _ h
  have three : ∀ (xs ys : List (List (List (Pt α)))) s s',
      applyList (applyList (applyList (applyPt f))) s xs = (some ys, s') →
      xs.map (·.map (·.map (fun _ => ((), ())))) = ys.map (·.map (·.map (fun _ => ((), ())))) :=
    fun xs ys s s' h => applyList_shape _ _ (fun s x y s' h => two x y s s' h) _ _ _ _ h
  cases g with
  | point p =>
    rw [applyToPoints] at h
    rcases hp : applyPt f s p with ⟨_ | y, s'⟩ <;> rw [hp] at h
    · simp at h
    · simp only [Option.map_some, Prod.mk.injEq, Option.some.injEq] at h
      rw [← h.1]; simp [mapVertices]
  | multiPoint ps =>
    rw [applyToPoints] at h
    rcases hp : applyList (applyPt f) s ps with ⟨_ | y, s1⟩ <;> rw [hp] at h
    · simp at h
    · simp only [Option.map_some, Prod.mk.injEq, Option.some.injEq] at h
      rw [← h.1]; simp only [mapVertices, one _ _ _ _ hp]
  | lineString ps =>
    rw [applyToPoints] at h
    rcases hp : applyList (applyPt f) s ps with ⟨_ | y, s1⟩ <;> rw [hp] at h
    · simp at h
    · simp only [Option.map_some, Prod.mk.injEq, Option.some.injEq] at h
      rw [← h.1]; simp only [mapVertices, one _ _ _ _ hp]
  | multiLineString ps =>
    rw [applyToPoints] at h
    rcases hp : applyList (applyList (applyPt f)) s ps with ⟨_ | y, s1⟩ <;> rw [hp] at h
    · simp at h
    · simp only [Option.map_some, Prod.mk.injEq, Option.some.injEq] at h
      rw [← h.1]; simp only [mapVertices, two _ _ _ _ hp]
  | polygon ps =>
    rw [applyToPoints] at h
    rcases hp : applyList (applyList (applyPt f)) s ps with ⟨_ | y, s1⟩ <;> rw [hp] at h
    · simp at h
    · simp only [Option.map_some, Prod.mk.injEq, Option.some.injEq] at h
      rw [← h.1]; simp only [mapVertices, two _ _ _ _ hp]
  | multiPolygon ps =>
    rw [applyToPoints] at h
    rcases hp : applyList (applyList (applyList (applyPt f))) s ps with ⟨_ | y, s1⟩ <;> rw [hp] at h
    · simp at h
    · simp only [Option.map_some, Prod.mk.injEq, Option.some.injEq] at h
      rw [← h.1]; simp only [mapVertices, three _ _ _ _ hp]
  | collection gs => simp [applyToPoints] at h
  | other => simp [applyToPoints] at h

example : ∃ g', applyToPoints (fun (n : Nat) (p : Pt Nat) => (some [p.1 + n, p.2, 9], n + 1)) 0
    (.polygon [[(1, 2), (3, 4)], []]) = (some g', 2) ∧ g' = .polygon [[(1, 2), (4, 4)], []] :=
  ⟨_, rfl, rfl⟩

/-- C25: a function that always succeeds is applied to every vertex. -/
theorem C25_applyToPoints_map {σ α : Type} (f : PointFn σ α) (h : Pt α → Pt α) (s : σ) (g : Geom α)
    (hf : ∀ s p, ∃ rest, (f s p).1 = some ((h p).1 :: (h p).2 :: rest)) (hg : simple g = true) :
    (applyToPoints f s g).1 = some (mapVertices h g) := by
  have h1 : ∀ s p, (applyPt f s p).1 = some (h p) := by
    intro s p
    obtain ⟨rest, hr⟩ := hf s p
    rw [applyPt]
    rcases hp : f s p with ⟨_ | c, s'⟩
    · simp [hp] at hr
    · rw [hp] at hr; simp only [Option.some.injEq] at hr; subst hr; rfl
  have h2 := fun s (xs : List (Pt α)) => applyList_map (applyPt f) h h1 xs s
  have h3 := fun s (xs : List (List (Pt α))) => applyList_map (applyList (applyPt f)) (·.map h) h2 xs s
  have h4 := fun s (xs : List (List (List (Pt α)))) =>
    applyList_map (applyList (applyList (applyPt f))) (·.map (·.map h)) h3 xs s
  cases g with
  | point p => simp [applyToPoints, h1, mapVertices]
  | multiPoint p => simp [applyToPoints, h2, mapVertices]
  | lineString p => simp [applyToPoints, h2, mapVertices]
  | multiLineString p => simp [applyToPoints, h3, mapVertices]
  | polygon p => simp [applyToPoints, h3, mapVertices]
  | multiPolygon p => simp [applyToPoints, h4, mapVertices]
  | collection gs => simp [simple] at hg
  | other => simp [simple] at hg

example : ∀ (s : Unit) (p : Pt Nat), ∃ rest,
    ((fun (s : Unit) (p : Pt Nat) => (some [p.2, p.1], s)) s p).1 =
      some ((p.2, p.1).1 :: (p.2, p.1).2 :: rest) := fun _ _ => ⟨[], rfl⟩

/-- C25: with the identity function the geometry comes back equal. -/
theorem C25_applyToPoints_id {α : Type} (g : Geom α) (hg : simple g = true) :
    (applyToPoints (fun (s : Unit) (p : Pt α) => (some [p.1, p.2], s)) () g).1 = some g := by
  rw [C25_applyToPoints_map _ id () g (fun _ _ => ⟨[], rfl⟩) hg]
  cases g <;> simp_all [mapVertices, simple]

example : simple (.lineString [((1 : Nat), 2)]) = true := rfl

/-- C25: applying two total functions one after the other is applying their
composition. -/
theorem C25_applyToPoints_comp {α : Type} (h k : Pt α → Pt α) (g g' : Geom α)
    (hfirst : (applyToPoints (fun (s : Unit) p => (some [(h p).1, (h p).2], s)) () g).1 = some g') :
    (applyToPoints (fun (s : Unit) p => (some [(k p).1, (k p).2], s)) () g').1 =
    (applyToPoints (fun (s : Unit) p => (some [(k (h p)).1, (k (h p)).2], s)) () g).1 := by
  have hg : simple g = true := by
    cases g <;> simp_all [simple, applyToPoints]
  rw [C25_applyToPoints_map _ h () g (fun _ p => ⟨[], rfl⟩) hg] at hfirst
  rw [C25_applyToPoints_map _ (fun p => k (h p)) () g (fun _ p => ⟨[], rfl⟩) hg]
  simp only [Option.some.injEq] at hfirst
  subst hfirst
  rw [C25_applyToPoints_map _ k () _ (fun _ p => ⟨[], rfl⟩) (by cases g <;> simp_all [simple, mapVertices])]
  cases g <;> simp_all [mapVertices, simple, Function.comp_def]

example : (applyToPoints (fun (s : Unit) (p : Pt Nat) => (some [p.2, p.1], s)) ()
    (.lineString [(1, 2)])).1 = some (.lineString [(2, 1)]) := rfl

/-- C25: if the function fails, or returns fewer than two numbers, on any vertex,
the call fails. -/
theorem C25_applyToPoints_fails {α : Type} (f : Pt α → Option (List α)) (g : Geom α)
    (p : Pt α) (hp : p ∈ verticesOf g)
    (hbad : f p = none ∨ ∃ c, f p = some c ∧ c.length < 2) :
    (applyToPoints (fun (s : Unit) p => (f p, s)) () g).1 = none := by
  have hpt : ∀ q, f q = none ∨ (∃ c, f q = some c ∧ c.length < 2) →
      (applyPt (fun (s : Unit) p => (f p, s)) () q).1 = none := by
    rintro q (hq | ⟨c, hq, hc⟩)
    · simp [applyPt, hq]
    · match c, hc with
      | [], _ => simp [applyPt, hq]
      | [x], _ => simp [applyPt, hq]
  have hl : ∀ (xs : List (Pt α)), p ∈ xs →
      (applyList (applyPt (fun (s : Unit) p => (f p, s))) () xs).1 = none := by
    intro xs
    induction xs with
    | nil => intro h; simp at h
    | cons x xs ih =>
      intro h
      rw [applyList]
      rcases List.mem_cons.1 h with rfl | h
      · have := hpt p hbad
        rcases hx : applyPt (fun (s : Unit) p => (f p, s)) () p with ⟨_ | y, s'⟩
        · rfl
        · simp [hx] at this
      · rcases applyPt (fun (s : Unit) p => (f p, s)) () x with ⟨_ | y, s'⟩
        · rfl
        · have := ih h
          rcases hx : applyList (applyPt (fun (s : Unit) p => (f p, s))) s' xs with ⟨_ | z, s''⟩
          · simp [hx]
          · rw [hx] at this; simp at this
  by_cases hs : simple g = true
  · have h1 := C25_applyToPoints_visits (fun (s : Unit) p => (f p, s)) () g hs
    have h2 := hl (verticesOf g) hp
    rw [← h1] at h2
    simpa using h2
  · cases g with
    | collection gs => rfl
    | other => rfl
    | _ => simp [simple] at hs

example : (2, 1) ∈ verticesOf (.lineString [((1 : Nat), 2), (2, 1)]) := by decide

/-- C25: collections and unknown values are refused by ApplyToPoints and Clone. -/
theorem C25_not_simple {σ α : Type} (f : PointFn σ α) (s : σ) (g : Geom α) (h : simple g = false) :
    applyToPoints f s g = (none, s) ∧ clone g = none := by
  cases g with
  | collection gs => exact ⟨rfl, rfl⟩
  | other => exact ⟨rfl, rfl⟩
  | _ => simp [simple] at h

example : simple (.collection [.point ((1 : Nat), 2)]) = false := rfl

/-- C25: `Clone` returns an equal geometry. -/
theorem C25_clone_eq {α : Type} (g : Geom α) (h : simple g = true) : clone g = some g := by
  cases g <;> simp_all [clone, simple]

example : simple (.multiPoint [((1 : Nat), 2)]) = true := rfl

end Verif.Props
