import Verif.Lemmas.ConstrainedTriangles

/-!
# Theorems: triangulations with constraints (C164)
-/

namespace Verif.Props
open Verif.Quad Verif.Spec.Quad Verif.Subdivision Verif.Spec.Subdivision Verif.Spec.Planar
open Verif.Constrained Verif.Spec.Constrained Verif.Spec.ConstrainedTriangles
open Verif.ConstrainedTriangles
open Verif.Delaunay (roundPt triangleContaining newForPoints trianglesOf)

variable {K : Type} [Field K] [LinearOrder K] [IsStrictOrderedRing K] [FloorRing K]

/-- Points and constraints that leave nothing to be desired: all coordinates are multiples of a thousandth, no
constraint is a point, no point is on a constraint but at its ends, and no two constraints cross. -/
def WellPosed (points : List (Pt K)) (constraints : List (Pt K × Pt K)) : Prop :=
  (∀ p ∈ points ++ constraints.flatMap (fun c => [c.1, c.2]), roundPt p = p) ∧
  (∀ c ∈ constraints, c.1 ≠ c.2 ∧ Free (· ∈ points ++ constraints.flatMap fun c => [c.1, c.2]) c.1 c.2) ∧
  constraints.Pairwise fun c d => ¬ Cross c.1 c.2 d.1 d.2

/-- The full claim of **C164**: with `EnableConstraints` both `Triangles` give triangles of which every constraint
is a side. -/
def C164_full : Prop :=
  ∀ (yd : Bool) (points : List (Pt ℚ)) (constraints : List (Pt ℚ × Pt ℚ)), WellPosed points constraints →
    ∃ ts, constrainedTriangles yd (fun _ => false) points constraints true = .ok ts ∧
      ∀ c ∈ constraints, Side ts c.1 c.2

/-- The full claim of **C164** for `GeomConstrained`. -/
def C164_geom_full : Prop :=
  ∀ (yd : Bool) (points : List (Pt ℚ)) (constraints : List (Pt ℚ × Pt ℚ)), WellPosed points constraints →
    ∃ ts, geomTriangles yd (fun _ => false) (fun p q => decide (p = q)) points constraints true = .ok ts ∧
      ∀ c ∈ constraints, Side ts c.1 c.2

theorem C164_witness_wellPosed :
    WellPosed [((4 : ℚ), (4 : ℚ)), (0, -3), (-2, -3), (-2, 0), (-2, -4), (-1, 2)] [((-2, -4), (4, 4))] := by
  refine ⟨by decide +kernel, ?_, List.pairwise_singleton _ _⟩
  intro c hc
  rw [List.mem_singleton] at hc
  subst hc
  refine ⟨by decide, ?_⟩
  rintro v hv ⟨t, t0, t1, h⟩
  unfold Spec.Resolve.AtParam at h
  have h1 : v.1 = -2 + t * 6 := by rw [h]; show (_ : ℚ) + _ * (_ - _) = _; norm_num
  have h2 : v.2 = -4 + t * 8 := by rw [h]; show (_ : ℚ) + _ * (_ - _) = _; norm_num
  simp only [List.flatMap_cons, List.flatMap_nil, List.cons_append, List.nil_append, List.append_nil, List.mem_cons,
    List.not_mem_nil, or_false] at hv
  rcases hv with rfl | rfl | rfl | rfl | rfl | rfl | rfl | rfl <;> simp only at h1 h2 <;> linarith

/-- **C164 is violated**: a constraint that crosses several edges makes `Constrained.Triangles` fail. -/
theorem C164_violated : ¬ C164_full := by
  intro h
  obtain ⟨ts, h1, _⟩ := h false _ _ C164_witness_wellPosed
  have h2 : constrainedTriangles false (fun _ => false) [((4 : ℚ), (4 : ℚ)), (0, -3), (-2, -3), (-2, 0), (-2, -4), (-1, 2)]
      [((-2, -4), (4, 4))] true = .constraint .colinear := by decide +kernel
  rw [h1] at h2
  cases h2

/-- **C164 is violated** by `GeomConstrained.Triangles` too: for the same input there is no error, and the constraint is
not a side. -/
theorem C164_geom_violated : ¬ C164_geom_full := by
  intro h
  obtain ⟨ts, h1, h2⟩ := h false _ _ C164_witness_wellPosed
  have h3 : (match geomTriangles false (fun _ => false) (fun p q => decide (p = q))
      [((4 : ℚ), (4 : ℚ)), (0, -3), (-2, -3), (-2, 0), (-2, -4), (-1, 2)] [((-2, -4), (4, 4))] true with
    | .ok ts => decide (Side ts (-2, -4) (4, 4))
    | _ => false) = false := by decide +kernel
  rw [h1] at h3
  exact absurd (h2 _ (List.mem_singleton.2 rfl)) (of_decide_eq_false h3)

/-- The claim of **C164** that is left when constraints are not sides: the triangles of `GeomConstrained` that turn
the right way are all of the frame. -/
def C164_cover_full : Prop :=
  ∀ (yd : Bool) (points : List (Pt ℚ)) (constraints : List (Pt ℚ × Pt ℚ)) (a b c : Pt ℚ),
    WellPosed points constraints →
    triangleContaining ((points ++ constraints.flatMap fun c => [c.1, c.2]).map roundPt) = some (a, b, c) →
    ∃ ts, geomTriangles yd (fun _ => false) (fun p q => decide (p = q)) points constraints true = .ok ts ∧
      ∀ p, InTriangle p a b c → ∃ T ∈ ts, Turns yd T.1 T.2.1 T.2.2 ∧ InTriangle p T.1 T.2.1 T.2.2

/-- The point is on the wrong side of a side, for one who goes around the triangle. -/
def misses (p : Pt ℚ) (T : Pt ℚ × Pt ℚ × Pt ℚ) : Bool :=
  decide (Lemmas.SubCover.area false T.1 T.2.1 T.2.2 ≤ 0 ∨ Lemmas.SubCover.area false T.1 T.2.1 p < 0 ∨
    Lemmas.SubCover.area false T.2.1 T.2.2 p < 0 ∨ Lemmas.SubCover.area false T.2.2 T.1 p < 0)

/-- **C164 is violated** further: the edges that are crossed are taken out and not put back, and the triangles have
a hole where the point (5/2, 5/2), among others, is. -/
theorem C164_cover_violated : ¬ C164_cover_full := by
  intro h
  obtain ⟨ts, h1, h2⟩ := h false _ _ (-42, -94) (1, 174) (44, -94) C164_witness_wellPosed (by decide +kernel)
  have h3 : (match geomTriangles false (fun _ => false) (fun p q => decide (p = q))
      [((4 : ℚ), (4 : ℚ)), (0, -3), (-2, -3), (-2, 0), (-2, -4), (-1, 2)] [((-2, -4), (4, 4))] true with
    | .ok ts => ts.all (misses (5 / 2, 5 / 2))
    | _ => false) = true := by decide +kernel
  rw [h1] at h3
  obtain ⟨T, hT, ht, hp⟩ := h2 (5 / 2, 5 / 2)
    ⟨13945 / 46096, 193 / 536, 15553 / 46096, by norm_num, by norm_num, by norm_num, by norm_num, by norm_num⟩
  have := of_decide_eq_true (List.all_eq_true.1 h3 T hT)
  obtain ⟨a1, a2, a3⟩ := (Lemmas.SubHistory.inTriangle_iff ht).1 hp
  have h0 : 0 < Lemmas.SubCover.area false T.1 T.2.1 T.2.2 := ht
  rcases this with h | h | h | h
  · exact absurd h0 (not_lt.2 h)
  · exact absurd a1 (not_le.2 h)
  · exact absurd a2 (not_le.2 h)
  · exact absurd a3 (not_le.2 h)

/-- **C164, `Constrained`**: if every constraint, when its turn comes, is a side already or crosses one side only,
the result is the triangulation in which it has taken the place of that side.  `ts` are the triangles without
`EnableConstraints`, `sides` the sides when all constraints have had their turn.  The corners of the frame must be
multiples of a thousandth; they are if the extent of the points is an even number of thousandths wide. -/
theorem C164_constrained_partial (yd : Bool) (points : List (Pt K)) (spare : Nat) (constraints : List (Pt K × Pt K))
    (vs : List (Pt K)) (hvs : vs = (points ++ constraints.flatMap fun c => [c.1, c.2]).map roundPt) (hne : vs ≠ [])
    (a b c : Pt K) (hfr : triangleContaining vs = some (a, b, c)) (hr : ∀ v ∈ [a, b, c], roundPt v = v)
    (ts : List (Pt K × Pt K × Pt K))
    (hts : (Delaunay.constrainedTriangles yd (fun _ => false) points spare constraints true).1 = .ok ts)
    (sides : Pt K → Pt K → Prop)
    (hf : Flips (fun p => p = a ∨ p = b ∨ p = c ∨ p ∈ vs) (Side ts) constraints sides) :
    ∃ all some, Listed yd a b c vs sides all some ∧ ∀ includeFrame,
      constrainedTriangles yd (fun _ => false) points constraints includeFrame =
        .ok (if includeFrame then all else some) := by
  subst hvs
  have hne' : points ++ constraints.flatMap (fun c => [c.1, c.2]) ≠ [] := fun h => hne (by rw [h]; rfl)
  unfold Delaunay.constrainedTriangles at hts
  simp only at hts
  rw [if_neg hne'] at hts
  obtain ⟨all, some', h1, h2⟩ := Lemmas.ConstrainedTriangles.listed_flips yd _ hne' a b c hfr hr ts hts _ _ hf
  refine ⟨all, some', h1, fun f => ?_⟩
  unfold constrainedTriangles
  simp only
  rw [if_neg hne']
  exact (h2 f).1

/-- **C164, `GeomConstrained`**: as for `Constrained`; constraints that are too short are left out. -/
theorem C164_geom_partial (yd : Bool) (short : Pt K → Pt K → Bool) (points : List (Pt K))
    (constraints : List (Pt K × Pt K)) (hne : points ≠ [] ∨ ∃ c ∈ constraints, short c.1 c.2 = false)
    (ts : List (Pt K × Pt K × Pt K))
    (hts : Delaunay.geomTriangles yd (fun _ => false) short points constraints true = .ok ts) :
    ∃ us : List (Pt K), us.Nodup ∧
      (∀ p, p ∈ us ↔ p ∈ points ∨ ∃ e ∈ constraints, short e.1 e.2 = false ∧ (p = e.1 ∨ p = e.2)) ∧
      ∀ (vs : List (Pt K)) (a b c : Pt K) (sides : Pt K → Pt K → Prop), vs = us.map roundPt →
        triangleContaining vs = some (a, b, c) → (∀ v ∈ [a, b, c], roundPt v = v) →
        Flips (fun p => p = a ∨ p = b ∨ p = c ∨ p ∈ vs) (Side ts) (constraints.filter fun c => !short c.1 c.2) sides →
        ∃ all some, Listed yd a b c vs sides all some ∧ ∀ includeFrame,
          geomTriangles yd (fun _ => false) short points constraints includeFrame =
            .ok (if includeFrame then all else some) := by
  obtain ⟨us, hus⟩ : ∃ us, us = constraints.foldl
      (fun pts c => if short c.1 c.2 then pts else Delaunay.addPoint (Delaunay.addPoint pts c.1) c.2) (points.foldl Delaunay.addPoint []) :=
    ⟨_, rfl⟩
  have hmem : ∀ p, p ∈ us ↔ p ∈ points ∨ ∃ e ∈ constraints, short e.1 e.2 = false ∧ (p = e.1 ∨ p = e.2) := by
    intro p
    rw [hus, Lemmas.DelaunayPoints.mem_foldl_ends, Lemmas.DelaunayPoints.mem_foldl_addPoint]
    simp
  have hne' : us ≠ [] := by
    rintro rfl
    rcases hne with h | ⟨e, he, hs⟩
    · obtain ⟨p, hp⟩ := List.exists_mem_of_ne_nil _ h
      exact absurd ((hmem p).2 (Or.inl hp)) (by simp)
    · exact absurd ((hmem e.1).2 (Or.inr ⟨e, he, hs, Or.inl rfl⟩)) (by simp)
  refine ⟨us, ?_, hmem, ?_⟩
  · rw [hus]
    exact Lemmas.DelaunayPoints.nodup_foldl_ends _ (Lemmas.DelaunayPoints.nodup_foldl_addPoint _ List.nodup_nil)
  · rintro vs a b c sides rfl hfr hr hf
    unfold Delaunay.geomTriangles at hts
    simp only at hts
    rw [← hus, if_neg hne'] at hts
    obtain ⟨all, some', h1, h2⟩ := Lemmas.ConstrainedTriangles.listed_flips yd _ hne' a b c hfr hr ts hts _ _ hf
    refine ⟨all, some', h1, fun f => ?_⟩
    unfold geomTriangles
    simp only
    rw [← hus, if_neg hne']
    exact (h2 f).2

/-- **C164**: a constraint that no later one crosses is a side in the end. -/
theorem C164_kept {vs : Pt K → Prop} {sides sides' : Pt K → Pt K → Prop} {xs ys : List (Pt K × Pt K)} {p q : Pt K}
    (hf : Flips vs sides (xs ++ (p, q) :: ys) sides') (hn : ∀ d ∈ ys, ¬ Cross d.1 d.2 p q) : sides' p q :=
  Lemmas.ConstrainedTriangles.flips_kept hf hn

/-- Two constraints that are sides already, and do not cross. -/
example : Flips (fun _ => True) (fun _ _ => True) ([] ++ (((0 : ℚ), (0 : ℚ)), (1, 0)) :: [((0, 1), (1, 1))])
      (fun _ _ => True) ∧ ∀ d ∈ [(((0 : ℚ), (1 : ℚ)), ((1 : ℚ), (1 : ℚ)))], ¬ Cross d.1 d.2 (0, 0) (1, 0) := by
  refine ⟨.there trivial (.there trivial (.done _)), ?_⟩
  simp only [Lemmas.ConstrainedTriangles.cross_iff false]
  decide +kernel

/-- The points (0,0), (10,0), (5,3) and (5,-3), the constraint from (0,0) to (10,0), and another one that is too
short: what `GeomConstrained` gives without and with `EnableConstraints`. -/
example : Delaunay.geomTriangles false (fun _ => false) (fun p q => decide (p = q))
      [((0 : ℚ), (0 : ℚ)), (10, 0), (5, 3), (5, -3)] [((0, 0), (10, 0)), ((7, 7), (7, 7))] false =
    .ok [((10, 0), (5, 3), (5, -3)), ((5, -3), (5, 3), (0, 0))] ∧
    geomTriangles false (fun _ => false) (fun p q => decide (p = q))
      [((0 : ℚ), (0 : ℚ)), (10, 0), (5, 3), (5, -3)] [((0, 0), (10, 0)), ((7, 7), (7, 7))] false =
    .ok [((10, 0), (5, 3), (0, 0)), ((10, 0), (0, 0), (5, -3))] := by
  decide +kernel

/-- The points (0,0), (10,0), (5,3) and (5,-3): without the constraint from (0,0) to (10,0), the points (5,3) and
(5,-3) are joined, and the constraint crosses no other side. -/
example : let points : List (Pt ℚ) := [(0, 0), (10, 0), (5, 3), (5, -3)]
    let constraints : List (Pt ℚ × Pt ℚ) := [((0, 0), (10, 0))]
    let vs := (points ++ constraints.flatMap fun c => [c.1, c.2]).map roundPt
    triangleContaining vs = some ((-60, -73), (5, 133), (70, -73)) ∧
    (∀ v ∈ [((-60 : ℚ), (-73 : ℚ)), (5, 133), (70, -73)], roundPt v = v) ∧
    ∃ ts sides, (Delaunay.constrainedTriangles false (fun _ => false) points 0 constraints true).1 = .ok ts ∧
      Flips (fun p => p = (-60, -73) ∨ p = (5, 133) ∨ p = (70, -73) ∨ p ∈ vs) (Side ts) constraints sides ∧
      sides (0, 0) (10, 0) ∧ ¬ sides (5, 3) (5, -3) := by
  refine ⟨by decide +kernel, by decide +kernel, ?_⟩
  have key : (match (Delaunay.constrainedTriangles false (fun _ => false)
      [((0 : ℚ), (0 : ℚ)), (10, 0), (5, 3), (5, -3)] 0 [((0, 0), (10, 0))] true).1 with
    | .ok ts => decide (Side ts (5, 3) (5, -3) ∧ ¬ Side ts (0, 0) (10, 0)) && ts.all fun T =>
        ([(T.1, T.2.1), (T.2.1, T.2.2), (T.2.2, T.1), (T.2.1, T.1), (T.2.2, T.2.1), (T.1, T.2.2)] :
          List (Pt ℚ × Pt ℚ)).all fun e => decide (e = ((5, 3), (5, -3))) || decide (e = ((5, -3), (5, 3))) ||
            decide (0 ≤ Lemmas.SubCover.area false (0, 0) (10, 0) e.1 * Lemmas.SubCover.area false (0, 0) (10, 0) e.2) ||
            decide (0 ≤ Lemmas.SubCover.area false e.1 e.2 (0, 0) * Lemmas.SubCover.area false e.1 e.2 (10, 0))
    | _ => false) = true := by decide +kernel
  cases h : (Delaunay.constrainedTriangles false (fun _ => false)
      [((0 : ℚ), (0 : ℚ)), (10, 0), (5, 3), (5, -3)] 0 [((0, 0), (10, 0))] true).1 with
  | cancelled => rw [h] at key; cases key
  | failed => rw [h] at key; cases key
  | panic => rw [h] at key; cases key
  | ok ts =>
    rw [h] at key
    simp only [Bool.and_eq_true, decide_eq_true_eq] at key
    obtain ⟨⟨k1, k2⟩, k3⟩ := key
    refine ⟨ts, _, rfl, .flip (by decide) (by decide +kernel) (by decide +kernel) ?_ k2 k1 ?_ ?_ (.done _), ?_, ?_⟩
    · rintro v hv ⟨t, t0, t1, h⟩
      unfold Spec.Resolve.AtParam at h
      have h1 : v.1 = t * 10 := by rw [h]; simp
      have h2 : v.2 = 0 := by rw [h]; simp
      have hv' : v ∈ [((-60 : ℚ), (-73 : ℚ)), (5, 133), (70, -73), (0, 0), (10, 0), (5, 3), (5, -3)] := by
        have e : (([((0 : ℚ), (0 : ℚ)), (10, 0), (5, 3), (5, -3)] ++ [(((0 : ℚ), (0 : ℚ)), ((10 : ℚ), (0 : ℚ)))].flatMap
            fun c => [c.1, c.2]).map roundPt) = [(0, 0), (10, 0), (5, 3), (5, -3), (0, 0), (10, 0)] := by decide +kernel
        simp only [e] at hv
        simp only [List.mem_cons, List.not_mem_nil, or_false] at hv ⊢
        tauto
      simp only [List.mem_cons, List.not_mem_nil, or_false] at hv'
      rcases hv' with rfl | rfl | rfl | rfl | rfl | rfl | rfl <;> simp only at h1 h2 <;> linarith
    · rw [Lemmas.ConstrainedTriangles.cross_iff false]
      decide +kernel
    · rintro u w ⟨T, hT, hm⟩ hc
      rw [Lemmas.ConstrainedTriangles.cross_iff false] at hc
      have := List.all_eq_true.1 (List.all_eq_true.1 k3 T hT) _ hm
      simp only [Bool.or_eq_true, decide_eq_true_eq] at this
      rcases this with ((h | h) | h) | h
      · exact Or.inl h
      · exact Or.inr h
      · exact absurd hc.1 (not_lt.2 h)
      · exact absurd hc.2 (not_lt.2 h)
    · exact Or.inr (Or.inl rfl)
    · rintro (⟨_, h, _⟩ | h | h)
      · exact h rfl
      · exact absurd h (by decide)
      · exact absurd h (by decide)

/-- **C164**: if a constraint, when its turn comes, crosses more than twenty-one sides, `Constrained` fails.  `es`
are the sides, each in the direction in which it starts on the left of the constraint. -/
theorem C164_too_many (yd : Bool) (points : List (Pt K)) (spare : Nat) (xs ys : List (Pt K × Pt K)) (p q : Pt K)
    (vs : List (Pt K)) (hvs : vs = (points ++ (xs ++ (p, q) :: ys).flatMap fun c => [c.1, c.2]).map roundPt)
    (a b c : Pt K) (hfr : triangleContaining vs = some (a, b, c)) (hr : ∀ v ∈ [a, b, c, p, q], roundPt v = v)
    (ts : List (Pt K × Pt K × Pt K))
    (hts : (Delaunay.constrainedTriangles yd (fun _ => false) points spare (xs ++ (p, q) :: ys) true).1 = .ok ts)
    (sides : Pt K → Pt K → Prop) (hf : Flips (fun p => p = a ∨ p = b ∨ p = c ∨ p ∈ vs) (Side ts) xs sides)
    (hpq : p ≠ q) (hfree : Free (fun p => p = a ∨ p = b ∨ p = c ∨ p ∈ vs) p q) (hnot : ¬ sides p q)
    (es : List (Pt K × Pt K)) (hes : es.Nodup) (hlen : 21 < es.length)
    (hcr : ∀ e ∈ es, sides e.1 e.2 ∧ Cross p q e.1 e.2 ∧ Turns yd p q e.1) (includeFrame : Bool) :
    constrainedTriangles yd (fun _ => false) points (xs ++ (p, q) :: ys) includeFrame = .constraint .loop := by
  subst hvs
  have hne' : points ++ (xs ++ (p, q) :: ys).flatMap (fun c => [c.1, c.2]) ≠ [] := by simp
  have mem : ∀ v, v = p ∨ v = q → v ∈ (points ++ (xs ++ (p, q) :: ys).flatMap fun c => [c.1, c.2]).map roundPt := by
    intro v hv
    refine List.mem_map.2 ⟨v, ?_, hr v (by rcases hv with rfl | rfl <;> simp)⟩
    rcases hv with rfl | rfl <;> simp
  unfold Delaunay.constrainedTriangles at hts
  simp only at hts
  rw [if_neg hne'] at hts
  unfold constrainedTriangles
  simp only
  rw [if_neg hne']
  exact (Lemmas.ConstrainedTriangles.too_many_run yd _ hne' a b c hfr
    (fun v hv => hr v (by simp only [List.mem_cons, List.not_mem_nil, or_false] at hv ⊢; tauto)) ts hts xs ys sides hf
    hpq (mem p (Or.inl rfl)) (mem q (Or.inr rfl)) hfree hnot hes hlen hcr includeFrame).1

/-- Points of the next example: two, and twenty-three that are now on one side and now on the other side of the
segment between them. -/
def zigzag : List (Pt ℚ) :=
  [(0, 0), (24, 0)] ++ (List.range 23).map fun i : Nat => (((i + 1 : Nat) : ℚ), if i % 2 = 0 then 1 else -1)

/-- The sides crossed. -/
def zigs : List (Pt ℚ × Pt ℚ) := (List.range 22).map fun i : Nat =>
  if i % 2 = 0 then ((((i + 1 : Nat) : ℚ), 1), (((i + 2 : Nat) : ℚ), -1))
  else ((((i + 2 : Nat) : ℚ), 1), (((i + 1 : Nat) : ℚ), -1))

/-- The constraint from (0,0) to (24,0) crosses twenty-two sides. -/
example : let vs : List (Pt ℚ) := (zigzag ++ [(((0 : ℚ), (0 : ℚ)), ((24 : ℚ), (0 : ℚ)))].flatMap fun c => [c.1, c.2]).map roundPt
    triangleContaining vs = some ((-130, -31), (12, 51), (154, -31)) ∧
    (∀ v ∈ [((-130 : ℚ), (-31 : ℚ)), (12, 51), (154, -31), (0, 0), (24, 0)], roundPt v = v) ∧
    (∃ ts, (Delaunay.constrainedTriangles false (fun _ => false) zigzag 0 [((0, 0), (24, 0))] true).1 = .ok ts ∧
      ¬ Side ts (0, 0) (24, 0) ∧ ∀ e ∈ zigs, Side ts e.1 e.2) ∧
    Free (K := ℚ) (fun p => p = (-130, -31) ∨ p = (12, 51) ∨ p = (154, -31) ∨ p ∈ vs) (0, 0) (24, 0) ∧
    zigs.Nodup ∧ 21 < zigs.length ∧ ∀ e ∈ zigs, Cross (0, 0) (24, 0) e.1 e.2 ∧
      Turns false (0, 0) (24, 0) e.1 := by
  refine ⟨by decide +kernel, by decide +kernel, ?_, ?_, by decide +kernel, by decide +kernel, ?_⟩
  · have key : (match (Delaunay.constrainedTriangles false (fun _ => false) zigzag 0 [((0, 0), (24, 0))] true).1 with
      | .ok ts => decide (¬ Side ts (0, 0) (24, 0)) && zigs.all fun e => decide (Side ts e.1 e.2)
      | _ => false) = true := by decide +kernel
    cases h : (Delaunay.constrainedTriangles false (fun _ => false) zigzag 0 [((0, 0), (24, 0))] true).1 with
    | cancelled => rw [h] at key; cases key
    | failed => rw [h] at key; cases key
    | panic => rw [h] at key; cases key
    | ok ts =>
      rw [h] at key
      simp only [Bool.and_eq_true, decide_eq_true_eq, List.all_eq_true] at key
      exact ⟨ts, rfl, key⟩
  · rintro v hv ⟨t, t0, t1, h⟩
    unfold Spec.Resolve.AtParam at h
    have h1 : v.1 = t * 24 := by rw [h]; simp
    have h2 : v.2 = 0 := by rw [h]; simp
    have h3 : v = (0, 0) ∨ v = (24, 0) := by
      rcases hv with rfl | rfl | rfl | hv
      · exact absurd h2 (by norm_num)
      · exact absurd h2 (by norm_num)
      · exact absurd h2 (by norm_num)
      · have all : ∀ v ∈ (zigzag ++ [(((0 : ℚ), (0 : ℚ)), ((24 : ℚ), (0 : ℚ)))].flatMap fun c => [c.1, c.2]).map roundPt,
            v.2 = 0 → v = (0, 0) ∨ v = (24, 0) := by decide +kernel
        exact all v hv h2
    rcases h3 with rfl | rfl <;> simp only at h1 <;> linarith
  · simp only [Lemmas.ConstrainedTriangles.cross_iff false]
    unfold Turns
    decide +kernel

/-- **C164**: `GeomConstrained`, in the same case, gives the same as without the constraint. -/
theorem C164_geom_too_many (yd : Bool) (short : Pt K → Pt K → Bool) (points : List (Pt K)) (xs ys : List (Pt K × Pt K))
    (p q : Pt K) (hp : p ∈ points) (hq : q ∈ points) (us : List (Pt K))
    (hus : us = (xs ++ ys).foldl
      (fun pts c => if short c.1 c.2 then pts else Delaunay.addPoint (Delaunay.addPoint pts c.1) c.2) (points.foldl Delaunay.addPoint []))
    (a b c : Pt K) (hfr : triangleContaining (us.map roundPt) = some (a, b, c))
    (hr : ∀ v ∈ [a, b, c, p, q], roundPt v = v) (ts : List (Pt K × Pt K × Pt K))
    (hts : Delaunay.geomTriangles yd (fun _ => false) short points (xs ++ ys) true = .ok ts)
    (sides : Pt K → Pt K → Prop)
    (hf : Flips (fun p => p = a ∨ p = b ∨ p = c ∨ p ∈ us.map roundPt) (Side ts) (xs.filter fun c => !short c.1 c.2) sides)
    (hpq : p ≠ q) (hfree : Free (fun p => p = a ∨ p = b ∨ p = c ∨ p ∈ us.map roundPt) p q) (hnot : ¬ sides p q)
    (es : List (Pt K × Pt K)) (hes : es.Nodup) (hlen : 21 < es.length)
    (hcr : ∀ e ∈ es, sides e.1 e.2 ∧ Cross p q e.1 e.2 ∧ Turns yd p q e.1) (includeFrame : Bool) :
    geomTriangles yd (fun _ => false) short points (xs ++ (p, q) :: ys) includeFrame =
      geomTriangles yd (fun _ => false) short points (xs ++ ys) includeFrame := by
  have hin : ∀ {l : List (Pt K)} {cs : List (Pt K × Pt K)} {v}, v ∈ l → v ∈ cs.foldl
      (fun pts c => if short c.1 c.2 then pts else Delaunay.addPoint (Delaunay.addPoint pts c.1) c.2) l := by
    intro l cs v h
    rw [Lemmas.DelaunayPoints.mem_foldl_ends]
    exact Or.inl h
  have h0 : ∀ {v}, v ∈ points → v ∈ points.foldl Delaunay.addPoint [] := by
    intro v h
    rw [Lemmas.DelaunayPoints.mem_foldl_addPoint]
    exact Or.inr h
  have same : (xs ++ (p, q) :: ys).foldl
      (fun pts c => if short c.1 c.2 then pts else Delaunay.addPoint (Delaunay.addPoint pts c.1) c.2) (points.foldl Delaunay.addPoint []) = us := by
    rw [hus, List.foldl_append, List.foldl_append, List.foldl_cons]
    congr 1
    simp only
    have : ∀ {l : List (Pt K)} {v}, v ∈ l → Delaunay.addPoint l v = l := by
      intro l v h
      unfold Delaunay.addPoint
      rw [if_pos h]
    rw [this (hin (h0 hp)), this (hin (h0 hq))]
    split_ifs <;> rfl
  have hne : us ≠ [] := by
    rintro rfl
    have := hin (cs := xs ++ ys) (h0 hp)
    rw [← hus] at this
    cases this
  unfold geomTriangles
  simp only
  rw [same, ← hus, if_neg hne, if_neg hne]
  by_cases hs : short p q = true
  · rw [List.filter_append, List.filter_append, List.filter_cons_of_neg (by simpa using hs)]
  · rw [List.filter_append, List.filter_append, List.filter_cons_of_pos (by simpa using hs)]
    unfold Delaunay.geomTriangles at hts
    simp only at hts
    rw [← hus, if_neg hne] at hts
    have mem : ∀ v, v = p ∨ v = q → v ∈ us.map roundPt := by
      intro v hv
      refine List.mem_map.2 ⟨v, ?_, hr v (by rcases hv with rfl | rfl <;> simp)⟩
      rw [hus]
      rcases hv with rfl | rfl
      · exact hin (h0 hp)
      · exact hin (h0 hq)
    exact (Lemmas.ConstrainedTriangles.too_many_run yd _ hne a b c hfr
      (fun v hv => hr v (by simp only [List.mem_cons, List.not_mem_nil, or_false] at hv ⊢; tauto)) ts hts _ _ sides hf
      hpq (mem p (Or.inl rfl)) (mem q (Or.inr rfl)) hfree hnot hes hlen hcr includeFrame).2

end Verif.Props
