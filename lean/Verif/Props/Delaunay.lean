import Verif.Lemmas.SubHealthy
import Verif.Props.InsertSite

/-!
# Properties C134, C135 and C136: `InsertSite` puts in the points inside the frame, the triangles of a
subdivision cover its frame once, and are Delaunay

`New` and `InsertSite` of `planar/triangulate/delaunay/subdivision`, in exact arithmetic.
-/

namespace Verif.Props
open Verif.Quad Verif.Spec.Quad Verif.Subdivision Verif.Spec.Subdivision Verif.Spec.Planar
open Verif.Lemmas.SubFlip Verif.Lemmas.SubHistory Verif.Lemmas.SubInsert Verif.Lemmas.SubNew
open Verif.Lemmas.SubHealthy Verif.Lemmas.SubCover

variable {K : Type} [Field K] [LinearOrder K] [IsStrictOrderedRing K]

/-- What a call of `InsertSite` makes of a Delaunay triangulation of the frame is one again, for a point that
is not on a side of the frame. -/
theorem C136_insert_one_partial (yd : Bool) (a b c : Pt K) (sd : Subdiv K) (x : Pt K)
    (h : Triangulates yd a b c sd) (hD : Delaunay sd.store sd.start)
    (hab : ¬ OnSegment x a b) (hbc : ¬ OnSegment x b c) (hca : ¬ OnSegment x c a) :
    ∃ r sd', insertSite yd sd x = some (r, sd') ∧ Triangulates yd a b c sd' ∧ Delaunay sd'.store sd'.start := by
  obtain ⟨r, sd', h1, h2, _⟩ := C134_insert_one_partial yd a b c sd x h hab hbc hca
  have flip : ∀ {p q : Pt K}, ¬ OnSegment x p q → ¬ OnSegment x q p := by
    rintro p q h ⟨t, h0, h1, h2⟩
    refine h ⟨1 - t, by linarith, by linarith, ?_⟩
    rw [h2]
    refine Prod.ext ?_ ?_ <;> simp only <;> ring
  refine ⟨r, sd', h1, h2, ?_⟩
  have key : ∃ r s2, insertSite yd sd x = some (r, { sd with ptcount := sd.ptcount + 1, store := s2 }) ∧
      Delaunay s2 sd.start := by
    rcases h with h | h
    · exact insert_delaunay h hab hbc hca hD
    · exact insert_delaunay h (flip hca) (flip hbc) (flip hab) hD
  obtain ⟨r', s2, g1, g2⟩ := key
  rw [h1] at g1
  obtain ⟨_, rfl⟩ := Prod.mk.inj (Option.some.inj g1)
  exact g2

/-- The full claim of **C136**: after any number of calls of `InsertSite` for points of the frame, its sides
taken in, the subdivision has all of the points, and no point is inside the circle of a triangle. -/
def C136_full : Prop :=
  ∀ (yd : Bool) (a b c : Pt ℚ) (sd : Subdiv ℚ), newSub yd a b c = some sd →
    ∀ xs : List (Pt ℚ), (∀ x ∈ xs, InTriangle x a b c) → ∃ rs sd', insertAll yd sd xs = some (rs, sd') ∧
      (∀ p ∈ xs, Vertex sd'.store sd'.start p) ∧ Triangulates yd a b c sd' ∧ Delaunay sd'.store sd'.start

/-- **C136 is violated**: a point on the first side of the frame is not in the subdivision afterwards. -/
theorem C136_violated : ¬ C136_full := by
  intro h
  obtain ⟨yd, a, b, c, sd, sd', x, h1, ⟨t, t0, t1, rfl⟩, h3, h4, h5, h6⟩ := C134_violated_on_side
  obtain ⟨rs, sd2, g1, g2, _⟩ := h yd a b c sd h1 [(a.1 + t * (b.1 - a.1), a.2 + t * (b.2 - a.2))] (by
    intro y hy
    rw [List.mem_singleton] at hy
    subst hy
    refine ⟨1 - t, t, 0, by linarith, t0, le_rfl, by ring, ?_⟩
    refine Prod.ext ?_ ?_ <;> simp only <;> ring)
  simp only [insertAll, h5, Option.some.injEq, Prod.mk.injEq] at g1
  obtain ⟨_, rfl⟩ := g1
  rcases (h6 _).1 (g2 _ (List.mem_singleton.2 rfl)) with h' | h'
  · exact h3 h'
  · exact h4 h'

/-- **C136, a history**: beginning with `New`, after any number of calls of `InsertSite` for points that are
not on a side of the frame the subdivision is a triangulation of the frame, and no point of the subdivision is
inside the circle of one of its triangles. -/
theorem C136_history_partial (yd : Bool) (a b c : Pt K) (sd : Subdiv K) (h : newSub yd a b c = some sd)
    (xs : List (Pt K)) (hx : ∀ x ∈ xs, ¬ OnSegment x a b ∧ ¬ OnSegment x b c ∧ ¬ OnSegment x c a) :
    ∃ rs sd', insertAll yd sd xs = some (rs, sd') ∧ Triangulates yd a b c sd' ∧
      Delaunay sd'.store sd'.start := by
  have key : ∀ (xs : List (Pt K)) (sd : Subdiv K), Triangulates yd a b c sd → Delaunay sd.store sd.start →
      (∀ x ∈ xs, ¬ OnSegment x a b ∧ ¬ OnSegment x b c ∧ ¬ OnSegment x c a) →
      ∃ rs sd', insertAll yd sd xs = some (rs, sd') ∧ Triangulates yd a b c sd' ∧
        Delaunay sd'.store sd'.start := by
    intro xs
    induction xs with
    | nil => intro sd hT hD _; exact ⟨[], sd, rfl, hT, hD⟩
    | cons x xs ih =>
      intro sd hT hD hx
      obtain ⟨x1, x2, x3⟩ := hx x (by simp)
      obtain ⟨r, sd1, g1, g2, g3⟩ := C136_insert_one_partial yd a b c sd x hT hD x1 x2 x3
      obtain ⟨rs, sd2, k1, k2, k3⟩ := ih sd1 g2 g3 (fun y hy => hx y (List.mem_cons_of_mem _ hy))
      exact ⟨r :: rs, sd2, by simp only [insertAll, g1, k1], k2, k3⟩
  obtain ⟨h1, h2⟩ := C134_new yd a b c sd h
  refine key xs sd h1 ?_ hx
  rcases h1 with h1 | h1 <;> exact delaunay_three h1 h2

/-- **C135**: beginning with `New`, after any number of calls of `InsertSite` for points that are not on a side
of the frame the triangles of the subdivision, the outside left out, are together the triangle of the frame,
and no two of them have a point in common but on their sides. -/
theorem C135_cover (yd : Bool) (a b c : Pt K) (sd : Subdiv K) (h : newSub yd a b c = some sd)
    (xs : List (Pt K)) (hx : ∀ x ∈ xs, ¬ OnSegment x a b ∧ ¬ OnSegment x b c ∧ ¬ OnSegment x c a) :
    ∃ rs sd', insertAll yd sd xs = some (rs, sd') ∧
      (∀ p, InTriangle p a b c ↔ ∃ y o d t, Connected sd'.store sd'.start y ∧ ¬ Outside sd'.store sd'.start y ∧
        FaceOf sd'.store y o d t ∧ InTriangle p o d t) ∧
      (∀ p y o d t y' o' d' t', Connected sd'.store sd'.start y → ¬ Outside sd'.store sd'.start y →
        Connected sd'.store sd'.start y' → ¬ Outside sd'.store sd'.start y' → FaceOf sd'.store y o d t →
        FaceOf sd'.store y' o' d' t' → InsideTriangle p o d t → InsideTriangle p o' d' t' →
        y' = y ∨ y' = lnext sd'.store y ∨ y' = lnext sd'.store (lnext sd'.store y)) := by
  obtain ⟨rs, sd', h1, h2, h3⟩ := C136_history_partial yd a b c sd h xs hx
  have swap : ∀ p, InTriangle p a b c ↔ InTriangle p a c b := by
    intro p
    constructor <;> rintro ⟨u, v, w, hu, hv, hw, hs, rfl⟩ <;>
      exact ⟨u, w, v, hu, hw, hv, by linarith, Prod.ext (by simp only; ring) (by simp only; ring)⟩
  refine ⟨rs, sd', h1, ?_, ?_⟩
  · intro p
    rcases h2 with h2 | h2
    · exact cover_iff h2 h3 p
    · rw [swap]; exact cover_iff h2 h3 p
  · intro p y o d t y' o' d' t' c1 c2 c3 c4 f1 f2 i1 i2
    rcases h2 with h2 | h2
    · exact cover_once h2 ⟨c1, c2⟩ ⟨c3, c4⟩ f1 f2 i1 i2
    · exact cover_once h2 ⟨c1, c2⟩ ⟨c3, c4⟩ f1 f2 i1 i2

/-- **C134**: beginning with `New`, `InsertSite` is called for any points that are not on a side of the frame.
It says yes to just those that are inside the frame, be they new or not.  The points of the subdivision are
the corners of the frame and the points inside of it; it is a triangulation of the frame and Delaunay. -/
theorem C134_accepts_partial (yd : Bool) (a b c : Pt K) (sd : Subdiv K) (h : newSub yd a b c = some sd)
    (xs : List (Pt K)) (hx : ∀ x ∈ xs, ¬ OnSegment x a b ∧ ¬ OnSegment x b c ∧ ¬ OnSegment x c a) :
    ∃ rs sd', insertAll yd sd xs = some (rs, sd') ∧
      List.Forall₂ (fun x r => r = true ↔ InsideTriangle x a b c) xs rs ∧
      (∀ p, Vertex sd'.store sd'.start p ↔ p = a ∨ p = b ∨ p = c ∨ (p ∈ xs ∧ InsideTriangle p a b c)) ∧
      Triangulates yd a b c sd' ∧ Delaunay sd'.store sd'.start := by
  have flip : ∀ {x p q : Pt K}, ¬ OnSegment x p q → ¬ OnSegment x q p := by
    rintro x p q h ⟨t, h0, h1, h2⟩
    refine h ⟨1 - t, by linarith, by linarith, ?_⟩
    rw [h2]
    refine Prod.ext ?_ ?_ <;> simp only <;> ring
  have swap : ∀ x, InsideTriangle x a c b ↔ InsideTriangle x a b c := by
    intro p
    constructor <;> rintro ⟨u, v, w, hu, hv, hw, hs, rfl⟩ <;>
      exact ⟨u, w, v, hu, hw, hv, by linarith, Prod.ext (by simp only; ring) (by simp only; ring)⟩
  have key : ∀ (xs : List (Pt K)) (sd : Subdiv K), Healthy yd a b c sd ∨ Healthy yd a c b sd →
      (∀ x ∈ xs, ¬ OnSegment x a b ∧ ¬ OnSegment x b c ∧ ¬ OnSegment x c a) →
      ∃ rs sd', insertAll yd sd xs = some (rs, sd') ∧ (Healthy yd a b c sd' ∨ Healthy yd a c b sd') ∧
        List.Forall₂ (fun x r => r = true ↔ InsideTriangle x a b c) xs rs ∧
        ∀ p, Vertex sd'.store sd'.start p ↔ Vertex sd.store sd.start p ∨ (p ∈ xs ∧ InsideTriangle p a b c) := by
    intro xs
    induction xs with
    | nil => intro sd hT _; exact ⟨[], sd, rfl, hT, .nil, fun p => by simp⟩
    | cons x xs ih =>
      intro sd hT hx
      obtain ⟨x1, x2, x3⟩ := hx x (by simp)
      have one : ∃ r sd', insertSite yd sd x = some (r, sd') ∧ (Healthy yd a b c sd' ∨ Healthy yd a c b sd') ∧
          (r = true ↔ InsideTriangle x a b c) ∧
          ∀ p, Vertex sd'.store sd'.start p ↔ Vertex sd.store sd.start p ∨ (p = x ∧ InsideTriangle x a b c) := by
        rcases hT with hT | hT
        · obtain ⟨r, sd', g1, g2, _, g4, g5⟩ := insert_healthy hT x1 x2 x3
          exact ⟨r, sd', g1, Or.inl g2, g4, g5⟩
        · obtain ⟨r, sd', g1, g2, _, g4, g5⟩ := insert_healthy hT (flip x3) (flip x2) (flip x1)
          rw [swap] at g4
          simp only [swap] at g5
          exact ⟨r, sd', g1, Or.inr g2, g4, g5⟩
      obtain ⟨r, sd1, g1, g2, g3, g4⟩ := one
      obtain ⟨rs, sd2, k1, k2, k3, k4⟩ := ih sd1 g2 (fun y hy => hx y (List.mem_cons_of_mem _ hy))
      refine ⟨r :: rs, sd2, by simp only [insertAll, g1, k1], k2, .cons g3 k3, fun p => ?_⟩
      rw [k4, g4, List.mem_cons, or_assoc]
      constructor
      · rintro (h | ⟨rfl, h⟩ | ⟨h1, h2⟩)
        · exact Or.inl h
        · exact Or.inr ⟨Or.inl rfl, h⟩
        · exact Or.inr ⟨Or.inr h1, h2⟩
      · rintro (h | ⟨rfl | h1, h2⟩)
        · exact Or.inl h
        · exact Or.inr (Or.inl ⟨rfl, h2⟩)
        · exact Or.inr (Or.inr ⟨h1, h2⟩)
  obtain ⟨h1, h2⟩ := C134_new yd a b c sd h
  have h3 : sd.ptcount = 3 ∧ (edges sd.store sd.start).card ≤ 6 := by
    rw [newSub_eq] at h
    split_ifs at h
    · rw [← Option.some.inj h]
      exact ⟨rfl, edges_new a b c (z := ⟨0, 0⟩) (by decide) (by decide)⟩
    · rw [← Option.some.inj h]
      exact ⟨rfl, edges_new a b c (z := ⟨2, 2⟩) (by decide) (by decide)⟩
  have h4 : Healthy yd a b c sd ∨ Healthy yd a c b sd := by
    rcases h1 with h1 | h1
    · exact Or.inl (healthy_three h1 h2 h3.1 h3.2)
    · exact Or.inr (healthy_three h1 h2 h3.1 h3.2)
  obtain ⟨rs, sd', k1, k2, k3, k4⟩ := key xs sd h4 hx
  refine ⟨rs, sd', k1, k3, fun p => ?_, ?_, ?_⟩
  · rw [k4, h2, or_assoc, or_assoc]
  · exact k2.imp Healthy.tri Healthy.tri
  · exact k2.elim Healthy.del Healthy.del

/-- The points of the example of C134, and four points on a circle. -/
example : let xs : List (Pt ℚ) := [(10, 10), (9, 1), (12, 2), (15 / 2, 15 / 2), (9, 1), (100, 100), (11, 10), (11, 9),
      (10, 9)]
    newSub false ((0 : ℚ), (0 : ℚ)) (30, 0) (0, 30) ≠ none ∧
    (∀ x ∈ xs, ¬ OnSegment x (0, 0) (30, 0) ∧ ¬ OnSegment x (30, 0) (0, 30) ∧ ¬ OnSegment x (0, 30) (0, 0)) := by
  refine ⟨?_, ?_⟩
  · rw [newSub_eq, if_pos (by decide +kernel)]; nofun
  · simp only [← Verif.Planar.isPointOnLineSegment_iff]
    decide +kernel

end Verif.Props
