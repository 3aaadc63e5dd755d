import Verif.Lemmas.CrossInsert
import Verif.Props.Constrained
import Verif.Lemmas.DelaunayPoints

/-!
# Property C161: inserting a constraint

`InsertConstraint` of `planar/triangulate/delaunay/subdivision`, in exact arithmetic.
-/

namespace Verif.Props
open Verif.Quad Verif.Spec.Quad Verif.Subdivision Verif.Spec.Subdivision Verif.Spec.Planar
open Verif.Lemmas.SubNew Verif.Constrained Verif.Spec.Constrained

variable {K : Type} [Field K] [LinearOrder K] [IsStrictOrderedRing K]

/-- The full claim of **C161**: beginning with `New`, `InsertSite` has been called for any points; rounding leaves
the points of the subdivision as they are.  Then `InsertConstraint` with two of these points, none other being
between them, returns no error.  There is an edge between the two afterwards, the subdivision is a triangulation
with the same points, and edges that the segment does not cross are still there. -/
def C161_full : Prop :=
  ∀ (rnd : Pt ℚ → Pt ℚ) (yd : Bool) (a b c : Pt ℚ) (sd : Subdiv ℚ), newSub yd a b c = some sd →
    ∀ xs : List (Pt ℚ), (∀ x ∈ xs, ¬ OnSegment x a b ∧ ¬ OnSegment x b c ∧ ¬ OnSegment x c a) →
      ∀ rs sd1, insertAll yd sd xs = some (rs, sd1) → (∀ v, Vertex sd1.store sd1.start v → rnd v = v) →
        ∀ vx, newVertexIndex rnd sd1.store sd1.start = some vx →
          ∀ p q : Pt ℚ, Vertex sd1.store sd1.start p → Vertex sd1.store sd1.start q → p ≠ q →
            Clear sd1.store sd1.start p q →
            ∃ sd2 vx', insertConstraint rnd yd sd1 vx p q = some (none, sd2, vx') ∧
              Joined sd2.store sd2.start p q ∧ Triangulates yd a b c sd2 ∧
              (∀ v, Vertex sd2.store sd2.start v ↔ Vertex sd1.store sd1.start v) ∧
              ∀ y u w, Connected sd1.store sd1.start y → orig sd1.store y = some u → dest sd1.store y = some w →
                (¬ ∃ t, CrossesAt sd1.store p q y t) → Joined sd2.store sd2.start u w

/-- What comes of `New`, `InsertSite` for some points, and `InsertConstraint`. -/
def constrained (frame : Pt ℚ × Pt ℚ × Pt ℚ) (xs : List (Pt ℚ)) (p q : Pt ℚ) :
    Option (Option Err × Subdiv ℚ × VertexIndex ℚ) :=
  (newSub false frame.1 frame.2.1 frame.2.2).bind fun sd => (insertAll false sd xs).bind fun r =>
    (newVertexIndex id r.2.store r.2.start).bind fun vx => insertConstraint id false r.2 vx p q

/-- The error, and the ends of an edge and of the three after it around the face to its left. -/
def walkLeft (l : List Bool) (r : Option Err × Subdiv ℚ × VertexIndex ℚ) : List (Option (Pt ℚ)) :=
  let e := follow r.2.1.store l r.2.1.start
  let n := lnext r.2.1.store
  if r.1 = none then [e, n e, n (n e), n (n (n e))].map (orig r.2.1.store) else []

def walkLeftOf (frame : Pt ℚ × Pt ℚ × Pt ℚ) (xs : List (Pt ℚ)) (p q : Pt ℚ) (l : List Bool) :
    Option (List (Option (Pt ℚ))) := (constrained frame xs p q).map (walkLeft l)

theorem constrained_eq {frame : Pt ℚ × Pt ℚ × Pt ℚ} {sd sd1 : Subdiv ℚ} {xs : List (Pt ℚ)} {rs : List Bool}
    {vx : VertexIndex ℚ} (h1 : newSub false frame.1 frame.2.1 frame.2.2 = some sd)
    (h2 : insertAll false sd xs = some (rs, sd1)) (h3 : newVertexIndex id sd1.store sd1.start = some vx)
    (p q : Pt ℚ) : constrained frame xs p q = insertConstraint id false sd1 vx p q := by
  unfold constrained
  rw [h1]
  simp only [Option.bind_some]
  rw [h2]
  simp only [Option.bind_some]
  rw [h3]
  simp only [Option.bind_some]

/-- **C161 is violated**: with the points (2,1), (4,3), (-3,-3), (3,3), (1,0) and (4,1), inserting the constraint
from (-3,-3) to (4,3) gives no error, but the face to the left of the edge from (-3,-3) to (2,1) is not a triangle
any more. -/
theorem C161_violated : ¬ C161_full := by
  intro h
  have hn : newSub false ((-100 : ℚ), (-100 : ℚ)) (100, -100) (0, 150) =
      some ⟨newStore (-100, -100) (100, -100) (0, 150), ⟨0, 0⟩, 3, ((-100, -100), (100, -100), (0, 150))⟩ := by
    rw [newSub_eq, if_pos (by decide +kernel)]
  have hx : ∀ x ∈ [((2 : ℚ), (1 : ℚ)), (4, 3), (-3, -3), (3, 3), (1, 0), (4, 1)],
      ¬ OnSegment x (-100, -100) (100, -100) ∧ ¬ OnSegment x (100, -100) (0, 150) ∧
      ¬ OnSegment x (0, 150) (-100, -100) := by
    simp only [← Verif.Planar.isPointOnLineSegment_iff]
    decide +kernel
  obtain ⟨rs, sd1, h1, hrs, hv, hT, _⟩ := C134_accepts_partial false _ _ _ _ hn _ hx
  have hl : walkLeftOf ((-100, -100), (100, -100), (0, 150)) [(2, 1), (4, 3), (-3, -3), (3, 3), (1, 0), (4, 1)]
      (-3, -3) (4, 3) [false, true, false, false, false, false] =
      some [some (-3, -3), some (2, 1), some (4, 1), some (4, 3)] := by decide +kernel
  have hI : ∃ vx, newVertexIndex id sd1.store sd1.start = some vx := by
    rcases hT with hT | hT <;>
    · obtain ⟨vx, h, _⟩ := C131_new_index id sd1.store hT.reached sd1.start hT.primal hT.alloc
        (Lemmas.CrossInsert.net_of hT).orig
      exact ⟨vx, h⟩
  obtain ⟨vx, hvx⟩ := hI
  have v1 : Vertex sd1.store sd1.start ((-3 : ℚ), (-3 : ℚ)) := by
    rw [hv]
    refine Or.inr (Or.inr (Or.inr ⟨by simp, 321 / 1000, 291 / 1000, 97 / 250, by norm_num, by norm_num, by norm_num, by norm_num, ?_⟩))
    norm_num
  have v2 : Vertex sd1.store sd1.start ((4 : ℚ), (3 : ℚ)) := by
    rw [hv]
    refine Or.inr (Or.inr (Or.inr ⟨by simp, 137 / 500, 157 / 500, 103 / 250, by norm_num, by norm_num, by norm_num, by norm_num, ?_⟩))
    norm_num
  obtain ⟨sd2, vx', e1, _, e2, _⟩ := h id false _ _ _ _ hn _ hx rs sd1 h1 (fun _ _ => rfl) vx hvx (-3, -3) (4, 3) v1 v2
    (by decide) (by
      rintro p hp ⟨t, t0, t1, h⟩
      rw [hv] at hp
      unfold Spec.Resolve.AtParam at h
      have h1 : p.1 = -3 + t * 7 := by rw [h]; norm_num
      have h2 : p.2 = -3 + t * 6 := by rw [h]; norm_num
      simp only [List.mem_cons, List.not_mem_nil, or_false] at hp
      rcases hp with rfl | rfl | rfl | ⟨rfl | rfl | rfl | rfl | rfl | rfl, _⟩ <;> simp only at h1 h2 <;> linarith)
  unfold walkLeftOf at hl
  rw [constrained_eq (frame := ((-100, -100), (100, -100), (0, 150))) hn h1 hvx, e1] at hl
  have hl := Option.some.inj hl
  unfold walkLeft at hl
  simp only [if_true, List.map_cons, List.map_nil, List.cons.injEq] at hl
  have hc : Connected sd2.store sd2.start (follow sd2.store [false, true, false, false, false, false] sd2.start) :=
    follow_connected _ Connected.refl
  have three : lnext sd2.store (lnext sd2.store (lnext sd2.store
      (follow sd2.store [false, true, false, false, false, false] sd2.start))) =
        follow sd2.store [false, true, false, false, false, false] sd2.start := by
    rcases e2 with hT | hT <;>
    · obtain ⟨_, _, _, hf, _⟩ := hT.face _ hc
      exact hf.1.1
  have h0 := hl.1
  have h3 := hl.2.2.2.1
  rw [three, h0] at h3
  revert h3
  decide

/-- **C161**: a subdivision that is a triangulation of the frame, and a right index of its vertices; rounding
leaves its points and `p` and `q` as they are.
 * If `p` is not a point of the subdivision, or if `q` is not, `InsertConstraint` returns an error for it and
   changes nothing.
 * If there is an edge from `p` to `q`, it returns no error and changes nothing.
 * Otherwise let no point of the subdivision be between `p` and `q`.  Some edge is crossed.  If more than 21 are,
   there is an error and nothing is changed.  If one is, there is no error, the subdivision is again a
   triangulation of the frame with the same points, the index is right for it, and its edges are those that there
   were, but with the one from `p` to `q` in the place of the one crossed.
Missing for the full claim: from 2 to 21 edges crossed. -/
theorem C161_insert_partial (rnd : Pt K → Pt K) (yd : Bool) (a b c : Pt K) (sd : Subdiv K)
    (hT : Triangulates yd a b c sd) (hfr : sd.frame = (a, b, c))
    (hr : ∀ v, Vertex sd.store sd.start v → rnd v = v) (vx : VertexIndex K)
    (hF : Finds rnd sd.store (Connected sd.store sd.start) (viGet rnd vx)) (p q : Pt K) (hp : rnd p = p)
    (hq : rnd q = q) :
    (¬ Vertex sd.store sd.start p → insertConstraint rnd yd sd vx p q = some (some .start, sd, vx)) ∧
    (Vertex sd.store sd.start p → ¬ Vertex sd.store sd.start q →
      insertConstraint rnd yd sd vx p q = some (some .endd, sd, vx)) ∧
    (Joined sd.store sd.start p q → insertConstraint rnd yd sd vx p q = some (none, sd, vx)) ∧
    (Vertex sd.store sd.start p → Vertex sd.store sd.start q → p ≠ q → Clear sd.store sd.start p q →
      ¬ Joined sd.store sd.start p q →
      ∃ l, CrossedInOrder yd sd.store sd.start p q l ∧ l ≠ [] ∧
        (21 < l.length → insertConstraint rnd yd sd vx p q = some (some .loop, sd, vx)) ∧
        ∀ y, l = [y] → ∃ sd' vx', insertConstraint rnd yd sd vx p q = some (none, sd', vx') ∧
          sd'.frame = (a, b, c) ∧ Triangulates yd a b c sd' ∧
          Finds rnd sd'.store (Connected sd'.store sd'.start) (viGet rnd vx') ∧
          (∀ v, Vertex sd'.store sd'.start v ↔ Vertex sd.store sd.start v) ∧
          ∀ u w, Joined sd'.store sd'.start u w ↔
            (Joined sd.store sd.start u w ∧ ¬ (orig sd.store y = some u ∧ dest sd.store y = some w) ∧
              ¬ (orig sd.store y = some w ∧ dest sd.store y = some u)) ∨
            (u, w) = (p, q) ∨ (u, w) = (q, p)) := by
  obtain ⟨f0, f1, f2, hT, h3, h4⟩ : ∃ f0 f1 f2, Triangulated yd f0 f1 f2 sd.store sd.start ∧
      (∀ v, v = a ∨ v = b ∨ v = c → v = f0 ∨ v = f1 ∨ v = f2) ∧
      ∀ sd' : Subdiv K, Triangulated yd f0 f1 f2 sd'.store sd'.start → Triangulates yd a b c sd' := by
    rcases hT with hT | hT
    · exact ⟨_, _, _, hT, fun v h => h, fun _ h => Or.inl h⟩
    · exact ⟨_, _, _, hT, fun v h => by rcases h with h | h | h <;> simp [h], fun _ h => Or.inr h⟩
  obtain ⟨g1, g2, g3, g4⟩ := Lemmas.CrossInsert.insert_all (yd := yd) hT hr hfr h3 hF hp hq
  refine And.intro g1 (And.intro g2 (And.intro g3 fun v1 v2 hne hc hno => ?_))
  obtain ⟨l, k1, k2, k3, k4⟩ := g4 v1 v2 hne hc hno
  refine ⟨l, k1, k2, k3, fun y hy => ?_⟩
  obtain ⟨sd', vx', m1, _, m2, m3, m4, m5, m6⟩ := k4 y hy
  exact ⟨sd', vx', m1, m2.trans hfr, h4 sd' m3, m4, m5, m6⟩

/-- The points (0,0), (10,0), (5,3) and (5,-3): the segment from (0,0) to (10,0) crosses just the edge from (5,3) to
(5,-3), no point is on it, and inserting it gives the triangle (0,0), (10,0), (5,3). -/
example : let xs : List (Pt ℚ) := [(0, 0), (10, 0), (5, 3), (5, -3)]
    (∀ x ∈ xs, ¬ OnSegment x (-100, -100) (100, -100) ∧ ¬ OnSegment x (100, -100) (0, 150) ∧
      ¬ OnSegment x (0, 150) (-100, -100)) ∧
    ((newSub false ((-100 : ℚ), (-100 : ℚ)) (100, -100) (0, 150)).bind fun sd =>
      (insertAll false sd xs).map fun r => foundEnds false r.2 [false, false, true] [true, false, false, true]) =
      some [some (0, 0), some (10, 0), some (5, 3), some (5, -3)] ∧
    walkLeftOf ((-100, -100), (100, -100), (0, 150)) xs (0, 0) (10, 0) [false, false, true, false, false] =
      some [some (0, 0), some (10, 0), some (5, 3), some (0, 0)] ∧
    ∀ p : Pt ℚ, p = (-100, -100) ∨ p = (100, -100) ∨ p = (0, 150) ∨ p ∈ xs →
      ¬ ∃ t : ℚ, 0 < t ∧ t < 1 ∧ Spec.Resolve.AtParam p (0, 0) (10, 0) t := by
  refine ⟨?_, ?_, ?_, ?_⟩
  · simp only [← Verif.Planar.isPointOnLineSegment_iff]
    decide +kernel
  · rw [newSub_eq, if_pos (by decide +kernel)]
    decide +kernel
  · decide +kernel
  · rintro p hp ⟨t, t0, t1, h⟩
    unfold Spec.Resolve.AtParam at h
    have h1 : p.1 = t * 10 := by rw [h]; simp
    have h2 : p.2 = 0 := by rw [h]; simp
    simp only [List.mem_cons, List.not_mem_nil, or_false] at hp
    rcases hp with rfl | rfl | rfl | rfl | rfl | rfl | rfl <;> simp only at h1 h2 <;> linarith

/-- **C161**: what is asked for above holds after `New` and calls of `InsertSite` for points that are not on a side
of the frame, with the index made by `NewVertexIndex`. -/
theorem C161_sites (rnd : Pt K → Pt K) (yd : Bool) (a b c : Pt K) (sd : Subdiv K) (h : newSub yd a b c = some sd)
    (xs : List (Pt K)) (hx : ∀ x ∈ xs, ¬ OnSegment x a b ∧ ¬ OnSegment x b c ∧ ¬ OnSegment x c a) :
    ∃ rs sd' vx, insertAll yd sd xs = some (rs, sd') ∧ Triangulates yd a b c sd' ∧ sd'.frame = (a, b, c) ∧
      newVertexIndex rnd sd'.store sd'.start = some vx ∧
      Finds rnd sd'.store (Connected sd'.store sd'.start) (viGet rnd vx) := by
  obtain ⟨rs, sd', h1, _, _, hT, _⟩ := C134_accepts_partial yd a b c sd h xs hx
  have frame : sd'.frame = (a, b, c) := by
    rw [Lemmas.DelaunayPoints.insertAll_frame h1]
    rw [newSub_eq] at h
    split_ifs at h <;> rw [← Option.some.inj h]
  have hI : ∃ vx, newVertexIndex rnd sd'.store sd'.start = some vx ∧
      Finds rnd sd'.store (Connected sd'.store sd'.start) (viGet rnd vx) := by
    rcases hT with hT | hT <;>
    exact C131_new_index rnd sd'.store hT.reached sd'.start hT.primal hT.alloc (Lemmas.CrossInsert.net_of hT).orig
  obtain ⟨vx, h2, h3⟩ := hI
  exact ⟨rs, sd', vx, h1, hT, frame, h2, h3⟩

/-- Three points, one of them outside. -/
example : newSub false ((-100 : ℚ), (-100 : ℚ)) (100, -100) (0, 150) ≠ none ∧
    ∀ x ∈ [((2 : ℚ), (1 : ℚ)), (4, 3), (300, 300)], ¬ OnSegment x (-100, -100) (100, -100) ∧
      ¬ OnSegment x (100, -100) (0, 150) ∧ ¬ OnSegment x (0, 150) (-100, -100) := by
  refine ⟨?_, ?_⟩
  · rw [newSub_eq, if_pos (by decide +kernel)]; nofun
  · simp only [← Verif.Planar.isPointOnLineSegment_iff]
    decide +kernel

end Verif.Props
