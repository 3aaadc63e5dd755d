import Verif.Lemmas.KdTree

/-!
# kd-tree: C39, C40, C84

Coordinates from any linear order (so not NaN).  Specification vocabulary:
`Verif/Spec/KdTree.lean`, `Verif/Spec/Planar.lean`.
-/

namespace Verif.Props
open Verif.KdTree Verif.Spec.KdTree
open Verif.Spec.Planar (eucl IsDistanceTo)

section Order
variable {K : Type} [LinearOrder K] {P : Type}

/-! ### C39: insertion -/

/-- **C39**.  Any sequence of inserts into an empty kd-tree answers as the set
of places does - each point is stored unless its place is taken, and then the
point already there is returned with the duplicate error - and the tree ends
up with exactly the points of that set, each once. -/
theorem C39_is_a_set (xy : P → Pt K) (ps : List P) :
    (insertAll xy .nil ps).2 = (setInsertAll xy [] ps).2 ∧
    (items (insertAll xy .nil ps).1).Perm (setInsertAll xy [] ps).1 ∧
    (items (insertAll xy .nil ps).1).Pairwise (fun a b => xy a ≠ xy b) := by
  obtain ⟨_, h2, h3, h4⟩ := insertAll_sim xy ps .nil [] trivial (by simp [items]) .nil
  exact ⟨h4, h2, (h2.pairwise_iff (fun h => Ne.symm h)).2 h3⟩

/-- **C39**, the structure: after any sequence of inserts every subtree lies
on its side of its splitting line, the lines alternate from x, and every
node's box is the bounding box of the points below it. -/
theorem C39_well_formed (xy : P → Pt K) (ps : List P) :
    WellFormed xy false (insertAll xy .nil ps).1 :=
  (insertAll_sim xy ps .nil [] trivial (by simp [items]) .nil).1

/-- **C39**, duplicates: after any sequence of inserts, inserting a point
whose place is taken leaves the whole tree as it was, boxes included, and a
point whose place is free is not reported as a duplicate. -/
theorem C39_duplicate (xy : P → Pt K) (ps : List P) (p : P) :
    let t := (insertAll xy .nil ps).1
    ((∃ q ∈ items t, xy q = xy p ∧ insert xy t p = (t, ⟨q, true⟩)) ∨
      ((∀ q ∈ items t, xy q ≠ xy p) ∧ (insert xy t p).2 = ⟨p, false⟩ ∧
        (items (insert xy t p).1).Perm (p :: items t))) :=
  (insertAt_spec xy _ false p (C39_well_formed xy ps)).2

end Order

/-- Two labels at (1,1): the second insert is refused and returns the first. -/
example : (insertAll (K := Int) (fun p : Pt Int × String => p.1) .nil
    [((1, 1), "a"), ((0, 2), "b"), ((1, 1), "c")]).2 =
    [⟨((1, 1), "a"), false⟩, ⟨((0, 2), "b"), false⟩, ⟨((1, 1), "a"), true⟩] := by decide

/-! ### C40: nearest-neighbour iteration -/

section Iter
variable {K P D : Type} [LinearOrder K] [LinearOrder D]

/-- **C40**.  For a kd-tree made by any inserts and any distance function
that never rates a box farther than a point in it: however the two heaps
break ties, running the iterator to its end yields every stored point exactly
once, with its distance, in non-decreasing order of distance. -/
theorem C40_sorted_complete (xy : P → Pt K) (df : Box K → D) (hdf : LowerBound df)
    (ps : List P) (out : List (P × D))
    (h : Drain xy df (start xy df (insertAll xy .nil ps).1) out) :
    out.Perm ((items (insertAll xy .nil ps).1).map (fun p => (p, df (.ofPt (xy p))))) ∧
    out.Pairwise (fun a b => a.2 ≤ b.2) := by
  obtain ⟨h1, h2⟩ := drain_spec hdf h (start_ok hdf (C39_well_formed xy ps))
  exact ⟨h1.trans (start_pending _), h2⟩

/-- **C40**, it ends: whatever the heaps do, only finitely many passes of the
loop in `Next` are possible from any iterator state. -/
theorem C40_terminates (xy : P → Pt K) (df : Box K → D) :
    WellFounded (fun s' s : It K P D => Tick xy df s s') := tick_wf xy df

/-- **C40**, it never gets stuck: every iterator over such a tree can be run
to its end. -/
theorem C40_runs (xy : P → Pt K) (df : Box K → D) (hdf : LowerBound df) (ps : List P) :
    ∃ out, Drain xy df (start xy df (insertAll xy .nil ps).1) out :=
  drain_total hdf _ _ (start_ok hdf (C39_well_formed xy ps)) rfl

/-- **C40**, after the end: an exhausted iterator keeps returning false. -/
theorem C40_end_is_final (xy : P → Pt K) (df : Box K → D) (s s' : It K P D)
    (h : Next xy df s none s') (o : Option (P × D)) (s'' : It K P D)
    (h' : Next xy df s' o s'') : o = none := by
  have : s' = ⟨[], []⟩ := by
    clear h'
    generalize ho : (none : Option (P × D)) = o at h
    induction h with
    | done => rfl
    | yield => cases ho
    | expand _ _ _ _ ih => exact ih ho
  subst this
  cases h' with
  | done => rfl
  | yield hn _ => exact absurd rfl hn.1
  | expand hne => exact absurd ⟨rfl, rfl⟩ hne

end Iter

/-- **C40** with `EuclideanDistance` (over the reals): the iterator yields the
stored points by increasing distance from the query point. -/
theorem C40_euclidean {P : Type} (xy : P → Pt ℝ) (q : Pt ℝ) (ps : List P) (out : List (P × ℝ))
    (h : Drain xy (euclideanDistance q)
      (start xy (euclideanDistance q) (insertAll xy .nil ps).1) out) :
    out.Perm ((items (insertAll xy .nil ps).1).map (fun p => (p, eucl q (xy p)))) ∧
    out.Pairwise (fun a b => a.2 ≤ b.2) := by
  have := C40_sorted_complete xy (euclideanDistance q) (euclid_lower q) ps out h
  simpa only [euclideanDistance_pt] using this

/-- The L1 distance to a box never exceeds the distance to a point in it. -/
example : LowerBound (fun e : Box Int =>
    max 0 (max (e.minx - 3) (3 - e.maxx)) + max 0 (max (e.miny - 4) (4 - e.maxy))) := by
  rintro e p ⟨⟨h1, h2⟩, ⟨h3, h4⟩⟩
  simp only [Box.ofPt]
  omega
/-- And the iterator over three points can be run to its end. -/
example : ∃ out, Drain (fun p : Pt ℝ => p) (euclideanDistance (0, 0))
    (start (fun p : Pt ℝ => p) (euclideanDistance (0, 0))
      (insertAll (fun p : Pt ℝ => p) .nil [(3, 4), (1, 1), (5, 0)]).1) out :=
  C40_runs _ _ (euclid_lower _) _

/-! ### C84: distance from a point to an extent -/

/-- **C84** (over the reals).  `EuclideanDistance` is the least distance from
the point to a point of the extent. -/
theorem C84_distance_to_extent (p : Pt ℝ) (e : Box ℝ) (hx : e.minx ≤ e.maxx)
    (hy : e.miny ≤ e.maxy) : IsDistanceTo (euclideanDistance p e) p (InBox e) :=
  euclideanDistance_spec p e hx hy

example : euclideanDistance (0, 0) ⟨3, 4, 10, 10⟩ = 5 := by
  have h : eucl (0, 0) (3, 4) = 5 := by
    unfold eucl
    rw [show ((0:ℝ) - 3) ^ 2 + (0 - 4) ^ 2 = 5 ^ 2 by norm_num]
    exact Real.sqrt_sq (by norm_num)
  rw [← h, ← distance_eq]
  simp [euclideanDistance, Box.containsPoint]

end Verif.Props
