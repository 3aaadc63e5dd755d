import Verif.Lemmas.WalkerNodup
import Mathlib.Data.List.Rotate
import Mathlib.Algebra.Order.Ring.Rat

/-!
# Cutting rings and untangling them

In exact arithmetic with exact comparison of coordinates.
-/

set_option linter.unusedSectionVars false

namespace Verif.Props
open Verif.Walker Verif.Spec.Walker
open Verif.Spec.Winding (area2)
open Verif.Simplify (Ctx)
open Verif.Lemmas.Walker (feqx)

variable {K : Type} [Field K] [LinearOrder K] [IsStrictOrderedRing K]

/-! ## C48 -/

/-- C48: `cut` from `s` up to `e` gives the run of places from `s` on, going round, up to but
without `e` (one place if they are the same), and leaves exactly the points at the other places, in
order. -/
theorem C48_cut {P : Type} (rng : List P) {s e : Nat} (hs : s < rng.length) (he : e ≤ rng.length) :
    ∃ sliver, cut rng s e = some (sliver, others rng s (runLength rng.length s e)) ∧
      sliver.length = runLength rng.length s e ∧
      ∀ k, k < sliver.length → sliver[k]? = rng[(s + k) % rng.length]? :=
  Lemmas.Walker.cut_spec rng hs he

example : (3 : Nat) < [10, 11, 12, 13].length ∧ (1 : Nat) ≤ [10, 11, 12, 13].length ∧
    cut [10, 11, 12, 13] 3 1 = some ([13, 10], [11, 12]) := by decide

/-- C48: the indices for which `cut` panics. -/
theorem C48_panics {P : Type} (rng : List P) (start stop : Int) : cut rng start stop = none ↔
    (start < 0 ∨ stop < 0 ∨ (rng.length : Int) ≤ start ∨ (rng.length : Int) < stop) :=
  Lemmas.Walker.cut_none rng start stop

example : cut [10, 11, 12, 13] 4 1 = none ∧ cut [10, 11, 12, 13] 0 4 ≠ none := by decide

/-! ## C105 -/

/-- C105: `PolygonForRing` never panics or goes on for ever, and returns nothing or rings of three
points or more, points of the given ring, each ring beginning with its leftmost point. -/
def C105_full : Prop :=
  ∀ (ctx : Ctx) (V : List (Pt ℚ)), polygonForRing (fun x y => decide (x = y)) ctx V = .nil ∨
    ∃ first others, polygonForRing (fun x y => decide (x = y)) ctx V = .poly (first :: others) ∧
      ∀ r ∈ first :: others, 3 ≤ r.length ∧ (∀ x ∈ r, x ∈ V) ∧ ∃ m, r.head? = some m ∧ LeftMost m r

/-- C105 for rings whose neighbours differ. -/
theorem C105_rings_partial (ctx : Ctx) (V : List (Pt K)) (hd : NeighboursDiffer V) :
    polygonForRing (fun x y => decide (x = y)) ctx V = .nil ∨
    ∃ first others, polygonForRing (fun x y => decide (x = y)) ctx V = .poly (first :: others) ∧
      ∀ r ∈ first :: others, 3 ≤ r.length ∧ (∀ x ∈ r, x ∈ V) ∧
        ∃ m, r.head? = some m ∧ LeftMost m r := by
  rcases Lemmas.Walker.polygonForRing_all ctx V with ⟨-, h⟩ | h | ⟨s, hs, h3, h⟩
  · exact absurd ((Lemmas.Walker.cyc_iff V).1 hd) h
  · exact Or.inl h
  · refine Or.inr ⟨_, _, h, ?_⟩
    intro r hr
    rcases List.mem_cons.1 hr with rfl | hr
    · refine ⟨by rw [Lemmas.Walker.length_rot]; exact h3, ?_, ?_⟩
      · intro x hx; exact hs.mem x ((Lemmas.Walker.mem_rot _ x).1 hx)
      · apply Lemmas.Walker.rot_head
        rintro h; rw [h] at h3; simp at h3
    · refine ⟨hs.three r hr, hs.hmem r hr, ?_⟩
      have h3 := hs.three r hr
      obtain ⟨l, rfl⟩ := hs.left r hr
      apply Lemmas.Walker.rot_head
      rintro rfl; rw [Lemmas.Walker.length_rot] at h3; simp at h3

/-- C105 without a context that ends: a ring of three points or more, none of them twice, comes
back as the only ring, only turned so that it begins with its leftmost point. -/
theorem C105_simple (ctx : Ctx) (hctx : ∀ n, ctx n = false) (V : List (Pt K)) (hV : V.Nodup)
    (h3 : 3 ≤ V.length) :
    ∃ r m, polygonForRing (fun x y => decide (x = y)) ctx V = .poly [r] ∧ r.IsRotated V ∧
      r.head? = some m ∧ LeftMost m r := by
  have hrot : ∀ l : List (Pt K), (rotateLeftMost l).IsRotated l := by
    intro l
    unfold rotateLeftMost
    have := List.IsRotated.symm (List.isRotated_append (l := l.take (minIdx l)) (l' := l.drop (minIdx l)))
    rwa [List.take_append_drop] at this
  obtain ⟨m, h1, h2⟩ := Lemmas.Walker.rot_head (rotateLeftMost V) (by
    intro h
    have := Lemmas.Walker.length_rot V
    rw [h] at this; simp at this; omega)
  exact ⟨_, m, Lemmas.Walker.polygonForRing_nodup ctx hctx V hV h3, (hrot _).trans (hrot _), h1, h2⟩

/-- A ring with a bubble at (2,2). -/
def bubble : List (Pt ℚ) := [(0, 0), (4, 0), (4, 4), (2, 2), (3, 1), (1, 1), (2, 2), (0, 4)]

instance {P : Type} [DecidableEq P] (l : List P) : Decidable (NeighboursDiffer l) :=
  decidable_of_iff (2 ≤ l.length → ∀ i < l.length, l[i]? ≠ l[(i + 1) % l.length]?)
    ⟨fun h i h2 hi => h h2 i hi, fun h h2 i hi => h i h2 hi⟩

example : NeighboursDiffer bubble ∧ polygonForRing (fun x y => decide (x = y)) (fun _ => false) bubble
    = .poly [[(0, 0), (4, 0), (4, 4), (2, 2), (0, 4)], [(1, 1), (2, 2), (3, 1)]] := by
  constructor
  · decide +kernel
  · decide +kernel

example : [((4, 0) : Pt ℚ), (4, 4), (0, 0)].Nodup ∧ 3 ≤ [((4, 0) : Pt ℚ), (4, 4), (0, 0)].length := by
  decide +kernel

/-- C105 does not hold in full: a ring whose last point repeats the first, the leftmost, panics. -/
theorem C105_violated : ¬ C105_full := by
  intro h
  have hp : polygonForRing (fun x y => decide (x = y)) (fun _ => false)
      [((0, 0) : Pt ℚ), (4, 0), (4, 4), (0, 0)] = .panic := by decide +kernel
  rcases h (fun _ => false) [(0, 0), (4, 0), (4, 4), (0, 0)] with h | ⟨_, _, h, -⟩ <;>
    rw [hp] at h <;> simp at h

/-! ## C106 -/

/-- C106: unless it was told to stop, `PolygonForRing` loses no area: the signed areas of the rings
add up to the signed area of the given ring (nothing, if nothing is returned). -/
def C106_full : Prop :=
  ∀ (V : List (Pt ℚ)), NeighboursDiffer V →
    (polygonForRing (fun x y => decide (x = y)) (fun _ => false) V = .nil → area2 V = 0) ∧
    ∀ rings, polygonForRing (fun x y => decide (x = y)) (fun _ => false) V = .poly rings →
      (rings.map area2).sum = area2 V

/-- C106 when rings are returned. -/
theorem C106_area_partial (ctx : Ctx) (V : List (Pt K)) (rings : List (List (Pt K)))
    (h : polygonForRing (fun x y => decide (x = y)) ctx V = .poly rings) :
    (rings.map area2).sum = area2 V := by
  rcases Lemmas.Walker.polygonForRing_all ctx V with ⟨h1, -⟩ | h1 | ⟨s, hs, -, h1⟩
  · have h1 : polygonForRing (fun x y => decide (x = y)) ctx V = .panic := h1
    rw [h1] at h; cases h
  · have h1 : polygonForRing (fun x y => decide (x = y)) ctx V = .nil := h1
    rw [h1] at h; cases h
  · have h1 : polygonForRing (fun x y => decide (x = y)) ctx V = .poly (rotateLeftMost s.rng :: s.holes) := h1
    rw [h1] at h
    cases h
    rw [List.map_cons, List.sum_cons, Lemmas.Walker.rot_area]
    exact hs.area

example : polygonForRing (fun x y => decide (x = y)) (fun _ => false) bubble
    = .poly [[(0, 0), (4, 0), (4, 4), (2, 2), (0, 4)], [(1, 1), (2, 2), (3, 1)]] ∧ area2 bubble = 22 := by
  constructor <;> decide +kernel

/-- C106 does not hold in full: a triangle with a spike to a point further left is lost. -/
theorem C106_violated : ¬ C106_full := by
  intro h
  have := (h [(0, 0), (1, 1), (5, 0), (5, 5), (1, 1)] (by decide +kernel)).1 (by decide +kernel)
  revert this
  decide +kernel

/-! ## C107 -/

/-- C107: no ring that `PolygonForRing` returns has a point twice. -/
def C107_full : Prop :=
  ∀ (ctx : Ctx) (V : List (Pt ℚ)) (rings : List (List (Pt ℚ))), NeighboursDiffer V →
    polygonForRing (fun x y => decide (x = y)) ctx V = .poly rings → ∀ r ∈ rings, r.Nodup

/-- C107 when no point comes more than twice and the leftmost point once. -/
theorem C107_nodup_partial (ctx : Ctx) (V : List (Pt K)) (rings : List (List (Pt K)))
    (h2 : ∀ q, V.count q ≤ 2) (h1 : ∀ m ∈ V, LeftMost m V → V.count m = 1)
    (h : polygonForRing (fun x y => decide (x = y)) ctx V = .poly rings) :
    ∀ r ∈ rings, r.Nodup := by
  rcases Lemmas.Walker.polygonForRing_once ctx V h2 h1 with h3 | ⟨rings', h3, h4⟩
  · have h3 : polygonForRing (fun x y => decide (x = y)) ctx V = .nil := h3
    rw [h3] at h; cases h
  · have h3 : polygonForRing (fun x y => decide (x = y)) ctx V = .poly rings' := h3
    rw [h3] at h; cases h; exact h4

/-- C107 when no point comes more than twice and the leftmost point once: it also does not panic,
whatever the neighbours. -/
theorem C107_no_panic (ctx : Ctx) (V : List (Pt K))
    (h2 : ∀ q, V.count q ≤ 2) (h1 : ∀ m ∈ V, LeftMost m V → V.count m = 1) :
    polygonForRing (fun x y => decide (x = y)) ctx V ≠ .panic := by
  rcases Lemmas.Walker.polygonForRing_once ctx V h2 h1 with h3 | ⟨rings', h3, -⟩
  all_goals
    intro h
    have h : polygonForRing feqx ctx V = .panic := h
    rw [h3] at h; cases h

example : (∀ q, bubble.count q ≤ 2) ∧ ∀ m ∈ bubble, LeftMost m bubble → bubble.count m = 1 := by
  constructor
  · intro q
    by_cases hq : q ∈ bubble
    · have : ∀ q ∈ bubble, bubble.count q ≤ 2 := by decide +kernel
      exact this q hq
    · rw [List.count_eq_zero_of_not_mem hq]; omega
  · unfold LeftMost; decide +kernel

/-- C107 does not hold in full: a point that comes three times is left twice. -/
theorem C107_violated : ¬ C107_full := by
  intro h
  have := h (fun _ => false)
    [(0, 0), (4, 0), (2, 2), (5, 1), (6, 2), (2, 2), (6, 3), (5, 4), (2, 2), (0, 4)]
    [[(0, 0), (4, 0), (2, 2), (6, 3), (5, 4), (2, 2), (0, 4)], [(2, 2), (5, 1), (6, 2)]]
    (by decide +kernel) (by decide +kernel)
    [(0, 0), (4, 0), (2, 2), (6, 3), (5, 4), (2, 2), (0, 4)] (by simp)
  revert this
  decide +kernel

end Verif.Props
