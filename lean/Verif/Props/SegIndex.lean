/-
Properties of the segment index, C87, and point in ring with the index, C85.
-/
import Verif.Lemmas.SegIndex
import Verif.Props.Intersect
import Mathlib.Tactic.NormNum

namespace Verif.Props

open Verif.RTree (Rect Tree Arith Entry)
open Verif.RTreeSpec (FiniteSizes)
open Verif.Planar (Line)
open Verif.Intersect
open Verif.Spec.Planar Verif.Spec.Intersect Verif.Spec.SegIndex
open Verif.SegIndex (newIndex searchIdxs)

section
variable {K : Type} [Field K] [LinearOrder K] [IsStrictOrderedRing K]

/-! ## C87: the segment index -/

/-- **C87**: an index over at least two segments is always built, whatever the
float64 arithmetic of the tree does, and a search returns in increasing order
exactly the segments whose boxes come within `smallep` of the box of the given
segment, less those some filter refuses. -/
theorem C87_index_exact (A : Arith K 2) (hA : FiniteSizes A)
    (sort : Nat → List (Entry K 2 Nat) → List (Entry K 2 Nat))
    (hsort : ∀ l es, (sort l es).Perm es) (h S : Nat) (hh : 1 ≤ h) (eps : K)
    (segs : List (Line K)) (hlen : 2 ≤ segs.length) :
    ∃ t, newIndex A sort h S eps segs = some t ∧
      ∀ (seg : Line K) (refused : List (Nat → Bool)),
        let r := searchIdxs eps (some t) seg (refused.map fun p _ j => (p j, false))
        r.Pairwise (· < ·) ∧
        ∀ i, i ∈ r ↔ (∃ s, segs[i]? = some s ∧ Near eps s seg) ∧ ∀ p ∈ refused, p i = false := by
  obtain ⟨t, ht⟩ := SegIndex.newIndex_isSome A hA sort hsort h S hh eps segs hlen
  exact ⟨t, ht, fun seg ps => SegIndex.searchIdxs_spec eps segs t
    (SegIndex.newIndex_holds A sort hsort h S hh eps segs t ht) seg ps⟩

/-- **C87**: so a search without filters finds every segment that has a point in
common with the given one, each once. -/
theorem C87_finds_all_meeting (A : Arith K 2)
    (sort : Nat → List (Entry K 2 Nat) → List (Entry K 2 Nat))
    (hsort : ∀ l es, (sort l es).Perm es) (h S : Nat) (hh : 1 ≤ h) (eps : K) (heps : 0 < eps)
    (segs : List (Line K)) (t : Tree K 2 Nat) (ht : newIndex A sort h S eps segs = some t)
    (seg : Line K) : Candidates segs seg (searchIdxs eps (some t) seg []) :=
  SegIndex.candidates eps heps segs t
    (SegIndex.newIndex_holds A sort hsort h S hh eps segs t ht) seg

omit [IsStrictOrderedRing K] in
/-- An index with fewer than two segments is nil, and finds nothing. -/
theorem C87_small (A : Arith K 2) (sort : Nat → List (Entry K 2 Nat) → List (Entry K 2 Nat))
    (h S : Nat) (eps : K) (segs : List (Line K)) (hlen : segs.length < 2) (seg : Line K)
    (fs : List SegIndex.SegFilter) :
    searchIdxs eps (newIndex A sort h S eps segs) seg fs = [] := by
  unfold newIndex
  rw [if_pos (by omega)]
  rfl

open Classical in
/-- **C85**, rings with an index (more than 16 segments): `ContainsPoint`
follows the even-odd rule with the candidates the index gives. -/
theorem C85_even_odd_indexed (peq : Pt K → Pt K → Bool) (hpeq : ∀ a b, peq a b = true ↔ a = b)
    (includeBorder : Bool) (pts : List (Pt K)) (pt : Pt K) (A : Arith K 2)
    (sort : Nat → List (Entry K 2 Nat) → List (Entry K 2 Nat))
    (hsort : ∀ l es, (sort l es).Perm es) (h S : Nat) (hh : 1 ≤ h) (eps : K) (heps : 0 < eps)
    (t : Tree K 2 Nat) (ht : newIndex A sort h S eps (ringSegs pts) = some t) :
    ringContains peq includeBorder (ringSegs pts)
        (searchIdxs eps (some t) (ray (ringSegs pts) pt) []) pt =
      if OnBorder (ringSegs pts) pt then includeBorder
      else decide (InsideEvenOdd (ringSegs pts) pt) :=
  C85_even_odd peq hpeq includeBorder pts _ pt
    (C87_finds_all_meeting A sort hsort h S hh eps heps _ t ht _)

end

/-- Measures that never overflow. -/
def exArith : Arith ℚ 2 where
  F := Option ℚ
  size r := some (((r 0).2 - (r 0).1) * ((r 1).2 - (r 1).1))
  sub a b := a.bind fun a => b.map fun b => a - b
  abs a := a.map fun a => if a < 0 then -a else a
  lt
    | some a, some b => decide (a < b)
    | some _, none => true
    | none, _ => false
  eq a b := decide (a = b)
  maxFloat := none
  negOne := some (-1)
  zero := some 0

example : FiniteSizes exArith := fun _ _ => rfl

/-- Seven segments, the diagonals of unit squares in a row: the index finds
those touching a segment. -/
example :
    let segs : List (Line ℚ) := (List.range 7).map fun (n : Nat) => (((n : ℚ), 0), ((n : ℚ) + 1, 1))
    ((newIndex exArith (fun _ es => es.reverse) 2 1 (1 / 100000) segs).map fun t =>
      (searchIdxs (1 / 100000) (some t) ((2, 1), (4, 2)) [],
        searchIdxs (1 / 100000) (some t) ((2, 1), (4, 2)) [fun _ i => (decide (i = 2), false)])) =
    some ([1, 2, 3, 4], [1, 3, 4]) := by
  decide +kernel

end Verif.Props
