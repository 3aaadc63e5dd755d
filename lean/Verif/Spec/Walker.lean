import Verif.Spec.Winding

/-!
# What cutting and untangling rings is for
-/

namespace Verif.Spec.Walker

/-- Place `i` of a ring of `len` points is among the `n` places from `start` on, going round. -/
def InRun (len start n i : Nat) : Prop := ∃ k < n, (start + k) % len = i

instance (len start n i : Nat) : Decidable (InRun len start n i) :=
  inferInstanceAs (Decidable (∃ k < n, (start + k) % len = i))

/-- How many places there are from `start` up to but without `stop`, going round; one if they are
the same. -/
def runLength (len start stop : Nat) : Nat :=
  if start < stop then stop - start else if stop < start then (len - start) + stop else 1

/-- The points of the ring whose places are not in the run, in order. -/
def others {P : Type} (rng : List P) (start n : Nat) : List P :=
  (rng.zipIdx.filter (fun x => decide (¬ InRun rng.length start n x.2))).map (·.1)

/-- Neighbours in the ring (the last point and the first are neighbours) are different. -/
def NeighboursDiffer {P : Type} (rng : List P) : Prop :=
  ∀ i, 2 ≤ rng.length → i < rng.length → rng[i]? ≠ rng[(i + 1) % rng.length]?

/-- `p` comes before every other point: further left, or as far left and lower. -/
def LeftMost {K : Type} [LT K] (p : K × K) (ps : List (K × K)) : Prop :=
  ∀ q ∈ ps, q = p ∨ p.1 < q.1 ∨ (p.1 = q.1 ∧ p.2 < q.2)

end Verif.Spec.Walker
