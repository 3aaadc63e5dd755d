/-
Specification vocabulary for the R-tree: what a bag of objects that is inserted
into, deleted from and searched is expected to do.
-/
import Verif.Model.RTree
import Mathlib.Algebra.Order.Ring.Int

namespace Verif.RTreeSpec

open Verif.RTree (Rect Tree Arith)

variable {K : Type} [LinearOrder K] {d : Nat} {Obj : Type}

/-- Two boxes overlap: in every dimension the open intervals have a common part
(boxes that only touch do not overlap). -/
def Overlap (a b : Rect K d) : Prop := ∀ i, (a i).1 < (b i).2 ∧ (b i).1 < (a i).2

instance (a b : Rect K d) : Decidable (Overlap a b) :=
  inferInstanceAs (Decidable (∀ i, (a i).1 < (b i).2 ∧ (b i).1 < (a i).2))

/-- A call that changes the tree. -/
inductive Op (Obj : Type) where
  | insert (o : Obj)
  | delete (o : Obj)

section bag
variable [DecidableEq Obj]

/-- The bag of objects after a history of calls, starting from `bag`. -/
def stored (bag : List Obj) : List (Op Obj) → List Obj
  | [] => bag
  | .insert o :: ops => stored (o :: bag) ops
  | .delete o :: ops => stored (bag.erase o) ops

/-- The answers of the `Delete` calls of a history: whether the object was in
the bag. -/
def answers (bag : List Obj) : List (Op Obj) → List Bool
  | [] => []
  | .insert o :: ops => answers (o :: bag) ops
  | .delete o :: ops => decide (o ∈ bag) :: answers (bag.erase o) ops

/-- Run a history on the modelled tree: `none` if some call panics, otherwise
the tree at the end and the answers of the `Delete` calls. -/
def run (A : Arith K d) (bounds : Obj → Rect K d) :
    Tree K d Obj → List (Op Obj) → Option (Tree K d Obj × List Bool)
  | t, [] => some (t, [])
  | t, .insert o :: ops => do
    let t' ← RTree.insert A bounds t o
    run A bounds t' ops
  | t, .delete o :: ops => do
    let r ← RTree.delete A bounds t o
    let r' ← run A bounds r.1 ops
    some (r'.1, r.2 :: r'.2)

/-- A tree acts as the bag: a search finds exactly the objects of the bag that
overlap the query, each as often as it is in the bag, and `Size` is the number
of objects in the bag. -/
def ActsAs (bounds : Obj → Rect K d) (t : Tree K d Obj) (bag : List Obj) : Prop :=
  (∀ q, (RTree.search t q []).Perm (bag.filter fun o => decide (Overlap (bounds o) q))) ∧
  t.size = bag.length

end bag

/-- All enlargements that `Insert` compares are finite: smaller than
`math.MaxFloat64`. -/
def FiniteSizes (A : Arith K d) : Prop :=
  ∀ r1 r2 : Rect K d,
    A.lt (A.sub (A.size (RTree.boundingBox r1 r2)) (A.size r1)) A.maxFloat = true

/-- Exact arithmetic: the measure is the product of the side lengths, and
`math.MaxFloat64` (here `none`) is above everything. -/
def exact (d : Nat) : Arith Int d where
  F := Option Int
  size r := some ((List.ofFn fun i => (r i).2 - (r i).1).foldl (· * ·) 1)
  sub a b := a.bind fun a => b.map fun b => a - b
  abs a := a.map fun a => (a.natAbs : Int)
  lt
    | some a, some b => decide (a < b)
    | some _, none => true
    | none, _ => false
  eq a b := decide (a = b)
  maxFloat := none
  negOne := some (-1)
  zero := some 0

section reach
variable [DecidableEq Obj]

/-- The trees the theorems are about, with the bag they stand for: any history
of calls on an empty tree, or a tree made by `NewTree` from a list of objects
(by single inserts or by a bulk load, with any height, any number of slices and
any reordering by the sorts) followed by deletes. -/
inductive Reaches (A : Arith K d) (bounds : Obj → Rect K d) : Tree K d Obj → List Obj → Prop
  | history (min max : Nat) (ops : List (Op Obj)) (t : Tree K d Obj) (ans : List Bool) :
      run A bounds (RTree.empty min max) ops = some (t, ans) →
      Reaches A bounds t (stored [] ops)
  | loaded (min max h S : Nat)
      (sort : Nat → List (RTree.Entry K d Obj) → List (RTree.Entry K d Obj))
      (objs dels : List Obj) (t0 t : Tree K d Obj) (ans : List Bool) :
      1 ≤ max → 1 ≤ h → (∀ l es, (sort l es).Perm es) →
      RTree.newTree bounds A min max sort h S objs = some t0 →
      run A bounds t0 (dels.map Op.delete) = some (t, ans) →
      Reaches A bounds t (stored objs (dels.map Op.delete))

end reach

/-- What filters are documented to do, on the overlapping objects in the order
the tree yields them: a refused object is left out, and an abort ends the
search with the results so far.  (A filter that refuses or aborts hides the
filters after it.) -/
def scan (fs : List (RTree.Filter Obj)) : List Obj → List Obj → List Obj
  | [], results => results
  | o :: os, results =>
    match fs.find? fun f => (f results o).1 || (f results o).2 with
    | none => scan fs os (results ++ [o])
    | some f =>
      let results' := if (f results o).1 then results else results ++ [o]
      if (f results o).2 then results' else scan fs os results'

end Verif.RTreeSpec
