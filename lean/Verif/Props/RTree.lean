/-
Properties of the R-tree: C41, C42, C86.
-/
import Verif.Model.RTreeShared
import Verif.Spec.RTree
import Verif.Lemmas.RTree

namespace Verif.Props

open Verif.RTree Verif.RTreeSpec

section
variable {K : Type} [LinearOrder K] {d : Nat} {Obj : Type} [DecidableEq Obj]

/-! ## C41: search returns exactly the overlapping objects -/

/-- **C41**, part: whenever a history of inserts and deletes on an empty tree
runs to its end, or a tree is made from a list of objects by `NewTree` (bulk
load included) and objects are deleted from it, the tree acts as the bag of
objects: a search finds exactly the stored objects that overlap the query, each
once per insertion, and `Size` is their number.  Missing from the full claim:
calls can panic, and inserts into a bulk-loaded tree corrupt it. -/
theorem C41_search_exact_partial (A : Arith K d) (bounds : Obj → Rect K d) (t : Tree K d Obj)
    (bag : List Obj) (h : Reaches A bounds t bag) : ActsAs bounds t bag :=
  ⟨search_holds bounds t bag (reaches_holds h).1, (reaches_holds h).2⟩

/-- **C41**, part: the answers of `Delete` say whether the object was stored. -/
theorem C41_delete_answers_partial (A : Arith K d) (bounds : Obj → Rect K d) (min max : Nat)
    (ops : List (Op Obj)) (t : Tree K d Obj) (ans : List Bool)
    (h : run A bounds (empty min max) ops = some (t, ans)) : ans = answers [] ops :=
  (run_spec A bounds ops _ _ _ [] (holds_empty bounds min max) rfl h).2.2

/-- **C41**, part: inserts alone never panic, as long as no enlargement
overflows and nodes may have a child. -/
theorem C41_inserts_partial (A : Arith K d) (hA : FiniteSizes A) (bounds : Obj → Rect K d)
    (min max : Nat) (hmax : 1 ≤ max) (objs : List Obj) :
    ∃ t ans, run A bounds (empty min max) (objs.map Op.insert) = some (t, ans) ∧
      ActsAs bounds t objs := by
  obtain ⟨⟨t, ans⟩, h⟩ := run_inserts_isSome A hA bounds objs (empty min max) []
    (holds_empty bounds min max) hmax (Or.inl rfl)
  refine ⟨t, ans, h, ?_⟩
  have hr := reaches_holds (Reaches.history min max _ t ans h)
  have hp : (stored [] (objs.map Op.insert)).Perm objs := by simpa using stored_inserts objs []
  exact ⟨search_holds bounds t objs (hr.1.perm hp), by rw [hr.2, hp.length_eq]⟩

/-- **C41**, part: `NewTree` never panics and the tree it makes acts as the bag
of the objects given, whatever height and number of slices the bulk load works
out and however its sorts order equal keys. -/
theorem C41_new_tree_partial (A : Arith K d) (hA : FiniteSizes A) (bounds : Obj → Rect K d)
    (min max h S : Nat) (hmax : 1 ≤ max) (hh : 1 ≤ h)
    (sort : Nat → List (Entry K d Obj) → List (Entry K d Obj))
    (hsort : ∀ l es, (sort l es).Perm es) (objs : List Obj) :
    ∃ t, newTree bounds A min max sort h S objs = some t ∧ ActsAs bounds t objs := by
  obtain ⟨t, ht⟩ := newTree_isSome A hA bounds min max hmax sort hsort h S hh objs
  obtain ⟨h1, h2⟩ := newTree_spec A bounds min max hmax sort hsort h S hh objs t ht
  exact ⟨t, ht, search_holds bounds t objs h1, h2⟩

end

/-- Sizes are finite in exact arithmetic. -/
theorem exact_finite (d : Nat) : FiniteSizes (exact d) := fun _ _ => rfl

/-- Boxes `[10 n, 10 n + 1]` on a line. -/
def exBounds (n : Nat) : Rect Int 1 := fun _ => (10 * n, 10 * n + 1)

/-- Nine inserts, two deletes (one of them of something that is not there) and
a search. -/
example : (run (exact 1) exBounds (empty 2 3)
      ((List.range 9).map Op.insert ++ [.delete 4, .delete 44])).map
      (fun r => (search r.1 (fun _ => (15, 62)) [], r.1.size, r.1.height, r.2)) =
    some ([2, 3, 5, 6], 8, 3, [true, false]) := by
  decide +kernel

/-- A bulk load of nine objects. -/
example : (newTree exBounds (exact 1) 2 5 (fun _ es => es) 2 1 (List.range 9)).map
      (fun t => (search t (fun _ => (15, 62)) [], t.size, t.height)) =
    some ([2, 3, 4, 5, 6], 9, 2) := by
  decide +kernel

/-- The full claim: every history on an empty tree runs to its end, and the
tree and the answers are right, for reasonable node sizes and exact arithmetic. -/
def C41_full : Prop :=
  ∀ (d : Nat) (bounds : Nat → Rect Int d) (min max : Nat), 2 ≤ min → 2 * min ≤ max + 1 →
  ∀ ops : List (Op Nat), ∃ t ans, run (exact d) bounds (empty min max) ops = some (t, ans) ∧
    ActsAs bounds t (stored [] ops) ∧ ans = answers [] ops

/-- **C41** is violated: after nine inserts and the deletion of all nine objects
in some order the root is an inner node without children, and the next `Insert`
dereferences a nil node. -/
theorem C41_violated : ¬ C41_full := by
  intro h
  obtain ⟨t, ans, h, _⟩ := h 1 exBounds 2 3 (by decide) (by decide)
    ((List.range 9).map Op.insert ++ [8, 7, 2, 6, 0, 5, 3, 1, 4].map Op.delete ++ [.insert 0])
  have : (run (exact 1) exBounds (empty 2 3)
    ((List.range 9).map Op.insert ++ [8, 7, 2, 6, 0, 5, 3, 1, 4].map Op.delete ++
      [.insert 0])).isNone = true := by decide +kernel
  rw [h] at this
  simp at this

/-- The full claim for bulk-loaded trees: an insert (that overflows no leaf)
adds the object. -/
def C41_bulk_insert_full : Prop :=
  ∀ (d : Nat) (bounds : Nat → Rect Int d) (min max h S : Nat),
  2 ≤ min → 2 * min ≤ max + 1 → 1 ≤ h →
  ∀ (sort : Nat → List (Entry Int d Nat) → List (Entry Int d Nat)),
  (∀ l es, (sort l es).Perm es) →
  ∀ (objs : List Nat) (o : Nat) (t t' : STree Int d Nat), objs.length > max →
  sBulkLoad bounds min max sort h S objs = some t → sInsert (exact d) bounds t o = some t' →
  ActsAs bounds t'.seen (o :: objs)

/-- **C41** is violated by a bulk load followed by an insert: the leaves are
slices of one array, and appending to a leaf overwrites the first object of the
next.  Here six objects are loaded and a seventh is inserted: object 3 is lost
and the new object is found twice. -/
theorem C41_bulk_insert_violated : ¬ C41_bulk_insert_full := by
  intro h
  have key : ((sBulkLoad exBounds 2 5 (fun _ es => es) 2 1 (List.range 6)).bind
      fun t => (sInsert (exact 1) (fun n => exBounds (n % 10)) t 10).map
        fun t' => search t'.seen (fun _ => (-100, 100)) []) = some [0, 1, 2, 10, 10, 4, 5] := by
    decide +kernel
  have hb : sBulkLoad exBounds 2 5 (fun _ es => es) 2 1 (List.range 6) =
      sBulkLoad (fun n => exBounds (n % 10)) 2 5 (fun _ es => es) 2 1 (List.range 6) := rfl
  rw [hb, Option.bind_eq_some_iff] at key
  obtain ⟨t, ht, key⟩ := key
  rw [Option.map_eq_some_iff] at key
  obtain ⟨t', ht', key⟩ := key
  have := (h 1 (fun n => exBounds (n % 10)) 2 5 2 1 (by decide) (by decide) (by decide)
    (fun _ es => es) (fun _ _ => List.Perm.refl _) (List.range 6) 10 t t' (by decide) ht ht').1
    (fun _ => (-100, 100))
  rw [key] at this
  have h3 : 3 ∈ [0, 1, 2, 10, 10, 4, 5] := by
    apply this.symm.subset
    rw [List.mem_filter]
    exact ⟨by decide, by decide +kernel⟩
  exact absurd h3 (by decide)

/-- The bulk-loaded tree itself reads as it should. -/
example : (sBulkLoad exBounds 2 5 (fun _ es => es) 2 1 (List.range 6)).map
      (fun t => search t.seen (fun _ => (-100, 100)) []) = some [0, 1, 2, 3, 4, 5] := by
  decide +kernel

/-- The size counts all seven objects, also the lost one. -/
example : ((sBulkLoad exBounds 2 5 (fun _ es => es) 2 1 (List.range 6)).bind
      fun t => (sInsert (exact 1) (fun n => exBounds (n % 10)) t 10).map fun t' => (t.size, t'.size)) =
    some (6, 7) := by
  decide +kernel

section
variable {K : Type} [LinearOrder K] {d : Nat} {Obj : Type} [DecidableEq Obj]

/-! ## C42: limit search -/

/-- **C42**: `SearchIntersectWithLimit` returns the first `k` of the results of
`SearchIntersect`, all of them if `k` is negative. -/
theorem C42_limit_is_prefix (A : Arith K d) (bounds : Obj → Rect K d) (t : Tree K d Obj)
    (bag : List Obj) (h : Reaches A bounds t bag) (k : Int) (q : Rect K d) :
    searchWithLimit t k q =
      if k < 0 then search t q [] else (search t q []).take k.toNat := by
  unfold searchWithLimit
  split
  · rfl
  · obtain ⟨n, rfl⟩ : ∃ n : Nat, k = n := ⟨k.toNat, by omega⟩
    exact search_limit_holds bounds t bag (reaches_holds h).1 q n

/-- **C42**: at most `k` objects, all of them stored and overlapping (none more
often than stored), and `k` of them if that many overlap. -/
theorem C42_limit_bounded (A : Arith K d) (bounds : Obj → Rect K d) (t : Tree K d Obj)
    (bag : List Obj) (h : Reaches A bounds t bag) (k : Nat) (q : Rect K d) :
    (searchWithLimit t k q).length =
      min k (bag.filter fun o => decide (Overlap (bounds o) q)).length ∧
    (searchWithLimit t k q).Subperm (bag.filter fun o => decide (Overlap (bounds o) q)) := by
  have hp := search_holds bounds t bag (reaches_holds h).1 q
  rw [C42_limit_is_prefix A bounds t bag h k q, if_neg (by omega), Int.toNat_natCast]
  refine ⟨?_, ?_⟩
  · rw [List.length_take, hp.length_eq]
  · exact (List.take_sublist _ _).subperm.trans hp.subperm

/-! ## C86: filters -/

/-- **C86**, part: with filters that never abort, a search returns what the
documentation says: the overlapping objects in order, less the refused ones. -/
theorem C86_filters_partial (A : Arith K d) (bounds : Obj → Rect K d) (t : Tree K d Obj)
    (bag : List Obj) (h : Reaches A bounds t bag) (q : Rect K d) (fs : List (Filter Obj))
    (hna : ∀ f ∈ fs, ∀ results o, (f results o).2 = false) :
    search t q fs = scan fs (search t q []) [] :=
  search_eq_filter bounds t bag (reaches_holds h).1 q fs hna

end

/-- A limited search over two leaves. -/
example : (run (exact 1) exBounds (empty 2 3) ((List.range 9).map Op.insert)).map
      (fun r => (searchWithLimit r.1 3 (fun _ => (15, 62)), searchWithLimit r.1 0 (fun _ => (15, 62)),
        searchWithLimit r.1 (-1) (fun _ => (15, 62)))) =
    some ([2, 3, 6], [], [2, 3, 6, 4, 5]) := by
  decide +kernel

/-- A filter that refuses odd objects. -/
example : (run (exact 1) exBounds (empty 2 3) ((List.range 9).map Op.insert)).map
      (fun r => search r.1 (fun _ => (15, 62)) [fun _ o => (decide (o % 2 = 1), false)]) =
    some [2, 6, 4] := by
  decide +kernel

/-- The full claim: an abort ends the search. -/
def C86_full : Prop :=
  ∀ (d : Nat) (bounds : Nat → Rect Int d) (t : Tree Int d Nat) (bag : List Nat),
  Reaches (exact d) bounds t bag → ∀ (q : Rect Int d) (fs : List (Filter Nat)),
  search t q fs = scan fs (search t q []) []

/-- **C86** is violated: an abort only ends the loop over the current leaf.  A
filter that takes the first object and aborts yields one object per leaf. -/
theorem C86_violated : ¬ C86_full := by
  intro h
  have key : ((run (exact 1) exBounds (empty 2 3) ((List.range 9).map Op.insert)).map fun r =>
      (search r.1 (fun _ => (15, 62)) [fun _ _ => (false, true)],
        scan [fun _ _ => (false, true)] (search r.1 (fun _ => (15, 62)) []) [])) =
      some ([2, 6, 4], [2]) := by decide +kernel
  rw [Option.map_eq_some_iff] at key
  obtain ⟨⟨t, ans⟩, hr, key⟩ := key
  have := h 1 exBounds t _ (Reaches.history 2 3 _ t ans hr) (fun _ => (15, 62))
    [fun _ _ => (false, true)]
  simp only [Prod.mk.injEq] at key
  rw [key.1, key.2] at this
  exact absurd this (by decide)

end Verif.Props
