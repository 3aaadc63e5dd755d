/-
Properties of nearest neighbour searches in the R-tree, C88 and C89.
-/
import Verif.Lemmas.RTreeOcc
import Verif.Props.RTree
import Mathlib.Data.List.Sort
import Mathlib.Tactic.NormNum

namespace Verif.Props

open Verif.RTree Verif.RTreeSpec

section
variable {K : Type} [Field K] [LinearOrder K] [IsStrictOrderedRing K] {d : Nat}
variable {Obj : Type} [DecidableEq Obj]

/-! ## C88: the nearest neighbour -/

/-- **C88**: in every tree reached by calls, over objects with proper boxes,
`NearestNeighbor` returns nothing only if nothing is stored, and otherwise a
stored object such that no stored object is nearer.  The pruning of branches
never loses the nearest one. -/
theorem C88_nearest (A : Arith K d) (bounds : Obj → Rect K d)
    (hv : ∀ o i, (bounds o i).1 ≤ (bounds o i).2) (t : Tree K d Obj) (bag : List Obj)
    (h : Reaches A bounds t bag) (p : Fin d → K)
    (sort : List (Entry K d Obj) → List (Entry K d Obj)) (hsort : SortsByDist p sort) :
    (nearest p sort t = none ↔ bag = []) ∧
    ∀ o, nearest p sort t = some o →
      o ∈ bag ∧ ∀ o' ∈ bag, NoFarther p (bounds o) (bounds o') := by
  obtain ⟨⟨l, hl, hw, hp⟩, _⟩ := reaches_holds h
  have hs := nearestNeighbor_spec bounds hv p sort (fun es => (hsort es).1) l t.root (none, none) hw
  unfold nearest
  rw [hl]
  rcases hs with ⟨he, hno⟩ | ⟨o, ho, he, _, hmin⟩
  · rw [he]
    have hnil : items (l + 1) t.root = [] := by
      rw [List.eq_nil_iff_forall_not_mem]
      intro o ho
      have := hno o ho
      simp [ltTop] at this
    rw [hnil] at hp
    have hb : bag = [] := List.nil_perm.1 hp
    exact ⟨by simp [hb], by simp⟩
  · rw [he]
    refine ⟨⟨by simp, ?_⟩, ?_⟩
    · rintro rfl
      have := hp.subset ho
      simp at this
    · intro u hu
      simp only [Option.some.injEq] at hu
      subst hu
      refine ⟨hp.subset ho, ?_⟩
      intro o' ho'
      exact (noFarther_iff p _ _ (hv o) (hv o')).2 (hmin o' (hp.symm.subset ho'))

/-! ## C89: the k nearest neighbours -/

/-- **C89**, part: in every tree reached by calls, whatever `NearestNeighbors`
returns is a list of the `k` nearest of the objects no filter refuses, nearest
first. -/
theorem C89_k_nearest_partial (A : Arith K d) (bounds : Obj → Rect K d)
    (hv : ∀ o i, (bounds o i).1 ≤ (bounds o i).2) (t : Tree K d Obj) (bag : List Obj)
    (h : Reaches A bounds t bag) (p : Fin d → K) (k : Nat) (refused : List (Obj → Bool))
    (sort : List (Entry K d Obj) → List (Entry K d Obj)) (hsort : SortsByDist p sort)
    (res : List Obj)
    (hres : kNearest k p (refused.map fun q _ o => (q o, false)) sort t = some res) :
    KNearest bounds p k res (notRefused refused bag) :=
  kNearest_of_holds bounds hv t bag (reaches_holds h).1 p k refused sort hsort res hres

/-- **C89**, part: after any history of inserts and deletes, asking for at least
one neighbour does not panic: the preallocated buffers are long enough, because
no node ever has more than `MaxChildren` entries. -/
theorem C89_no_panic_partial (A : Arith K d) (bounds : Obj → Rect K d)
    (hv : ∀ o i, (bounds o i).1 ≤ (bounds o i).2) (min max : Nat) (hmax : 2 ≤ max)
    (ops : List (Op Obj)) (t : Tree K d Obj) (ans : List Bool)
    (h : run A bounds (empty min max) ops = some (t, ans)) (p : Fin d → K) (k : Nat) (hk : 1 ≤ k)
    (refused : List (Obj → Bool)) (sort : List (Entry K d Obj) → List (Entry K d Obj))
    (hsort : SortsByDist p sort) :
    ∃ res, kNearest k p (refused.map fun q _ o => (q o, false)) sort t = some res ∧
      KNearest bounds p k res (notRefused refused (stored [] ops)) := by
  have hr := (reaches_holds (Reaches.history min max ops t ans h)).1
  obtain ⟨res, hres⟩ := kNearest_isSome bounds hv t _ hr
    (run_occ A bounds ops _ t ans (occ_empty min max hmax) h) p k hk refused sort hsort
  exact ⟨res, hres, kNearest_of_holds bounds hv t _ hr p k refused sort hsort res hres⟩

/-- **C89**, part: the same for a tree made from a list of objects and then
deleted from, if the height the bulk load computes is enough for the objects. -/
theorem C89_no_panic_loaded_partial (A : Arith K d) (bounds : Obj → Rect K d)
    (hv : ∀ o i, (bounds o i).1 ≤ (bounds o i).2) (min max : Nat) (hmax : 2 ≤ max)
    (srt : Nat → List (Entry K d Obj) → List (Entry K d Obj))
    (hsrt : ∀ l es, (srt l es).Perm es) (h S : Nat) (hh : 1 ≤ h) (objs dels : List Obj)
    (hlen : objs.length ≤ max ^ h) (t0 t : Tree K d Obj) (ans : List Bool)
    (ht0 : newTree bounds A min max srt h S objs = some t0)
    (ht : run A bounds t0 (dels.map Op.delete) = some (t, ans)) (p : Fin d → K) (k : Nat)
    (hk : 1 ≤ k) (refused : List (Obj → Bool))
    (sort : List (Entry K d Obj) → List (Entry K d Obj)) (hsort : SortsByDist p sort) :
    ∃ res, kNearest k p (refused.map fun q _ o => (q o, false)) sort t = some res ∧
      KNearest bounds p k res (notRefused refused (stored objs (dels.map Op.delete))) := by
  have hr := (reaches_holds (Reaches.loaded (A := A) min max h S srt objs dels t0 t ans (by omega)
    hh hsrt ht0 ht)).1
  obtain ⟨res, hres⟩ := kNearest_isSome bounds hv t _ hr
    (run_occ A bounds _ t0 t ans
      (newTree_occ A bounds min max hmax srt hsrt h S hh objs hlen t0 ht0) ht)
    p k hk refused sort hsort
  exact ⟨res, hres, kNearest_of_holds bounds hv t _ hr p k refused sort hsort res hres⟩

omit [DecidableEq Obj] in
/-- **C89**, part: in a tree that is one leaf, when a filter aborts at an object the search ends there: the answer is
the one for the objects before it, whatever comes after. -/
theorem C89_abort_partial (min max : Nat) (size size' : Int) (k : Nat) (p : Fin d → K) (stop : Obj → Bool)
    (sort : List (Entry K d Obj) → List (Entry K d Obj)) (before : List (Rect K d × Obj)) (b : Rect K d) (o : Obj)
    (after : List (Entry K d Obj)) (hk : before.length < k) (ho : stop o = true)
    (hb : ∀ x ∈ before, stop x.2 = false) :
    kNearest k p [fun _ o => (false, stop o)] sort
        ⟨min, max, .mk (before.map (fun x => (x.1, Node.obj x.2)) ++ (b, .obj o) :: after), size, 1⟩ =
      kNearest k p [] sort ⟨min, max, .mk (before.map fun x => (x.1, Node.obj x.2)), size', 1⟩ := by
  have h := knnLeaf_abort k p stop b o after ho before [] (by simpa using hk) hb
  simp only [kNearest, nearestNeighbors, if_true, Option.map_some, Node.entries, Nat.zero_add]
  rw [h]

end

/-- Exact measures on one axis. -/
def exLine : Arith ℚ 1 where
  F := Option ℚ
  size r := some ((r 0).2 - (r 0).1)
  sub a b := a.bind fun a => b.map fun b => a - b
  abs a := a.map fun a => if a < 0 then -a else a
  lt
    | some a, some b => decide (a < b)
    | some _, none => true
    | none, _ => false
  eq a b := decide (a = b)
  maxFloat := none
  negOne := some (-1)
  zero := some 0

/-- Boxes in a row on a line. -/
def exRow (n : Nat) : Rect ℚ 1 := fun _ => (10 * n, 10 * n + 1)

/-- Sort entries on a line by distance. -/
def exSort (p : Fin 1 → ℚ) (es : List (Entry ℚ 1 Nat)) : List (Entry ℚ 1 Nat) :=
  es.insertionSort fun a b => minDist p a.1 ≤ minDist p b.1

example (o : Nat) (i : Fin 1) : (exRow o i).1 ≤ (exRow o i).2 := by
  simp [exRow]

/-- Nine boxes inserted and one deleted, in a tree of height three: the nearest
to 42, the three nearest to 42, and the three nearest with an even number. -/
example : ((run exLine exRow (empty 2 3)
      ((List.range 9).map Op.insert ++ [Op.delete 4])).map fun r =>
      (r.1.height, nearest (fun _ => 42) (exSort fun _ => 42) r.1,
        kNearest 3 (fun _ => 42) [] (exSort fun _ => 42) r.1,
        kNearest 3 (fun _ => 42) ([fun o => decide (o % 2 = 1)].map fun q _ o => (q o, false))
          (exSort fun _ => 42) r.1)) =
    some (3, some 5, some [5, 3, 6], some [6, 2, 8]) := by
  decide +kernel

/-- Non-vacuous: of four boxes the third aborts the search, and the fourth, which is the nearest, is not seen. -/
example : kNearest 3 (fun _ => 42) [fun _ o => (false, decide (o = 7))] (exSort fun _ => 42)
    ⟨2, 5, .mk ([(exRow 1, 1), (exRow 2, 2)].map (fun x => (x.1, Node.obj x.2)) ++ (exRow 7, .obj 7) ::
      [(exRow 4, .obj 4)]), 4, 1⟩ = some [2, 1] :=
  (C89_abort_partial 2 5 4 2 3 (fun _ => 42) (fun o => decide (o = 7)) (exSort fun _ => 42)
    [(exRow 1, 1), (exRow 2, 2)] (exRow 7) 7 [(exRow 4, .obj 4)] (by decide) (by decide) (by decide)).trans
    (by decide +kernel)

/-- The full claim: `NearestNeighbors` answers for every number of neighbours
asked for, also none. -/
def C89_full : Prop :=
  ∀ (d : Nat) (A : Arith ℚ d) (bounds : Nat → Rect ℚ d),
  (∀ o i, (bounds o i).1 ≤ (bounds o i).2) →
  ∀ (min max : Nat), 2 ≤ max → ∀ (ops : List (Op Nat)) (t : Tree ℚ d Nat) (ans : List Bool),
  run A bounds (empty min max) ops = some (t, ans) →
  ∀ (p : Fin d → ℚ) (k : Nat) (sort : List (Entry ℚ d Nat) → List (Entry ℚ d Nat)),
  SortsByDist p sort →
  ∃ res, kNearest k p [] sort t = some res ∧ KNearest bounds p k res (stored [] ops)

/-- **C89** is violated: asked for no neighbours, a tree of more than one level
panics on `dists[-1]`. -/
theorem C89_violated : ¬ C89_full := by
  intro h
  have key : ((run exLine exRow (empty 2 3) ((List.range 4).map Op.insert)).map fun r =>
      kNearest 0 (fun _ => 0) [] (exSort fun _ => 0) r.1) = some none := by decide +kernel
  rw [Option.map_eq_some_iff] at key
  obtain ⟨⟨t, ans⟩, hr, key⟩ := key
  obtain ⟨res, hres, _⟩ := h 1 exLine exRow (by intro o i; simp [exRow]) 2 3 (by omega) _ t ans hr
    (fun _ => 0) 0 (exSort fun _ => 0) (insertionSort_sorts _)
  rw [key] at hres
  simp at hres

end Verif.Props
