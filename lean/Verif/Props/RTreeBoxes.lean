import Verif.Lemmas.RTreeBoxes
import Verif.Props.RTree

/-!
# C199: the boxes of an R-tree
-/

namespace Verif.Props
open Verif.RTree Verif.RTreeSpec Verif.Lemmas.RTree

variable {K : Type} [LinearOrder K] {d : Nat} {Obj : Type} [DecidableEq Obj]

/-- **C199**: the boxes of a tree come in one layer less than the tree is high.  A layer puts all stored objects into
groups, and has the smallest box around each group. -/
theorem C199_layers (A : Arith K d) (bounds : Obj → Rect K d) (t : Tree K d Obj) (bag : List Obj)
    (h : Reaches A bounds t bag) : Layers bounds bag (t.height - 1) (allBoundingBoxes t) := by
  obtain ⟨l, h1, h2, h3⟩ := (reaches_holds h).1
  obtain ⟨L, p, q⟩ := layers_node bounds l t.root h2
  unfold allBoundingBoxes
  rw [h1, Nat.add_sub_cancel]
  exact ⟨L, p, fun k hk => ⟨(q k hk).1.trans h3, (q k hk).2⟩⟩

/-- **C199**: so in a tree with more than one level every stored object lies in a box, and every box is the smallest
around some of the stored objects; a tree with one level has no boxes. -/
theorem C199_boxes (A : Arith K d) (bounds : Obj → Rect K d) (t : Tree K d Obj) (bag : List Obj)
    (h : Reaches A bounds t bag) :
    (t.height = 1 → allBoundingBoxes t = []) ∧
    (1 < t.height → ∀ o ∈ bag, ∃ r ∈ allBoundingBoxes t, Encloses r (bounds o)) ∧
    ∀ r ∈ allBoundingBoxes t, ∃ os, os ⊆ bag ∧ TightAround bounds r os := by
  obtain ⟨L, p, q⟩ := C199_layers A bounds t bag h
  refine ⟨fun h1 => ?_, fun h1 o ho => ?_, fun r hr => ?_⟩
  · rw [h1] at p
    exact p.eq_nil
  · have h0 : 0 < t.height - 1 := by omega
    obtain ⟨g, hg, hm⟩ := List.mem_flatMap.1 ((q 0 h0).1.mem_iff.2 ho)
    refine ⟨g.1, p.mem_iff.2 (List.mem_flatMap.2 ⟨0, List.mem_range.2 h0, List.mem_map_of_mem hg⟩), ?_⟩
    exact ((q 0 h0).2 g hg).2.1 o hm
  · obtain ⟨k, hk, hr⟩ := List.mem_flatMap.1 (p.mem_iff.1 hr)
    obtain ⟨g, hg, rfl⟩ := List.mem_map.1 hr
    have hk := List.mem_range.1 hk
    exact ⟨g.2, fun o ho => (q k hk).1.mem_iff.1 (List.mem_flatMap.2 ⟨g, hg, ho⟩), (q k hk).2 g hg⟩

/-- Non-vacuous: nine objects in a tree of three levels, and its boxes. -/
example : ∃ t ans, run (exact 1) exBounds (empty 1 3) ((List.range 9).map Op.insert) = some (t, ans) ∧
    Reaches (exact 1) exBounds t (stored [] ((List.range 9).map Op.insert)) ∧ t.height = 3 ∧
    (allBoundingBoxes t).map (fun r => r 0) =
      [(0, 11), (20, 31), (0, 31), (60, 81), (40, 51), (40, 81)] := by
  have h : (run (exact 1) exBounds (empty 1 3) ((List.range 9).map Op.insert)).isSome = true := by decide +kernel
  obtain ⟨⟨t, ans⟩, h1⟩ := Option.isSome_iff_exists.1 h
  have get : ∀ {α : Type} (f : Tree Int 1 Nat × List Bool → α) (a : α),
      (run (exact 1) exBounds (empty 1 3) ((List.range 9).map Op.insert)).map f = some a → f (t, ans) = a := by
    intro α f a h
    rw [h1] at h
    exact Option.some.inj h
  exact ⟨t, ans, h1, .history 1 3 _ t ans h1, get (·.1.height) 3 (by decide +kernel),
    get (fun x => (allBoundingBoxes x.1).map fun r => r 0) _ (by decide +kernel)⟩

end Verif.Props
