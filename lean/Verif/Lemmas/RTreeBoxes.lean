import Verif.Model.RTreeBoxes
import Verif.Spec.RTreeBoxes
import Verif.Lemmas.RTree

/-!
# Lemmas on the boxes of an R-tree
-/

namespace Verif.Lemmas.RTree
open Verif.RTree Verif.RTreeSpec

variable {K : Type} [LinearOrder K] {d : Nat} {Obj : Type}

theorem least_bb {a b r : Rect K d} (h1 : Cont r a) (h2 : Cont r b) : Cont r (boundingBox a b) := by
  intro i
  unfold boundingBox
  constructor
  · simp only
    split_ifs
    all_goals first | exact (h1 i).1 | exact (h2 i).1
  · simp only
    split_ifs
    all_goals first | exact (h1 i).2 | exact (h2 i).2

theorem least_foldl : ∀ (rs : List (Rect K d)) (a r : Rect K d), Cont r a → (∀ s ∈ rs, Cont r s) →
    Cont r (rs.foldl boundingBox a)
  | [], _, _, h, _ => h
  | x :: xs, a, r, h, h' =>
    least_foldl xs _ r (least_bb h (h' x (by simp))) fun s hs => h' s (by simp [hs])

theorem least_boundingBoxN {rs : List (Rect K d)} {r r' : Rect K d} (h : boundingBoxN rs = some r)
    (h' : ∀ s ∈ rs, Cont r' s) : Cont r' r := by
  match rs, h with
  | [x], h =>
    simp only [boundingBoxN, Option.some.injEq] at h
    subst h
    exact h' _ (by simp)
  | x :: y :: rs, h =>
    simp only [boundingBoxN, Option.some.injEq] at h
    subst h
    exact least_foldl rs _ _ (least_bb (h' x (by simp)) (h' y (by simp))) fun s hs => h' s (by simp [hs])

theorem tight_items (bounds : Obj → Rect K d) : ∀ (l : Nat) (n : Node K d Obj) (r : Rect K d), Wf bounds l n →
    BoxOf bounds r n → TightAround bounds r (items l n)
  | 0, n, r, ⟨o, ho⟩, hb => by
    subst ho
    have hb' : r = bounds o := hb
    subst hb'
    exact ⟨by simp [items], by simp [items]; exact Cont.refl _, fun r' h => h o (by simp [items])⟩
  | l + 1, n, r, ⟨es, he, hw⟩, hb => by
    subst he
    have hb' : bbOf es = some r := hb
    have ih : ∀ e ∈ es, TightAround bounds e.1 (items l e.2) := fun e he => tight_items bounds l e.2 e.1 (hw e he).1 (hw e he).2
    have hm : ∀ {o}, o ∈ items (l + 1) (.mk es) ↔ ∃ e ∈ es, o ∈ items l e.2 := by
      intro o
      rw [items_mk, itemsEs, List.mem_flatMap]
    refine ⟨?_, ?_, ?_⟩
    · obtain ⟨e, he⟩ := List.exists_mem_of_ne_nil _ (bbOf_ne_nil hb')
      obtain ⟨o, ho⟩ := List.exists_mem_of_ne_nil _ (ih e he).1
      exact List.ne_nil_of_mem (hm.2 ⟨e, he, ho⟩)
    · intro o ho
      obtain ⟨e, he, ho⟩ := hm.1 ho
      have h1 : Cont r e.1 := cont_boundingBoxN hb' e.1 (List.mem_map_of_mem he)
      exact h1.trans ((ih e he).2.1 o ho)
    · intro r' h
      refine least_boundingBoxN (K := K) hb' ?_
      intro s hs
      obtain ⟨e, he, rfl⟩ := List.mem_map.1 hs
      exact (ih e he).2.2 r' fun o ho => h o (hm.2 ⟨e, he, ho⟩)

theorem boxesLoop_eq (bounds : Obj → Rect K d) (rec : Node K d Obj → List (Rect K d)) (l : Nat) :
    ∀ (es : List (Entry K d Obj)) (rects : List (Rect K d)), (∀ e ∈ es, Wf bounds (l + 1) e.2) →
      boxesLoop rec es rects = rects ++ es.flatMap fun e => rec e.2 ++ [e.1]
  | [], rects, _ => by simp [boxesLoop]
  | e :: es, rects, h => by
    obtain ⟨es', he, _⟩ := h e (by simp)
    unfold boxesLoop
    rw [he]
    simp only
    rw [boxesLoop_eq bounds rec l es _ fun e' h' => h e' (by simp [h'])]
    simp [he, List.append_assoc]

/-- The boxes of the nodes below, for a list of entries. -/
theorem layers_entries (bounds : Obj → Rect K d) (l : Nat)
    (ih : ∀ n : Node K d Obj, Wf bounds (l + 1) n → Layers bounds (items (l + 1) n) l (nodeBoxes (l + 1) n)) :
    ∀ es : List (Entry K d Obj), WfEs bounds (l + 1) es →
      Layers bounds (itemsEs (l + 1) es) l (es.flatMap fun e => nodeBoxes (l + 1) e.2)
  | [], _ => ⟨fun _ => [], by simp, fun k _ => ⟨by simp [itemsEs], by simp⟩⟩
  | e :: es, h => by
    obtain ⟨L1, p1, q1⟩ := ih e.2 (h e (by simp)).1
    obtain ⟨L2, p2, q2⟩ := layers_entries bounds l ih es fun e' h' => h e' (by simp [h'])
    refine ⟨fun k => L1 k ++ L2 k, ?_, fun k hk => ⟨?_, ?_⟩⟩
    · rw [List.flatMap_cons]
      simp only [List.map_append]
      exact (p1.append p2).trans (List.flatMap_append_perm _ _ _)
    · rw [List.flatMap_append]
      have e1 : itemsEs (l + 1) (e :: es) = items (l + 1) e.2 ++ itemsEs (l + 1) es := by
        simp [itemsEs]
      rw [e1]
      exact (q1 k hk).1.append (q2 k hk).1
    · intro g hg
      rcases List.mem_append.1 hg with hg | hg
      · exact (q1 k hk).2 g hg
      · exact (q2 k hk).2 g hg

theorem layers_node (bounds : Obj → Rect K d) : ∀ (l : Nat) (n : Node K d Obj), Wf bounds (l + 1) n →
    Layers bounds (items (l + 1) n) l (nodeBoxes (l + 1) n)
  | 0, n, _ => ⟨fun _ => [], by simp [nodeBoxes], fun k hk => absurd hk (by omega)⟩
  | l + 1, n, h => by
    obtain ⟨es, rfl, hw⟩ := h
    obtain ⟨L, p, q⟩ := layers_entries bounds l (layers_node bounds l) es hw
    have e1 : nodeBoxes (l + 1 + 1) (.mk es) = es.flatMap fun e => nodeBoxes (l + 1) e.2 ++ [e.1] := by
      rw [nodeBoxes, if_neg (by omega)]
      exact boxesLoop_eq bounds _ l es [] (fun e he => (hw e he).1)
    refine ⟨fun k => if k < l then L k else es.map fun e => (e.1, items (l + 1) e.2), ?_, fun k hk => ?_⟩
    · rw [e1, List.range_succ, List.flatMap_append]
      have e2 : ((List.range l).flatMap fun k =>
          ((if k < l then L k else es.map fun e => (e.1, items (l + 1) e.2)).map Prod.fst)) =
          (List.range l).flatMap fun k => (L k).map Prod.fst := by
        refine List.flatMap_congr fun k hk => ?_
        rw [if_pos (List.mem_range.1 hk)]
      rw [e2]
      refine (List.flatMap_append_perm _ _ _).symm.trans (p.append ?_)
      simp [Function.comp_def]
      exact List.Perm.of_eq List.map_eq_flatMap.symm
    · by_cases hl : k < l
      · simp only [if_pos hl]
        exact q k hl
      · simp only [if_neg hl]
        refine ⟨?_, ?_⟩
        · rw [items_mk, itemsEs, List.flatMap_map]
        · intro g hg
          obtain ⟨e, he, rfl⟩ := List.mem_map.1 hg
          exact tight_items bounds (l + 1) e.2 e.1 (hw e he).1 (hw e he).2

end Verif.Lemmas.RTree
