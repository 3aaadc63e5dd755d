import Verif.Lemmas.Cmp
import Verif.Spec.FloatSlice

namespace Verif.Cmp
open Verif Verif.Spec.Cmp Verif.Spec.Extent

theorem float_sorted {s : List F64 → List F64} (hs : SortsOn num (fun a b => a.lt b = true) s) {l : List F64}
    (hl : ∀ f ∈ l, num f) :
    (s l).Perm l ∧ (∀ f ∈ s l, num f) ∧ (s l).Pairwise (fun a b => a.key ≤ b.key) := by
  obtain ⟨h1, h2⟩ := hs l hl
  have hm : ∀ f ∈ s l, num f := fun f hf => hl f (h1.mem_iff.1 hf)
  refine ⟨h1, hm, h2.imp_of_mem ?_⟩
  intro a b ha hb h
  have na := hm a ha
  have nb := hm b hb
  simp only [num] at na nb
  simp only [F64.lt_iff, na, nb, true_and] at h
  omega

theorem float_sorts_agree {s t : List F64 → List F64} (hs : SortsOn num (fun a b => a.lt b = true) s)
    (ht : SortsOn num (fun a b => a.lt b = true) t) {l l' : List F64} (hl : ∀ f ∈ l, num f) (hp : l.Perm l') :
    List.Forall₂ (fun a b => a.eq b = true) (s l) (t l') := by
  obtain ⟨a1, a2, a3⟩ := float_sorted hs hl
  obtain ⟨b1, b2, b3⟩ := float_sorted ht (l := l') (fun f h => hl f (hp.mem_iff.2 h))
  have e := sorted_unique F64.key _ _ (a1.trans (hp.trans b1.symm)) a3 b3
  refine (forall₂_mem (forall₂_of_map_eq F64.key _ _ e) a2 b2).imp ?_
  intro a b ⟨h, ha, hb⟩
  exact F64.eq_iff.2 ⟨ha, hb, h⟩

/-- If sorted lists can be paired off, each with its partner, then so can they in
order, for relations that allow partners to be exchanged. -/
theorem pair_sorted {α : Type} (k : α → Int) (R : α → α → Prop) (ok : α → Prop)
    (hx : ∀ a a' b b', ok a → ok a' → ok b → ok b' → k a ≤ k a' → k b ≤ k b' → R a b' → R a' b → R a b ∧ R a' b') :
    ∀ (as bs : List α), (∀ a ∈ as, ok a) → (∀ b ∈ bs, ok b) → as.Pairwise (fun a b => k a ≤ k b) →
      bs.Pairwise (fun a b => k a ≤ k b) → ∀ cs : List α, cs.Perm bs → List.Forall₂ R as cs → List.Forall₂ R as bs
  | [], bs, _, _, _, _, cs, hp, hf => by
    cases hf
    rw [List.nil_perm] at hp
    subst hp; exact .nil
  | a :: as, bs, ha, hb, sa, sb, cs, hp, hf => by
    cases hf with
    | @cons _ c _ cs r1 r2 =>
      cases bs with
      | nil => exact absurd hp.length_eq (by simp)
      | cons b bs =>
        rw [List.pairwise_cons] at sa sb
        have hbm : b ∈ c :: cs := hp.mem_iff.2 (by simp)
        have rest : ∀ ds : List α, ds.Perm bs → List.Forall₂ R as ds → List.Forall₂ R as bs :=
          pair_sorted k R ok hx as bs (fun x h => ha x (by simp [h])) (fun x h => hb x (by simp [h])) sa.2 sb.2
        obtain ⟨x, y, he⟩ := List.append_of_mem hbm
        cases x with
        | nil =>
          simp only [List.nil_append, List.cons.injEq] at he
          obtain ⟨rfl, rfl⟩ := he
          exact .cons r1 (rest cs (List.perm_cons _ |>.1 hp) r2)
        | cons c' x =>
          simp only [List.cons_append, List.cons.injEq] at he
          obtain ⟨rfl, rfl⟩ := he
          obtain ⟨as1, as2, q1, q2, rfl⟩ : ∃ as1 as2, List.Forall₂ R as1 x ∧ List.Forall₂ R as2 (b :: y) ∧
              as = as1 ++ as2 :=
            ⟨_, _, List.forall₂_take_append _ _ _ r2, List.forall₂_drop_append _ _ _ r2, (List.take_append_drop _ _).symm⟩
          cases q2 with
          | @cons a' _ as2 _ r3 r4 =>
            have hc : c ∈ b :: bs := hp.mem_iff.1 (by simp)
            have hle : k b ≤ k c := by
              rcases List.mem_cons.1 hc with rfl | h
              · exact Int.le_refl _
              · exact sb.1 c h
            obtain ⟨e1, e2⟩ := hx a a' b c (ha a (by simp)) (ha a' (by simp)) (hb b (by simp)) (hb c hc)
              (sa.1 a' (by simp)) hle r1 r3
            refine .cons e1 (rest (x ++ c :: y) ?_ ?_)
            · have h1 : (c :: (x ++ b :: y)).Perm (b :: (x ++ c :: y)) := by
                refine (List.Perm.cons c List.perm_middle).trans ((List.Perm.swap b c _).trans ?_)
                exact List.Perm.cons b List.perm_middle.symm
              exact (List.perm_cons b).1 (h1.symm.trans hp)
            · exact List.rel_append q1 (.cons e2 r4)

theorem floatSlice_iff (c : Compare) (s : List F64 → List F64) (hs : SortsFloats s)
    (a b : List F64) (ha : ∀ f ∈ a, num f) (hb : ∀ f ∈ b, num f) :
    c.floatSlice s a b = true ↔ List.Forall₂ (fun x y => c.float x y = true) (s a) (s b) := by
  have p1 := (hs a ha).1
  have p2 := (hs b hb).1
  unfold Compare.floatSlice
  split
  · rename_i hl
    refine ⟨fun h => (by cases h), fun h => ?_⟩
    have := h.length_eq
    rw [p1.length_eq, p2.length_eq] at this
    exact absurd this hl
  · rename_i hl
    simp only [ne_eq, Decidable.not_not] at hl
    split
    · rename_i h0
      have e1 := List.length_eq_zero_iff.1 h0
      have e2 := List.length_eq_zero_iff.1 (hl ▸ h0)
      subst e1 e2
      rw [List.perm_nil.1 p1]
      exact ⟨fun _ => .nil, fun _ => rfl⟩
    · exact allPairs_iff _ _ _ (by rw [p1.length_eq, p2.length_eq, hl])

end Verif.Cmp
