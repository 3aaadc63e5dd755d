import Verif.Lemmas.WalkerRing
import Verif.Props.Winding

/-! Helper lemmas for `MultiPolygon`. -/

set_option linter.unusedSectionVars false

namespace Verif.Lemmas.Walker
open Verif.Walker Verif.Spec.Walker
open Verif.Spec.Winding (area2 cross)
open Verif.Winding (rectifyPolygon)
open Verif.Simplify (Ctx)
open Verif.Shapes (Triangle)

variable {K : Type} [Field K] [LinearOrder K] [IsStrictOrderedRing K]

/-- What a walk that is not stopped marks. -/
theorem walk_group {ts : List (Triangle K)} {idx : Nat} {seen0 : List Nat} {σ : K} {s : RSt K} {wk : List Nat}
    (hI : RInv ts idx seen0 σ s wk) (hend : s.cidxs = []) (h2 : AtMostTwo ts)
    (h0 : ∀ j ∈ seen0, Linked ts idx j → j = idx) (j : Nat) : j ∈ wk ↔ Linked ts idx j := by
  refine ⟨hI.linked j, fun hl => ?_⟩
  obtain ⟨D, R, C, f, hrng, hhead, hcid, hf, hpend, hcov⟩ := hI.shape
  have hC : C = [] := by rw [hend] at hcid; simpa using hcid.symm
  have hR : R = [] := by
    have := pend_len R f C hpend
    rw [hC] at this; simpa using this
  subst hC hR
  have hl' : Relation.ReflTransGen (Share ts) idx j := hl
  induction hl' with
  | refl => exact hI.start
  | @tail b c hb hbc ih =>
    have hbw := ih hb
    obtain ⟨t, u, p, q, ht, hu, het, heu⟩ := hbc
    rcases hcov h2 b hbw t ht p q het with h | h | h
    · simp [pendEdges] at h
    · simp [pendEdges] at h
    · have := h c u hu heu
      rw [hI.seen] at this
      rcases List.mem_append.1 this with h | h
      · exact h
      · rw [h0 c h hl]; exact hI.start

theorem abs_turn (b : Bool) (r : List (Pt K)) : |area2 (Spec.Winding.turn b r)| = |area2 r| := by
  unfold Spec.Winding.turn
  split
  · rfl
  · rw [Winding.area2_reverse, abs_neg]

theorem sum_map_neg' {β : Type} (l : List β) (g : β → K) : (l.map (fun x => - g x)).sum = - (l.map g).sum := by
  induction l with
  | nil => simp
  | cons a l ih => simp [ih]; ring

/-- Rectifying keeps the area of a polygon. -/
theorem net_rectify (yd : Bool) (f : List (Pt K)) (os : List (List (Pt K)))
    (hle : (os.map (fun h => |area2 h|)).sum ≤ |area2 f|) :
    net2 (rectifyPolygon yd (f :: os)) = |area2 f| - (os.map (fun h => |area2 h|)).sum := by
  rw [Props.C32_rectify, Props.rectified]
  have hnn : 0 ≤ (os.map (fun h => |area2 h|)).sum := by
    apply List.sum_nonneg
    intro x hx
    obtain ⟨h, -, rfl⟩ := List.mem_map.1 hx
    exact abs_nonneg _
  by_cases h : area2 f = 0
  · rw [if_pos h]
    rw [h, abs_zero] at hle ⊢
    rw [net2]; linarith
  · rw [if_neg h, net2, abs_turn]
    congr 1
    clear hle hnn h
    induction os with
    | nil => rfl
    | cons o os ih =>
      by_cases ho : area2 o = 0
      · rw [List.filter_cons_of_neg (by simpa using ho), ih]; simp [ho]
      · rw [List.filter_cons_of_pos (by simpa using ho)]
        simp only [List.map_cons, List.sum_cons, abs_turn]
        rw [ih]

/-- The first ring turned one way and the others the other way, and not larger together. -/
theorem net_signed (f : List (Pt K)) (os : List (List (Pt K))) (hop : ∀ o ∈ os, area2 f * area2 o ≤ 0)
    (hle : (os.map (fun h => |area2 h|)).sum ≤ |area2 f|) :
    |((f :: os).map area2).sum| = |area2 f| - (os.map (fun h => |area2 h|)).sum := by
  have hz : area2 f = 0 → ∀ o ∈ os, area2 o = 0 := by
    intro hf o ho
    rw [hf, abs_zero] at hle
    have h1 : |area2 o| ≤ (os.map (fun h => |area2 h|)).sum := by
      apply List.single_le_sum
      · intro x hx
        obtain ⟨h, -, rfl⟩ := List.mem_map.1 hx
        exact abs_nonneg _
      · exact List.mem_map.2 ⟨o, ho, rfl⟩
    exact abs_nonpos_iff.1 (h1.trans hle)
  rw [List.map_cons, List.sum_cons]
  rcases lt_trichotomy (area2 f) 0 with hf | hf | hf
  · have hs : (os.map area2).sum = (os.map (fun h => |area2 h|)).sum := by
      congr 1
      apply List.map_congr_left
      intro o ho
      have := hop o ho
      rw [abs_of_nonneg]
      by_contra hc
      have := mul_pos_of_neg_of_neg hf (not_le.1 hc)
      linarith
    rw [hs, abs_of_nonpos, abs_of_neg hf]
    · ring
    · rw [abs_of_neg hf] at hle; linarith
  · have : ∀ o ∈ os, area2 o = 0 := hz hf
    have h1 : (os.map area2).sum = 0 := by
      apply List.sum_eq_zero
      intro x hx
      obtain ⟨h, hh, rfl⟩ := List.mem_map.1 hx
      exact this h hh
    have h2 : (os.map (fun h => |area2 h|)).sum = 0 := by
      apply List.sum_eq_zero
      intro x hx
      obtain ⟨h, hh, rfl⟩ := List.mem_map.1 hx
      rw [this h hh, abs_zero]
    rw [h1, h2, hf]; simp
  · have hs : (os.map area2).sum = - (os.map (fun h => |area2 h|)).sum := by
      rw [← sum_map_neg']
      congr 1
      apply List.map_congr_left
      intro o ho
      have := hop o ho
      rw [abs_of_nonpos, neg_neg]
      by_contra hc
      have := mul_pos hf (not_le.1 hc)
      linarith
    rw [hs, abs_of_nonneg, abs_of_pos hf]
    · ring
    · rw [abs_of_pos hf] at hle; linarith

/-- What `PolygonForRing` makes of the ring has an outer ring first and holes after it. -/
def OuterFirst (cp : Ctx) (rng : List (Pt K)) : Prop :=
  ∃ f os, polygonForRing feqx cp rng = .poly (f :: os) ∧ (∀ o ∈ os, area2 f * area2 o ≤ 0) ∧
    (os.map (fun h => |area2 h|)).sum ≤ |area2 f|

theorem multiLoop_area (yd : Bool) (ctx : Ctx) (cr cp : Nat → Ctx) (ts : List (Triangle K))
    (hctx : ∀ k, ctx k = false) (hcr : ∀ i k, cr i k = false) (hopp : OppositeSides ts)
    (hout : ∀ i seen rng seen', ringForTriangle peqx (cr i) ts i seen = some (rng, seen') → OuterFirst (cp i) rng) :
    ∀ (n i : Nat) (seen S : List Nat) (acc : List (List (List (Pt K)))), i + n = ts.length →
      S.Nodup → (∀ j, j ∈ seen ↔ j ∈ S) → (∀ j ∈ S, j < ts.length) →
      (∀ j ∈ S, ∀ k, Linked ts j k → k ∈ S) → (∀ j < i, j ∈ S) →
      (acc.map net2).sum = (S.map (sizeAt ts)).sum →
      ∃ mp, multiLoop feqx peqx yd ctx cr cp ts n i seen acc = some mp ∧
        (mp.map net2).sum = ((List.range ts.length).map (sizeAt ts)).sum := by
  intro n
  induction n with
  | zero =>
    intro i seen S acc hin hS hseen hb hcl hall hsum
    refine ⟨acc, rfl, ?_⟩
    rw [hsum]
    have hp : S.Perm (List.range ts.length) := by
      rw [List.perm_ext_iff_of_nodup hS List.nodup_range]
      intro j
      rw [List.mem_range]
      exact ⟨hb j, fun h => hall j (by omega)⟩
    exact (hp.map _).sum_eq
  | succ n ih =>
    intro i seen S acc hin hS hseen hb hcl hall hsum
    unfold multiLoop
    rw [if_neg (by rw [hctx]; simp)]
    by_cases hi : i ∈ seen
    · rw [if_pos hi]
      refine ih (i + 1) seen S acc (by omega) hS hseen hb hcl ?_ hsum
      intro j hj
      rcases Nat.lt_succ_iff_lt_or_eq.1 hj with h | rfl
      · exact hall j h
      · exact (hseen j).1 hi
    · rw [if_neg hi]
      obtain ⟨σ, s, wk, hσ, hI, hring, hend⟩ := ringForTriangle_inv (cr i) ts i (i :: seen) (by omega)
      have hend : s.cidxs = [] := by
        rcases hend with h | ⟨k, hk⟩
        · exact h
        · rw [hcr] at hk; simp at hk
      have hiS : i ∉ S := fun h => hi ((hseen i).2 h)
      have hgroup := walk_group hI hend (two_of_opposite hopp) (by
        intro j hj hl
        rcases List.mem_cons.1 hj with rfl | hj
        · rfl
        · exact absurd (hcl j ((hseen j).1 hj) i (linked_symm hl)) hiS)
      obtain ⟨f, os, hpoly, hop, hle⟩ := hout i (i :: seen) s.rng s.seen hring
      have hpt : polygonForTriangle feqx peqx yd (cr i) (cp i) ts i (i :: seen)
          = some (rectifyPolygon yd (f :: os), s.seen) := by
        unfold polygonForTriangle; rw [hring]; simp only [hpoly]
      rw [hpt]
      simp only
      have hdisj : ∀ a ∈ wk, a ∉ S := by
        intro a ha haS
        exact hiS (hcl a haS i (linked_symm (hI.linked a ha)))
      have hnet : net2 (rectifyPolygon yd (f :: os)) = (wk.map (sizeAt ts)).sum := by
        rw [net_rectify yd f os hle, ← net_signed f os hop hle]
        have h1 : ((f :: os).map area2).sum = area2 s.rng := by
          rcases polygonForRing_all (cp i) s.rng with ⟨h, -⟩ | h | ⟨s', hs', -, h⟩
          · rw [h] at hpoly; cases hpoly
          · rw [h] at hpoly; cases hpoly
          · rw [h] at hpoly; cases hpoly
            rw [List.map_cons, List.sum_cons, rot_area]
            exact hs'.area
        rw [h1, hI.area hopp]
        have hnn : 0 ≤ (wk.map (sizeAt ts)).sum := by
          apply List.sum_nonneg
          intro x hx
          obtain ⟨j, -, rfl⟩ := List.mem_map.1 hx
          unfold sizeAt
          cases ts[j]? with
          | none => simp
          | some t => simp [size2]
        rcases hσ with rfl | rfl
        · rw [one_mul, abs_of_nonneg hnn]
        · rw [neg_one_mul, abs_neg, abs_of_nonneg hnn]
      refine ih (i + 1) s.seen (wk ++ S) _ (by omega) ?_ ?_ ?_ ?_ ?_ ?_
      · rw [List.nodup_append]
        exact ⟨hI.nodup, hS, fun a ha b hb hab => hdisj a ha (hab ▸ hb)⟩
      · intro j
        rw [hI.seen]
        simp only [List.mem_append, List.mem_cons, hseen j]
        constructor
        · rintro (h | h | h)
          · exact Or.inl h
          · exact Or.inl (h ▸ hI.start)
          · exact Or.inr h
        · rintro (h | h)
          · exact Or.inl h
          · exact Or.inr (Or.inr h)
      · intro j hj
        rcases List.mem_append.1 hj with h | h
        · exact hI.bound j h
        · exact hb j h
      · intro j hj k hk
        rcases List.mem_append.1 hj with h | h
        · exact List.mem_append_left _ ((hgroup k).2 (Relation.ReflTransGen.trans (hI.linked j h) hk))
        · exact List.mem_append_right _ (hcl j h k hk)
      · intro j hj
        rcases Nat.lt_succ_iff_lt_or_eq.1 hj with h | rfl
        · exact List.mem_append_right _ (hall j h)
        · exact List.mem_append_left _ hI.start
      · rw [List.map_append, List.sum_append, ← hnet, ← hsum]
        split
        · rw [List.map_append, List.sum_append]; simp [add_comm]
        · rename_i h
          have : rectifyPolygon yd (f :: os) = [] := by
            rw [← List.length_eq_zero_iff]; omega
          rw [this]; simp [net2]

theorem sum_sizeAt (ts : List (Triangle K)) :
    ((List.range ts.length).map (sizeAt ts)).sum = (ts.map size2).sum := by
  congr 1
  apply List.ext_getElem?
  intro i
  by_cases h : i < ts.length
  · simp [sizeAt, h]
  · simp [h]

/-- `MultiPolygon` of triangles with different corners. -/
theorem multiLoop_shape (yd : Bool) (ctx : Ctx) (cr cp : Nat → Ctx) (ts : List (Triangle K))
    (h3 : ∀ t ∈ ts, ThreeCorners t) :
    ∀ (n i : Nat) (seen : List Nat) (acc : List (List (List (Pt K)))), i + n = ts.length →
      (∀ p ∈ acc, p ≠ [] ∧ (∀ r ∈ p, 3 ≤ r.length ∧ ∀ x ∈ r, ∃ t ∈ ts, ∃ y z, Corners t x y z) ∧
        ∃ rs, p = rectifyPolygon yd rs) →
      ∃ mp, multiLoop feqx peqx yd ctx cr cp ts n i seen acc = some mp ∧
        ∀ p ∈ mp, p ≠ [] ∧ (∀ r ∈ p, 3 ≤ r.length ∧ ∀ x ∈ r, ∃ t ∈ ts, ∃ y z, Corners t x y z) ∧
          ∃ rs, p = rectifyPolygon yd rs := by
  intro n
  induction n with
  | zero => intro i seen acc _ h; exact ⟨acc, rfl, h⟩
  | succ n ih =>
    intro i seen acc hin hacc
    unfold multiLoop
    by_cases hc : ctx i = true
    · rw [if_pos hc]; exact ⟨[], rfl, by simp⟩
    rw [if_neg hc]
    by_cases hi : i ∈ seen
    · rw [if_pos hi]; exact ih (i + 1) seen acc (by omega) hacc
    rw [if_neg hi]
    obtain ⟨σ, s, wk, hσ, hI, hring, -⟩ := ringForTriangle_inv (cr i) ts i (i :: seen) (by omega)
    have hpts : ∀ x ∈ s.rng, ∃ t ∈ ts, ∃ y z, Corners t x y z := by
      intro x hx
      obtain ⟨c, -, t, p, q, ht, hco⟩ := hI.pts x hx
      exact ⟨t, List.mem_of_getElem? ht, p, q, hco⟩
    rcases polygonForRing_all (cp i) s.rng with ⟨-, h⟩ | h | ⟨s', hs', hlen, h⟩
    · exact absurd (hI.cyc h3) h
    · have hpt : polygonForTriangle feqx peqx yd (cr i) (cp i) ts i (i :: seen) = some ([], s.seen) := by
        unfold polygonForTriangle; rw [hring]; simp only [h]
      rw [hpt]
      exact ih (i + 1) s.seen acc (by omega) hacc
    · have hpt : polygonForTriangle feqx peqx yd (cr i) (cp i) ts i (i :: seen)
          = some (rectifyPolygon yd (rotateLeftMost s'.rng :: s'.holes), s.seen) := by
        unfold polygonForTriangle; rw [hring]; simp only [h]
      rw [hpt]
      simp only
      have hrings : ∀ r ∈ rotateLeftMost s'.rng :: s'.holes, 3 ≤ r.length ∧ ∀ x ∈ r, x ∈ s.rng := by
        intro r hr
        rcases List.mem_cons.1 hr with rfl | hr
        · exact ⟨by rw [length_rot]; exact hlen, fun x hx => hs'.mem x ((mem_rot _ x).1 hx)⟩
        · exact ⟨hs'.three r hr, hs'.hmem r hr⟩
      refine ih (i + 1) s.seen _ (by omega) ?_
      intro p hp
      split at hp
      · rename_i hl
        rcases List.mem_append.1 hp with hp | hp
        · exact hacc p hp
        · rw [List.mem_singleton.1 hp]
          refine ⟨by intro h; rw [h] at hl; simp at hl, ?_, _, rfl⟩
          intro r hr
          have : ∃ r' ∈ rotateLeftMost s'.rng :: s'.holes, r = r' ∨ r = r'.reverse := by
            have ht : ∀ b (q : List (Pt K)), Spec.Winding.turn b q = q ∨ Spec.Winding.turn b q = q.reverse := by
              intro b q; unfold Spec.Winding.turn; split <;> simp
            rw [Props.C32_rectify, Props.rectified] at hr
            split at hr
            · simp at hr
            · rcases List.mem_cons.1 hr with rfl | hr
              · exact ⟨_, List.mem_cons_self .., ht _ _⟩
              · obtain ⟨q, hq, rfl⟩ := List.mem_map.1 hr
                exact ⟨q, List.mem_cons_of_mem _ (List.mem_filter.1 hq).1, ht _ _⟩
          obtain ⟨r', hr', h | h⟩ := this
          · rw [h]
            exact ⟨(hrings r' hr').1, fun x hx => hpts x ((hrings r' hr').2 x hx)⟩
          · rw [h, List.length_reverse]
            exact ⟨(hrings r' hr').1, fun x hx => hpts x ((hrings r' hr').2 x (List.mem_reverse.1 hx))⟩
      · exact hacc p hp

/-- The walk only looks at the marks of triangles. -/
theorem ringLoop_congr (peq : Pt K → Pt K → Bool) (ctx : Ctx) (ts : List (Triangle K)) (idx : Nat) :
    ∀ (f n : Nat) (s : RSt K) (seen : List Nat), (∀ j < ts.length, j ∈ s.seen ↔ j ∈ seen) →
      ∀ {rng seen'}, ringLoop peq ctx ts idx f n s = some (rng, seen') →
        ∃ seen'', ringLoop peq ctx ts idx f n { s with seen := seen } = some (rng, seen'') := by
  intro f
  induction f with
  | zero => intro n s seen _ rng seen' h; simp [ringLoop] at h
  | succ f ih =>
    intro n s seen hs rng seen' h
    have hix : ∀ p q d, indexForEdge ts p q d seen = indexForEdge ts p q d s.seen := by
      intro p q d
      unfold indexForEdge
      have : ∀ l : List Nat, (∀ x ∈ l, x < ts.length) →
          l.find? (fun i => decide (i ∉ seen ∧ i ≠ d)) = l.find? (fun i => decide (i ∉ s.seen ∧ i ≠ d)) := by
        intro l hl
        induction l with
        | nil => rfl
        | cons a l ihl =>
          have ha := hs a (hl a (by simp))
          have e : decide (a ∉ seen ∧ a ≠ d) = decide (a ∉ s.seen ∧ a ≠ d) := by rw [decide_eq_decide, ha]
          rw [List.find?_cons, List.find?_cons, e, ihl (fun x hx => hl x (by simp [hx]))]
      apply this
      intro x hx
      obtain ⟨t, ht, -⟩ := (mem_trianglesAt ts p q x).1 hx
      exact (List.getElem?_eq_some_iff.1 ht).1
    unfold ringLoop at h ⊢
    simp only
    by_cases hstop : ctx n = true ∨ s.rng.length ≤ s.head ∨ s.cidxs = []
    · rw [if_pos hstop] at h ⊢
      cases h
      exact ⟨_, rfl⟩
    · rw [if_neg hstop] at h ⊢
      cases h1 : s.rng.head? with
      | none => rw [h1] at h; simp at h
      | some fst =>
      cases h2 : s.rng.getLast? with
      | none => rw [h1, h2] at h; simp at h
      | some lst =>
      cases h3 : s.cidxs.getLast? with
      | none => rw [h1, h2, h3] at h; simp at h
      | some d =>
      rw [h1, h2, h3] at h
      simp only at h ⊢
      rw [hix]
      cases h4 : indexForEdge ts fst lst d s.seen with
      | none =>
        rw [h4] at h
        simp only at h ⊢
        exact ih _ { s with rng := lst :: s.rng.dropLast, head := s.head + 1, cidxs := s.cidxs.dropLast } seen hs h
      | some c =>
        rw [h4] at h
        simp only at h ⊢
        by_cases hc : c = idx
        · rw [if_pos hc] at h ⊢
          cases h
          exact ⟨_, rfl⟩
        · rw [if_neg hc] at h ⊢
          cases h5 : s.cidxs.idxOf? c with
          | some i =>
            rw [h5] at h
            simp only at h ⊢
            exact ih _ { s with rng := s.rng.drop (i + 1) ++ s.rng.take (i + 1), head := s.head + (s.rng.length - (i + 1)),
                                cidxs := s.cidxs.take (i + 1) } seen hs h
          | none =>
            rw [h5] at h
            simp only at h ⊢
            cases h6 : ts[c]? with
            | none => rw [h6] at h; simp at h
            | some t =>
              rw [h6] at h
              simp only at h ⊢
              refine ih _ { rng := s.rng ++ [Shapes.thirdPoint peq t fst lst], head := s.head,
                            cidxs := s.cidxs.dropLast ++ [c, c], seen := c :: s.seen } (c :: seen) ?_ h
              intro j hj
              simp only [List.mem_cons, hs j hj]

theorem ringForTriangle_congr (peq : Pt K → Pt K → Bool) (ctx : Ctx) (ts : List (Triangle K)) (idx : Nat)
    (seen seen2 : List Nat) (hs : ∀ j < ts.length, j ∈ seen ↔ j ∈ seen2) {rng : List (Pt K)} {seen' : List Nat}
    (h : ringForTriangle peq ctx ts idx seen = some (rng, seen')) :
    ∃ seen'', ringForTriangle peq ctx ts idx seen2 = some (rng, seen'') := by
  unfold ringForTriangle at h ⊢
  cases ht : ts[idx]? with
  | none => rw [ht] at h; simp at h
  | some t =>
    rw [ht] at h
    simp only at h ⊢
    exact ringLoop_congr peq ctx ts idx _ _ { rng := [t.1, t.2.1, t.2.2], head := 0, cidxs := [idx, idx, idx],
                                              seen := idx :: seen } (idx :: seen2)
      (by intro j hj; simp only [List.mem_cons, hs j hj]) h

end Verif.Lemmas.Walker
