import Verif.Lemmas.WalkerNodup
import Verif.Model.WalkerRing
import Verif.Spec.WalkerRing

/-! Helper lemmas for the walk over triangles. -/

set_option linter.unusedSectionVars false
set_option linter.unusedSimpArgs false

namespace Verif.Lemmas.Walker
open Verif.Walker Verif.Spec.Walker
open Verif.Spec.Winding (area2 cross)
open Verif.Winding (area2_rotate area2_cons area2_short pathFrom)
open Verif.Simplify (Ctx)
open Verif.Shapes (Triangle thirdPoint)

variable {K : Type} [Field K] [LinearOrder K] [IsStrictOrderedRing K]

theorem xyLess_antisymm (p q : Pt K) (h : xyLess p q = true) : xyLess q p = false := by
  rw [← Bool.not_eq_true, xyLess_iff]
  rw [xyLess_iff] at h
  rcases h with h | ⟨h, h'⟩
  · rintro (h2 | ⟨h2, -⟩)
    · exact lt_asymm h h2
    · exact h.ne h2.symm
  · rintro (h2 | ⟨-, h2⟩)
    · exact h2.ne h.symm
    · exact lt_asymm h' h2

theorem xyLess_total (p q : Pt K) (h1 : xyLess p q ≠ true) (h2 : xyLess q p ≠ true) : p = q := by
  rcases xyLe_of_not h1 with h | h
  · exact h
  · exact absurd ((xyLess_iff _ _).2 h) h2

theorem sortedEdge_swap (p q : Pt K) : sortedEdge p q = sortedEdge q p := by
  unfold sortedEdge
  by_cases h : xyLess p q = true
  · rw [if_pos h, if_neg (by rw [xyLess_antisymm p q h]; simp)]
  · rw [if_neg h]
    by_cases h2 : xyLess q p = true
    · rw [if_pos h2]
    · rw [if_neg h2, xyLess_total p q h h2]

theorem sortedEdge_iff (p q p' q' : Pt K) :
    sortedEdge p q = sortedEdge p' q' ↔ (p = p' ∧ q = q') ∨ (p = q' ∧ q = p') := by
  constructor
  · unfold sortedEdge
    split <;> split <;> simp only [Prod.mk.injEq] <;> tauto
  · rintro (⟨rfl, rfl⟩ | ⟨rfl, rfl⟩)
    · rfl
    · exact sortedEdge_swap _ _

theorem hasEdge_iff (t : Triangle K) (p q : Pt K) : HasEdge t p q ↔ sortedEdge p q ∈ sortedEdges t := by
  obtain ⟨a, b, c⟩ := t
  simp only [sortedEdges, List.mem_cons, List.not_mem_nil, or_false, sortedEdge_iff, HasEdge, Corners,
    Prod.mk.injEq]
  constructor
  · rintro ⟨w, h⟩
    rcases h with ⟨rfl, rfl, rfl⟩ | ⟨rfl, rfl, rfl⟩ | ⟨rfl, rfl, rfl⟩ | ⟨rfl, rfl, rfl⟩ | ⟨rfl, rfl, rfl⟩ | ⟨rfl, rfl, rfl⟩ <;> simp
  · rintro ((⟨rfl, rfl⟩ | ⟨rfl, rfl⟩) | (⟨rfl, rfl⟩ | ⟨rfl, rfl⟩) | (⟨rfl, rfl⟩ | ⟨rfl, rfl⟩))
    · exact ⟨c, by simp⟩
    · exact ⟨c, by simp⟩
    · exact ⟨b, by simp⟩
    · exact ⟨b, by simp⟩
    · exact ⟨a, by simp⟩
    · exact ⟨a, by simp⟩

theorem mem_trianglesAt (ts : List (Triangle K)) (p q : Pt K) (i : Nat) :
    i ∈ trianglesAt ts (sortedEdge p q) ↔ ∃ t, ts[i]? = some t ∧ HasEdge t p q := by
  unfold trianglesAt
  simp only [List.mem_flatMap, List.mem_map, List.mem_filter, decide_eq_true_eq, hasEdge_iff]
  constructor
  · rintro ⟨⟨t, j⟩, hx, d, ⟨hd, rfl⟩, rfl⟩
    exact ⟨t, by simpa [List.mem_zipIdx_iff_getElem?] using hx, hd⟩
  · rintro ⟨t, ht, hd⟩
    exact ⟨(t, i), by simpa [List.mem_zipIdx_iff_getElem?] using ht, _, ⟨hd, rfl⟩, rfl⟩

/-- Exact comparison of points. -/
def peqx : Pt K → Pt K → Bool := fun p q => decide (p = q)

theorem thirdPoint_corners (t : Triangle K) (p q : Pt K) (h : HasEdge t p q) :
    Corners t p q (thirdPoint peqx t p q) := by
  obtain ⟨a, b, c⟩ := t
  obtain ⟨w, h⟩ := h
  simp only [thirdPoint, peqx, Corners, Bool.or_eq_true, Bool.and_eq_true, decide_eq_true_eq, Prod.mk.injEq] at h ⊢
  split
  · rename_i h1; rcases h1 with ⟨rfl, rfl⟩ | ⟨rfl, rfl⟩ <;> simp
  · split
    · rename_i h1; rcases h1 with ⟨rfl, rfl⟩ | ⟨rfl, rfl⟩ <;> simp
    · rename_i h1 h2
      push Not at h1 h2
      rcases h with ⟨rfl, rfl, rfl⟩ | ⟨rfl, rfl, rfl⟩ | ⟨rfl, rfl, rfl⟩ | ⟨rfl, rfl, rfl⟩ | ⟨rfl, rfl, rfl⟩ | ⟨rfl, rfl, rfl⟩ <;> simp_all

theorem corners_swap {t : Triangle K} {p q w : Pt K} (h : Corners t p q w) : Corners t q p w := by
  unfold Corners at *; tauto

theorem corners_turn {t : Triangle K} {p q w : Pt K} (h : Corners t p q w) : Corners t q w p := by
  unfold Corners at *; tauto

theorem hasEdge_of_corners {t : Triangle K} {p q w x y : Pt K} (h : Corners t p q w) (he : HasEdge t x y) :
    (x = p ∧ y = q) ∨ (x = q ∧ y = p) ∨ (x = q ∧ y = w) ∨ (x = w ∧ y = q) ∨ (x = p ∧ y = w) ∨ (x = w ∧ y = p) := by
  obtain ⟨z, he⟩ := he
  unfold Corners at *
  rcases h with rfl | rfl | rfl | rfl | rfl | rfl <;> simp only [Prod.mk.injEq] at he <;>
    rcases he with ⟨rfl, rfl, rfl⟩ | ⟨rfl, rfl, rfl⟩ | ⟨rfl, rfl, rfl⟩ | ⟨rfl, rfl, rfl⟩ | ⟨rfl, rfl, rfl⟩ | ⟨rfl, rfl, rfl⟩ <;> simp

theorem three_corners {t : Triangle K} {p q w : Pt K} (h3 : ThreeCorners t) (h : Corners t p q w) :
    q ≠ w ∧ w ≠ p := by
  obtain ⟨h1, h2, h4⟩ := h3
  rcases h with rfl | rfl | rfl | rfl | rfl | rfl
  · exact ⟨h4, h2.symm⟩
  · exact ⟨h4.symm, h1.symm⟩
  · exact ⟨h2, h4.symm⟩
  · exact ⟨h1, h4⟩
  · exact ⟨h2.symm, h1⟩
  · exact ⟨h1.symm, h2⟩

theorem area_three (p q w : Pt K) : area2 [p, q, w] = cross p q + cross q w + cross w p := by
  simp [area2]; ring

theorem size_corners {t : Triangle K} {p q w : Pt K} (h : Corners t p q w) : size2 t = |area2 [p, q, w]| := by
  unfold size2
  have key : ∀ a b c : Pt K, area2 [a, c, b] = - area2 [a, b, c] := by
    intro a b c; simp only [area_three, cross]; ring
  have key2 : ∀ a b c : Pt K, area2 [b, c, a] = area2 [a, b, c] := by
    intro a b c; simp only [area_three, cross]; ring
  rcases h with rfl | rfl | rfl | rfl | rfl | rfl
  · rfl
  · simp only [key p q w, abs_neg]
  · simp only [← key2 q p w, key p q w, abs_neg]
  · simp only [key2 p q w]
  · simp only [← key2 w p q]
  · simp only [← key2 w q p, ← key2 q p w, key p q w, abs_neg]

theorem share_symm {ts : List (Triangle K)} {i j : Nat} (h : Share ts i j) : Share ts j i := by
  obtain ⟨t, u, p, q, h1, h2, h3, h4⟩ := h
  exact ⟨u, t, p, q, h2, h1, h4, h3⟩

theorem linked_symm {ts : List (Triangle K)} {i j : Nat} (h : Linked ts i j) : Linked ts j i := by
  induction h with
  | refl => exact Relation.ReflTransGen.refl
  | tail _ h2 ih => exact Relation.ReflTransGen.head (share_symm h2) ih

theorem two_of_opposite {ts : List (Triangle K)} (h : OppositeSides ts) : AtMostTwo ts := by
  intro i j k t u v p q ht hu hv ⟨w1, h1⟩ ⟨w2, h2⟩ ⟨w3, h3⟩
  by_contra hc
  push Not at hc
  obtain ⟨c1, c2, c3⟩ := hc
  have a1 := h i j t u p q w1 w2 c1 ht hu h1 h2
  have a2 := h j k u v p q w2 w3 c2 hu hv h2 h3
  have a3 := h i k t v p q w1 w3 c3 ht hv h1 h3
  have := mul_pos_of_neg_of_neg a1 a2
  have e : area2 [p, q, w1] * area2 [p, q, w2] * (area2 [p, q, w2] * area2 [p, q, w3])
      = (area2 [p, q, w1] * area2 [p, q, w3]) * (area2 [p, q, w2] * area2 [p, q, w2]) := by ring
  rw [e] at this
  have h4 := mul_self_nonneg (area2 [p, q, w2])
  have := mul_nonpos_of_nonpos_of_nonneg a3.le h4
  linarith

/-! ## The walk -/

/-- The edges still to be looked at, last first, with their triangles: from the points `R` to `f`. -/
def Pend (E : Nat → Pt K → Pt K → Prop) : List (Pt K) → Pt K → List Nat → Prop
  | [], _, [] => True
  | l :: R, f, d :: C => E d l f ∧ Pend E R l C
  | _, _, _ => False

/-- Those edges. -/
def pendEdges : List (Pt K) → Pt K → List (Pt K × Pt K)
  | [], _ => []
  | l :: R, f => (l, f) :: pendEdges R l

theorem pend_mono {E E' : Nat → Pt K → Pt K → Prop} (h : ∀ d u v, E d u v → E' d u v) :
    ∀ (R : List (Pt K)) (f : Pt K) (C : List Nat), Pend E R f C → Pend E' R f C
  | [], _, [], _ => trivial
  | l :: R, _, _ :: C, ⟨h1, h2⟩ => ⟨h _ _ _ h1, pend_mono h R l C h2⟩
  | [], _, _ :: _, hp => absurd hp id
  | _ :: _, _, [], hp => absurd hp id

theorem pend_len {E : Nat → Pt K → Pt K → Prop} :
    ∀ (R : List (Pt K)) (f : Pt K) (C : List Nat), Pend E R f C → R.length = C.length
  | [], _, [], _ => rfl
  | l :: R, _, _ :: C, ⟨_, h2⟩ => by simp [pend_len R l C h2]
  | [], _, _ :: _, hp => absurd hp id
  | _ :: _, _, [], hp => absurd hp id

theorem pend_mem {E : Nat → Pt K → Pt K → Prop} :
    ∀ (R : List (Pt K)) (f : Pt K) (C : List Nat), Pend E R f C → ∀ c ∈ C, ∃ u v, E c u v
  | [], _, [], _ => by simp
  | l :: R, _, _ :: C, ⟨h1, h2⟩ => by
    intro c hc
    rcases List.mem_cons.1 hc with rfl | hc
    · exact ⟨_, _, h1⟩
    · exact pend_mem R l C h2 c hc
  | [], _, _ :: _, hp => absurd hp id
  | _ :: _, _, [], hp => absurd hp id

/-- Twice the area of triangle number `i`. -/
def sizeAt (ts : List (Triangle K)) (i : Nat) : K := ((ts[i]?).map size2).getD 0

/-- Triangle `d` has the edge, is one of the walked ones, and lies on the side `σ`. -/
def Edg (ts : List (Triangle K)) (σ : K) (wk : List Nat) (d : Nat) (u v : Pt K) : Prop :=
  d ∈ wk ∧ ∃ t w, ts[d]? = some t ∧ Corners t u v w ∧ (OppositeSides ts → 0 ≤ σ * area2 [u, v, w])

/-- What holds in every turn of the walk from `idx`: `wk` are the triangles walked so far. -/
structure RInv (ts : List (Triangle K)) (idx : Nat) (seen0 : List Nat) (σ : K) (s : RSt K) (wk : List Nat) : Prop where
  shape : ∃ D R C f, s.rng = D ++ R.reverse ∧ s.head = D.length ∧ s.cidxs = C.reverse ∧ s.rng.head? = some f ∧
    Pend (Edg ts σ wk) R f C ∧
    (AtMostTwo ts → ∀ i ∈ wk, ∀ t, ts[i]? = some t → ∀ p q, HasEdge t p q →
      (p, q) ∈ pendEdges R f ∨ (q, p) ∈ pendEdges R f ∨
        ∀ j u, ts[j]? = some u → HasEdge u p q → j ∈ s.seen)
  seen : s.seen = wk ++ seen0
  nodup : wk.Nodup
  start : idx ∈ wk
  fresh : ∀ c ∈ wk, c = idx ∨ c ∉ seen0
  bound : ∀ c ∈ wk, c < ts.length
  linked : ∀ c ∈ wk, Linked ts idx c
  len : s.rng.length = wk.length + 2
  pts : ∀ x ∈ s.rng, ∃ c ∈ wk, ∃ t p q, ts[c]? = some t ∧ Corners t x p q
  area : OppositeSides ts → area2 s.rng = σ * (wk.map (sizeAt ts)).sum
  cyc : (∀ t ∈ ts, ThreeCorners t) → Cyc s.rng

theorem area_append (f l w : Pt K) (M : List (Pt K)) :
    area2 (f :: (M ++ [l]) ++ [w]) = area2 (f :: (M ++ [l])) + area2 [l, w, f] := by
  rw [List.cons_append, area2_cons, area2_cons]
  simp only [List.append_assoc, Winding.pathFrom_append, Winding.lastOf_append, List.cons_append, List.nil_append,
    Winding.pathFrom, Winding.lastOf, area_three, Winding.cross_swap f l]
  ring

theorem area_append' (f l w : Pt K) (r : List (Pt K)) (h1 : r.head? = some f) (h2 : r.getLast? = some l) :
    area2 (r ++ [w]) = area2 r + area2 [l, w, f] := by
  rcases r with _ | ⟨f', r⟩
  · simp at h1
  have : f' = f := by simpa using h1
  subst this
  rcases List.eq_nil_or_concat r with rfl | ⟨M, z, rfl⟩
  · have : f' = l := by simpa using h2
    subst this
    rw [area2_short _ (by simp), area2_short [f'] (by simp)]
    simp only [area_three, cross]; ring
  · rw [List.concat_eq_append] at *
    have : z = l := by simpa [List.getLast?_cons] using h2
    subst this
    exact area_append f' z w M

theorem ringLoop_inv (ctx : Ctx) (ts : List (Triangle K)) (idx : Nat) (seen0 : List Nat) (σ : K)
    (hσ : σ = 1 ∨ σ = -1) : ∀ (fuel n : Nat) (s : RSt K) (wk : List Nat), RInv ts idx seen0 σ s wk →
    2 * (ts.length - wk.length) + s.cidxs.length < fuel →
    ∃ s' wk', RInv ts idx seen0 σ s' wk' ∧ ringLoop peqx ctx ts idx fuel n s = some (s'.rng, s'.seen) ∧
      (s'.cidxs = [] ∨ ∃ k, ctx k = true) := by
  intro fuel
  induction fuel with
  | zero => intro n s wk _ h; omega
  | succ fuel ih =>
    intro n s wk hI hfuel
    obtain ⟨D, R, C, f, hrng, hhead, hcid, hf, hpend, hcov⟩ := hI.shape
    unfold ringLoop
    have hlen := pend_len R f C hpend
    by_cases hstop : ctx n = true ∨ s.rng.length ≤ s.head ∨ s.cidxs = []
    · rw [if_pos hstop]
      refine ⟨s, wk, hI, rfl, ?_⟩
      rcases hstop with h | h | h
      · exact Or.inr ⟨n, h⟩
      · left
        rw [hrng, hhead] at h
        simp at h
        rw [hcid, List.reverse_eq_nil_iff, ← List.length_eq_zero_iff, ← hlen, h]; rfl
      · exact Or.inl h
    · rw [if_neg hstop]
      have hC : C ≠ [] := by
        rintro rfl; apply hstop; right; right; rw [hcid]; rfl
      cases C with
      | nil => exact absurd rfl hC
      | cons d C =>
      cases R with
      | nil => exact absurd hpend id
      | cons l R =>
      obtain ⟨hE, hP⟩ := hpend
      have hl : s.rng.getLast? = some l := by rw [hrng]; simp
      have hd : s.cidxs.getLast? = some d := by rw [hcid]; simp
      rw [hf, hl, hd]
      simp only
      obtain ⟨hdw, td, wd, htd, hcd, hside⟩ := hE
      cases hix : indexForEdge ts f l d s.seen with
      | none =>
        have hnone : ∀ j u, ts[j]? = some u → HasEdge u f l → j ∈ s.seen := by
          intro j u hj he
          have := List.find?_eq_none.1 hix j ((mem_trianglesAt ts f l j).2 ⟨u, hj, he⟩)
          simp only [decide_eq_true_eq, not_and, not_not] at this
          by_contra hns
          have : j = d := this hns
          rw [this] at hns
          apply hns
          rw [hI.seen]; exact List.mem_append_left _ hdw
        have hdl : s.rng.dropLast = D ++ R.reverse := by
          rw [hrng, List.reverse_cons, ← List.append_assoc, List.dropLast_concat]
        have hcl : s.cidxs.dropLast = C.reverse := by
          rw [hcid, List.reverse_cons, List.dropLast_concat]
        simp only
        rw [hdl, hcl]
        refine ih (n + 1) _ wk ⟨⟨l :: D, R, C, l, by simp, by simp [hhead], rfl, by simp, hP, ?_⟩,
          hI.seen, hI.nodup, hI.start, hI.fresh, hI.bound, hI.linked, ?_, ?_, ?_, ?_⟩ ?_
        · intro h2 i hi t ht p q he
          rcases hcov h2 i hi t ht p q he with h | h | h
          · simp only [pendEdges, List.mem_cons, Prod.mk.injEq] at h
            rcases h with ⟨rfl, rfl⟩ | h
            · refine Or.inr (Or.inr ?_)
              intro j u hj ⟨z, hz⟩
              exact hnone j u hj ⟨z, corners_swap hz⟩
            · exact Or.inl h
          · simp only [pendEdges, List.mem_cons, Prod.mk.injEq] at h
            rcases h with ⟨rfl, rfl⟩ | h
            · exact Or.inr (Or.inr hnone)
            · exact Or.inr (Or.inl h)
          · exact Or.inr (Or.inr h)
        · have := hI.len
          rw [hrng] at this
          simp at this ⊢; omega
        · intro x hx
          apply hI.pts
          rw [hrng]
          simp at hx ⊢; tauto
        · intro ho
          have := hI.area ho
          rw [← this, hrng]
          have := area2_rotate [l] (D ++ R.reverse)
          simp only
          rw [List.singleton_append] at this
          rw [← this]
          congr 1; simp
        · intro h3
          have := hI.cyc h3
          rw [hrng, List.reverse_cons, ← List.append_assoc] at this
          exact cyc_rotate _ _ this
        · simp only
          rw [hcid] at hfuel
          simp at hfuel ⊢; omega
      | some c =>
        have hmem := List.mem_of_find?_eq_some hix
        have hprop := List.find?_some hix
        simp only [decide_eq_true_eq] at hprop
        obtain ⟨hcs, hcd'⟩ := hprop
        obtain ⟨t, ht, he⟩ := (mem_trianglesAt ts f l c).1 hmem
        have hcw : c ∉ wk := fun h => hcs (by rw [hI.seen]; exact List.mem_append_left _ h)
        have hc0 : c ∉ seen0 := fun h => hcs (by rw [hI.seen]; exact List.mem_append_right _ h)
        have hci : c ≠ idx := fun h => hcw (h ▸ hI.start)
        have hcc : s.cidxs.idxOf? c = none := by
          rw [List.idxOf?_eq_none_iff]
          intro h
          rw [hcid, List.mem_reverse] at h
          rcases List.mem_cons.1 h with rfl | h
          · exact hcd' rfl
          · obtain ⟨u, v, hE, -⟩ := pend_mem R l C hP c h
            exact hcw hE
        simp only
        rw [if_neg hci, hcc, ht]
        simp only
        have hw := thirdPoint_corners t f l he
        generalize hwd : thirdPoint peqx t f l = w at hw
        have hcl : s.cidxs.dropLast = C.reverse := by
          rw [hcid, List.reverse_cons, List.dropLast_concat]
        have hclen : c < ts.length := (List.getElem?_eq_some_iff.1 ht).1
        have hneg : OppositeSides ts → 0 < σ * area2 [l, w, f] := by
          intro ho
          have h1 := hside ho
          have h2 := ho d c td t l f wd w (fun h => hcd' h.symm) htd ht hcd (corners_swap hw)
          have e : area2 [l, w, f] = - area2 [l, f, w] := by simp only [area_three, cross]; ring
          rw [e]
          rcases hσ with rfl | rfl
          · simp only [one_mul] at h1 ⊢
            rcases h1.lt_or_eq with h1 | h1
            · have := (pos_iff_neg_of_mul_neg h2).1 h1
              linarith
            · rw [← h1] at h2; simp at h2
          · have h1' : area2 [l, f, wd] ≤ 0 := by linarith
            rcases h1'.lt_or_eq with h1 | h1
            · have := (neg_iff_pos_of_mul_neg h2).1 h1
              linarith
            · rw [h1] at h2; simp at h2
        have hlink : Linked ts idx c :=
          Relation.ReflTransGen.tail (hI.linked d hdw)
            ⟨td, t, f, l, htd, ht, ⟨wd, corners_swap hcd⟩, he⟩
        have hmono : ∀ d u v, Edg ts σ wk d u v → Edg ts σ (c :: wk) d u v := by
          rintro d u v ⟨h1, h2⟩
          exact ⟨List.mem_cons_of_mem _ h1, h2⟩
        have hhead' : (s.rng ++ [w]).head? = some f := by
          rw [List.head?_append, hf]; rfl
        refine ih (n + 1) _ (c :: wk) ⟨⟨D, w :: l :: R, c :: c :: C, f, ?_, hhead, ?_, hhead', ?_, ?_⟩,
          ?_, ?_, ?_, ?_, ?_, ?_, ?_, ?_, ?_, ?_⟩ ?_
        · simp [hrng]
        · rw [hcl]; simp
        · refine ⟨⟨by simp, t, l, ht, ?_, ?_⟩, ⟨by simp, t, f, ht, ?_, ?_⟩, pend_mono hmono _ _ _ hP⟩
          · exact corners_turn (corners_turn hw)
          · intro ho
            have := hneg ho
            have e : area2 [w, f, l] = area2 [l, w, f] := by simp only [area_three, cross]; ring
            rw [e]; exact this.le
          · exact corners_turn hw
          · intro ho; exact (hneg ho).le
        · intro h2 i hi t' ht' p q he'
          rcases List.mem_cons.1 hi with rfl | hi
          · rw [ht] at ht'
            cases ht'
            have hall : ∀ j u, ts[j]? = some u → HasEdge u f l → j ∈ i :: s.seen := by
              intro j u hj hju
              have := h2 j d i u td t f l hj htd ht hju ⟨wd, corners_swap hcd⟩ he
              rcases this with h | h | h
              · rw [h, hI.seen]; simp [hdw]
              · exact absurd h.symm hcd'
              · rw [h]; simp
            rcases hasEdge_of_corners hw he' with ⟨rfl, rfl⟩ | ⟨rfl, rfl⟩ | ⟨rfl, rfl⟩ | ⟨rfl, rfl⟩ | ⟨rfl, rfl⟩ | ⟨rfl, rfl⟩
            · exact Or.inr (Or.inr hall)
            · refine Or.inr (Or.inr ?_)
              intro j u hj ⟨z, hz⟩
              exact hall j u hj ⟨z, corners_swap hz⟩
            · exact Or.inl (by simp [pendEdges])
            · exact Or.inr (Or.inl (by simp [pendEdges]))
            · exact Or.inr (Or.inl (by simp [pendEdges]))
            · exact Or.inl (by simp [pendEdges])
          · have hall : ∀ j u, ts[j]? = some u → HasEdge u f l → j ∈ c :: s.seen := by
              intro j u hj hju
              have := h2 j d c u td t f l hj htd ht hju ⟨wd, corners_swap hcd⟩ he
              rcases this with h | h | h
              · rw [h, hI.seen]; simp [hdw]
              · exact absurd h.symm hcd'
              · rw [h]; simp
            rcases hcov h2 i hi t' ht' p q he' with h | h | h
            · simp only [pendEdges, List.mem_cons, Prod.mk.injEq] at h
              rcases h with ⟨rfl, rfl⟩ | h
              · refine Or.inr (Or.inr ?_)
                intro j u hj ⟨z, hz⟩
                exact hall j u hj ⟨z, corners_swap hz⟩
              · exact Or.inl (by simp [pendEdges, h])
            · simp only [pendEdges, List.mem_cons, Prod.mk.injEq] at h
              rcases h with ⟨rfl, rfl⟩ | h
              · exact Or.inr (Or.inr hall)
              · exact Or.inr (Or.inl (by simp [pendEdges, h]))
            · exact Or.inr (Or.inr fun j u hj hju => List.mem_cons_of_mem _ (h j u hj hju))
        · simp only; rw [hI.seen]; rfl
        · exact List.nodup_cons.2 ⟨hcw, hI.nodup⟩
        · exact List.mem_cons_of_mem _ hI.start
        · intro x hx
          rcases List.mem_cons.1 hx with rfl | hx
          · exact Or.inr hc0
          · exact hI.fresh x hx
        · intro x hx
          rcases List.mem_cons.1 hx with rfl | hx
          · exact hclen
          · exact hI.bound x hx
        · intro x hx
          rcases List.mem_cons.1 hx with rfl | hx
          · exact hlink
          · exact hI.linked x hx
        · have := hI.len
          simp; omega
        · intro x hx
          rcases List.mem_append.1 hx with hx | hx
          · obtain ⟨c', hc', h⟩ := hI.pts x hx
            exact ⟨c', List.mem_cons_of_mem _ hc', h⟩
          · rw [List.mem_singleton.1 hx]
            exact ⟨c, by simp, t, f, l, ht, corners_turn (corners_turn hw)⟩
        · intro ho
          simp only
          rw [area_append' f l w s.rng hf hl, hI.area ho, List.map_cons, List.sum_cons, mul_add, add_comm]
          congr 1
          have hp := hneg ho
          have hs : sizeAt ts c = |area2 [l, w, f]| := by
            unfold sizeAt
            rw [ht, Option.map_some, Option.getD_some]
            exact size_corners (corners_turn hw)
          rw [hs]
          rcases hσ with rfl | rfl
          · rw [one_mul] at hp ⊢
            rw [abs_of_pos hp]
          · rw [abs_of_neg (by linarith)]; ring
        · intro h3
          have hc := hI.cyc h3
          have h3t := h3 t (List.mem_of_getElem? ht)
          have hd3 : l ≠ w ∧ w ≠ f := three_corners h3t hw
          refine ⟨?_, ?_⟩
          · rw [List.isChain_append]
            refine ⟨hc.1, by simp, ?_⟩
            intro x hx y hy
            rw [hl] at hx
            simp at hx hy
            rw [← hx, ← hy]; exact hd3.1
          · intro _ hcon
            rw [hhead'] at hcon
            simp at hcon
            exact hd3.2 hcon
        · have hwk : (c :: wk).length ≤ ts.length := by
            have hn : (c :: wk).Nodup := List.nodup_cons.2 ⟨hcw, hI.nodup⟩
            have hsub : (c :: wk) ⊆ List.range ts.length := by
              intro x hx
              rw [List.mem_range]
              rcases List.mem_cons.1 hx with rfl | hx
              · exact hclen
              · exact hI.bound x hx
            simpa using (List.Nodup.subperm hn hsub).length_le
          simp only
          rw [hcid] at hfuel
          rw [hcl]
          simp at hfuel hwk ⊢; omega

/-- The walk. -/
theorem ringForTriangle_inv (ctx : Ctx) (ts : List (Triangle K)) (idx : Nat) (seen0 : List Nat)
    (hidx : idx < ts.length) :
    ∃ σ s wk, (σ = 1 ∨ σ = -1) ∧ RInv ts idx seen0 σ s wk ∧
      ringForTriangle peqx ctx ts idx seen0 = some (s.rng, s.seen) ∧ (s.cidxs = [] ∨ ∃ k, ctx k = true) := by
  obtain ⟨t, ht⟩ : ∃ t, ts[idx]? = some t := ⟨_, List.getElem?_eq_getElem hidx⟩
  unfold ringForTriangle
  rw [ht]
  simp only
  obtain ⟨a, b, c⟩ := t
  obtain ⟨σ, hσ, hpos⟩ : ∃ σ : K, (σ = 1 ∨ σ = -1) ∧ 0 ≤ σ * area2 [a, b, c] := by
    rcases le_total 0 (area2 [a, b, c]) with h | h
    · exact ⟨1, Or.inl rfl, by linarith⟩
    · exact ⟨-1, Or.inr rfl, by linarith⟩
  have e1 : area2 [c, a, b] = area2 [a, b, c] := by simp only [area_three, cross]; ring
  have e2 : area2 [b, c, a] = area2 [a, b, c] := by simp only [area_three, cross]; ring
  have hI : RInv ts idx seen0 σ { rng := [a, b, c], head := 0, cidxs := [idx, idx, idx], seen := idx :: seen0 } [idx] := by
    refine ⟨⟨[], [c, b, a], [idx, idx, idx], a, by simp, rfl, rfl, rfl, ?_, ?_⟩, rfl, by simp, by simp, by simp,
      by simpa using hidx, ?_, rfl, ?_, ?_, ?_⟩
    · refine ⟨⟨by simp, _, b, ht, by simp [Corners], fun _ => by rw [e1]; exact hpos⟩,
        ⟨by simp, _, a, ht, by simp [Corners], fun _ => by rw [e2]; exact hpos⟩,
        ⟨by simp, _, c, ht, by simp [Corners], fun _ => hpos⟩, trivial⟩
    · intro _ i hi t' ht' p q he
      rw [List.mem_singleton.1 hi, ht] at ht'
      cases ht'
      have := hasEdge_of_corners (p := a) (q := b) (w := c) (Or.inl rfl) he
      simp only [pendEdges, List.mem_cons, Prod.mk.injEq, List.not_mem_nil, or_false]
      tauto
    · intro x hx; rw [List.mem_singleton.1 hx]; exact Relation.ReflTransGen.refl
    · intro x hx
      refine ⟨idx, by simp, (a, b, c), ?_⟩
      simp only [List.mem_cons, List.not_mem_nil, or_false] at hx
      rcases hx with rfl | rfl | rfl
      · exact ⟨b, c, ht, by simp [Corners]⟩
      · exact ⟨c, a, ht, by simp [Corners]⟩
      · exact ⟨a, b, ht, by simp [Corners]⟩
    · intro _
      simp only [List.map_cons, List.map_nil, List.sum_cons, List.sum_nil, add_zero, sizeAt, ht, Option.map_some,
        Option.getD_some, size2]
      rcases hσ with rfl | rfl
      · rw [one_mul] at hpos ⊢
        rw [abs_of_nonneg hpos]
      · rw [abs_of_nonpos (by linarith)]; ring
    · intro h3
      have := h3 _ (List.mem_of_getElem? ht)
      obtain ⟨h1, h2, h4⟩ := this
      simp only at h1 h2 h4
      exact ⟨by simp [h1, h4], by simpa using h2.symm⟩
  obtain ⟨s', wk', h1, h2, h3⟩ := ringLoop_inv ctx ts idx seen0 σ hσ (2 * ts.length + 4) 0 _ [idx] hI (by simp only [List.length_cons, List.length_nil]; omega)
  exact ⟨σ, s', wk', hσ, h1, h2, h3⟩

end Verif.Lemmas.Walker
