import Verif.Spec.HitMap
import Verif.Model.HitMap
import Verif.Props.Intersect
import Mathlib.Data.List.Sort

set_option linter.unusedSectionVars false

namespace Verif.HitMap
open Verif.Planar (Line)
open Verif.KdTree (Box)
open Verif.Intersect (ringSegs ringSegsFrom ringBox boxContains ringContains ray)
open Verif.Spec.Planar Verif.Spec.Intersect Verif.Spec.HitMap

section Field
variable {K : Type} [Field K] [LinearOrder K] [IsStrictOrderedRing K]

/-! ### The sides of a ring -/

theorem ringSegsFrom_eq : ∀ (ps : List (Pt K)) (lp : Pt K), ringSegsFrom lp ps = (lp :: ps).zip ps
  | [], _ => rfl
  | p :: ps, lp => by simp only [ringSegsFrom, List.zip_cons_cons, ringSegsFrom_eq ps p]

theorem zip_snoc : ∀ (ps : List (Pt K)) (p x : Pt K),
    (p :: ps).zip (ps ++ [x]) = (p :: ps).zip ps ++ [((p :: ps).getLast (by simp), x)]
  | [], _, _ => rfl
  | q :: ps, p, x => by
    have := zip_snoc ps q x
    rw [List.cons_append, List.zip_cons_cons, this]
    simp

theorem sides_perm (ring : List (Pt K)) : (ringSegs ring).Perm (sides ring) := by
  cases ring with
  | nil => exact .refl _
  | cons p ps =>
    have h : (p :: ps).getLast? = some ((p :: ps).getLast (by simp)) := List.getLast?_eq_some_getLast _
    simp only [ringSegs, h, sides, List.rotate_cons_succ, List.rotate_zero]
    rw [zip_snoc, ringSegsFrom_eq, List.zip_cons_cons]
    exact (List.perm_append_singleton _ _).symm

theorem onBorder_perm {a b : List (Line K)} (h : a.Perm b) (p : Pt K) : OnBorder a p ↔ OnBorder b p := by
  simp only [OnBorder, h.mem_iff]

theorem evenOdd_perm {a b : List (Line K)} (h : a.Perm b) (p : Pt K) :
    InsideEvenOdd a p ↔ InsideEvenOdd b p := by
  classical
  simp only [InsideEvenOdd]
  rw [h.countP_eq]

theorem crossesRay_swap (p : Pt K) (s : Line K) : CrossesRay p s.swap ↔ CrossesRay p s := by
  simp only [CrossesRay, Prod.fst_swap, Prod.snd_swap]
  have h : ∀ x, OnSegment (x, p.2) s.2 s.1 ↔ OnSegment (x, p.2) s.1 s.2 := fun x =>
    ⟨Verif.Planar.onSegment_symm, Verif.Planar.onSegment_symm⟩
  simp only [h]
  refine and_congr_left fun _ => ?_
  by_cases h1 : s.1.2 < p.2 <;> by_cases h2 : s.2.2 < p.2 <;> simp [h1, h2]

theorem onBorder_swap (a : List (Line K)) (p : Pt K) : OnBorder (a.map Prod.swap) p ↔ OnBorder a p := by
  simp only [OnBorder, List.mem_map]
  constructor
  · rintro ⟨_, ⟨s, hs, rfl⟩, h⟩
    exact ⟨s, hs, Verif.Planar.onSegment_symm h⟩
  · rintro ⟨s, hs, h⟩
    exact ⟨_, ⟨s, hs, rfl⟩, Verif.Planar.onSegment_symm h⟩

theorem evenOdd_swap (a : List (Line K)) (p : Pt K) :
    InsideEvenOdd (a.map Prod.swap) p ↔ InsideEvenOdd a p := by
  classical
  simp only [InsideEvenOdd, List.countP_map]
  have : ((fun s => decide (CrossesRay p s)) ∘ Prod.swap) = fun s => decide (CrossesRay p s) := by
    funext s
    simp only [Function.comp, crossesRay_swap]
  rw [this]

theorem sides_rotate (r : List (Pt K)) (n : Nat) : sides (r.rotate n) = (sides r).rotate n := by
  simp only [sides, List.zip, List.rotate_rotate]
  rw [List.zipWith_rotate_distrib _ _ _ _ (by simp), List.rotate_rotate, Nat.add_comm]

theorem sides_isRotated {r s : List (Pt K)} (h : r ~r s) : (sides r).Perm (sides s) := by
  obtain ⟨n, rfl⟩ := h
  rw [sides_rotate]
  exact (List.rotate_perm _ _).symm

theorem rotate_rev (r : List (Pt K)) : ((r.rotate 1).reverse).rotate 1 = r.reverse := by
  cases r with
  | nil => rfl
  | cons p ps => simp

theorem sides_reverse (r : List (Pt K)) : (sides r.reverse).Perm ((sides r).map Prod.swap) := by
  have h1 : r.reverse ~r (r.rotate 1).reverse := by
    apply List.IsRotated.reverse
    exact ⟨1, rfl⟩
  refine (sides_isRotated h1).trans ?_
  have h2 : sides (r.rotate 1).reverse = ((sides r).map Prod.swap).reverse := by
    unfold sides
    rw [rotate_rev, List.zip_swap]
    exact (List.reverse_zipWith (f := Prod.mk) (l := r.rotate 1) (l' := r) (by simp)).symm
  rw [h2]
  exact List.reverse_perm _

theorem sameRing_sides {r s : List (Pt K)} (h : SameRing r s) (p : Pt K) :
    (OnBorder (sides r) p ↔ OnBorder (sides s) p) ∧ (InsideEvenOdd (sides r) p ↔ InsideEvenOdd (sides s) p) := by
  rcases h with h | h
  · exact ⟨onBorder_perm (sides_isRotated h) p, evenOdd_perm (sides_isRotated h) p⟩
  · have h1 := (sides_reverse r).symm.trans (sides_isRotated h)
    rw [← onBorder_swap, ← evenOdd_swap (sides r)]
    exact ⟨onBorder_perm h1 p, evenOdd_perm h1 p⟩

theorem sameRing_within {r s : List (Pt K)} (h : SameRing r s) (p : Pt K) : Within r p ↔ Within s p := by
  simp only [Within, sameRing_sides h p]

theorem sameRing_strictly {r s : List (Pt K)} (h : SameRing r s) (p : Pt K) :
    Strictly r p ↔ Strictly s p := by
  simp only [Strictly, sameRing_sides h p]

theorem sameRing_nil {r s : List (Pt K)} (h : SameRing r s) : r = [] ↔ s = [] := by
  rcases h with h | h
  · have := h.perm.length_eq
    rw [← List.length_eq_zero_iff, ← List.length_eq_zero_iff, this]
  · have := h.perm.length_eq
    rw [List.length_reverse] at this
    rw [← List.length_eq_zero_iff, ← List.length_eq_zero_iff, this]

theorem not_within_nil (p : Pt K) : ¬ Within [] p := by
  simp [Within, sides, OnBorder, InsideEvenOdd]

theorem not_strictly_nil (p : Pt K) : ¬ Strictly [] p := by
  simp [Strictly, sides, InsideEvenOdd]

/-! ### Rings -/

theorem ringLess_total (a b : Ring K) : ringLess b a = false ∨ ringLess a b = false := by
  simp only [ringLess, ne_eq]
  by_cases h : a.label = b.label
  · rw [if_neg (by simpa using h.symm), if_neg (by simpa using h)]
    simp only [decide_eq_false_iff_not, not_lt]
    exact le_total _ _
  · rw [if_pos (fun h' => h h'.symm), if_pos h]
    cases ha : a.label <;> cases hb : b.label <;> simp_all

theorem ringLess_trans {a b c : Ring K} (h1 : ringLess b a = false) (h2 : ringLess c b = false) :
    ringLess c a = false := by
  simp only [ringLess, ne_eq] at *
  cases ha : a.label <;> cases hb : b.label <;> cases hc : c.label <;> simp_all
  · exact le_trans h1 h2
  · exact le_trans h1 h2

/-- There is such a sorting function. -/
theorem sorts_insertion : Sorts (fun l : List (Ring K) => l.insertionSort (fun a b => ringLess b a = false)) := by
  intro l
  refine ⟨List.perm_insertionSort _ _, ?_⟩
  have : Std.Total (fun a b : Ring K => ringLess b a = false) := ⟨ringLess_total⟩
  have : IsTrans (Ring K) (fun a b : Ring K => ringLess b a = false) := ⟨fun _ _ _ => ringLess_trans⟩
  exact List.pairwise_insertionSort _ _

/-- And an index. -/
theorem good_all : GoodSearch (fun (segs : List (Line K)) _ => List.range segs.length) := by
  intro segs l _
  refine ⟨List.nodup_range, fun i h => List.mem_range.1 h, fun i s h _ _ => ?_⟩
  rw [List.mem_range]
  exact (List.getElem?_eq_some_iff.1 h).1

theorem candidates_good {search : List (Line K) → Line K → List Nat} (h : GoodSearch search)
    (segs : List (Line K)) (l : Line K) : Candidates segs l (candidates search segs l) := by
  unfold candidates
  split_ifs with h1
  · exact h segs l h1
  · refine ⟨List.nodup_range, fun i h => List.mem_range.1 h, fun i s h _ _ => ?_⟩
    rw [List.mem_range]
    exact (List.getElem?_eq_some_iff.1 h).1

variable {peq : Pt K → Pt K → Bool} (hpeq : ∀ a b, peq a b = true ↔ a = b)
  {search : List (Line K) → Line K → List Nat} (hs : GoodSearch search)
include hpeq hs

theorem contains_inside (pts : List (Pt K)) (p : Pt K) :
    (newRing pts .inside).containsPoint peq search p = true ↔ Within pts p := by
  classical
  rw [Ring.containsPoint]
  have h := Verif.Intersect.ringContains_spec peq hpeq true pts _ p
    (candidates_good hs (ringSegs pts) (ray (ringSegs pts) p))
  have e : ((newRing pts Label.inside).label == Label.inside) = true := rfl
  rw [e]
  show ringContains peq true (ringSegs pts) (candidates search (ringSegs pts) (ray (ringSegs pts) p)) p = true ↔ _
  rw [h]
  simp only [Within, ← onBorder_perm (sides_perm pts), ← evenOdd_perm (sides_perm pts)]
  split_ifs with h1 <;> simp [h1]

theorem contains_outside (pts : List (Pt K)) (p : Pt K) :
    (newRing pts .outside).containsPoint peq search p = true ↔ Strictly pts p := by
  classical
  rw [Ring.containsPoint]
  have h := Verif.Intersect.ringContains_spec peq hpeq false pts _ p
    (candidates_good hs (ringSegs pts) (ray (ringSegs pts) p))
  have e : ((newRing pts Label.outside).label == Label.inside) = false := rfl
  rw [e]
  show ringContains peq false (ringSegs pts) (candidates search (ringSegs pts) (ray (ringSegs pts) p)) p = true ↔ _
  rw [h]
  simp only [Strictly, ← onBorder_perm (sides_perm pts), ← evenOdd_perm (sides_perm pts)]
  split_ifs with h1 <;> simp [h1]

omit hpeq hs in
theorem contains_box {r : Ring K} {p : Pt K} (h : r.containsPoint peq search p = true) :
    boxContains (ringBox r.segs) p = true := by
  rw [Ring.containsPoint, ringContains] at h
  by_contra hc
  rw [if_pos (by simpa using hc)] at h
  exact absurd h (by simp)

omit hpeq hs in
theorem less_out_in {a b : Ring K} (ha : a.label = .inside) (hb : b.label = .outside) :
    ringLess b a = true := by
  simp [ringLess, ha, hb]

omit hpeq hs in
theorem firstHit_iff (p : Pt K) : ∀ rs : List (Ring K), rs.Pairwise (fun a b => ringLess b a = false) →
    (firstHit peq search p rs = .inside ↔
      (∃ r ∈ rs, r.label = .inside ∧ r.containsPoint peq search p = true) ∧
      ∀ r ∈ rs, r.label = .outside → r.containsPoint peq search p = false)
  | [], _ => by simp [firstHit]
  | r :: rs, h => by
    rw [List.pairwise_cons] at h
    rw [firstHit]
    have ih := firstHit_iff p rs h.2
    by_cases hc : r.containsPoint peq search p = true
    · rw [if_pos hc]
      cases hl : r.label with
      | outside =>
        simp only [reduceCtorEq, false_iff, not_and]
        intro _ h2
        have := h2 r List.mem_cons_self hl
        rw [hc] at this
        exact absurd this (by simp)
      | inside =>
        simp only [true_iff]
        refine ⟨⟨r, List.mem_cons_self, hl, hc⟩, ?_⟩
        intro b hb hbl
        rcases List.mem_cons.1 hb with rfl | hb
        · rw [hl] at hbl
          exact absurd hbl (by simp)
        · have := h.1 b hb
          rw [less_out_in hl hbl] at this
          exact absurd this (by simp)
    · rw [if_neg hc, ih]
      have hc' : r.containsPoint peq search p = false := by simpa using hc
      constructor
      · rintro ⟨⟨a, ha, h1⟩, h2⟩
        refine ⟨⟨a, List.mem_cons_of_mem _ ha, h1⟩, ?_⟩
        intro b hb hbl
        rcases List.mem_cons.1 hb with rfl | hb
        · exact hc'
        · exact h2 b hb hbl
      · rintro ⟨⟨a, ha, h1, h1'⟩, h2⟩
        refine ⟨⟨a, ?_, h1, h1'⟩, fun b hb => h2 b (List.mem_cons_of_mem _ hb)⟩
        rcases List.mem_cons.1 ha with rfl | ha
        · exact absurd h1' hc
        · exact ha

omit hpeq hs in
theorem boxContains_iff (e : Box K) (p : Pt K) : boxContains e p = true ↔
    ((e.minx ≤ p.1 ∧ p.1 ≤ e.maxx) ∧ e.miny ≤ p.2) ∧ p.2 ≤ e.maxy := by
  simp only [boxContains, Bool.and_eq_true, decide_eq_true_eq]

omit hpeq hs in
theorem merge_left (e o : Box K) (p : Pt K) (h : boxContains e p = true) : boxContains (boxMerge e o) p = true := by
  rw [boxContains_iff] at h ⊢
  obtain ⟨⟨⟨h1, h2⟩, h3⟩, h4⟩ := h
  exact ⟨⟨⟨min_le_of_left_le h1, le_max_of_le_left h2⟩, min_le_of_left_le h3⟩, le_max_of_le_left h4⟩

omit hpeq hs in
theorem merge_right (e o : Box K) (p : Pt K) (h : boxContains o p = true) : boxContains (boxMerge e o) p = true := by
  rw [boxContains_iff] at h ⊢
  obtain ⟨⟨⟨h1, h2⟩, h3⟩, h4⟩ := h
  exact ⟨⟨⟨min_le_of_right_le h1, le_max_of_le_right h2⟩, min_le_of_right_le h3⟩, le_max_of_le_right h4⟩

omit hpeq hs in
theorem fold_mono (p : Pt K) : ∀ (rs : List (Ring K)) (e : Box K), boxContains e p = true →
    boxContains (rs.foldl (fun e r => boxMerge e (ringBox r.segs)) e) p = true
  | [], _, h => h
  | _ :: rs, e, h => fold_mono p rs _ (merge_left e _ p h)

omit hpeq hs in
theorem fold_contains (p : Pt K) : ∀ (rs : List (Ring K)) (e : Box K) (r : Ring K), r ∈ rs →
    boxContains (ringBox r.segs) p = true →
    boxContains (rs.foldl (fun e r => boxMerge e (ringBox r.segs)) e) p = true
  | a :: rs, e, r, hr, h => by
    rw [List.foldl_cons]
    rcases List.mem_cons.1 hr with rfl | hr
    · exact fold_mono p rs _ (merge_right e _ p h)
    · exact fold_contains p rs _ r hr h

omit hpeq hs in
theorem mem_polyRings {poly : List (List (Pt K))} {r : Ring K} : r ∈ polyRings poly ↔
    ∃ outer holes, poly = outer :: holes ∧ outer ≠ [] ∧
      (r = newRing outer .inside ∨ ∃ h ∈ holes, h ≠ [] ∧ r = newRing h .outside) := by
  match poly with
  | [] => simp [polyRings]
  | [] :: hs => simp [polyRings]
  | (p :: ps) :: hs =>
    simp only [polyRings, List.mem_cons, List.mem_map, List.mem_filter, List.cons.injEq,
      Bool.not_eq_true', List.isEmpty_eq_false_iff]
    constructor
    · rintro (h | ⟨h, ⟨h1, h2⟩, rfl⟩)
      · exact ⟨_, _, ⟨rfl, rfl⟩, by simp, .inl h⟩
      · exact ⟨_, _, ⟨rfl, rfl⟩, by simp, .inr ⟨h, h1, h2, rfl⟩⟩
    · rintro ⟨_, _, ⟨rfl, rfl⟩, _, h | ⟨h, h1, h2, rfl⟩⟩
      · exact .inl h
      · exact .inr ⟨h, ⟨h1, h2⟩, rfl⟩

/-- What the loop over the rings gives. -/
theorem firstHit_rings {sort : List (Ring K) → List (Ring K)} (hsort : Sorts sort)
    (plys : List (List (List (Pt K)))) (p : Pt K) :
    firstHit peq search p (sort (plys.map polyRings).flatten) = .inside ↔
      (∃ poly ∈ plys, ∃ outer holes, poly = outer :: holes ∧ Within outer p) ∧
      ∀ poly ∈ plys, ∀ outer holes, poly = outer :: holes → outer ≠ [] → ∀ h ∈ holes, ¬ Strictly h p := by
  obtain ⟨h1, h2⟩ := hsort (plys.map polyRings).flatten
  rw [firstHit_iff p _ h2]
  simp only [h1.mem_iff, List.mem_flatten, List.mem_map]
  refine and_congr ?_ ?_
  · constructor
    · rintro ⟨r, ⟨_, ⟨poly, hp, rfl⟩, hr⟩, hl, hc⟩
      obtain ⟨outer, holes, rfl, ho, rfl | ⟨h, _, _, rfl⟩⟩ := mem_polyRings.1 hr
      · exact ⟨_, hp, outer, holes, rfl, (contains_inside hpeq hs _ _).1 hc⟩
      · exact absurd hl (by simp [newRing])
    · rintro ⟨poly, hp, outer, holes, rfl, hw⟩
      refine ⟨newRing outer .inside, ⟨_, ⟨_, hp, rfl⟩, mem_polyRings.2 ⟨_, _, rfl, ?_, .inl rfl⟩⟩, rfl,
        (contains_inside hpeq hs _ _).2 hw⟩
      rintro rfl
      exact not_within_nil p hw
  · constructor
    · rintro h poly hp outer holes rfl ho hole hh hst
      have hne : hole ≠ [] := by
        rintro rfl
        exact not_strictly_nil p hst
      have := h (newRing hole .outside)
        ⟨_, ⟨_, hp, rfl⟩, mem_polyRings.2 ⟨_, _, rfl, ho, .inr ⟨hole, hh, hne, rfl⟩⟩⟩ rfl
      rw [(contains_outside hpeq hs _ _).2 hst] at this
      exact absurd this (by simp)
    · rintro h r ⟨_, ⟨poly, hp, rfl⟩, hr⟩ hl
      obtain ⟨outer, holes, rfl, ho, rfl | ⟨hole, hh, hne, rfl⟩⟩ := mem_polyRings.1 hr
      · exact absurd hl (by simp [newRing])
      · rw [Bool.eq_false_iff]
        intro hc
        exact h _ hp _ _ rfl ho hole hh ((contains_outside hpeq hs _ _).1 hc)

end Field

section Round
variable {K : Type} [Field K] [LinearOrder K] [IsStrictOrderedRing K] [FloorRing K]

theorem roundEven_int (n : Int) : roundEven (n : K) = n := by
  simp [roundEven]

theorem roundEven_bounds (x : K) : ⌊x⌋ ≤ roundEven x ∧ roundEven x ≤ ⌊x⌋ + 1 := by
  unfold roundEven
  split_ifs <;> omega

theorem log_bounds {x : K} (hx : x ≠ 0) :
    (2 : K) ^ Int.log 2 |x| ≤ |x| ∧ |x| < (2 : K) ^ (Int.log 2 |x| + 1) := by
  have h0 : 0 < |x| := abs_pos.2 hx
  refine ⟨?_, ?_⟩
  · simpa using Int.zpow_log_le_self (b := 2) (r := |x|) (by norm_num) h0
  · simpa using Int.lt_zpow_succ_log_self (b := 2) (by norm_num) (|x|)

theorem fits_small {x : K} (h : Fits20 x) : ∃ m e : Int, |m| < 2 ^ 20 ∧ x = m * 2 ^ e := by
  obtain ⟨m, e, hm, rfl⟩ := h
  rcases lt_or_eq_of_le hm with h | h
  · exact ⟨m, e, h, rfl⟩
  · rcases (abs_eq (by norm_num)).1 h with rfl | rfl
    · refine ⟨2 ^ 19, e + 1, by norm_num, ?_⟩
      rw [zpow_add₀ (by norm_num)]
      push_cast
      ring
    · refine ⟨-2 ^ 19, e + 1, by norm_num, ?_⟩
      rw [zpow_add₀ (by norm_num)]
      push_cast
      ring

theorem prec20_fits {x : K} (h : Fits20 x) : prec20 x = x := by
  unfold prec20
  split_ifs with hx
  · exact hx.symm
  · obtain ⟨m, e, hm, rfl⟩ := fits_small h
    obtain ⟨h1, _⟩ := log_bounds hx
    generalize Int.log 2 |(m : K) * 2 ^ e| = L at *
    have hL : L - 19 ≤ e := by
      have hlt : (2 : K) ^ L < 2 ^ (20 + e) := by
        refine lt_of_le_of_lt h1 ?_
        rw [abs_mul, abs_of_pos (zpow_pos (by norm_num : (0 : K) < 2) e), zpow_add₀ (by norm_num)]
        refine mul_lt_mul_of_pos_right ?_ (zpow_pos (by norm_num) e)
        have : ((|m| : Int) : K) < ((2 ^ 20 : Int) : K) := Int.cast_lt.2 hm
        rw [Int.cast_abs] at this
        refine lt_of_lt_of_eq this ?_
        push_cast
        norm_num
      have := (zpow_lt_zpow_iff_right₀ (by norm_num : (1 : K) < 2)).1 hlt
      omega
    obtain ⟨n, hn⟩ := Int.eq_ofNat_of_zero_le (sub_nonneg.2 hL)
    have e1 : (m : K) * 2 ^ e / 2 ^ (L - 19) = ((m * 2 ^ n : Int) : K) := by
      rw [mul_div_assoc, ← zpow_sub₀ (by norm_num), hn]
      push_cast
      rw [zpow_natCast]
    rw [e1, roundEven_int, ← e1, div_mul_cancel₀]
    exact (zpow_pos (by norm_num) _).ne'

theorem roundEven_near (x : K) : |(roundEven x : K) - x| ≤ 1 / 2 := by
  have h1 := Int.floor_le x
  have h2 := Int.lt_floor_add_one x
  unfold roundEven
  rw [abs_le]
  split_ifs <;> push_cast <;> constructor <;> linarith

theorem prec20_near (x : K) : |prec20 x - x| ≤ |x| / 2 ^ 20 := by
  unfold prec20
  split_ifs with hx
  · rw [hx]; simp
  · obtain ⟨h1, _⟩ := log_bounds hx
    generalize Int.log 2 |x| = L at *
    have hu : (0 : K) < 2 ^ (L - 19) := zpow_pos (by norm_num) _
    have e : ((roundEven (x / 2 ^ (L - 19)) : Int) : K) * 2 ^ (L - 19) - x =
        (((roundEven (x / 2 ^ (L - 19)) : Int) : K) - x / 2 ^ (L - 19)) * 2 ^ (L - 19) := by
      rw [sub_mul, div_mul_cancel₀ _ hu.ne']
    rw [e, abs_mul, abs_of_pos hu]
    have h3 := mul_le_mul_of_nonneg_right (roundEven_near (x / 2 ^ (L - 19))) hu.le
    refine h3.trans ?_
    have h4 : (2 : K) ^ L = 2 ^ (L - 19) * 2 ^ 19 := by
      rw [← zpow_natCast, ← zpow_add₀ (by norm_num)]
      congr 1
      push_cast
      ring
    rw [le_div_iff₀ (by norm_num)]
    refine le_trans (le_of_eq ?_) h1
    rw [h4]
    ring

theorem prec20_eq_zero {x : K} : prec20 x = 0 ↔ x = 0 := by
  constructor
  · intro h
    by_contra hx
    unfold prec20 at h
    rw [if_neg hx] at h
    obtain ⟨h1, _⟩ := log_bounds hx
    generalize Int.log 2 |x| = L at *
    have hp : (0 : K) < 2 ^ (L - 19) := zpow_pos (by norm_num) _
    rcases mul_eq_zero.1 h with h | h
    · have hr : roundEven (x / 2 ^ (L - 19)) = 0 := by exact_mod_cast h
      have hb : (2 : K) ^ (19 : Int) ≤ |x / 2 ^ (L - 19)| := by
        rw [abs_div, abs_of_pos hp, le_div_iff₀ hp, ← zpow_add₀ (by norm_num)]
        simpa using h1
      have hb' : (524288 : K) ≤ |x / 2 ^ (L - 19)| := le_trans (le_of_eq (by norm_num)) hb
      obtain ⟨b1, b2⟩ := roundEven_bounds (x / 2 ^ (L - 19))
      rw [hr] at b1 b2
      generalize x / 2 ^ (L - 19) = y at *
      have f1 : (⌊y⌋ : K) ≤ y := Int.floor_le y
      have f2 : y < ⌊y⌋ + 1 := Int.lt_floor_add_one y
      have c1 : ((⌊y⌋ : Int) : K) ≤ ((0 : Int) : K) := Int.cast_le.2 b1
      have c2 : (((-1 : Int)) : K) ≤ ((⌊y⌋ : Int) : K) := Int.cast_le.2 (by omega)
      push_cast at c1 c2
      rcases le_abs.1 hb' with h | h <;> linarith
    · exact hp.ne' h
  · rintro rfl
    simp [prec20]

variable {peq : Pt K → Pt K → Bool} (hpeq : ∀ a b, peq a b = true ↔ a = b)
  {search : List (Line K) → Line K → List Nat} (hs : GoodSearch search)
  {sort : List (Ring K) → List (Ring K)} (hsort : Sorts sort)
include hpeq hs hsort

/-- The point that is looked at. -/
abbrev seen (p : Pt K) : Pt K := (prec20 p.1, prec20 p.2)

theorem labelFor_iff (plys : List (List (List (Pt K)))) (p : Pt K) :
    (newFromPolygons sort none plys).labelFor peq search p = .inside ↔
      (∃ poly ∈ plys, ∃ outer holes, poly = outer :: holes ∧ Within outer (seen p)) ∧
      ∀ poly ∈ plys, ∀ outer holes, poly = outer :: holes → outer ≠ [] →
        ∀ h ∈ holes, ¬ Strictly h (seen p) := by
  rw [← firstHit_rings hpeq hs hsort]
  unfold PolygonHM.labelFor
  show (if (!boxContains (clipBoxFor none (plys.map polyRings).flatten) (seen p)) = true then Label.outside
    else firstHit peq search (seen p) (sort (plys.map polyRings).flatten)) = _ ↔ _
  split_ifs with hb
  · simp only [false_iff]
    intro h
    obtain ⟨h1, h2⟩ := hsort (plys.map polyRings).flatten
    obtain ⟨⟨r, hr, _, hc⟩, _⟩ := (firstHit_iff (seen p) _ h2).1 h
    have := fold_contains (seen p) _ ⟨0, 0, 0, 0⟩ r (h1.mem_iff.1 hr) (contains_box hc)
    simp only [Bool.not_eq_true'] at hb
    rw [clipBoxFor] at hb
    rw [hb] at this
    exact absurd this (by simp)
  · rfl

omit hpeq hs hsort in
theorem clipped_outside (clip : Box K) (plys : List (List (List (Pt K)))) (p : Pt K) (hp : p ≠ (0, 0)) :
    (newFromPolygons sort (some clip) plys).labelFor peq search p = .outside := by
  unfold PolygonHM.labelFor
  refine if_pos ?_
  show (!boxContains ⟨0, 0, 0, 0⟩ (seen p)) = true
  rw [Bool.not_eq_true', Bool.eq_false_iff]
  intro h
  rw [boxContains_iff] at h
  obtain ⟨⟨⟨h1, h2⟩, h3⟩, h4⟩ := h
  exact hp (Prod.ext (prec20_eq_zero.1 (le_antisymm h2 h1)) (prec20_eq_zero.1 (le_antisymm h4 h3)))

omit hpeq hs hsort in
theorem labelForAny_iff (p : Pt K) : ∀ hms : List (HM K),
    labelForAny peq search p hms = .inside ↔ ∃ hm ∈ hms, hm.labelFor peq search p = .inside
  | [] => by simp [labelForAny]
  | hm :: hms => by
    rw [labelForAny]
    split_ifs with h
    · simp [h]
    · simp [h, labelForAny_iff p hms]

omit hpeq hs hsort in
theorem newList_none (sortHM : List (HM K) → List (HM K)) : ∀ gs : List (Geom K),
    (∀ g ∈ gs, new sort sortHM g = none ↔ ¬ Known g) → (newList sort sortHM gs = none ↔ ¬ KnownAll gs)
  | [], _ => by simp [newList, KnownAll]
  | g :: gs, h => by
    have h1 := h g List.mem_cons_self
    have ih := newList_none sortHM gs (fun g hg => h g (List.mem_cons_of_mem _ hg))
    rw [newList, KnownAll]
    cases hg : new sort sortHM g with
    | none =>
      rw [hg] at h1
      simp [h1.1 rfl]
    | some o =>
      rw [hg] at h1
      have hk : Known g := by
        by_contra hc
        exact absurd (h1.2 hc) (by simp)
      cases o with
      | none => simp [ih, hk]
      | some hm => simp [ih, hk]

omit hpeq hs hsort in
theorem new_none (sortHM : List (HM K) → List (HM K)) (g : Geom K) :
    new sort sortHM g = none ↔ ¬ Known g := by
  induction g using Geom.induct with
  | point _ => simp [new, Known]
  | multiPoint _ => simp [new, Known]
  | lineString _ => simp [new, Known]
  | multiLineString _ => simp [new, Known]
  | polygon _ => simp [new, Known]
  | multiPolygon _ => simp [new, Known]
  | collection gs ih =>
    rw [new, Known, Option.map_eq_none_iff, newList_none sortHM gs ih]
  | other => simp [new, Known]

omit hpeq hs hsort in
/-- The label is inside iff it is for one of the areas. -/
def LabelOf (sort : List (Ring K) → List (Ring K)) (peq : Pt K → Pt K → Bool)
    (search : List (Line K) → Line K → List Nat) (p : Pt K) (as : List (List (List (List (Pt K))))) : Prop :=
  ∃ mp ∈ as, (newFromPolygons sort none mp).labelFor peq search p = .inside

omit hpeq hs hsort in
theorem newList_label (sortHM : List (HM K) → List (HM K)) (p : Pt K) : ∀ gs : List (Geom K),
    (∀ g ∈ gs, (∀ hm, new sort sortHM g = some (some hm) →
        (hm.labelFor peq search p = .inside ↔ LabelOf sort peq search p (areas g))) ∧
      (new sort sortHM g = some none → areas g = [])) →
    ∀ hms, newList sort sortHM gs = some hms →
      ((∃ hm ∈ hms, hm.labelFor peq search p = .inside) ↔ LabelOf sort peq search p (areasOf gs))
  | [], _, hms, h => by
    simp only [newList, Option.some.injEq] at h
    subst h
    simp [LabelOf, areasOf]
  | g :: gs, hg, hms, h => by
    have h1 := hg g List.mem_cons_self
    have ih := newList_label sortHM p gs (fun g hm => hg g (List.mem_cons_of_mem _ hm))
    have happ : LabelOf sort peq search p (areasOf (g :: gs)) ↔
        LabelOf sort peq search p (areas g) ∨ LabelOf sort peq search p (areasOf gs) := by
      simp only [LabelOf, areasOf, List.mem_append, or_and_right, exists_or]
    rw [happ]
    rw [newList] at h
    cases hn : new sort sortHM g with
    | none => rw [hn] at h; exact absurd h (by simp)
    | some o =>
      cases o with
      | none =>
        rw [hn] at h
        rw [ih hms h, h1.2 hn]
        simp [LabelOf]
      | some hm =>
        rw [hn] at h
        simp only [Option.map_eq_some_iff] at h
        obtain ⟨hms', h', rfl⟩ := h
        rw [← h1.1 hm hn, ← ih hms' h']
        simp

omit hpeq hs hsort in
theorem new_label (sortHM : List (HM K) → List (HM K)) (hperm : ∀ l, (sortHM l).Perm l) (p : Pt K) (g : Geom K) :
    (∀ hm, new sort sortHM g = some (some hm) →
        (hm.labelFor peq search p = .inside ↔ LabelOf sort peq search p (areas g))) ∧
      (new sort sortHM g = some none → areas g = []) := by
  induction g using Geom.induct with
  | point _ => simp [new, areas]
  | multiPoint _ => simp [new, areas]
  | lineString _ => simp [new, areas]
  | multiLineString _ => simp [new, areas]
  | polygon _ =>
    refine ⟨fun hm h => ?_, fun h => by simp [new] at h⟩
    simp only [new, Option.some.injEq] at h
    subst h
    simp [HM.labelFor, LabelOf, areas]
  | multiPolygon _ =>
    refine ⟨fun hm h => ?_, fun h => by simp [new] at h⟩
    simp only [new, Option.some.injEq] at h
    subst h
    simp [HM.labelFor, LabelOf, areas]
  | collection gs ih =>
    refine ⟨fun hm h => ?_, fun h => by simp [new] at h⟩
    simp only [new, Option.map_eq_some_iff, Option.some.injEq] at h
    obtain ⟨hms, h, rfl⟩ := h
    rw [HM.labelFor, labelForAny_iff, areas, ← newList_label sortHM p gs ih hms h]
    simp only [List.mem_reverse, (hperm hms).mem_iff]
  | other => simp [new, areas]

omit hpeq hs hsort in
theorem samePolygon_iff {a b : List (List (Pt K))} (h : SamePolygon a b) (p : Pt K) :
    ((∃ outer holes, a = outer :: holes ∧ Within outer p) ↔ ∃ outer holes, b = outer :: holes ∧ Within outer p) ∧
    ((∀ outer holes, a = outer :: holes → outer ≠ [] → ∀ h ∈ holes, ¬ Strictly h p) ↔
      ∀ outer holes, b = outer :: holes → outer ≠ [] → ∀ h ∈ holes, ¬ Strictly h p) := by
  obtain ⟨o, hs, o', hs', hs'', rfl, rfl, hr, hp, hf⟩ := h
  have e1 : ∀ (q : List (Pt K)) (qs : List (List (Pt K))) (P : List (Pt K) → List (List (Pt K)) → Prop),
      (∃ outer holes, q :: qs = outer :: holes ∧ P outer holes) ↔ P q qs := by
    intro q qs P
    constructor
    · rintro ⟨_, _, h, hP⟩
      obtain ⟨rfl, rfl⟩ := List.cons.inj h
      exact hP
    · exact fun hP => ⟨_, _, rfl, hP⟩
  have e2 : ∀ (q : List (Pt K)) (qs : List (List (Pt K))) (P : List (Pt K) → List (List (Pt K)) → Prop),
      (∀ outer holes, q :: qs = outer :: holes → P outer holes) ↔ P q qs := by
    intro q qs P
    constructor
    · exact fun h => h _ _ rfl
    · rintro hP _ _ h
      obtain ⟨rfl, rfl⟩ := List.cons.inj h
      exact hP
  rw [e1 o hs (fun outer _ => Within outer p), e1 o' hs' (fun outer _ => Within outer p),
    e2 o hs (fun outer holes => outer ≠ [] → ∀ h ∈ holes, ¬ Strictly h p),
    e2 o' hs' (fun outer holes => outer ≠ [] → ∀ h ∈ holes, ¬ Strictly h p)]
  refine ⟨sameRing_within hr p, ?_⟩
  have e3 : (∀ h ∈ hs, ¬ Strictly h p) ↔ ∀ h ∈ hs', ¬ Strictly h p := by
    have : (∀ h ∈ hs, ¬ Strictly h p) ↔ ∀ h ∈ hs'', ¬ Strictly h p := by simp only [hp.mem_iff]
    rw [this]
    clear this hp
    induction hf with
    | nil => simp
    | cons h _ ih => simp only [List.forall_mem_cons, ih, sameRing_strictly h p]
  rw [e3, ne_eq, sameRing_nil hr]

omit hpeq hs hsort in
theorem samePolygons_iff {as bs : List (List (List (Pt K)))} (h : SamePolygons as bs) (p : Pt K) :
    ((∃ poly ∈ as, ∃ outer holes, poly = outer :: holes ∧ Within outer p) ↔
      ∃ poly ∈ bs, ∃ outer holes, poly = outer :: holes ∧ Within outer p) ∧
    ((∀ poly ∈ as, ∀ outer holes, poly = outer :: holes → outer ≠ [] → ∀ h ∈ holes, ¬ Strictly h p) ↔
      ∀ poly ∈ bs, ∀ outer holes, poly = outer :: holes → outer ≠ [] → ∀ h ∈ holes, ¬ Strictly h p) := by
  obtain ⟨cs, hp, hf⟩ := h
  simp only [hp.mem_iff]
  clear hp
  induction hf with
  | nil => simp
  | cons h _ ih =>
    obtain ⟨s1, s2⟩ := samePolygon_iff h p
    simp only [List.exists_mem_cons_iff, List.forall_mem_cons]
    rw [ih.1, ih.2, s1, s2]
    exact ⟨Iff.rfl, Iff.rfl⟩

end Round

end Verif.HitMap
