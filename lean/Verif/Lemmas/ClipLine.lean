import Verif.Lemmas.Clip

/-! Helper lemmas for clipping: the crossing points and one step along the line. -/

set_option linter.unusedSectionVars false

namespace Verif.Lemmas.Clip
open Verif.Clip Verif.Spec.Clip Verif.Spec.Planar
open Verif.Planar (Line segmentIntersect)
open Verif.KdTree (Box)
open Verif.Intersect (boxContains)
open Verif.Simplify (Ctx)

variable {K : Type} [Field K] [LinearOrder K] [IsStrictOrderedRing K]

/-- The segment crosses the edge at the point. -/
def HitAt (E : Line K) (p q x : Pt K) : Prop :=
  ¬ Parallel E.1 E.2 p q ∧ OnSegment x E.1 E.2 ∧ OnSegment x p q

/-- What an edge contributes. -/
def hit (ln E : Line K) : Option (Pt K) :=
  if (segmentIntersect E ln).2 then some (segmentIntersect E ln).1 else none

theorem hit_iff {E : Line K} {p q x : Pt K} : hit (p, q) E = some x ↔ HitAt E p q x := by
  unfold HitAt
  rw [← Planar.segmentIntersect_iff]
  unfold hit
  obtain ⟨a, b⟩ := E
  generalize segmentIntersect (a, b) (p, q) = r
  obtain ⟨y, c⟩ := r
  cases c <;> simp

/-- All the points where the segment crosses edges. -/
def allHits (e : Box K) (p q : Pt K) : List (Pt K) := (edges e).filterMap (hit (p, q))

theorem mem_allHits {e : Box K} {p q x : Pt K} :
    x ∈ allHits e p q ↔ ∃ E ∈ edges e, HitAt E p q x := by
  simp [allHits, List.mem_filterMap, hit_iff]

variable {peq : Pt K → Pt K → Bool}

theorem hitsLoop_none {ln E : Line K} (h : hit ln E = none) (es : List (Line K)) (pts : List (Pt K)) :
    hitsLoop peq ln (E :: es) pts = hitsLoop peq ln es pts := by
  unfold hit at h
  cases hr : (segmentIntersect E ln).2
  · simp [hitsLoop, hr]
  · simp [hr] at h

theorem hitsLoop_some {ln E : Line K} {x : Pt K} (h : hit ln E = some x) (es : List (Line K))
    (pts : List (Pt K)) :
    hitsLoop peq ln (E :: es) pts =
      if pts.any (fun y => peq y x) then pts
      else if 2 ≤ (pts ++ [x]).length then pts ++ [x] else hitsLoop peq ln es (pts ++ [x]) := by
  unfold hit at h
  cases hr : (segmentIntersect E ln).2
  · simp [hr] at h
  · simp only [hr, if_true, Option.some.injEq] at h
    subst h
    simp only [hitsLoop, hr, Bool.not_true, Bool.false_eq_true, if_false]

theorem hitsLoop_sub (ln : Line K) (es : List (Line K)) (pts : List (Pt K)) {x : Pt K}
    (hx : x ∈ hitsLoop peq ln es pts) : x ∈ pts ∨ x ∈ es.filterMap (hit ln) := by
  induction es generalizing pts with
  | nil => exact Or.inl hx
  | cons E es ih =>
    cases hr : hit ln E with
    | none =>
      rw [hitsLoop_none hr] at hx
      rw [List.filterMap_cons_none hr]
      exact ih _ hx
    | some y =>
      rw [hitsLoop_some hr] at hx
      rw [List.filterMap_cons_some hr]
      split at hx
      · exact Or.inl hx
      · have key : x ∈ pts ++ [y] ∨ x ∈ es.filterMap (hit ln) := by
          split at hx
          · exact Or.inl hx
          · exact ih _ hx
        simp only [List.mem_append, List.mem_cons, List.not_mem_nil, or_false] at key ⊢
        tauto

theorem hitsLoop_nodup (hpeq : ∀ a b, peq a b = true ↔ a = b) (ln : Line K) (es : List (Line K))
    (pts : List (Pt K)) (hp : pts.Nodup) (hl : pts.length ≤ 1) :
    (hitsLoop peq ln es pts).Nodup ∧ (hitsLoop peq ln es pts).length ≤ 2 ∧
      pts <+: hitsLoop peq ln es pts := by
  induction es generalizing pts with
  | nil => exact ⟨hp, by simp only [hitsLoop]; omega, List.prefix_refl _⟩
  | cons E es ih =>
    cases hr : hit ln E with
    | none => rw [hitsLoop_none hr]; exact ih _ hp hl
    | some y =>
      rw [hitsLoop_some hr]
      split
      · exact ⟨hp, by omega, List.prefix_refl _⟩
      · rename_i h2
        have hnd : (pts ++ [y]).Nodup := by
          rw [List.nodup_append]
          refine ⟨hp, by simp, ?_⟩
          rintro a ha b hb rfl
          apply h2
          rw [List.any_eq_true]
          exact ⟨a, ha, (hpeq _ _).2 (List.mem_singleton.1 hb)⟩
        split
        · exact ⟨hnd, by simp only [List.length_append, List.length_singleton]; omega,
            List.prefix_append _ _⟩
        · rename_i h3
          obtain ⟨a, b, c⟩ := ih _ hnd (by omega)
          exact ⟨a, b, (List.prefix_append _ _).trans c⟩

theorem hitsLoop_all (hpeq : ∀ a b, peq a b = true ↔ a = b) (ln : Line K) (es : List (Line K))
    (pts : List (Pt K)) (hnd : (pts ++ es.filterMap (hit ln)).Nodup)
    (hl : (pts ++ es.filterMap (hit ln)).length ≤ 2) :
    hitsLoop peq ln es pts = pts ++ es.filterMap (hit ln) := by
  induction es generalizing pts with
  | nil => simp [hitsLoop]
  | cons E es ih =>
    cases hr : hit ln E with
    | none =>
      rw [hitsLoop_none hr, List.filterMap_cons_none hr] at *
      exact ih _ hnd hl
    | some y =>
      rw [List.filterMap_cons_some hr] at hnd hl ⊢
      rw [hitsLoop_some hr]
      have h1 : ¬ (pts.any (fun z => peq z y) = true) := by
        rw [List.any_eq_true]
        rintro ⟨z, hz, hzy⟩
        rw [hpeq] at hzy
        subst hzy
        exact (List.nodup_append.1 hnd).2.2 z hz z (by simp) rfl
      rw [if_neg h1]
      split
      · rename_i h2
        have : es.filterMap (hit ln) = [] := by
          rw [← List.length_eq_zero_iff]
          simp only [List.length_append, List.length_cons, List.length_nil] at h2 hl
          omega
        rw [this]
      · rw [ih]
        · simp
        · simpa using hnd
        · simpa using hl

theorem hits_sub {e : Box K} {p q x : Pt K} (hx : x ∈ hits peq e (p, q)) : x ∈ allHits e p q := by
  rcases hitsLoop_sub _ _ _ hx with h | h
  · simp at h
  · exact h

theorem hits_nodup (hpeq : ∀ a b, peq a b = true ↔ a = b) (e : Box K) (p q : Pt K) :
    (hits peq e (p, q)).Nodup ∧ (hits peq e (p, q)).length ≤ 2 :=
  let h := hitsLoop_nodup hpeq (p, q) (edges e) [] List.nodup_nil (by simp)
  ⟨h.1, h.2.1⟩

theorem hitsLoop_ne_nil (hpeq : ∀ a b, peq a b = true ↔ a = b) (ln : Line K) (es : List (Line K))
    (h : es.filterMap (hit ln) ≠ []) : hitsLoop peq ln es [] ≠ [] := by
  induction es with
  | nil => exact absurd rfl h
  | cons E es ih =>
    cases hr : hit ln E with
    | none =>
      rw [hitsLoop_none hr]
      rw [List.filterMap_cons_none hr] at h
      exact ih h
    | some y =>
      rw [hitsLoop_some hr]
      simp only [List.any_nil, Bool.false_eq_true, if_false, List.nil_append,
        List.length_singleton, Nat.reduceLeDiff]
      have := (hitsLoop_nodup hpeq ln es [y] (by simp) (by simp)).2.2
      intro hcon
      rw [hcon] at this
      simp at this

theorem hits_ne_nil (hpeq : ∀ a b, peq a b = true ↔ a = b) {e : Box K} {p q x : Pt K}
    (hx : x ∈ allHits e p q) : hits peq e (p, q) ≠ [] := by
  apply hitsLoop_ne_nil hpeq
  intro h
  unfold allHits at hx
  rw [h] at hx
  simp at hx

/-- Where a crossing point is. -/
theorem hit_param {e : Box K} (he : Proper e) {p q x : Pt K} (hx : x ∈ allHits e p q) :
    p ≠ q ∧ ∃ t, 0 ≤ t ∧ t ≤ 1 ∧ x = at' p q t ∧ Inside e x ∧ ¬ StrictlyInside e x := by
  obtain ⟨E, hE, h1, h2, t, t0, t1, h3⟩ := mem_allHits.1 hx
  obtain ⟨i, j⟩ := edge_inside he hE h2
  refine ⟨?_, t, t0, t1, h3, i, j⟩
  rintro rfl
  apply h1
  unfold Parallel
  ring

/-- A crossing point is not strictly between two points of the box. -/
theorem hit_not_between {e : Box K} (he : Proper e) {p q : Pt K} {r s t : K} (hrs : r < s)
    (hst : s < t) (hr : Inside e (at' p q r)) (ht : Inside e (at' p q t))
    (hx : at' p q s ∈ allHits e p q) : False := by
  obtain ⟨E, hE, h1, h2, -⟩ := mem_allHits.1 hx
  exact h1 (between_parallel he hrs hst hr ht hE h2)

theorem three_lt {a b c : K} (hab : a ≠ b) (hac : a ≠ c) (hbc : b ≠ c) :
    (a < b ∧ b < c) ∨ (c < b ∧ b < a) ∨ (b < a ∧ a < c) ∨ (c < a ∧ a < b) ∨ (a < c ∧ c < b)
      ∨ (b < c ∧ c < a) := by
  rcases lt_or_gt_of_ne hab with h1 | h1 <;> rcases lt_or_gt_of_ne hac with h2 | h2 <;>
    rcases lt_or_gt_of_ne hbc with h3 | h3 <;> tauto

/-- There are no three crossing points. -/
theorem no_three {e : Box K} (he : Proper e) {p q x y z : Pt K} (hx : x ∈ allHits e p q)
    (hy : y ∈ allHits e p q) (hz : z ∈ allHits e p q) (hxy : x ≠ y) (hxz : x ≠ z) (hyz : y ≠ z) :
    False := by
  obtain ⟨-, a, -, -, rfl, hia, -⟩ := hit_param he hx
  obtain ⟨-, b, -, -, rfl, hib, -⟩ := hit_param he hy
  obtain ⟨-, c, -, -, rfl, hic, -⟩ := hit_param he hz
  have h1 : a ≠ b := fun h => hxy (by rw [h])
  have h2 : a ≠ c := fun h => hxz (by rw [h])
  have h3 : b ≠ c := fun h => hyz (by rw [h])
  rcases three_lt h1 h2 h3 with ⟨h, h'⟩ | ⟨h, h'⟩ | ⟨h, h'⟩ | ⟨h, h'⟩ | ⟨h, h'⟩ | ⟨h, h'⟩
  · exact hit_not_between he h h' hia hic hy
  · exact hit_not_between he h h' hic hia hy
  · exact hit_not_between he h h' hib hic hx
  · exact hit_not_between he h h' hic hib hx
  · exact hit_not_between he h h' hia hib hz
  · exact hit_not_between he h h' hib hia hz

/-- Away from the corners all crossing points are found. -/
theorem hits_all (hpeq : ∀ a b, peq a b = true ↔ a = b) {e : Box K} (he : Proper e) {p q : Pt K}
    (hc : ∀ c, Corner e c → ¬ OnSegment c p q) : hits peq e (p, q) = allHits e p q := by
  have hnd : (allHits e p q).Nodup := by
    unfold allHits List.Nodup
    rw [List.pairwise_filterMap]
    refine (edges_apart he).imp ?_
    intro E E' h x hx y hy hxy
    subst hxy
    rw [hit_iff] at hx hy
    exact hc x (h x hx.2.1 hy.2.1) hx.2.2
  have := hitsLoop_all hpeq (p, q) (edges e) [] (by simpa [allHits] using hnd) (by
    rw [List.nil_append]
    change (allHits e p q).length ≤ 2
    match h : allHits e p q with
    | [] => simp
    | [_] => simp
    | [_, _] => simp
    | x :: y :: z :: l =>
      exfalso
      rw [h] at hnd
      simp only [List.nodup_cons, List.mem_cons, not_or] at hnd
      exact no_three he (x := x) (y := y) (z := z) (by rw [h]; simp) (by rw [h]; simp)
        (by rw [h]; simp) hnd.1.1 hnd.1.2.1 hnd.2.1.1)
  simpa [hits, allHits] using this

/-- Comparing two points of a segment tells which comes first. -/
theorem order_at {p q : Pt K} (hne : p ≠ q) {s t : K} (hst : s ≠ t) :
    (pointLess p q == pointLess (at' p q s) (at' p q t)) = decide (s < t) := by
  have key : ∀ d : K, d ≠ 0 → ∀ c : K, (decide (0 < d) == decide (c + s * d < c + t * d)) = decide (s < t) := by
    intro d hd c
    rcases lt_or_gt_of_ne hd with h | h
    · rw [decide_eq_false (not_lt.2 h.le)]
      by_cases hl : s < t
      · have := mul_lt_mul_of_neg_right hl h
        rw [decide_eq_true hl, decide_eq_false (by linarith)]; rfl
      · have hl' : t < s := lt_of_le_of_ne (not_lt.1 hl) (Ne.symm hst)
        have := mul_lt_mul_of_neg_right hl' h
        rw [decide_eq_false hl, decide_eq_true (by linarith)]; rfl
    · rw [decide_eq_true h]
      by_cases hl : s < t
      · have := mul_lt_mul_of_pos_right hl h
        rw [decide_eq_true hl, decide_eq_true (by linarith)]; rfl
      · have hl' : t < s := lt_of_le_of_ne (not_lt.1 hl) (Ne.symm hst)
        have := mul_lt_mul_of_pos_right hl' h
        rw [decide_eq_false hl, decide_eq_false (by linarith)]; rfl
  have e1 : ∀ a b : K, decide (a < b) = decide (0 < b - a) := by
    intro a b; simp
  unfold pointLess
  by_cases h1 : p.1 = q.1
  · have h2 : q.2 - p.2 ≠ 0 := fun h => hne (Prod.ext h1 (by linear_combination -h))
    have h3 : (at' p q s).1 = (at' p q t).1 := by simp [at', h1]
    rw [if_neg (not_not.2 h1), if_neg (not_not.2 h3), e1 p.2]
    exact key _ h2 p.2
  · have h2 : q.1 - p.1 ≠ 0 := sub_ne_zero.2 (Ne.symm h1)
    have h3 : (at' p q s).1 ≠ (at' p q t).1 := by
      intro h
      have : (s - t) * (q.1 - p.1) = 0 := by
        simp only [at'] at h; linear_combination h
      rcases mul_eq_zero.1 this with h | h
      · exact hst (by linear_combination h)
      · exact h2 h
    rw [if_pos h1, if_pos h3, e1 p.1]
    exact key _ h2 p.1

theorem pieces_cons_append (l : List (Pt K)) {p : Pt K} (h : l.getLast? = some p) (x : Pt K)
    (r : List (Pt K)) : pieces (l ++ x :: r) = pieces l ++ (p, x) :: pieces (x :: r) := by
  induction l with
  | nil => simp at h
  | cons a l ih =>
    cases l with
    | nil => simp only [List.getLast?_singleton, Option.some.injEq] at h; subst h; simp [pieces]
    | cons b l =>
      have := ih (by simpa using h)
      simp only [List.cons_append, pieces] at this ⊢
      rw [this]

/-- What the current state has of the line so far. -/
def linesOf (s : St K) : List (List (Pt K)) := s.mls ++ [s.cls]

/-- What is true of the state before the segment from `p`. -/
def Inv (e : Box K) (s : St K) (p : Pt K) : Prop :=
  (s.lptIsIn = true ↔ Inside e p) ∧ (s.lptIsIn = true → s.cls.getLast? = some p) ∧
    (s.lptIsIn = false → s.cls = [])

theorem bc_false {e : Box K} {p : Pt K} (h : ¬ Inside e p) : boxContains e p = false := by
  rw [← Bool.not_eq_true, boxContains_iff]; exact h

theorem step_ff {e : Box K} (he : Proper e) (hpeq : ∀ a b, peq a b = true ↔ a = b)
    {s : St K} {p q : Pt K} (hs : s.lptIsIn = false) (hq : ¬ Inside e q) :
    (step peq e s p q = some { s with lptIsIn := false } ∧ (hits peq e (p, q)).length < 2) ∨
    ∃ u v : K, 0 ≤ u ∧ u < v ∧ v ≤ 1 ∧ at' p q u ∈ hits peq e (p, q) ∧ at' p q v ∈ hits peq e (p, q)
      ∧ step peq e s p q
        = some { mls := s.mls ++ [[at' p q u, at' p q v]], cls := s.cls, lptIsIn := false } := by
  have hb := bc_false hq
  obtain ⟨hnd, hlen⟩ := hits_nodup hpeq e p q
  have hsub : ∀ x ∈ hits peq e (p, q), x ∈ allHits e p q := fun x => hits_sub
  unfold step
  simp only [hs, hb]
  match h : hits peq e (p, q) with
  | [] => left; simp
  | [_] => left; simp
  | [a, b] =>
    right
    rw [h] at hnd hsub
    obtain ⟨hne, sa, a0, a1, rfl, -, -⟩ := hit_param he (hsub a (by simp))
    obtain ⟨-, sb, b0, b1, rfl, -, -⟩ := hit_param he (hsub b (by simp))
    have hst : sa ≠ sb := by
      rintro rfl; simp at hnd
    have ho := order_at hne hst
    simp only
    rcases lt_or_gt_of_ne hst with hl | hl
    · refine ⟨sa, sb, a0, hl, b1, by simp, by simp, ?_⟩
      rw [decide_eq_true hl] at ho
      simp only [bne, ho]; simp
    · refine ⟨sb, sa, b0, hl, a1, by simp, by simp, ?_⟩
      rw [decide_eq_false (not_lt.2 hl.le)] at ho
      simp only [bne, ho]; simp
  | _ :: _ :: _ :: _ => rw [h] at hlen; simp at hlen

theorem step_tt {e : Box K} {s : St K} {p q : Pt K} (hs : s.lptIsIn = true) (hq : Inside e q) :
    step peq e s p q = some { mls := s.mls, cls := s.cls ++ [q], lptIsIn := true } := by
  unfold step
  simp only [hs, boxContains_iff.2 hq]

theorem step_ft {e : Box K} (he : Proper e) (hpeq : ∀ a b, peq a b = true ↔ a = b)
    {s : St K} {p q : Pt K} (hs : s.lptIsIn = false) (hq : Inside e q) (hcls : s.cls = []) :
    (step peq e s p q = some { mls := s.mls, cls := [q], lptIsIn := true } ∧
      hits peq e (p, q) = []) ∨
    ∃ u : K, 0 ≤ u ∧ u ≤ 1 ∧ at' p q u ∈ hits peq e (p, q) ∧
      (∀ v, at' p q v ∈ hits peq e (p, q) → u ≤ v) ∧
      step peq e s p q = some { mls := s.mls, cls := [at' p q u, q], lptIsIn := true } := by
  have hb := boxContains_iff.2 hq
  obtain ⟨hnd, hlen⟩ := hits_nodup hpeq e p q
  have hsub : ∀ x ∈ hits peq e (p, q), x ∈ allHits e p q := fun x => hits_sub
  unfold step
  simp only [hs, hb, hcls]
  match h : hits peq e (p, q) with
  | [] => left; simp
  | [a] =>
    right
    rw [h] at hsub
    obtain ⟨hne, sa, a0, a1, rfl, -, -⟩ := hit_param he (hsub a (by simp))
    refine ⟨sa, a0, a1, by simp, ?_, by simp⟩
    intro v hv
    rw [at_inj hne (List.mem_singleton.1 hv)]
  | [a, b] =>
    right
    rw [h] at hnd hsub
    obtain ⟨hne, sa, a0, a1, rfl, -, -⟩ := hit_param he (hsub a (by simp))
    obtain ⟨-, sb, b0, b1, rfl, -, -⟩ := hit_param he (hsub b (by simp))
    have hst : sa ≠ sb := by
      rintro rfl; simp at hnd
    have ho := order_at hne hst
    have hmem : ∀ v, at' p q v ∈ [at' p q sa, at' p q sb] → v = sa ∨ v = sb := by
      intro v hv
      simp only [List.mem_cons, List.not_mem_nil, or_false] at hv
      exact hv.imp (at_inj hne) (at_inj hne)
    rcases lt_or_gt_of_ne hst with hl | hl
    · refine ⟨sa, a0, a1, by simp, ?_, ?_⟩
      · intro v hv
        rcases hmem v hv with rfl | rfl
        · exact le_rfl
        · exact hl.le
      · rw [decide_eq_true hl] at ho
        simp only [ho]; simp
    · refine ⟨sb, b0, b1, by simp, ?_, ?_⟩
      · intro v hv
        rcases hmem v hv with rfl | rfl
        · exact hl.le
        · exact le_rfl
      · rw [decide_eq_false (not_lt.2 hl.le)] at ho
        simp only [ho]; simp
  | _ :: _ :: _ :: _ => rw [h] at hlen; simp at hlen

theorem step_tf {e : Box K} (he : Proper e) (hpeq : ∀ a b, peq a b = true ↔ a = b)
    {s : St K} {p q : Pt K} (hs : s.lptIsIn = true) (hp : Inside e p) (hq : ¬ Inside e q)
    (hcls : s.cls.getLast? = some p) :
    (step peq e s p q = some { mls := s.mls ++ [s.cls], cls := [], lptIsIn := false } ∧
      ∀ x ∈ hits peq e (p, q), x = p) ∨
    ∃ u : K, 0 < u ∧ u ≤ 1 ∧ at' p q u ∈ hits peq e (p, q) ∧
      (∀ x ∈ hits peq e (p, q), x = p ∨ x = at' p q u) ∧
      step peq e s p q
        = some { mls := s.mls ++ [s.cls ++ [at' p q u]], cls := [], lptIsIn := false } := by
  have hb := bc_false hq
  obtain ⟨hnd, hlen⟩ := hits_nodup hpeq e p q
  have hsub : ∀ x ∈ hits peq e (p, q), x ∈ allHits e p q := fun x => hits_sub
  unfold step
  simp only [hs, hb, hcls]
  have hf : ∀ x, x ∈ (hits peq e (p, q)).filter (fun i => !peq i p) ↔
      x ∈ hits peq e (p, q) ∧ x ≠ p := by
    intro x
    rw [List.mem_filter]
    refine and_congr_right fun _ => ?_
    rw [Bool.not_eq_true', ← Bool.not_eq_true, hpeq]
  have hfnd : ((hits peq e (p, q)).filter (fun i => !peq i p)).Nodup := hnd.filter _
  match h : (hits peq e (p, q)).filter (fun i => !peq i p) with
  | [] =>
    left
    refine ⟨by simp, fun x hx => ?_⟩
    by_contra hne
    have := (hf x).2 ⟨hx, hne⟩
    rw [h] at this
    simp at this
  | [a] =>
    right
    have ha := (hf a).1 (by rw [h]; simp)
    obtain ⟨hne, sa, a0, a1, rfl, -, -⟩ := hit_param he (hsub a ha.1)
    refine ⟨sa, lt_of_le_of_ne a0 ?_, a1, ha.1, ?_, by simp⟩
    · rintro rfl; exact ha.2 (at_zero _ _)
    · intro x hx
      by_cases hxp : x = p
      · exact Or.inl hxp
      · right
        have := (hf x).2 ⟨hx, hxp⟩
        rw [h] at this
        exact List.mem_singleton.1 this
  | a :: b :: l =>
    exfalso
    rw [h] at hfnd
    have ha := (hf a).1 (by rw [h]; simp)
    have hb := (hf b).1 (by rw [h]; simp)
    obtain ⟨hne, sa, a0, a1, rfl, ia, -⟩ := hit_param he (hsub a ha.1)
    obtain ⟨-, sb, b0, b1, rfl, ib, -⟩ := hit_param he (hsub b hb.1)
    have hst : sa ≠ sb := by
      rintro rfl; simp at hfnd
    have a0' : 0 < sa := lt_of_le_of_ne a0 (by rintro rfl; exact ha.2 (at_zero _ _))
    have b0' : 0 < sb := lt_of_le_of_ne b0 (by rintro rfl; exact hb.2 (at_zero _ _))
    have hp0 : Inside e (at' p q 0) := by rw [at_zero]; exact hp
    rcases lt_or_gt_of_ne hst with hl | hl
    · exact hit_not_between he a0' hl hp0 ib (hsub _ ha.1)
    · exact hit_not_between he b0' hl hp0 ia (hsub _ hb.1)

end Verif.Lemmas.Clip
