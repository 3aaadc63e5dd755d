import Verif.Model.PseudoPolygon
import Verif.Spec.PseudoPolygon
import Verif.Lemmas.Winding
import Mathlib.Tactic.Ring
import Mathlib.Tactic.LinearCombination

set_option linter.unusedSectionVars false
set_option linter.unusedSimpArgs false

namespace Verif.Lemmas.PseudoPolygon
open Verif.PseudoPolygon Verif.Spec.PseudoPolygon
open Verif.Planar (Line)
open Verif.Winding (orientation colinear)
open Verif.Spec.Winding (area2 cross)
open Verif.Spec.Walker (HasEdge Corners)

variable {K : Type} [Field K] [LinearOrder K]

/-! ### The sides of the ring -/

theorem at_eq (points : List (Pt K)) {i : Nat} (h : i < points.length) : at' points i = points[i] := by
  simp [at', List.getD, List.getElem?_eq_getElem h]

theorem at_inj {points : List (Pt K)} (hn : points.Nodup) {i j : Nat} (hi : i < points.length)
    (hj : j < points.length) : at' points i = at' points j ↔ i = j := by
  rw [at_eq _ hi, at_eq _ hj]
  exact hn.getElem_inj_iff

theorem mem_ringSegsFrom (l : Line K) : ∀ (ps : List (Pt K)) (lp : Pt K),
    l ∈ Intersect.ringSegsFrom lp ps ↔ ∃ i, ∃ h : i < ps.length,
      l = ((if i = 0 then lp else ps[i - 1]'(by omega)), ps[i])
  | [], _ => by simp [Intersect.ringSegsFrom]
  | p :: ps, lp => by
    rw [Intersect.ringSegsFrom, List.mem_cons, mem_ringSegsFrom l ps p]
    constructor
    · rintro (rfl | ⟨i, h, rfl⟩)
      · exact ⟨0, by simp, by simp⟩
      · refine ⟨i + 1, by simpa using h, ?_⟩
        rcases Nat.eq_zero_or_pos i with rfl | hi
        · simp
        · obtain ⟨k, rfl⟩ : ∃ k, i = k + 1 := ⟨i - 1, by omega⟩
          simp
    · rintro ⟨i, h, rfl⟩
      rcases Nat.eq_zero_or_pos i with rfl | hi
      · left; simp
      · right
        obtain ⟨k, rfl⟩ : ∃ k, i = k + 1 := ⟨i - 1, by omega⟩
        refine ⟨k, by simpa using h, ?_⟩
        rcases Nat.eq_zero_or_pos k with rfl | hk
        · simp
        · obtain ⟨m, rfl⟩ : ∃ m, k = m + 1 := ⟨k - 1, by omega⟩
          simp

/-- The index before, going round. -/
def prev (n i : Nat) : Nat := if i = 0 then n - 1 else i - 1

theorem mem_ringSegs (points : List (Pt K)) (l : Line K) :
    l ∈ Intersect.ringSegs points ↔ ∃ i < points.length, l = (at' points (prev points.length i), at' points i) := by
  unfold Intersect.ringSegs
  cases hl : points.getLast? with
  | none =>
    rw [List.getLast?_eq_none_iff] at hl
    subst hl
    simp
  | some lp =>
    simp only []
    rw [mem_ringSegsFrom]
    have hne : points ≠ [] := by rintro rfl; simp at hl
    have hpos : 0 < points.length := List.length_pos_iff.2 hne
    have hlast : lp = at' points (points.length - 1) := by
      rw [List.getLast?_eq_getElem?, List.getElem?_eq_getElem (by omega)] at hl
      rw [at_eq _ (by omega)]
      exact (Option.some.inj hl).symm
    constructor
    · rintro ⟨i, h, rfl⟩
      refine ⟨i, h, ?_⟩
      rw [at_eq _ h]
      unfold prev
      split_ifs with h0
      · rw [hlast]
      · rw [at_eq _ (by omega)]
    · rintro ⟨i, h, rfl⟩
      refine ⟨i, h, ?_⟩
      rw [at_eq _ h]
      unfold prev
      split_ifs with h0
      · rw [hlast]
      · rw [at_eq _ (by omega)]

theorem pointLess_asymm (p q : Pt K) : p ≠ q → (pointLess p q = true ↔ pointLess q p = false) := by
  intro hne
  unfold pointLess
  by_cases h1 : p.1 = q.1
  · have h2 : p.2 ≠ q.2 := fun h2 => hne (Prod.ext h1 h2)
    simp only [h1, ne_eq, not_true_eq_false, if_false, decide_eq_true_eq, decide_eq_false_iff_not, not_lt]
    exact ⟨le_of_lt, fun h => lt_of_le_of_ne h h2⟩
  · have h1' : ¬ q.1 = p.1 := fun h => h1 h.symm
    simp only [ne_eq, h1, h1', not_false_eq_true, if_true, decide_eq_true_eq, decide_eq_false_iff_not, not_lt]
    exact ⟨le_of_lt, fun h => lt_of_le_of_ne h h1⟩

theorem pointLess_self (p : Pt K) : pointLess p p = false := by simp [pointLess]

theorem normalize_eq (p q r s : Pt K) :
    normalizeLine (p, q) = normalizeLine (r, s) ↔ (p = r ∧ q = s) ∨ (p = s ∧ q = r) := by
  constructor
  · intro h
    unfold normalizeLine at h
    simp only [] at h
    split_ifs at h <;> simp only [Prod.mk.injEq] at h <;> tauto
  · rintro (⟨rfl, rfl⟩ | ⟨rfl, rfl⟩)
    · rfl
    · by_cases hpq : p = q
      · rw [hpq]
      · unfold normalizeLine
        simp only []
        cases h : pointLess p q with
        | true =>
          rw [(pointLess_asymm p q hpq).1 h]
          simp
        | false =>
          rw [(pointLess_asymm q p (Ne.symm hpq)).2 h]
          simp

/-- The indices are next to each other, going round. -/
def Adj (n a b : Nat) : Prop := a = prev n b ∨ b = prev n a

instance (n a b : Nat) : Decidable (Adj n a b) := by unfold Adj; infer_instance

theorem prev_lt {n i : Nat} (h : i < n) : prev n i < n := by unfold prev; split <;> omega

theorem contains_iff {points : List (Pt K)} (hn : points.Nodup) {a b : Nat} (ha : a < points.length)
    (hb : b < points.length) :
    contains (newEdgeMap points) (at' points a) (at' points b) = true ↔ Adj points.length a b := by
  unfold contains newEdgeMap Adj
  rw [decide_eq_true_eq, List.mem_map]
  constructor
  · rintro ⟨l, hl, he⟩
    obtain ⟨i, hi, rfl⟩ := (mem_ringSegs points l).1 hl
    rcases (normalize_eq _ _ _ _).1 he with ⟨h1, h2⟩ | ⟨h1, h2⟩
    · left
      rw [at_inj hn (prev_lt hi) ha] at h1
      rw [at_inj hn hi hb] at h2
      rw [← h1, ← h2]
    · right
      rw [at_inj hn (prev_lt hi) hb] at h1
      rw [at_inj hn hi ha] at h2
      rw [← h1, ← h2]
  · rintro (h | h)
    · exact ⟨_, (mem_ringSegs points _).2 ⟨b, hb, rfl⟩, by rw [h]⟩
    · refine ⟨_, (mem_ringSegs points _).2 ⟨a, ha, rfl⟩, ?_⟩
      rw [← h]
      exact (normalize_eq _ _ _ _).2 (.inr ⟨rfl, rfl⟩)

/-! ### The nearest points -/

theorem near_spec (yd : Bool) (first last c : Pt K) : ∀ (cs : List (Pt K)) (i : Nat) (p1 p2 : Option Nat) (d : Option K),
    (∀ a ∈ p1, 1 ≤ a ∧ a < i) → (∀ b ∈ p2, 1 ≤ b ∧ ∀ a ∈ p1, b < a) → (p1 = none → p2 = none ∧ d = none) →
    1 ≤ i →
    let r := nearLoop yd first last c i cs p1 p2 d
    (∀ a ∈ r.1, 1 ≤ a ∧ a < i + cs.length) ∧ (∀ b ∈ r.2, 1 ≤ b ∧ ∀ a ∈ r.1, b < a) ∧
      (r.1 = none → r.2 = none ∧ p1 = none ∧ ∀ x ∈ cs, orientation yd [first, x, last] = colinear)
  | [], i, p1, p2, d, h1, h2, h3, _ => by
    simp only [nearLoop]
    refine ⟨by simpa using h1, h2, fun h => ⟨(h3 h).1, h, by simp⟩⟩
  | x :: cs, i, p1, p2, d, h1, h2, h3, hi => by
    simp only [nearLoop]
    split_ifs with hc
    · have ih := near_spec yd first last c cs (i + 1) (some i) p1 (some (dist2 c x))
        (by simpa using hi) (by simpa using fun b hb => h1 b hb) (by simp) (by omega)
      simp only [] at ih
      obtain ⟨a, b, e⟩ := ih
      refine ⟨fun k hk => ⟨(a k hk).1, ?_⟩, b, fun hk => ?_⟩
      · have := (a k hk).2
        simp only [List.length_cons]
        omega
      · have := (e hk).2.1
        simp at this
    · have ih := near_spec yd first last c cs (i + 1) p1 p2 d
        (fun a ha => ⟨(h1 a ha).1, by have := (h1 a ha).2; omega⟩) h2 h3 (by omega)
      simp only [] at ih
      obtain ⟨a, b, e⟩ := ih
      refine ⟨fun k hk => ⟨(a k hk).1, ?_⟩, b, fun hk => ⟨(e hk).1, (e hk).2.1, ?_⟩⟩
      · have := (a k hk).2
        simp only [List.length_cons]
        omega
      · intro y hy
        rcases List.mem_cons.1 hy with rfl | hy
        · have hd := (h3 (e hk).2.1).2
          subst hd
          simpa using hc
        · exact (e hk).2.2 y hy

/-- A ring whose points are all on the line through two of them has no area. -/
theorem area_of_line (first last : Pt K) (hne : first ≠ last) (ps : List (Pt K))
    (h : ∀ x ∈ ps, area2 [first, x, last] = 0) : area2 ps = 0 := by
  rw [← Winding.area2_translate first ps]
  have hx : ∀ x ∈ ps, cross (x.1 - first.1, x.2 - first.2) (last.1 - first.1, last.2 - first.2) = 0 := by
    intro x hx
    have := h x hx
    simp only [area2, cross, List.drop_succ_cons, List.drop_zero, List.take_succ_cons, List.take_zero,
      List.cons_append, List.nil_append, List.zip_cons_cons, List.zip_nil_right, List.map_cons, List.map_nil,
      List.sum_cons, List.sum_nil] at this
    simp only [cross]
    linear_combination this
  have key : ∀ x ∈ ps, ∀ y ∈ ps, cross (x.1 - first.1, x.2 - first.2) (y.1 - first.1, y.2 - first.2) = 0 := by
    intro x h1 y h2
    have e1 := hx x h1
    have e2 := hx y h2
    simp only [cross] at e1 e2 ⊢
    have hu : last.1 - first.1 ≠ 0 ∨ last.2 - first.2 ≠ 0 := by
      by_contra hc
      push Not at hc
      exact hne (Prod.ext (sub_eq_zero.1 hc.1).symm (sub_eq_zero.1 hc.2).symm)
    rcases hu with hu | hu
    · refine (mul_eq_zero.1 ?_).resolve_left hu
      linear_combination (y.1 - first.1) * e1 - (x.1 - first.1) * e2
    · refine (mul_eq_zero.1 ?_).resolve_left hu
      linear_combination (y.2 - first.2) * e1 - (x.2 - first.2) * e2
  unfold area2
  apply List.sum_eq_zero
  intro v hv
  obtain ⟨e, he, rfl⟩ := List.mem_map.1 hv
  have h1 := (List.of_mem_zip he).1
  have h2 := (List.of_mem_zip he).2
  have h2' : e.2 ∈ ps.map (fun p => (p.1 - first.1, p.2 - first.2)) := by
    rcases List.mem_append.1 h2 with h | h
    · exact List.mem_of_mem_drop h
    · exact List.mem_of_mem_take h
  obtain ⟨x, hx1, e1⟩ := List.mem_map.1 h1
  obtain ⟨y, hy1, e2⟩ := List.mem_map.1 h2'
  rw [← e1, ← e2]
  exact key x hx1 y hy1

/-! ### The chord -/

/-- The four ways in which the chord may be chosen: `m` is the third corner of the triangle on the
side from the last point to the first. -/
inductive Chosen (n : Nat) : Nat → Nat → Nat → Nat → Prop
  | a (m p2 : Nat) : 1 ≤ m → m + 2 < n → 1 ≤ p2 → p2 + 1 < n → p2 ≠ m → Chosen n (n - 1) m 0 p2
  | b (p2 : Nat) : 1 ≤ p2 → p2 + 2 < n → Chosen n (n - 2) 0 (n - 1) p2
  | c (m p2 : Nat) : 2 ≤ m → m + 1 < n → 1 ≤ p2 → p2 + 1 < n → p2 ≠ m → Chosen n 0 m (n - 1) p2
  | d (p2 : Nat) : 2 ≤ p2 → p2 + 1 < n → Chosen n 1 (n - 1) 0 p2

theorem turn_spec {points : List (Pt K)} (hn : points.Nodup) (has : Nat → Nat → Bool)
    (hhas : has = fun a b => contains (newEdgeMap points) (at' points a) (at' points b))
    (h4 : 4 ≤ points.length) (m p2 : Nat) (hm : 1 ≤ m) (hm2 : m + 1 < points.length) (hp : 1 ≤ p2)
    (hp2 : p2 + 1 < points.length) (hne : p2 ≠ m) :
    (∃ pe p1 ps, turnLoop has 4 (points.length - 1) m 0 = some (pe, p1, ps) ∧ Chosen points.length pe p1 ps p2) ∧
    (∃ pe p1 ps, turnLoop has 4 0 m (points.length - 1) = some (pe, p1, ps) ∧ Chosen points.length pe p1 ps p2) := by
  have hc : ∀ a b, a < points.length → b < points.length → has a b = decide (Adj points.length a b) := by
    intro a b ha hb
    rw [hhas, Bool.eq_iff_iff, decide_eq_true_eq]
    exact contains_iff hn ha hb
  generalize points.length = n at *
  constructor
  · rw [turnLoop, hc _ _ (by omega) (by omega)]
    by_cases h : m + 2 = n
    · rw [if_pos (by rw [decide_eq_true_eq]; unfold Adj prev; split_ifs <;> omega)]
      rw [turnLoop, hc _ _ (by omega) (by omega),
        if_pos (by rw [decide_eq_true_eq]; unfold Adj prev; split_ifs <;> omega), turnLoop, hc _ _ (by omega) (by omega),
        if_neg (by rw [decide_eq_true_eq]; unfold Adj prev; split_ifs <;> omega)]
      refine ⟨m, 0, n - 1, rfl, ?_⟩
      obtain rfl : m = n - 2 := by omega
      exact .b p2 hp (by omega)
    · rw [if_neg (by rw [decide_eq_true_eq]; unfold Adj prev; split_ifs <;> omega)]
      exact ⟨_, _, _, rfl, .a m p2 hm (by omega) hp hp2 hne⟩
  · rw [turnLoop, hc _ _ (by omega) (by omega)]
    by_cases h : m = 1
    · rw [if_pos (by rw [decide_eq_true_eq]; unfold Adj prev; split_ifs <;> omega)]
      rw [turnLoop, hc _ _ (by omega) (by omega),
        if_pos (by rw [decide_eq_true_eq]; unfold Adj prev; split_ifs <;> omega), turnLoop, hc _ _ (by omega) (by omega),
        if_neg (by rw [decide_eq_true_eq]; unfold Adj prev; split_ifs <;> omega)]
      subst h
      exact ⟨_, _, _, rfl, .d p2 (by omega) hp2⟩
    · rw [if_neg (by rw [decide_eq_true_eq]; unfold Adj prev; split_ifs <;> omega)]
      exact ⟨_, _, _, rfl, .c m p2 (by omega) hm2 hp hp2 hne⟩

theorem chord_spec (yd : Bool) (inCircle : Pt K → Pt K → Pt K → Pt K → Bool) {points : List (Pt K)}
    (hn : points.Nodup) (h4 : 4 ≤ points.length) (ha : orientation yd points ≠ colinear) :
    ∃ pe p1 ps p2, chord yd inCircle points = some (pe, p1, ps, p2) ∧ Chosen points.length pe p1 ps p2 := by
  unfold chord
  simp only []
  have hsp := near_spec yd (at' points 0) (at' points (points.length - 1))
    (((at' points 0).1 + (at' points (points.length - 1)).1) / 2,
      ((at' points 0).2 + (at' points (points.length - 1)).2) / 2)
    ((points.take (points.length - 1)).drop 1) 1 none none none (by simp) (by simp) (by simp) (by omega)
  simp only [] at hsp
  generalize nearLoop yd (at' points 0) (at' points (points.length - 1))
    (((at' points 0).1 + (at' points (points.length - 1)).1) / 2,
      ((at' points 0).2 + (at' points (points.length - 1)).2) / 2)
    1 ((points.take (points.length - 1)).drop 1) none none none = r at hsp ⊢
  obtain ⟨r1, r2⟩ := r
  obtain ⟨s1, s2, s3⟩ := hsp
  have hlen : ((points.take (points.length - 1)).drop 1).length = points.length - 2 := by
    simp [List.length_take]; omega
  rw [hlen] at s1
  cases r1 with
  | none =>
    exfalso
    apply ha
    have h0 : ∀ x ∈ (points.take (points.length - 1)).drop 1,
        area2 [at' points 0, x, at' points (points.length - 1)] = 0 :=
      fun x hx => (Winding.orientation_zero yd _).1 ((s3 rfl).2.2 x hx)
    refine (Winding.orientation_zero yd _).2 (area_of_line (at' points 0) (at' points (points.length - 1)) ?_ _ ?_)
    · intro h
      rw [at_inj hn (by omega) (by omega)] at h
      omega
    · intro x hx
      obtain ⟨i, hi, rfl⟩ := List.mem_iff_getElem.1 hx
      rw [← at_eq _ hi]
      have hself : ∀ a b : Pt K, area2 [a, a, b] = 0 ∧ area2 [a, b, b] = 0 := by
        intro a b
        simp [area2, cross]
      by_cases hi0 : i = 0
      · subst hi0; exact (hself _ _).1
      · by_cases hil : i = points.length - 1
        · subst hil; exact (hself _ _).2
        · apply h0
          rw [List.mem_iff_getElem]
          refine ⟨i - 1, by rw [hlen]; omega, ?_⟩
          rw [List.getElem_drop, List.getElem_take, at_eq _ hi]
          congr 1
          omega
  | some m =>
    obtain ⟨hm1, hm2⟩ := s1 m rfl
    simp only []
    have hp2 : ∃ p2, secondPoint points.length m r2 = p2 ∧ 1 ≤ p2 ∧ p2 + 1 < points.length ∧ p2 ≠ m := by
      cases r2 with
      | some b =>
        obtain ⟨b1, b2⟩ := s2 b rfl
        have := b2 m rfl
        exact ⟨b, rfl, b1, by omega, by omega⟩
      | none =>
        show ∃ p2, (if m - 1 = 0 ∨ m - 1 = points.length - 1 then m + 1 else m - 1) = p2 ∧ _
        split_ifs with hh
        · exact ⟨m + 1, rfl, by omega, by omega, by omega⟩
        · exact ⟨m - 1, rfl, by omega, by omega, by omega⟩
    obtain ⟨p2, e2, hp1, hp2, hne⟩ := hp2
    rw [e2]
    split_ifs with hf
    · obtain ⟨pe, p1, ps, h, hC⟩ := (turn_spec hn _ rfl h4 p2 m hp1 hp2 hm1 (by omega) (Ne.symm hne)).2
      exact ⟨pe, p1, ps, m, by rw [h]; rfl, hC⟩
    · obtain ⟨pe, p1, ps, h, hC⟩ := (turn_spec hn _ rfl h4 m p2 hm1 (by omega) hp1 hp2 hne).1
      exact ⟨pe, p1, ps, p2, by rw [h]; rfl, hC⟩

/-! ### The two parts -/

theorem collect_up (points : List (Pt K)) (j : Nat) (hj : j < points.length) :
    ∀ (n i : Nat), i < j → j - i ≤ n → collect points j n i = (points.drop (i + 1)).take (j - i)
  | 0, i, h, hn => by omega
  | n + 1, i, h, hn => by
    rw [collect]
    rw [if_neg (by omega), at_eq _ (by omega), List.drop_eq_getElem_cons (by omega)]
    obtain ⟨d, hd⟩ : ∃ d, j - i = d + 1 := ⟨j - i - 1, by omega⟩
    rw [hd, List.take_succ_cons]
    congr 1
    split_ifs with hij
    · obtain rfl : d = 0 := by omega
      simp
    · rw [collect_up points j hj n (i + 1) (by omega) (by omega)]
      congr 1
      omega

theorem collect_round (points : List (Pt K)) (i : Nat) :
    ∀ (n j : Nat), i < j → j < points.length → points.length - j + i ≤ n →
      collect points i n j = points.drop (j + 1) ++ points.take (i + 1)
  | 0, j, h, hj, hn => by omega
  | n + 1, j, h, hj, hn => by
    rw [collect]
    split_ifs with h1 h2 h3
    · obtain rfl : i = 0 := h2.symm
      rw [at_eq _ (by omega), List.drop_of_length_le (by omega), List.nil_append,
        List.take_succ_eq_append_getElem (by omega)]
      simp
    · rw [collect_up points i (by omega) n 0 (by omega) (by omega), at_eq _ (by omega),
        List.drop_of_length_le (by omega : points.length ≤ j + 1), List.nil_append]
      conv_rhs => rw [← List.drop_zero (l := points), List.drop_eq_getElem_cons (by omega : 0 < points.length)]
      rw [List.take_succ_cons]
      simp
    · omega
    · rw [collect_round points i n (j + 1) (by omega) (by omega) (by omega), at_eq _ (by omega),
        List.drop_eq_getElem_cons (by omega : j + 1 < points.length)]
      rfl

/-- The two parts of a ring cut between two indices. -/
theorem parts (points : List (Pt K)) {i j : Nat} (hij : i < j) (hj : j < points.length) :
    ∃ x l₁ y, points = x ++ at' points i :: l₁ ++ at' points j :: y ∧ x.length = i ∧ l₁.length = j - i - 1 ∧
      at' points i :: collect points j points.length i = at' points i :: l₁ ++ [at' points j] ∧
      at' points j :: collect points i points.length j = at' points j :: (y ++ x) ++ [at' points i] := by
  refine ⟨points.take i, (points.drop (i + 1)).take (j - i - 1), points.drop (j + 1), ?_, ?_, ?_, ?_, ?_⟩
  · rw [at_eq _ hj, at_eq _ (by omega)]
    have h1 : points.drop j = points[j] :: points.drop (j + 1) := List.drop_eq_getElem_cons hj
    have h2 : points.drop i = points[i] :: points.drop (i + 1) := List.drop_eq_getElem_cons (by omega)
    have h3 : (points.drop (i + 1)).drop (j - i - 1) = points.drop j := by
      rw [List.drop_drop]; congr 1; omega
    rw [← h1, ← h3, List.append_assoc, List.cons_append, List.take_append_drop, ← h2, List.take_append_drop]
  · rw [List.length_take]; omega
  · rw [List.length_take, List.length_drop]; omega
  · rw [collect_up points j hj _ i hij (by omega), at_eq _ hj]
    obtain ⟨d, hd⟩ : ∃ d, j - i = d + 1 := ⟨j - i - 1, by omega⟩
    rw [hd, List.take_succ_eq_append_getElem (by rw [List.length_drop]; omega), List.getElem_drop]
    simp only [List.cons_append, Nat.add_sub_cancel]
    have : i + 1 + d = j := by omega
    simp only [this]
  · rw [collect_round points i _ j hij hj (by omega), List.take_succ_eq_append_getElem (by omega), at_eq points (by omega : i < points.length)]
    simp

/-- The two parts, whichever index is the smaller. -/
theorem parts' (points : List (Pt K)) {i j : Nat} (hi : i < points.length) (hj : j < points.length)
    (hne : i ≠ j) (hadj : ¬ Adj points.length i j) :
    ∃ l₁ l₂, points.IsRotated (at' points i :: l₁ ++ at' points j :: l₂) ∧ l₁ ≠ [] ∧ l₂ ≠ [] ∧
      at' points i :: collect points j points.length i = at' points i :: l₁ ++ [at' points j] ∧
      at' points j :: collect points i points.length j = at' points j :: l₂ ++ [at' points i] := by
  unfold Adj prev at hadj
  rcases Nat.lt_or_gt_of_ne hne with h | h
  · obtain ⟨x, l₁, y, e, hx, h1, h2, h3⟩ := parts points h hj
    refine ⟨l₁, y ++ x, ?_, ?_, ?_, h2, h3⟩
    · generalize at' points i = a at *
      generalize at' points j = b at *
      rw [e, List.append_assoc]
      refine (List.isRotated_append (l := x) (l' := a :: l₁ ++ b :: y)).trans ?_
      simp [List.IsRotated.refl]
    · rintro rfl
      simp at h1
      apply hadj
      split_ifs <;> omega
    · intro hyx
      have hl := congrArg List.length e
      rw [List.append_eq_nil_iff] at hyx
      obtain ⟨rfl, rfl⟩ := hyx
      simp at hl hx
      apply hadj
      split_ifs <;> omega
  · obtain ⟨x, l₁, y, e, hx, h1, h2, h3⟩ := parts points h hi
    refine ⟨y ++ x, l₁, ?_, ?_, ?_, h3, h2⟩
    · generalize at' points i = a at *
      generalize at' points j = b at *
      rw [e, show x ++ b :: l₁ ++ a :: y = (x ++ b :: l₁) ++ (a :: y) by simp]
      refine (List.isRotated_append (l := x ++ b :: l₁) (l' := a :: y)).trans ?_
      simp [List.IsRotated.refl]
    · intro hyx
      have hl := congrArg List.length e
      rw [List.append_eq_nil_iff] at hyx
      obtain ⟨rfl, rfl⟩ := hyx
      simp at hl hx
      apply hadj
      split_ifs <;> omega
    · rintro rfl
      simp at h1
      apply hadj
      split_ifs <;> omega

theorem chosen_apart {n pe p1 ps p2 : Nat} (hn : 4 ≤ n) (h : Chosen n pe p1 ps p2) :
    pe < n ∧ p1 < n ∧ ps < n ∧ p2 < n ∧ pe ≠ p1 ∧ ¬ Adj n pe p1 := by
  unfold Adj prev
  cases h <;> refine ⟨by omega, by omega, by omega, by omega, by omega, ?_⟩ <;> split_ifs <;> first | omega | contradiction

/-! ### Triangulations -/

theorem area2_isRotated {l m : List (Pt K)} (h : l.IsRotated m) : area2 l = area2 m := by
  obtain ⟨n, rfl⟩ := h
  rw [List.rotate_eq_drop_append_take_mod, Winding.area2_rotate, List.take_append_drop]

theorem area2_cut (a b : Pt K) (l₁ l₂ : List (Pt K)) :
    area2 (a :: l₁ ++ b :: l₂) = area2 (a :: l₁ ++ [b]) + area2 (b :: l₂ ++ [a]) := by
  simp only [List.cons_append, Winding.area2_cons, Winding.pathFrom_append, List.append_assoc, Winding.pathFrom,
    Winding.lastOf]
  rw [Winding.cross_swap a b]
  ring

theorem tri_length {P : Type} {ring : List P} {T : List (P × P × P)} (h : Triangulates ring T) :
    T.length + 2 = ring.length := by
  induction h with
  | three => rfl
  | cut hr h1 h2 _ _ i1 i2 =>
    have := hr.perm.length_eq
    simp at this i1 i2 ⊢
    omega

theorem tri_area {ring : List (Pt K)} {T : List (Pt K × Pt K × Pt K)} (h : Triangulates ring T) :
    (T.map (fun t => area2 [t.1, t.2.1, t.2.2])).sum = area2 ring := by
  induction h with
  | three => simp
  | cut hr h1 h2 _ _ i1 i2 => rw [area2_isRotated hr, area2_cut, List.map_append, List.sum_append, i1, i2]

theorem tri_corner {P : Type} {ring : List P} {T : List (P × P × P)} (h : Triangulates ring T) :
    ∀ t ∈ T, t.1 ∈ ring ∧ t.2.1 ∈ ring ∧ t.2.2 ∈ ring := by
  induction h with
  | three => simp
  | cut hr h1 h2 _ _ i1 i2 =>
    rename_i ring a b l₁ l₂ _ _ _ _
    have hs1 : ∀ x, x ∈ a :: l₁ ++ [b] → x ∈ ring := fun x hx => by
      rw [hr.mem_iff]; simp at hx ⊢; tauto
    have hs2 : ∀ x, x ∈ b :: l₂ ++ [a] → x ∈ ring := fun x hx => by
      rw [hr.mem_iff]; simp at hx ⊢; tauto
    intro t ht
    rcases List.mem_append.1 ht with ht | ht
    · obtain ⟨x, y, z⟩ := i1 t ht
      exact ⟨hs1 _ x, hs1 _ y, hs1 _ z⟩
    · obtain ⟨x, y, z⟩ := i2 t ht
      exact ⟨hs2 _ x, hs2 _ y, hs2 _ z⟩

theorem side_rotated {P : Type} {l m : List P} (h : l.IsRotated m) {p q : P} (hs : Side l p q) : Side m p q := by
  obtain ⟨n, rfl⟩ := h
  unfold Side at *
  rw [List.rotate_rotate, Nat.add_comm, ← List.rotate_rotate]
  have := List.zipWith_rotate_distrib Prod.mk l (l.rotate 1) n (by simp)
  rw [List.zip, ← this, List.mem_rotate]
  exact hs

theorem sides_cons {P : Type} (a : P) (l : List P) : (a :: l).zip ((a :: l).rotate 1) = (a :: l).zip (l ++ [a]) := by
  simp

theorem sides_append {P : Type} (b c : P) : ∀ (l₁ l₂ : List P) (a : P),
    (a :: l₁ ++ b :: l₂).zip (l₁ ++ b :: l₂ ++ [c]) = (a :: l₁).zip (l₁ ++ [b]) ++ (b :: l₂).zip (l₂ ++ [c])
  | [], l₂, a => by simp
  | x :: l₁, l₂, a => by
    have := sides_append b c l₁ l₂ x
    simp only [List.cons_append, List.zip_cons_cons, List.append_assoc] at this ⊢
    rw [this]

/-- The sides of the parts are the sides of the ring and the chord in both directions. -/
theorem side_cut {P : Type} {a b : P} {l₁ l₂ : List P} {p q : P} :
    (Side (a :: l₁ ++ [b]) p q ↔ (p, q) ∈ (a :: l₁).zip (l₁ ++ [b]) ∨ (p = b ∧ q = a)) ∧
    (Side (a :: l₁ ++ b :: l₂) p q ↔ (p, q) ∈ (a :: l₁).zip (l₁ ++ [b]) ∨ (p, q) ∈ (b :: l₂).zip (l₂ ++ [a])) := by
  constructor
  · unfold Side
    rw [List.cons_append, sides_cons, ← List.cons_append, sides_append b a l₁ [] a, List.mem_append]
    simp
  · unfold Side
    rw [List.cons_append, sides_cons, ← List.cons_append, sides_append b a l₁ l₂ a, List.mem_append]

theorem hasEdge_symm {P : Type} {t : P × P × P} {p q : P} (h : HasEdge t p q) : HasEdge t q p := by
  obtain ⟨w, h⟩ := h
  refine ⟨w, ?_⟩
  unfold Corners at *
  tauto

theorem tri_sides {P : Type} {ring : List P} {T : List (P × P × P)} (h : Triangulates ring T) :
    ∀ p q, Side ring p q → ∃ t ∈ T, HasEdge t p q := by
  induction h with
  | three a b c =>
    intro p q hs
    refine ⟨_, List.mem_singleton_self _, ?_⟩
    unfold Side at hs
    unfold HasEdge Corners
    simp at hs
    rcases hs with ⟨rfl, rfl⟩ | ⟨rfl, rfl⟩ | ⟨rfl, rfl⟩
    · exact ⟨c, by simp⟩
    · exact ⟨a, by simp⟩
    · exact ⟨b, by simp⟩
  | cut hr h1 h2 _ _ i1 i2 =>
    intro p q hs
    rcases side_cut.2.1 (side_rotated hr hs) with h | h
    · obtain ⟨t, ht, he⟩ := i1 p q (side_cut (l₂ := []).1.2 (.inl h))
      exact ⟨t, List.mem_append_left _ ht, he⟩
    · obtain ⟨t, ht, he⟩ := i2 p q (side_cut (l₂ := []).1.2 (.inl h))
      exact ⟨t, List.mem_append_right _ ht, he⟩

/-! ### Splitting off rings -/

theorem subLoop_nodup (tri : List (Pt K) → Res (List (Line K))) (o : List (Pt K)) :
    ∀ (pts : List (Pt K)) (i : Nat) (s : SubState K), (∀ p ∈ pts, s.seen p = none) → pts.Nodup →
      ∃ m, subLoop tri o i pts s = .ok ⟨s.points ++ pts, m, s.edges⟩
  | [], _, s, _, _ => ⟨s.seen, by simp [subLoop]⟩
  | p :: pts, i, s, hs, hn => by
    rw [List.nodup_cons] at hn
    rw [subLoop, hs p (by simp)]
    simp only []
    obtain ⟨m, hm⟩ := subLoop_nodup tri o pts (i + 1)
      ⟨s.points ++ [p], setSeen s.seen p (i, s.points.length), s.edges⟩ (by
        intro q hq
        simp only [setSeen]
        rw [if_neg (by rintro rfl; exact hn.1 hq)]
        exact hs q (by simp [hq])) hn.2
    exact ⟨m, by rw [hm]; simp⟩

theorem subRings_nodup (tri : List (Pt K) → Res (List (Line K))) (o : List (Pt K)) (h : o.Nodup) :
    ∃ m, subRings tri o = .ok ⟨o, m, []⟩ := by
  unfold subRings
  obtain ⟨m, hm⟩ := subLoop_nodup tri o o 0 ⟨[], fun _ => none, []⟩ (by simp) h
  exact ⟨m, by simpa using hm⟩

/-- The state of the loop before index `i`. -/
structure SubInv (o : List (Pt K)) (i : Nat) (s : SubState K) : Prop where
  at_seen : ∀ p k j, s.seen p = some (k, j) → s.points[j]? = some p ∧ k < i ∧ o[k]? = some p ∧
    ∀ m, k < m → m < i → o[m]? ≠ some p
  seen_at : ∀ p j, s.points[j]? = some p → ∃ k, s.seen p = some (k, j)
  mono : ∀ p q k j k' j', s.seen p = some (k, j) → s.seen q = some (k', j') → j < j' → k < k'
  ends : ∀ l ∈ s.edges, l.1 ∈ o ∧ l.2 ∈ o

theorem SubInv.nodup {o : List (Pt K)} {i : Nat} {s : SubState K} (h : SubInv o i s) : s.points.Nodup := by
  rw [List.nodup_iff_getElem?_ne_getElem?]
  intro a b hab hb he
  rw [List.getElem?_eq_getElem hb] at he
  obtain ⟨k, hk⟩ := h.seen_at _ _ he
  obtain ⟨k', hk'⟩ := h.seen_at _ _ (List.getElem?_eq_getElem hb)
  rw [hk] at hk'
  cases hk'
  omega

theorem SubInv.mem {o : List (Pt K)} {i : Nat} {s : SubState K} (h : SubInv o i s) : ∀ p ∈ s.points, p ∈ o := by
  intro p hp
  obtain ⟨j, hj⟩ := List.mem_iff_getElem?.1 hp
  obtain ⟨k, hk⟩ := h.seen_at p j hj
  exact List.mem_iff_getElem?.2 ⟨k, (h.at_seen p k j hk).2.2.1⟩

/-- `Triangulate` is as it should be on lists shorter than `n`. -/
def Good (tri : List (Pt K) → Res (List (Line K))) (n : Nat) : Prop :=
  ∀ l, l.length < n → tri l ≠ .panic ∧ ∀ e, tri l = .ok e → ∀ x ∈ e, x.1 ∈ l ∧ x.2 ∈ l

theorem subLoop_inv (tri : List (Pt K) → Res (List (Line K))) (o : List (Pt K)) (hg : Good tri o.length) :
    ∀ (pts : List (Pt K)) (i : Nat) (s : SubState K), SubInv o i s → o.drop i = pts →
      subLoop tri o i pts s ≠ .panic ∧ ∀ s', subLoop tri o i pts s = .ok s' → SubInv o o.length s'
  | [], i, s, hI, hd => by
    simp only [subLoop]
    refine ⟨by simp, ?_⟩
    rintro s' h
    cases h
    have hle : o.length ≤ i := by simpa using hd
    refine ⟨fun p k j h => ?_, hI.seen_at, hI.mono, hI.ends⟩
    obtain ⟨a, b, c, d⟩ := hI.at_seen p k j h
    obtain ⟨hk, -⟩ := List.getElem?_eq_some_iff.1 c
    exact ⟨a, hk, c, fun m h1 h2 => d m h1 (by omega)⟩
  | pt :: pts, i, s, hI, hd => by
    have hlt : i < o.length := by
      by_contra hc
      rw [List.drop_of_length_le (by omega)] at hd
      simp at hd
    rw [List.drop_eq_getElem_cons hlt] at hd
    injection hd with hpt hd
    have hoi : o[i]? = some pt := by rw [List.getElem?_eq_getElem hlt, hpt]
    rw [subLoop]
    cases hsn : s.seen pt with
    | none =>
      simp only []
      apply subLoop_inv tri o hg pts (i + 1) _ _ hd
      have hnot : ∀ j : Nat, s.points[j]? ≠ some pt := by
        intro j hj
        obtain ⟨k, hk⟩ := hI.seen_at pt j hj
        rw [hsn] at hk
        cases hk
      refine ⟨?_, ?_, ?_, hI.ends⟩
      · intro p k j h
        simp only [setSeen] at h
        split_ifs at h with hp
        · subst hp
          cases h
          refine ⟨by simp, by omega, hoi, fun m h1 h2 => by omega⟩
        · obtain ⟨a, b, c, d⟩ := hI.at_seen p k j h
          obtain ⟨hj, -⟩ := List.getElem?_eq_some_iff.1 a
          refine ⟨by rw [List.getElem?_append_left hj]; exact a, by omega, c, fun m h1 h2 => ?_⟩
          rcases Nat.lt_or_ge m i with hm | hm
          · exact d m h1 hm
          · obtain rfl : m = i := by omega
            rw [hoi]
            exact fun h => hp (Option.some.inj h).symm
      · intro p j h
        simp only [setSeen]
        rcases Nat.lt_or_ge j s.points.length with hj | hj
        · rw [List.getElem?_append_left hj] at h
          rw [if_neg (by rintro rfl; exact hnot j h)]
          exact hI.seen_at p j h
        · rw [List.getElem?_append_right hj] at h
          obtain ⟨h0, h1⟩ := List.getElem?_eq_some_iff.1 h
          simp at h0 h1
          obtain rfl : j = s.points.length := by omega
          exact ⟨i, by simp [h1]⟩
      · intro p q k j k' j' h1 h2 hjj
        simp only [setSeen] at h1 h2
        split_ifs at h1 h2 with hp hq hq
        · cases h1; cases h2; omega
        · cases h1
          obtain ⟨a, -⟩ := hI.at_seen q k' j' h2
          obtain ⟨hj, -⟩ := List.getElem?_eq_some_iff.1 a
          omega
        · cases h2
          exact (hI.at_seen p k j h1).2.1
        · exact hI.mono p q k j k' j' h1 h2 hjj
    | some kj =>
      obtain ⟨k, j⟩ := kj
      obtain ⟨hj, hk, hok, hlast⟩ := hI.at_seen pt k j hsn
      have hjlen : j < s.points.length := (List.getElem?_eq_some_iff.1 hj).1
      simp only []
      split_ifs with hadj
      · apply subLoop_inv tri o hg pts (i + 1) _ _ hd
        refine ⟨?_, ?_, ?_, hI.ends⟩
        · intro p k' j' h
          simp only [setSeen] at h
          split_ifs at h with hp
          · subst hp
            cases h
            exact ⟨hj, by omega, hoi, fun m h1 h2 => by omega⟩
          · obtain ⟨a, b, c, d⟩ := hI.at_seen p k' j' h
            refine ⟨a, by omega, c, fun m h1 h2 => ?_⟩
            rcases Nat.lt_or_ge m i with hm | hm
            · exact d m h1 hm
            · obtain rfl : m = i := by omega
              rw [hoi]
              exact fun h => hp (Option.some.inj h).symm
        · intro p j' h
          simp only [setSeen]
          obtain ⟨k', hk'⟩ := hI.seen_at p j' h
          split_ifs with hp
          · subst hp
            rw [hsn] at hk'
            cases hk'
            exact ⟨i, rfl⟩
          · exact ⟨k', hk'⟩
        · intro p q k1 j1 k2 j2 h1 h2 hjj
          simp only [setSeen] at h1 h2
          split_ifs at h1 h2 with hp hq hq
          · cases h1; cases h2; omega
          · cases h1
            subst hp
            have e1 := hI.mono _ _ _ _ _ _ hsn h2 hjj
            have e2 := (hI.at_seen q k2 j2 h2).2.1
            omega
          · cases h2
            exact (hI.at_seen p k1 j1 h1).2.1
          · exact hI.mono p q _ _ _ _ h1 h2 hjj
      · have hlen : ((o.drop k).take (i - k)).length < o.length := by
          rw [List.length_take, List.length_drop]; omega
        obtain ⟨g1, g2⟩ := hg _ hlen
        cases htri : tri ((o.drop k).take (i - k)) with
        | size => simp
        | colinear => simp
        | panic => exact absurd htri g1
        | ok e =>
          simp only []
          apply subLoop_inv tri o hg pts (i + 1) _ _ hd
          have hplen : (s.points.take (j + 1)).length - 1 = j := by rw [List.length_take]; omega
          have hmem : ∀ p, p ∈ (o.drop k).take (i - k) ↔ ∃ m, k ≤ m ∧ m < i ∧ o[m]? = some p := by
            intro p
            rw [List.mem_iff_getElem?]
            constructor
            · rintro ⟨m, hm⟩
              have hm' : m < i - k := by
                by_contra hc
                rw [List.getElem?_eq_none (by rw [List.length_take]; omega)] at hm
                simp at hm
              rw [List.getElem?_take_of_lt hm', List.getElem?_drop] at hm
              exact ⟨k + m, by omega, by omega, hm⟩
            · rintro ⟨m, h1, h2, h3⟩
              refine ⟨m - k, ?_⟩
              rw [List.getElem?_take_of_lt (by omega), List.getElem?_drop, show k + (m - k) = m by omega]
              exact h3
          rw [hplen]
          have hkeep : ∀ p k' j', setSeen (delSeen s.seen ((o.drop k).take (i - k))) pt (i, j) p = some (k', j') →
              (p = pt ∧ k' = i ∧ j' = j) ∨ (p ≠ pt ∧ s.seen p = some (k', j') ∧ j' < j) := by
            intro p k' j' h
            simp only [setSeen, delSeen] at h
            split_ifs at h with hp hd
            · cases h
              exact .inl ⟨hp, rfl, rfl⟩
            · refine .inr ⟨hp, h, ?_⟩
              obtain ⟨a, b, c, -⟩ := hI.at_seen p k' j' h
              by_contra hc
              rcases Nat.lt_or_eq_of_le (Nat.not_lt.1 hc) with hh | hh
              · have := hI.mono _ _ _ _ _ _ hsn h hh
                exact hd ((hmem p).2 ⟨k', by omega, b, c⟩)
              · subst hh
                rw [hj] at a
                exact hp (Option.some.inj a).symm
          refine ⟨?_, ?_, ?_, ?_⟩
          · intro p k' j' h
            rcases hkeep p k' j' h with ⟨rfl, rfl, rfl⟩ | ⟨hp, hs, hjj⟩
            · refine ⟨?_, by omega, hoi, fun m h1 h2 => by omega⟩
              rw [List.getElem?_take_of_lt (by omega)]
              exact hj
            · obtain ⟨a, b, c, d⟩ := hI.at_seen p k' j' hs
              refine ⟨?_, by omega, c, fun m h1 h2 => ?_⟩
              · rw [List.getElem?_take_of_lt (by omega)]
                exact a
              · rcases Nat.lt_or_ge m i with hm | hm
                · exact d m h1 hm
                · obtain rfl : m = i := by omega
                  rw [hoi]
                  exact fun h => hp (Option.some.inj h).symm
          · intro p j' h
            have hjj : j' < j + 1 := by
              by_contra hc
              rw [List.getElem?_eq_none (by rw [List.length_take]; omega)] at h
              simp at h
            rw [List.getElem?_take_of_lt hjj] at h
            obtain ⟨k', hk'⟩ := hI.seen_at p j' h
            simp only [setSeen, delSeen]
            by_cases hp : p = pt
            · subst hp
              rw [hsn] at hk'
              cases hk'
              exact ⟨i, by simp⟩
            · have hne : j' ≠ j := by
                rintro rfl
                rw [hj] at h
                exact hp (Option.some.inj h).symm
              have hkk := hI.mono _ _ _ _ _ _ hk' hsn (by omega)
              rw [if_neg hp, if_neg]
              · exact ⟨k', hk'⟩
              · rw [hmem]
                rintro ⟨m, h1, h2, h3⟩
                exact (hI.at_seen p k' j' hk').2.2.2 m (by omega) h2 h3
          · intro p q k1 j1 k2 j2 h1 h2 hjj
            rcases hkeep _ _ _ h1 with ⟨rfl, rfl, rfl⟩ | ⟨hp, hs, hp'⟩ <;>
              rcases hkeep _ _ _ h2 with ⟨rfl, rfl, rfl⟩ | ⟨hq, hs2, hq'⟩
            · omega
            · omega
            · exact (hI.at_seen p k1 j1 hs).2.1
            · exact hI.mono _ _ _ _ _ _ hs hs2 hjj
          · intro l hl
            rcases List.mem_append.1 hl with hl | hl
            · exact hI.ends l hl
            · obtain ⟨a, b⟩ := g2 e htri l hl
              exact ⟨List.mem_of_mem_drop (List.mem_of_mem_take a), List.mem_of_mem_drop (List.mem_of_mem_take b)⟩

theorem subRings_inv (tri : List (Pt K) → Res (List (Line K))) (o : List (Pt K)) (hg : Good tri o.length) :
    subRings tri o ≠ .panic ∧ ∀ s, subRings tri o = .ok s → SubInv o o.length s :=
  subLoop_inv tri o hg o 0 _ ⟨by simp, by simp, by simp, by simp⟩ rfl

end Verif.Lemmas.PseudoPolygon
