import Verif.Model.Walker
import Verif.Spec.Walker
import Verif.Lemmas.Winding
import Verif.Lemmas.Planar
import Mathlib.Tactic.Linarith
import Mathlib.Tactic.LinearCombination

/-! Helper lemmas for the walker: cutting rings, removing bridges, areas. -/

set_option linter.unusedSectionVars false

namespace Verif.Lemmas.Walker
open Verif.Walker Verif.Spec.Walker
open Verif.Spec.Winding (area2 cross)
open Verif.Planar (isPointOnLine)
open Verif.Winding (area2_rotate area2_cons pathFrom pathFrom_append lastOf area2_short)

section cut
variable {P : Type}

theorem cut_none (rng : List P) (start stop : Int) : cut rng start stop = none ↔
    (start < 0 ∨ stop < 0 ∨ (rng.length : Int) ≤ start ∨ (rng.length : Int) < stop) := by
  unfold cut
  by_cases h : start < 0 ∨ stop < 0 ∨ start ≥ rng.length ∨ stop > rng.length
  · rw [if_pos h]; simpa using h
  · rw [if_neg h]
    constructor
    · intro h'; exfalso; revert h'; dsimp only; split
      · simp
      · split <;> simp
    · intro h'; exact absurd (by simpa using h') h

/-- The middle of a list. -/
theorem cut_mid (a b c : List P) (hb : b ≠ []) :
    cut (a ++ b ++ c) a.length (a.length + b.length : Nat) = some (b, a ++ c) := by
  have hl : 0 < b.length := List.length_pos_iff.2 hb
  unfold cut
  rw [if_neg (by simp only [List.length_append]; omega)]
  simp only [Int.toNat_natCast]
  rw [if_neg (by omega), if_neg (by omega)]
  simp

/-- The end of a list and its beginning. -/
theorem cut_wrap (a b c : List P) (hb : b ≠ []) (hc : c ≠ []) :
    cut (a ++ b ++ c) (a.length + b.length : Nat) a.length = some (c ++ a, b) := by
  have hl : 0 < b.length := List.length_pos_iff.2 hb
  have hl' : 0 < c.length := List.length_pos_iff.2 hc
  unfold cut
  rw [if_neg (by simp only [List.length_append]; omega)]
  simp only [Int.toNat_natCast]
  rw [if_pos (by omega)]
  have h1 : List.drop (a.length + b.length) (a ++ b ++ c) = c := by
    rw [← List.length_append]; exact List.drop_left
  have h2 : (a ++ b ++ c).take a.length = a := by
    rw [List.append_assoc]; exact List.take_left
  have h3 : (a ++ b ++ c).drop a.length = b ++ c := by
    rw [List.append_assoc]; exact List.drop_left
  rw [h1, h2, h3]
  simp

/-- The places left over, by filtering. -/
theorem others_split (a b c : List P) :
    ((a ++ b ++ c).zipIdx.filter (fun x => decide (¬ (a.length ≤ x.2 ∧ x.2 < a.length + b.length)))).map (·.1)
      = a ++ c := by
  have e1 : ∀ (l : List P) (n : Nat) (q : P × Nat → Bool), (∀ x : P, ∀ k, n ≤ k → k < n + l.length → q (x, k) = true) →
      ((l.zipIdx n).filter q).map (·.1) = l := by
    intro l n q h
    rw [List.filter_eq_self.2]
    · simp
    · rintro ⟨x, k⟩ hk
      have := List.mem_zipIdx hk
      exact h x k this.1 this.2.1
  have e2 : ∀ (l : List P) (n : Nat) (q : P × Nat → Bool), (∀ x : P, ∀ k, n ≤ k → k < n + l.length → q (x, k) = false) →
      ((l.zipIdx n).filter q).map (·.1) = [] := by
    intro l n q h
    rw [List.filter_eq_nil_iff.2]
    · simp
    · rintro ⟨x, k⟩ hk
      have := List.mem_zipIdx hk
      simp [h x k this.1 this.2.1]
  rw [List.append_assoc, List.zipIdx_append, List.zipIdx_append, List.filter_append,
    List.filter_append, List.map_append, List.map_append, e1, e2, e1]
  · simp
  · intro x k h1 h2; simp; omega
  · intro x k h1 h2; simp; omega
  · intro x k h1 h2; simp; omega

theorem others_split' (a b c : List P) :
    ((a ++ b ++ c).zipIdx.filter (fun x => decide ((a.length ≤ x.2 ∧ x.2 < a.length + b.length)))).map (·.1)
      = b := by
  have e1 : ∀ (l : List P) (n : Nat) (q : P × Nat → Bool), (∀ x : P, ∀ k, n ≤ k → k < n + l.length → q (x, k) = true) →
      ((l.zipIdx n).filter q).map (·.1) = l := by
    intro l n q h
    rw [List.filter_eq_self.2]
    · simp
    · rintro ⟨x, k⟩ hk
      have := List.mem_zipIdx hk
      exact h x k this.1 this.2.1
  have e2 : ∀ (l : List P) (n : Nat) (q : P × Nat → Bool), (∀ x : P, ∀ k, n ≤ k → k < n + l.length → q (x, k) = false) →
      ((l.zipIdx n).filter q).map (·.1) = [] := by
    intro l n q h
    rw [List.filter_eq_nil_iff.2]
    · simp
    · rintro ⟨x, k⟩ hk
      have := List.mem_zipIdx hk
      simp [h x k this.1 this.2.1]
  rw [List.append_assoc, List.zipIdx_append, List.zipIdx_append, List.filter_append,
    List.filter_append, List.map_append, List.map_append, e2, e1, e2]
  · simp
  · intro x k h1 h2; simp; omega
  · intro x k h1 h2; simp; omega
  · intro x k h1 h2; simp; omega

theorem split3 (l : List P) {s e : Nat} (h1 : s ≤ e) (h2 : e ≤ l.length) :
    ∃ a b c, l = a ++ b ++ c ∧ a.length = s ∧ a.length + b.length = e := by
  refine ⟨l.take s, (l.drop s).take (e - s), (l.drop s).drop (e - s), ?_, ?_, ?_⟩
  · rw [List.append_assoc, List.take_append_drop, List.take_append_drop]
  · simp; omega
  · simp; omega

/-- What `cut` does, for all places. -/
theorem cut_spec (rng : List P) {s e : Nat} (hs : s < rng.length) (he : e ≤ rng.length) :
    ∃ sliver, cut rng s e = some (sliver, others rng s (runLength rng.length s e)) ∧
      sliver.length = runLength rng.length s e ∧
      ∀ k, k < sliver.length → sliver[k]? = rng[(s + k) % rng.length]? := by
  have hmod : ∀ {len s k i : Nat}, s + k < len + len → ((s + k) % len = i ↔
      (s + k < len ∧ s + k = i) ∨ (len ≤ s + k ∧ s + k - len = i)) := by
    intro len s k i h
    rcases Nat.lt_or_ge (s + k) len with h' | h'
    · rw [Nat.mod_eq_of_lt h']; omega
    · rw [Nat.mod_eq_sub_mod h', Nat.mod_eq_of_lt (by omega)]; omega
  rcases Nat.lt_trichotomy s e with h | h | h
  · obtain ⟨a, b, c, rfl, rfl, rfl⟩ := split3 rng h.le he
    have hb : b ≠ [] := by rintro rfl; simp at h
    refine ⟨b, ?_, ?_, ?_⟩
    · rw [cut_mid a b c hb]
      unfold others runLength
      rw [if_pos h]
      congr 2
      conv_lhs => rw [← others_split a b c]
      congr 1
      apply List.filter_congr
      rintro ⟨x, i⟩ hi
      have := (List.mem_zipIdx hi).2.1
      simp only [List.length_append] at he this hs ⊢
      congr 1
      rw [eq_iff_iff, not_iff_not]
      constructor
      · intro h'
        exact ⟨i - a.length, by omega, by rw [hmod (by omega)]; omega⟩
      · rintro ⟨k, hk, h'⟩
        rw [hmod (by omega)] at h'; omega
    · unfold runLength; rw [if_pos h]; omega
    · intro k hk
      simp only [List.length_append] at hs ⊢
      rw [Nat.mod_eq_of_lt (by omega), List.append_assoc,
        List.getElem?_append_right (by omega), List.getElem?_append_left (by omega)]
      congr 1; omega
  · subst h
    obtain ⟨a, b, c, h, ha, hb⟩ := split3 rng (Nat.le_succ s) hs
    have hb1 : b.length = 1 := by omega
    match b, hb1 with
    | [x], _ =>
      refine ⟨[x], ?_, ?_, ?_⟩
      · unfold cut
        rw [if_neg (by omega)]
        simp only [Int.toNat_natCast, Nat.lt_irrefl, if_false, if_true]
        have e1 : (rng.drop s).take 1 = [x] := by
          rw [h, ← ha]; simp
        have e2 : rng.take s ++ rng.drop (s + 1) = a ++ c := by
          rw [h, ← ha]; simp
        rw [e1, e2]
        unfold others runLength
        rw [if_neg (by omega), if_neg (by omega)]
        congr 2
        conv_lhs => rw [← others_split a [x] c]
        rw [← h]
        congr 1
        apply List.filter_congr
        rintro ⟨y, i⟩ hi
        have := (List.mem_zipIdx hi).2.1
        congr 1
        rw [eq_iff_iff, not_iff_not]
        simp only [List.length_singleton]
        constructor
        · intro h'
          exact ⟨0, by omega, by rw [hmod (by omega)]; omega⟩
        · rintro ⟨k, hk, h'⟩
          rw [hmod (by omega)] at h'; omega
      · unfold runLength; simp
      · intro k hk
        obtain rfl : k = 0 := by simpa using hk
        rw [Nat.mod_eq_of_lt (by omega), h]
        simp [← ha]
  · obtain ⟨a, b, c, rfl, rfl, rfl⟩ := split3 rng h.le hs.le
    have hb : b ≠ [] := by rintro rfl; simp at h
    have hc : c ≠ [] := by rintro rfl; simp at hs
    refine ⟨c ++ a, ?_, ?_, ?_⟩
    · rw [cut_wrap a b c hb hc]
      unfold others runLength
      rw [if_neg (by omega), if_pos h]
      congr 2
      conv_lhs => rw [← others_split' a b c]
      congr 1
      apply List.filter_congr
      rintro ⟨x, i⟩ hi
      have := (List.mem_zipIdx hi).2.1
      simp only [List.length_append] at he this hs ⊢
      congr 1
      rw [eq_iff_iff]
      constructor
      · rintro h' ⟨k, hk, h''⟩
        rw [hmod (by omega)] at h''; omega
      · intro h'
        by_contra hcon
        apply h'
        rcases Nat.lt_or_ge i a.length with h1 | h1
        · exact ⟨i + c.length, by omega, by rw [hmod (by omega)]; omega⟩
        · exact ⟨i - (a.length + b.length), by omega, by rw [hmod (by omega)]; omega⟩
    · unfold runLength
      rw [if_neg (by omega), if_pos h]
      simp only [List.length_append]; omega
    · intro k hk
      simp only [List.length_append] at hs hk ⊢
      rcases Nat.lt_or_ge k c.length with h1 | h1
      · have e1 : (c ++ a)[k]? = c[k]? := List.getElem?_append_left h1
        have e2 : (a ++ b ++ c)[a.length + b.length + k]? = c[k]? := by
          rw [List.getElem?_append_right (by simp only [List.length_append]; omega)]
          congr 1; simp only [List.length_append]; omega
        rw [Nat.mod_eq_of_lt (by omega), e1, e2]
      · have e1 : (c ++ a)[k]? = a[k - c.length]? := List.getElem?_append_right h1
        have e2 : (a ++ b ++ c)[k - c.length]? = a[k - c.length]? := by
          rw [List.append_assoc, List.getElem?_append_left (by omega)]
        rw [Nat.mod_eq_sub_mod (by omega), Nat.mod_eq_of_lt (by omega), e1, ← e2]
        congr 1; omega

end cut

end Verif.Lemmas.Walker
