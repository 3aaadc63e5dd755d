/-
Helper lemmas about the segment index.
-/
import Verif.Model.SegIndex
import Verif.Spec.SegIndex
import Verif.Lemmas.RTree
import Verif.Lemmas.Ring

set_option linter.unusedSectionVars false

namespace Verif.SegIndex

open Verif.RTree (Rect Tree Arith Entry Holds)
open Verif.RTreeSpec (Overlap FiniteSizes)
open Verif.Planar (Line)
open Verif.Spec.Planar Verif.Spec.Intersect Verif.Spec.SegIndex

variable {K : Type} [Field K] [LinearOrder K] [IsStrictOrderedRing K]

theorem minAndDelta_eq (eps a b : K) :
    (minAndDelta eps a b).1 = min a b ∧
    (minAndDelta eps a b).1 + (minAndDelta eps a b).2 = max a b + eps := by
  unfold minAndDelta
  by_cases h : b < a
  · simp only [h, if_true]
    rw [min_eq_right h.le, max_eq_left h.le]
    exact ⟨rfl, by ring⟩
  · simp only [h, if_false]
    rw [min_eq_left (not_lt.1 h), max_eq_right (not_lt.1 h)]
    exact ⟨rfl, by ring⟩

theorem overlap_iff_near (eps : K) (s t : Line K) :
    Overlap (rectForSegment eps s) (rectForSegment eps t) ↔ Near eps s t := by
  unfold Overlap Near rectForSegment
  rw [Fin.forall_fin_two]
  simp only [if_true, one_ne_zero, if_false, (minAndDelta_eq eps _ _).2]
  simp only [(minAndDelta_eq eps _ _).1]

theorem filterLoop_spec (ps : List (Nat → Bool)) (idxs : List Nat) (i : Nat) (abort : Bool) :
    filterLoop idxs i (ps.map fun p _ j => (p j, false)) abort = (ps.any fun p => p i, abort) := by
  induction ps with
  | nil => rfl
  | cons p ps ih =>
    simp only [List.map_cons, filterLoop, List.any_cons]
    cases h : p i with
    | true => simp
    | false => simpa using ih

theorem resultLoop_spec (ps : List (Nat → Bool)) : ∀ (rs idxs : List Nat),
    resultLoop (ps.map fun p _ j => (p j, false)) rs idxs =
      (idxs ++ rs.filter (fun i => !ps.any fun p => p i), false) := by
  intro rs
  induction rs with
  | nil => intro idxs; simp [resultLoop]
  | cons r rs ih =>
    intro idxs
    simp only [resultLoop, filterLoop_spec, ih, Bool.false_eq_true, if_false]
    by_cases h : (ps.any fun p => p r) = true <;> simp [h]

theorem searchIdxs_spec (eps : K) (segs : List (Line K)) (t : Tree K 2 Nat)
    (ht : Holds (bounds eps segs) t (List.range segs.length)) (seg : Line K)
    (ps : List (Nat → Bool)) :
    let r := searchIdxs eps (some t) seg (ps.map fun p _ j => (p j, false))
    r.Pairwise (· < ·) ∧
    ∀ i, i ∈ r ↔ (∃ s, segs[i]? = some s ∧ Near eps s seg) ∧ ∀ p ∈ ps, p i = false := by
  intro r
  have hr : r = ((RTree.search t (rectForSegment eps seg) []).filter
      (fun i => !ps.any fun p => p i)).insertionSort (· ≤ ·) := by
    simp only [r, searchIdxs, resultLoop_spec, List.nil_append, Bool.false_eq_true, if_false]
  have hp := RTree.search_holds _ t _ ht (rectForSegment eps seg)
  have hnd : r.Nodup := by
    rw [hr, (List.perm_insertionSort _ _).nodup_iff]
    exact (hp.nodup_iff.2 (List.nodup_range.filter _)).filter _
  refine ⟨?_, ?_⟩
  · have h1 : r.Pairwise (· ≤ ·) := by rw [hr]; exact List.pairwise_insertionSort _ _
    exact (h1.and hnd).imp fun ⟨a, b⟩ => lt_of_le_of_ne a b
  · intro i
    rw [hr, List.mem_insertionSort, List.mem_filter, hp.mem_iff, List.mem_filter, List.mem_range]
    simp only [decide_eq_true_eq, Bool.not_eq_true', List.any_eq_false, Bool.not_eq_true]
    refine and_congr_left fun _ => ?_
    constructor
    · rintro ⟨h1, h2⟩
      refine ⟨segs[i], List.getElem?_eq_getElem h1, ?_⟩
      rw [← overlap_iff_near]
      have : bounds eps segs i = rectForSegment eps segs[i] := by
        simp [bounds, List.getD_eq_getElem?_getD, List.getElem?_eq_getElem h1]
      rwa [this] at h2
    · rintro ⟨s, h1, h2⟩
      obtain ⟨h3, rfl⟩ := List.getElem?_eq_some_iff.1 h1
      refine ⟨h3, ?_⟩
      have : bounds eps segs i = rectForSegment eps segs[i] := by
        simp [bounds, List.getD_eq_getElem?_getD, List.getElem?_eq_getElem h3]
      rw [this, overlap_iff_near]
      exact h2

theorem newIndex_holds (A : Arith K 2)
    (sort : Nat → List (Entry K 2 Nat) → List (Entry K 2 Nat))
    (hsort : ∀ l es, (sort l es).Perm es) (h S : Nat) (hh : 1 ≤ h) (eps : K)
    (segs : List (Line K)) (t : Tree K 2 Nat)
    (ht : newIndex A sort h S eps segs = some t) :
    Holds (bounds eps segs) t (List.range segs.length) := by
  unfold newIndex at ht
  split at ht
  · simp at ht
  · exact (RTree.newTree_spec A _ 2 5 (by omega) sort hsort h S hh _ t ht).1

theorem newIndex_isSome (A : Arith K 2) (hA : FiniteSizes A)
    (sort : Nat → List (Entry K 2 Nat) → List (Entry K 2 Nat))
    (hsort : ∀ l es, (sort l es).Perm es) (h S : Nat) (hh : 1 ≤ h) (eps : K)
    (segs : List (Line K)) (hlen : 2 ≤ segs.length) :
    ∃ t, newIndex A sort h S eps segs = some t := by
  unfold newIndex
  rw [if_neg (by omega)]
  exact RTree.newTree_isSome A hA _ 2 5 (by omega) sort hsort h S hh _

/-- Segments with a common point are near. -/
theorem near_of_common (eps : K) (heps : 0 < eps) (s t : Line K) (p : Pt K)
    (h1 : OnSegment p s.1 s.2) (h2 : OnSegment p t.1 t.2) : Near eps s t := by
  obtain ⟨a1, a2, a3, a4⟩ := Intersect.onSegment_box h1
  obtain ⟨b1, b2, b3, b4⟩ := Intersect.onSegment_box h2
  exact ⟨⟨by linarith, by linarith⟩, ⟨by linarith, by linarith⟩⟩

theorem candidates (eps : K) (heps : 0 < eps) (segs : List (Line K)) (t : Tree K 2 Nat)
    (ht : Holds (bounds eps segs) t (List.range segs.length)) (seg : Line K) :
    Candidates segs seg (searchIdxs eps (some t) seg []) := by
  obtain ⟨h1, h2⟩ := searchIdxs_spec eps segs t ht seg []
  simp only [List.map_nil, List.not_mem_nil, false_implies, implies_true, and_true] at h1 h2
  refine ⟨h1.imp fun h => ne_of_lt h, ?_, ?_⟩
  · intro i hi
    obtain ⟨s, hs, _⟩ := (h2 i).1 hi
    exact (List.getElem?_eq_some_iff.1 hs).1
  · rintro i s hs p ⟨hp1, hp2⟩
    exact (h2 i).2 ⟨s, hs, near_of_common eps heps s seg p hp2 hp1⟩

end Verif.SegIndex
