import Verif.Lemmas.DestructureClip
import Mathlib.Algebra.Order.Ring.Rat

/-!
# Properties of cutting a multipolygon into segments

All in exact arithmetic, with exact equality of points; `q` is any order of the events that the
sort of the sweep may leave.
-/

namespace Verif.Props
open Verif.Planar (Line)
open Verif.KdTree (Box)
open Verif.Intersect (Event IsQueue)
open Verif.Simplify (Ctx)
open Verif.Destructure
open Verif.Spec.Planar Verif.Spec.Clip Verif.Spec.Destructure
open Verif.Spec.Intersect (MeetAt)
open Verif.Lemmas.Destructure (px px_iff)

variable {K : Type} [Field K] [LinearOrder K] [IsStrictOrderedRing K]

/-- `Destructure` with exact equality of points. -/
abbrev cutUp (ctx : Ctx) (clip : Option (Box K)) (mp : List (List (List (Pt K)))) (q : List (Event K)) :
    Option (List (Line K)) :=
  destructure (fun a b => decide (a = b)) (fun a b => decide (a = b)) ctx clip mp q

/-- An event queue for the segments. -/
def queueFor (segs : List (Line ℚ)) : List (Event ℚ) :=
  (Intersect.allEvents 0 segs).foldr
    (fun e l => l.takeWhile (fun x => Intersect.less x e) ++ e :: l.dropWhile (fun x => Intersect.less x e)) []

/-- A ring that crosses itself. -/
def bow : List (List (List (Pt ℚ))) := [[[(0, 0), (4, 4), (5, 0), (1, 3)]]]

theorem bow_queue : IsQueue (allSegments none bow) (queueFor (allSegments none bow)) := by
  unfold IsQueue; decide +kernel

theorem bow_cut : cutUp (fun _ => false) none bow (queueFor (allSegments none bow)) = some
    [((0, 0), (1, 3)), ((0, 0), (15 / 7, 15 / 7)), ((1, 3), (15 / 7, 15 / 7)), ((15 / 7, 15 / 7), (4, 4)),
      ((15 / 7, 15 / 7), (5, 0)), ((4, 4), (5, 0))] := by decide +kernel

/-- No two edges of the ring are parallel. -/
theorem bow_apart : NoOverlap none bow := by
  refine ⟨?_, by simp⟩
  have h : (edgesOf bow).Pairwise (fun s t => ¬ Parallel s.1 s.2 t.1 t.2) := by
    unfold Parallel; decide +kernel
  exact h.imp (fun h => Lemmas.Destructure.apart_of_not_parallel h)

/-- A box that cuts the ring. -/
def bowBox : Box ℚ := ⟨1, -1, 6, 3⟩

theorem bowBox_clips : ¬ NotClipped (some bowBox) bow := by
  intro h
  have := (h bowBox rfl).2 (0, 0) ⟨[[(0, 0), (4, 4), (5, 0), (1, 3)]], by simp [bow],
    [(0, 0), (4, 4), (5, 0), (1, 3)], by simp, by simp⟩
  revert this
  decide +kernel

theorem bowBox_queue : IsQueue (allSegments (some bowBox) bow) (queueFor (allSegments (some bowBox) bow)) := by
  unfold IsQueue; decide +kernel

theorem bowBox_cut : ∃ out, cutUp (fun _ => false) (some bowBox) bow (queueFor (allSegments (some bowBox) bow)) = some out
    ∧ ((1, 1), (15 / 7, 15 / 7)) ∈ out ∧ ((3, 3), (17 / 4, 3)) ∈ out := by decide +kernel

theorem bowBox_apart : NoOverlap (some bowBox) bow := by
  refine ⟨bow_apart.1, ?_⟩
  intro _ e _ a b hside s hs
  have hd : ∀ s ∈ edgesOf bow, s.2.1 - s.1.1 ≠ 0 ∧ s.2.2 - s.1.2 ≠ 0 := by decide +kernel
  obtain ⟨hd1, hd2⟩ := hd s hs
  apply Lemmas.Destructure.apart_of_not_parallel
  unfold Parallel
  obtain ⟨-, -, ⟨h1, h2⟩ | ⟨h1, h2⟩⟩ := hside
  · rw [h1, sub_self, zero_mul]
    exact (mul_ne_zero (sub_ne_zero.2 (Ne.symm h2)) hd1).symm
  · rw [h2, sub_self, zero_mul]
    exact mul_ne_zero (sub_ne_zero.2 (Ne.symm h1)) hd2

/-! ## C47 -/

/-- C47: no segment is returned twice. -/
def C47_full : Prop :=
  ∀ (clip : Option (Box ℚ)) (mp : List (List (List (Pt ℚ)))) (q : List (Event ℚ)) (out : List (Line ℚ)),
    IsQueue (allSegments clip mp) q → cutUp (fun _ => false) clip mp q = some out → out.Nodup

/-- C47 when no two edges overlap. -/
theorem C47_nodup_partial (ctx : Ctx) (hctx : ∀ n, ctx n = false) (clip : Option (Box K))
    (hclip : ∀ e, clip = some e → Proper e) (mp : List (List (List (Pt K)))) (q : List (Event K))
    (hq : IsQueue (allSegments clip mp) q) (hno : NoOverlap clip mp) (out : List (Line K))
    (h : cutUp ctx clip mp q = some out) : out.Nodup := by
  obtain ⟨P, hP, hd⟩ := Lemmas.Destructure.destructure_eq hctx hq
  replace h : destructure px px ctx clip mp q = some out := h
  rw [hd] at h
  cases h
  have hn := Lemmas.Destructure.pieces_nodup (keep := keepPiece clip (hasClipbox clip mp)) hP
    (Lemmas.Destructure.allSegments_apart hclip hno)
  exact (Lemmas.Destructure.nodup_unique px_iff hn).nodup_iff.2 hn

example : IsQueue (allSegments none bow) (queueFor (allSegments none bow)) ∧ NoOverlap none bow ∧
    cutUp (fun _ => false) none bow (queueFor (allSegments none bow)) = some
    [((0, 0), (1, 3)), ((0, 0), (15 / 7, 15 / 7)), ((1, 3), (15 / 7, 15 / 7)), ((15 / 7, 15 / 7), (4, 4)),
      ((15 / 7, 15 / 7), (5, 0)), ((4, 4), (5, 0))] := ⟨bow_queue, bow_apart, bow_cut⟩

/-- What there is of C47 when edges overlap: the slice begins with all its segments, each once and in
ascending order; what follows repeats some of them. -/
theorem C47_front_partial (ctx : Ctx) (hctx : ∀ n, ctx n = false) (clip : Option (Box K))
    (mp : List (List (List (Pt K)))) (q : List (Event K)) (hq : IsQueue (allSegments clip mp) q)
    (out : List (Line K)) (h : cutUp ctx clip mp q = some out) :
    ∃ front rest, out = front ++ rest ∧ front.Pairwise LineBefore ∧ ∀ x ∈ rest, x ∈ front := by
  obtain ⟨P, hP, hd⟩ := Lemmas.Destructure.destructure_eq hctx hq
  replace h : destructure px px ctx clip mp q = some out := h
  rw [hd] at h
  cases h
  exact Lemmas.Destructure.unique_front px_iff _

example : IsQueue (allSegments none bow) (queueFor (allSegments none bow)) ∧
    (cutUp (fun _ => false) none bow (queueFor (allSegments none bow))).isSome = true :=
  ⟨bow_queue, by rw [bow_cut]; rfl⟩

/-- The same square twice. -/
def twice : List (List (List (Pt ℚ))) := [[[(0, 0), (4, 0), (4, 4), (0, 4)]], [[(0, 0), (4, 0), (4, 4), (0, 4)]]]

/-- C47 does not hold in full: `unique` moves the different segments to the front of the slice but
the slice that is returned still has all its places. -/
theorem C47_violated : ¬ C47_full := by
  intro h
  have := h none twice (queueFor (allSegments none twice))
    [((0, 0), (0, 4)), ((0, 0), (4, 0)), ((0, 4), (4, 4)), ((4, 0), (4, 4)), ((0, 4), (4, 4)), ((0, 4), (4, 4)),
      ((4, 0), (4, 4)), ((4, 0), (4, 4))] (by unfold IsQueue; decide +kernel) (by decide +kernel)
  revert this
  decide +kernel

/-! ## C112 -/

/-- C112: two of the segments returned that are not parallel have at most a common end in common. -/
theorem C112_crossings (ctx : Ctx) (hctx : ∀ n, ctx n = false) (clip : Option (Box K))
    (mp : List (List (List (Pt K)))) (q : List (Event K)) (hq : IsQueue (allSegments clip mp) q)
    (out : List (Line K)) (h : cutUp ctx clip mp q = some out) (l m : Line K) (hl : l ∈ out) (hm : m ∈ out)
    (hn : ¬ Parallel l.1 l.2 m.1 m.2) (p : Pt K) (h1 : OnSegment p l.1 l.2) (h2 : OnSegment p m.1 m.2) :
    EndOf p l ∧ EndOf p m := by
  obtain ⟨P, hP, hd⟩ := Lemmas.Destructure.destructure_eq hctx hq
  replace h : destructure px px ctx clip mp q = some out := h
  rw [hd] at h
  cases h
  rw [Lemmas.Destructure.mem_unique px_iff] at hl hm
  exact Lemmas.Destructure.pieces_meet hP hl hm hn h1 h2

example : ∃ out, cutUp (fun _ => false) none bow (queueFor (allSegments none bow)) = some out ∧
    ((0, 0), (15 / 7, 15 / 7)) ∈ out ∧ ((1, 3), (15 / 7, 15 / 7)) ∈ out ∧
    ¬ Parallel ((0, 0) : Pt ℚ) (15 / 7, 15 / 7) (1, 3) (15 / 7, 15 / 7) :=
  ⟨_, bow_cut, by decide +kernel, by decide +kernel, by unfold Parallel; decide +kernel⟩

/-- C112: if no two edges overlap, any two different segments returned have at most a common end in
common. -/
theorem C112_apart (ctx : Ctx) (hctx : ∀ n, ctx n = false) (clip : Option (Box K))
    (hclip : ∀ e, clip = some e → Proper e) (mp : List (List (List (Pt K)))) (q : List (Event K))
    (hq : IsQueue (allSegments clip mp) q) (hno : NoOverlap clip mp)
    (out : List (Line K)) (h : cutUp ctx clip mp q = some out) (l m : Line K) (hl : l ∈ out) (hm : m ∈ out)
    (hn : l ≠ m) (p : Pt K) (h1 : OnSegment p l.1 l.2) (h2 : OnSegment p m.1 m.2) :
    EndOf p l ∧ EndOf p m := by
  obtain ⟨P, hP, hd⟩ := Lemmas.Destructure.destructure_eq hctx hq
  replace h : destructure px px ctx clip mp q = some out := h
  rw [hd] at h
  cases h
  rw [Lemmas.Destructure.mem_unique px_iff] at hl hm
  exact Lemmas.Destructure.pieces_apart hP (Lemmas.Destructure.allSegments_apart hclip hno) hl hm hn h1 h2

example : NoOverlap (some bowBox) bow ∧ Proper bowBox ∧ ¬ NotClipped (some bowBox) bow ∧
    IsQueue (allSegments (some bowBox) bow) (queueFor (allSegments (some bowBox) bow)) :=
  ⟨bowBox_apart, by unfold Proper; decide +kernel, bowBox_clips, bowBox_queue⟩

/-! ## C113 -/

/-- C113: with nothing to clip, the segments returned cover the edges of the multipolygon (those that
have a length) and nothing else. -/
theorem C113_cover (ctx : Ctx) (hctx : ∀ n, ctx n = false) (clip : Option (Box K))
    (mp : List (List (List (Pt K)))) (hc : NotClipped clip mp) (q : List (Event K))
    (hq : IsQueue (allSegments clip mp) q) :
    ∃ out, cutUp ctx clip mp q = some out ∧
      ∀ p, (∃ l ∈ out, OnSegment p l.1 l.2) ↔ ∃ s ∈ edgesOf mp, s.1 ≠ s.2 ∧ OnSegment p s.1 s.2 := by
  obtain ⟨P, hP, hd⟩ := Lemmas.Destructure.destructure_eq hctx hq
  exact ⟨_, hd, fun p => Lemmas.Destructure.cover_unclipped hctx hq hc hd p⟩

example : NotClipped (none : Option (Box ℚ)) bow ∧ NotClipped (some ⟨0, 0, 5, 5⟩) bow := by
  constructor
  · simp [NotClipped]
  · intro e h
    cases h
    refine ⟨⟨(0, 0), [[(0, 0), (4, 4), (5, 0), (1, 3)]], by simp [bow],
      [(0, 0), (4, 4), (5, 0), (1, 3)], by simp, by simp⟩, ?_⟩
    intro p hp
    rw [← Lemmas.Destructure.mem_points] at hp
    have : ∀ p ∈ (bow.map List.flatten).flatten, Inside (⟨0, 0, 5, 5⟩ : Box ℚ) p := by decide +kernel
    exact this p hp

/-- C113: with a clip box, the segments returned cover the border of the box and those points of the
edges that are in the box, and nothing else. -/
theorem C113_cover_clipped (ctx : Ctx) (hctx : ∀ n, ctx n = false) (e : Box K) (he : Proper e)
    (mp : List (List (List (Pt K)))) (hc : ¬ NotClipped (some e) mp) (q : List (Event K))
    (hq : IsQueue (allSegments (some e) mp) q) :
    ∃ out, cutUp ctx (some e) mp q = some out ∧ ∀ p, (∃ l ∈ out, OnSegment p l.1 l.2) ↔
      OnBoxBorder e p ∨ (Inside e p ∧ ∃ s ∈ edgesOf mp, s.1 ≠ s.2 ∧ OnSegment p s.1 s.2) := by
  obtain ⟨P, hP, hd⟩ := Lemmas.Destructure.destructure_eq hctx hq
  exact ⟨_, hd, fun p => Lemmas.Destructure.cover_clipped hctx he hq hc hd p⟩

example : Proper bowBox ∧ ¬ NotClipped (some bowBox) bow ∧
    IsQueue (allSegments (some bowBox) bow) (queueFor (allSegments (some bowBox) bow)) ∧
    ∃ out, cutUp (fun _ => false) (some bowBox) bow (queueFor (allSegments (some bowBox) bow)) = some out
      ∧ ((1, 1), (15 / 7, 15 / 7)) ∈ out ∧ ((3, 3), (17 / 4, 3)) ∈ out :=
  ⟨by unfold Proper; decide +kernel, bowBox_clips, bowBox_queue, bowBox_cut⟩

/-! ## C114 -/

/-- C114: every segment returned has a length and goes from left to right (upwards if it is
vertical), is a part of an edge or of a side of the clip box, and its ends are ends of that edge or
points where another edge or side, not parallel to it, meets it. -/
theorem C114_parts (ctx : Ctx) (hctx : ∀ n, ctx n = false) (clip : Option (Box K))
    (hclip : ∀ e, clip = some e → Proper e) (mp : List (List (List (Pt K)))) (q : List (Event K))
    (hq : IsQueue (allSegments clip mp) q) (out : List (Line K)) (h : cutUp ctx clip mp q = some out)
    (l : Line K) (hl : l ∈ out) :
    Before l.1 l.2 ∧ ∃ a b, Cut clip mp a b ∧ (∀ p, OnSegment p l.1 l.2 → OnSegment p a b) ∧
      ∀ p, EndOf p l → p = a ∨ p = b ∨ ∃ c d, Cut clip mp c d ∧ MeetAt p (a, b) (c, d) := by
  obtain ⟨P, hP, hd⟩ := Lemmas.Destructure.destructure_eq hctx hq
  replace h : destructure px px ctx clip mp q = some out := h
  rw [hd] at h
  cases h
  rw [Lemmas.Destructure.mem_unique px_iff] at hl
  obtain ⟨i, s, hs, hl⟩ := Lemmas.Destructure.mem_pieces.1 hl
  obtain ⟨x, y⟩ := l
  obtain ⟨-, hx, hy, hxy, -⟩ := Lemmas.Destructure.piece_spec hP hs hl
  refine ⟨hxy, s.1, s.2, Lemmas.Destructure.allSegments_cut hclip (List.mem_of_getElem? hs),
    fun p hp => Lemmas.Destructure.piece_sub hP hs hl hp, ?_⟩
  intro p hp
  have hpi : p ∈ P i := by rcases hp with rfl | rfl <;> assumption
  rcases hP.only i s p hs hpi with (h | h) | ⟨j, t, -, ht, hm⟩
  · exact Or.inl h
  · exact Or.inr (Or.inl h)
  · exact Or.inr (Or.inr ⟨t.1, t.2, Lemmas.Destructure.allSegments_cut hclip (List.mem_of_getElem? ht), hm⟩)

example : IsQueue (allSegments (some bowBox) bow) (queueFor (allSegments (some bowBox) bow)) ∧
    ∃ out, cutUp (fun _ => false) (some bowBox) bow (queueFor (allSegments (some bowBox) bow)) = some out
      ∧ ((1, 1), (15 / 7, 15 / 7)) ∈ out ∧ ((3, 3), (17 / 4, 3)) ∈ out :=
  ⟨bowBox_queue, bowBox_cut⟩

/-! ## C115 -/

/-- C115: `Destructure` returns segments or an error.  (`none` is the return of neither.) -/
def C115_full : Prop :=
  ∀ (ctx : Ctx), (∀ m n, m ≤ n → ctx m = true → ctx n = true) →
    ∀ (clip : Option (Box ℚ)) (mp : List (List (List (Pt ℚ)))) (q : List (Event ℚ)),
      IsQueue (allSegments clip mp) q → cutUp ctx clip mp q ≠ none

/-- C115 in part: whenever the context ends, what is returned is everything or nothing; it is nothing
exactly if the context has ended by the time the last segment has been cut (the sweep asks it twice
for each segment, the cutting once). -/
theorem C115_all_or_nothing_partial (ctx : Ctx) (hctx : ∀ m n, m ≤ n → ctx m = true → ctx n = true)
    (clip : Option (Box K)) (mp : List (List (List (Pt K)))) (q : List (Event K))
    (hq : IsQueue (allSegments clip mp) q) :
    cutUp ctx clip mp q = (if allSegments clip mp ≠ [] ∧ ctx (3 * (allSegments clip mp).length - 1) = true
      then none else cutUp (fun _ => false) clip mp q) := by
  have hlen : q.length = 2 * (allSegments clip mp).length := by
    rw [hq.1.length_eq]; exact Verif.Intersect.length_allEvents _ 0
  have := Lemmas.Destructure.destructure_ends (q := q) (clip := clip) (mp := mp) hctx (by
    by_cases h : allSegments clip mp = []
    · left; rw [hlen, h]; rfl
    · exact Or.inr h)
  rw [show q.length + (allSegments clip mp).length - 1 = 3 * (allSegments clip mp).length - 1 by omega] at this
  exact this

example : allSegments none bow ≠ [] ∧ (∀ m n, m ≤ n → decide (5 ≤ m) = true → decide (5 ≤ n) = true) ∧
    cutUp (fun n => decide (5 ≤ n)) none bow (queueFor (allSegments none bow)) = none ∧
    cutUp (fun n => decide (12 ≤ n)) none bow (queueFor (allSegments none bow)) ≠ none := by
  refine ⟨by decide +kernel, ?_, by decide +kernel, by decide +kernel⟩
  intro m n h1 h2
  simp only [decide_eq_true_eq] at *
  omega

/-- C115 does not hold in full: a context that has ended gives neither segments nor an error. -/
theorem C115_violated : ¬ C115_full := by
  intro h
  exact h (fun _ => true) (fun _ _ _ _ => rfl) none bow _ bow_queue (by decide +kernel)

end Verif.Props
