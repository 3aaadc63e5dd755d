import Verif.Lemmas.Lines
import Verif.Props.Cmp

/-!
# Sorting out segments (C157)
-/

namespace Verif.Props
open Verif Verif.Cmp Verif.Lines Verif.Spec.Extent Verif.Spec.Cmp Verif.Spec.Lines Verif.Lemmas.Lines

/-! ## C157: NormalizeUniqueLines gives each segment once -/

/-- C157, in full: every given segment is in the result (within tolerance, in one
direction or the other), no two segments of the result are the same within tolerance,
and there are none that were not given. -/
def C157_full : Prop :=
  ∀ (c : Compare) (sort : List Line → List Line) (lines : List Line), Positive c →
    GoSorts (lineLess c) sort → (∀ p ∈ ends lines, numPt p) →
    (∀ l ∈ lines, ∃ o ∈ normalizeUniqueLines c sort lines, SameLine (fun p q => c.pointEqual p q = true) l o) ∧
    (normalizeUniqueLines c sort lines).Pairwise (fun a b => ¬ SameLine (fun p q => c.pointEqual p q = true) a b) ∧
    (∀ o ∈ normalizeUniqueLines c sort lines, ∃ l ∈ lines, o = l ∨ o = (l.2, l.1))

/-- C157, what holds always: the result has only segments that were given, perhaps
turned round. -/
theorem C157_given_partial (c : Compare) (sort : List Line → List Line) (lines : List Line)
    (hsort : GoSorts (lineLess c) sort) :
    ∀ o ∈ normalizeUniqueLines c sort lines, ∃ l ∈ lines, o = l ∨ o = (l.2, l.1) := by
  intro o ho
  rw [normalizeUnique_eq] at ho
  exact mem_normalize ((hsort _).1.mem_iff.1 ((changes_sublist _ _ _).subset ho))

/-- C157, what holds if points within tolerance of each other are the same: every given
segment is in the result with exactly its points, no two segments of the result are the
same within tolerance, each runs from its lesser to its greater point, and they are in
order of their first, then of their second points.  Missing: points that are close, but
not the same. -/
theorem C157_unique_partial (c : Compare) (sort : List Line → List Line) (lines : List Line)
    (hc : Positive c) (hsort : GoSorts (lineLess c) sort) (hn : ∀ p ∈ ends lines, numPt p)
    (hs : Separated c (ends lines)) :
    (∀ l ∈ lines, ∃ o ∈ normalizeUniqueLines c sort lines, SameLine samePt l o) ∧
    (normalizeUniqueLines c sort lines).Pairwise (fun a b =>
      ¬ SameLine (fun p q => c.pointEqual p q = true) a b ∧
        (before a.1 b.1 ∨ samePt a.1 b.1 ∧ before a.2 b.2)) ∧
    (∀ o ∈ normalizeUniqueLines c sort lines, before o.1 o.2 ∨ samePt o.1 o.2) := by
  obtain ⟨h1, h2⟩ := unique_keys hc hsort hs hn
  have hmem : ∀ {o}, o ∈ normalizeUniqueLines c sort lines → o ∈ normalizeLines lines := by
    intro o ho
    rw [normalizeUnique_eq] at ho
    exact (hsort _).1.mem_iff.1 ((changes_sublist _ _ _).subset ho)
  refine ⟨fun l hl => ?_, ?_, fun o ho => ?_⟩
  · have n1 : numPt l.1 := hn _ (List.mem_flatMap.2 ⟨l, hl, by simp⟩)
    have n2 : numPt l.2 := hn _ (List.mem_flatMap.2 ⟨l, hl, by simp⟩)
    have hin : (if !xyLess l.1 l.2 then (l.2, l.1) else l) ∈ normalizeLines lines := List.mem_map.2 ⟨l, hl, rfl⟩
    obtain ⟨o, ho, hk⟩ := h2 _ hin
    have no := normalize_normal hn o (hmem ho)
    refine ⟨o, ho, ?_⟩
    unfold SameLine
    split_ifs at hk
    · rw [lineKey_eq no.2.1 n1] at hk
      right
      rw [samePt_iff _ _ n1 no.2.1, samePt_iff _ _ n2 no.1]
      exact ⟨hk.2.symm, hk.1.symm⟩
    · rw [lineKey_eq no.2.1 n2] at hk
      left
      rw [samePt_iff _ _ n1 no.1, samePt_iff _ _ n2 no.2.1]
      exact ⟨hk.1.symm, hk.2.symm⟩
  · refine h1.imp_of_mem fun {a b} ha hb hlt => ?_
    have na := normalize_normal hn a (hmem ha)
    have nb := normalize_normal hn b (hmem hb)
    obtain ⟨ea1, ea2⟩ := ends_normalize (hmem ha)
    obtain ⟨eb1, eb2⟩ := ends_normalize (hmem hb)
    rw [lineKey_lt na.2.1 nb.2.1] at hlt
    have k1 := na.2.2
    have k2 := nb.2.2
    constructor
    · unfold SameLine
      simp only []
      rw [separated_iff hc hs hn ea1 eb1, separated_iff hc hs hn ea2 eb2,
        separated_iff hc hs hn ea1 eb2, separated_iff hc hs hn ea2 eb1]
      omega
    · rw [before_iff _ _ na.1 nb.1, before_iff _ _ na.2.1 nb.2.1, samePt_iff _ _ na.1 nb.1]
      exact hlt
  · have no := normalize_normal hn o (hmem ho)
    rw [before_iff _ _ no.1 no.2.1, samePt_iff _ _ no.1 no.2.1]
    have := no.2.2
    omega

/-- Three segments, two of them the same in opposite directions. -/
example : Positive cmp4 ∧ (∃ sort, GoSorts (lineLess cmp4) sort) ∧
    (∀ p ∈ ends [((f1, f1), (f2, f2)), ((f2, f2), (f1, f1)), ((f1, f1), (f3, f1))], numPt p) ∧
    Separated cmp4 (ends [((f1, f1), (f2, f2)), ((f2, f2), (f1, f1)), ((f1, f1), (f3, f1))]) :=
  ⟨by decide, exists_sort _, by decide, by unfold Separated; decide⟩

/-- And what comes out. -/
example : normalizeUniqueLines cmp4 (List.insertionSort fun a b => !lineLess cmp4 b a)
    [((f1, f1), (f2, f2)), ((f2, f2), (f1, f1)), ((f1, f1), (f3, f1))] =
    [((f1, f1), (f2, f2)), ((f1, f1), (f3, f1))] := by decide

/-- Three segments from one point, to points of which the first and the second, and
the second and the third, are within tolerance. -/
def chain : List Line :=
  [((f1, f1), (f2, f2)), ((f1, f1), (f2, f2 + 3#64)), ((f1, f1), (f2, f2 + 6#64))]

/-- C157, violated: the third segment of the chain is lost, though no segment of the
result is within tolerance of it. -/
theorem C157_violated : ¬ C157_full := by
  intro h
  obtain ⟨sort, hs⟩ := exists_sort (lineLess cmp4)
  have h1 := (h cmp4 sort chain (by decide) hs (by decide)).1 ((f1, f1), (f2, f2 + 6#64)) (by decide)
  have hsorted : sort (normalizeLines chain) = chain := by
    have hn : normalizeLines chain = chain := by decide
    rw [hn]
    obtain ⟨hp, hw⟩ := hs chain
    have hw := hw ⟨by decide, by decide, by decide⟩
    refine hp.eq_of_pairwise (le := fun a b => lineLess cmp4 b a = false) ?_ hw (by decide)
    have key : ∀ a ∈ chain, ∀ b ∈ chain, lineLess cmp4 b a = false → lineLess cmp4 a b = false → a = b := by
      decide
    exact fun a b ha hb => key a (hp.mem_iff.1 ha) b hb
  have h2 : normalizeUniqueLines cmp4 sort chain = [((f1, f1), (f2, f2))] := by
    rw [normalizeUnique_eq, hsorted]
    decide
  rw [h2] at h1
  revert h1
  unfold SameLine
  decide

end Verif.Props
