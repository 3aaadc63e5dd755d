import Verif.Lemmas.RoundedLines
import Mathlib.Tactic.NormNum

/-!
# Where lines meet, in floats (C168), and the box of a line in short floats (C169)
-/

namespace Verif.Props
open Verif Verif.Spec.Rounded Verif.Spec.Planar
open Verif.Rounded (lineIntersect lineIntersectBigFloat segmentIntersect containsPointBigFloat)
open Verif.Lemmas.Rounded
open Verif.Planar (Line)

/-! ## C168 -/

/-- C168: whatever the coordinates of two lines, a point is reported exactly if they are not parallel. -/
def C168_full : Prop :=
  ∀ a b c d : Pt ℚ, (∀ p ∈ [a, b, c, d], Float64Point p) →
    (lineIntersect (a, b) (c, d) = none ↔ Parallel a b c d)

/-- C168 for the function with `big.Float`s. -/
def C168_full_big : Prop :=
  ∀ a b c d : Pt ℚ, (∀ p ∈ [a, b, c, d], Float64Point p) →
    (lineIntersectBigFloat (a, b) (c, d) = none ↔ Parallel a b c d)

/-- C168: segments that meet are found, and no others, whatever the coordinates. -/
def C168_full_segment : Prop :=
  ∀ a b c d : Pt ℚ, (∀ p ∈ [a, b, c, d], Float64Point p) →
    ((segmentIntersect (a, b) (c, d)).2 = true ↔
      ¬ Parallel a b c d ∧ ∃ q, OnSegment q a b ∧ OnSegment q c d)

/-- C168, the part that holds for `LineIntersect`: with coordinates of 16 bits on one scale (more exactly, multiples
up to `n` with `8 · n³ ≤ 2 ^ 53`) a point is reported exactly if the lines are not parallel, and its coordinates are
the floats next to those of the point that the lines have in common. -/
theorem C168_line_partial (n : Int) (hn : 8 * n * n * n ≤ 2 ^ 53) (a b c d : Pt ℚ) (h : Moderate n a b c d) :
    (lineIntersect (a, b) (c, d) = none ↔ Parallel a b c d) ∧
    ∀ r, lineIntersect (a, b) (c, d) = some r →
      ∃ q, OnLine q a b ∧ OnLine q c d ∧ Nearest 53 q.1 r.1 ∧ Nearest 53 q.2 r.2 := by
  obtain ⟨s, _, _, ha, hb, hc, hd⟩ := h
  have h0 : 0 ≤ n := by obtain ⟨m, hm, _⟩ := ha.1; exact (abs_nonneg m).trans hm
  obtain ⟨e, _⟩ := denom_exact (p := 53) (by norm_num) h0 hn ha hb hc hd
  by_cases hp : Parallel a b c d
  · have hz := Verif.Planar.parallel_iff.1 hp
    have : lineIntersect (a, b) (c, d) = none := by simp only [lineIntersect]; rw [e, if_pos hz]
    rw [this]
    exact ⟨⟨fun _ => hp, fun _ => rfl⟩, by simp⟩
  · have hz := fun x => hp (Verif.Planar.parallel_iff.2 x)
    obtain ⟨q, q1, q2⟩ := meet_exists hp
    obtain ⟨x1, x2⟩ := meet_exact (p := 53) (by norm_num) h0 hn ha hb hc hd hp q1 q2
    have : lineIntersect (a, b) (c, d) = some (Verif.Rounded.roundTo 53 q.1, Verif.Rounded.roundTo 53 q.2) := by
      simp only [lineIntersect]; rw [x1, x2, e, if_neg hz]
    rw [this]
    refine ⟨⟨fun x => (by cases x), fun x => absurd x hp⟩, ?_⟩
    intro r hr
    cases hr
    exact ⟨q, q1, q2, roundTo_nearest (by norm_num) _, roundTo_nearest (by norm_num) _⟩

example : (8 * (2 ^ 16) * (2 ^ 16) * (2 ^ 16) : Int) ≤ 2 ^ 53 ∧
    Moderate (2 ^ 16) (0, 0) (1, 1 / 2) (3, 32768) (-7, 4) := by
  refine ⟨by norm_num, -1, by norm_num, by norm_num, ⟨⟨0, ?_, ?_⟩, ⟨0, ?_, ?_⟩⟩, ⟨⟨2, ?_, ?_⟩, ⟨1, ?_, ?_⟩⟩,
    ⟨⟨6, ?_, ?_⟩, ⟨65536, ?_, ?_⟩⟩, ⟨⟨-14, ?_, ?_⟩, ⟨8, ?_, ?_⟩⟩⟩ <;> norm_num

/-- C168, the part that holds for `LineIntersectBigFloat`: the same with coordinates of 35 bits on one scale, and the
coordinates of the point have 110 bits. -/
theorem C168_big_partial (n : Int) (hn : 8 * n * n * n ≤ 2 ^ 110) (a b c d : Pt ℚ) (h : Moderate n a b c d) :
    (lineIntersectBigFloat (a, b) (c, d) = none ↔ Parallel a b c d) ∧
    ∀ r, lineIntersectBigFloat (a, b) (c, d) = some r →
      ∃ q, OnLine q a b ∧ OnLine q c d ∧ Nearest 110 q.1 r.1 ∧ Nearest 110 q.2 r.2 := by
  obtain ⟨s, hs, _, ha, hb, hc, hd⟩ := h
  have h0 : 0 ≤ n := by obtain ⟨m, hm, _⟩ := ha.1; exact (abs_nonneg m).trans hm
  have hn1 : n ≤ 2 ^ 110 := by have := (cube_bounds h0 hn).1; omega
  obtain ⟨e, hm⟩ := denom_exact (p := 110) (by norm_num) h0 hn ha hb hc hd
  have hl : lineIntersectBigFloat (a, b) (c, d) =
      if Verif.Rounded.vanishes (Verif.Rounded.denom 110 (a, b) (c, d)) then none
      else some (Verif.Rounded.quo 110 (Verif.Rounded.xnom 110 (a, b) (c, d)) (Verif.Rounded.denom 110 (a, b) (c, d)),
        Verif.Rounded.quo 110 (Verif.Rounded.ynom 110 (a, b) (c, d)) (Verif.Rounded.denom 110 (a, b) (c, d))) := by
    simp only [lineIntersectBigFloat]
    rw [grid_round (by norm_num) hn1 ha, grid_round (by norm_num) hn1 hb, grid_round (by norm_num) hn1 hc,
      grid_round (by norm_num) hn1 hd]
  by_cases hp : Parallel a b c d
  · have hz := Verif.Planar.parallel_iff.1 hp
    have hv : Verif.Rounded.vanishes (Verif.Rounded.denom 110 (a, b) (c, d)) = true := by
      rw [e, hz]
      unfold Verif.Rounded.vanishes
      rw [decide_eq_true_eq, abs_zero]
      exact (two_pow_pos _).le
    rw [hl, hv]
    exact ⟨⟨fun _ => hp, fun _ => rfl⟩, by simp⟩
  · have hz := fun x => hp (Verif.Planar.parallel_iff.2 x)
    have hv : Verif.Rounded.vanishes (Verif.Rounded.denom 110 (a, b) (c, d)) = false := by
      have hbig := multiple_large hm (by rw [e]; exact hz)
      unfold Verif.Rounded.vanishes
      rw [decide_eq_false_iff_not, not_le]
      refine lt_of_lt_of_le ?_ hbig
      exact zpow_lt_zpow_right₀ (by norm_num) (by omega)
    obtain ⟨q, q1, q2⟩ := meet_exists hp
    obtain ⟨x1, x2⟩ := meet_exact (p := 110) (by norm_num) h0 hn ha hb hc hd hp q1 q2
    rw [hl, hv, x1, x2]
    refine ⟨⟨fun x => by simp at x, fun x => absurd x hp⟩, ?_⟩
    intro r hr
    simp only [Bool.false_eq_true, if_false] at hr
    cases hr
    exact ⟨q, q1, q2, roundTo_nearest (by norm_num) _, roundTo_nearest (by norm_num) _⟩

example : (8 * (2 ^ 35) * (2 ^ 35) * (2 ^ 35) : Int) ≤ 2 ^ 110 ∧
    Moderate (2 ^ 35) (0, 0) (2 ^ 34, 2 ^ 34 - 1) (0, 0) (2 ^ 34 + 1, 2 ^ 34) := by
  refine ⟨by norm_num, 0, by norm_num, by norm_num, ⟨⟨0, ?_, ?_⟩, ⟨0, ?_, ?_⟩⟩, ⟨⟨2 ^ 34, ?_, ?_⟩, ⟨2 ^ 34 - 1, ?_, ?_⟩⟩,
    ⟨⟨0, ?_, ?_⟩, ⟨0, ?_, ?_⟩⟩, ⟨⟨2 ^ 34 + 1, ?_, ?_⟩, ⟨2 ^ 34, ?_, ?_⟩⟩⟩ <;> norm_num

/-- C168, the part that holds for `SegmentIntersect`: with coordinates of 16 bits on one scale, segments are said to
meet exactly if they are not parallel and have a point in common; the point given is the one next to it. -/
theorem C168_segment_partial (n : Int) (hn : 8 * n * n * n ≤ 2 ^ 53) (a b c d : Pt ℚ) (h : Moderate n a b c d) :
    ((segmentIntersect (a, b) (c, d)).2 = true ↔
      ¬ Parallel a b c d ∧ ∃ q, OnSegment q a b ∧ OnSegment q c d) ∧
    ((segmentIntersect (a, b) (c, d)).2 = true →
      ∃ q, OnSegment q a b ∧ OnSegment q c d ∧ Nearest 53 q.1 (segmentIntersect (a, b) (c, d)).1.1 ∧
        Nearest 53 q.2 (segmentIntersect (a, b) (c, d)).1.2) := by
  obtain ⟨s, _, _, ha, hb, hc, hd⟩ := h
  have h0 : 0 ≤ n := by obtain ⟨m, hm, _⟩ := ha.1; exact (abs_nonneg m).trans hm
  have key : (segmentIntersect (a, b) (c, d)).2 = true ↔
      ¬ Parallel a b c d ∧ ∃ q, OnSegment q a b ∧ OnSegment q c d := by
    rw [segment_exact h0 hn ha hb hc hd]
    constructor
    · intro h
      have := (Verif.Planar.segmentIntersect_iff a b c d _).1 (Prod.ext rfl h)
      exact ⟨this.1, _, this.2⟩
    · rintro ⟨h1, q, h2, h3⟩
      rw [(Verif.Planar.segmentIntersect_iff a b c d q).2 ⟨h1, h2, h3⟩]
  refine ⟨key, fun h => ?_⟩
  obtain ⟨hp, q, q1, q2⟩ := key.1 h
  have on : ∀ {x y : Pt ℚ}, OnSegment q x y → OnLine q x y := fun ⟨t, _, _, ht⟩ => ⟨t, ht⟩
  obtain ⟨x1, x2⟩ := meet_exact (p := 53) (by norm_num) h0 hn ha hb hc hd hp (on q1) (on q2)
  refine ⟨q, q1, q2, ?_⟩
  have e : (segmentIntersect (a, b) (c, d)).1 = (Verif.Rounded.roundTo 53 q.1, Verif.Rounded.roundTo 53 q.2) := by
    have hz := fun x => hp (Verif.Planar.parallel_iff.2 x)
    obtain ⟨e, _⟩ := denom_exact (p := 53) (by norm_num) h0 hn ha hb hc hd
    rw [← x1, ← x2]
    unfold segmentIntersect
    simp only []
    rw [if_neg (by rw [e]; exact hz)]
  rw [e]
  exact ⟨roundTo_nearest (by norm_num) _, roundTo_nearest (by norm_num) _⟩

example : Moderate (2 ^ 16) (0, 0) (3, 1) (0, 1) (1, 0) ∧
    ¬ Parallel ((0, 0) : Pt ℚ) (3, 1) (0, 1) (1, 0) ∧
    OnSegment ((3 / 4, 1 / 4) : Pt ℚ) (0, 0) (3, 1) ∧ OnSegment ((3 / 4, 1 / 4) : Pt ℚ) (0, 1) (1, 0) := by
  refine ⟨⟨0, by norm_num, by norm_num, ⟨⟨0, ?_, ?_⟩, ⟨0, ?_, ?_⟩⟩, ⟨⟨3, ?_, ?_⟩, ⟨1, ?_, ?_⟩⟩,
    ⟨⟨0, ?_, ?_⟩, ⟨1, ?_, ?_⟩⟩, ⟨⟨1, ?_, ?_⟩, ⟨0, ?_, ?_⟩⟩⟩, by norm_num [Parallel], ⟨1 / 4, ?_⟩, ⟨3 / 4, ?_⟩⟩ <;> norm_num

/-- A whole number of 53 bits is a `float64`. -/
theorem float64_int (m e : Int) (h : |m| < 2 ^ 53) (he : -1074 ≤ e ∧ e ≤ 971) : IsFloat64 ((m : ℚ) * 2 ^ e) :=
  ⟨m, e, h, he.1, he.2, rfl⟩

/-- The lines from the origin to `(2²⁷, 2²⁷ - 1)` and to `(2²⁷ + 1, 2²⁷)` are not parallel; `LineIntersect` does not
tell. -/
theorem C168_violated : ¬ C168_full := by
  intro h
  have h1 := (h (0, 0) (2 ^ 27, 2 ^ 27 - 1) (0, 0) (2 ^ 27 + 1, 2 ^ 27) (by
    have f0 : IsFloat64 0 := ⟨0, 0, by norm_num, by norm_num, by norm_num, by norm_num⟩
    have f1 : IsFloat64 (2 ^ 27) := ⟨2 ^ 27, 0, by norm_num, by norm_num, by norm_num, by norm_num⟩
    have f2 : IsFloat64 (2 ^ 27 - 1) := ⟨2 ^ 27 - 1, 0, by norm_num, by norm_num, by norm_num, by norm_num⟩
    have f3 : IsFloat64 (2 ^ 27 + 1) := ⟨2 ^ 27 + 1, 0, by norm_num, by norm_num, by norm_num, by norm_num⟩
    simp only [List.mem_cons, List.not_mem_nil, or_false]
    rintro p (rfl | rfl | rfl | rfl)
    · exact ⟨f0, f0⟩
    · exact ⟨f1, f2⟩
    · exact ⟨f0, f0⟩
    · exact ⟨f3, f1⟩)).1 (by decide +kernel)
  revert h1
  norm_num [Parallel]

/-- Two lines along the axes, of length `2⁻⁶⁰⁰`: `LineIntersectBigFloat` does not see that they meet, since it looks at
the denominator as a `float64`. -/
theorem C168_violated_big : ¬ C168_full_big := by
  intro h
  have h1 := (h (0, 0) (2 ^ (-600 : Int), 0) (0, 0) (0, 2 ^ (-600 : Int)) (by
    have f0 : IsFloat64 0 := ⟨0, 0, by norm_num, by norm_num, by norm_num, by norm_num⟩
    have f1 : IsFloat64 (2 ^ (-600 : Int)) := ⟨1, -600, by norm_num, by norm_num, by norm_num, by simp⟩
    simp only [List.mem_cons, List.not_mem_nil, or_false]
    rintro p (rfl | rfl | rfl | rfl)
    · exact ⟨f0, f0⟩
    · exact ⟨f1, f0⟩
    · exact ⟨f0, f0⟩
    · exact ⟨f0, f1⟩)).1 (by decide +kernel)
  have hpos : (0 : ℚ) < 2 ^ (-600 : Int) := two_pow_pos _
  simp only [Parallel, sub_zero, mul_zero] at h1
  exact (mul_pos hpos hpos).ne' (by simp at h1)

/-- The segments from the origin to `(2²⁷, 2²⁷ - 1)` and to `(2²⁷ + 1, 2²⁷)` share the origin; `SegmentIntersect` does
not tell. -/
theorem C168_violated_segment : ¬ C168_full_segment := by
  intro h
  have h1 := (h (0, 0) (2 ^ 27, 2 ^ 27 - 1) (0, 0) (2 ^ 27 + 1, 2 ^ 27) (by
    have f0 : IsFloat64 0 := ⟨0, 0, by norm_num, by norm_num, by norm_num, by norm_num⟩
    have f1 : IsFloat64 (2 ^ 27) := ⟨2 ^ 27, 0, by norm_num, by norm_num, by norm_num, by norm_num⟩
    have f2 : IsFloat64 (2 ^ 27 - 1) := ⟨2 ^ 27 - 1, 0, by norm_num, by norm_num, by norm_num, by norm_num⟩
    have f3 : IsFloat64 (2 ^ 27 + 1) := ⟨2 ^ 27 + 1, 0, by norm_num, by norm_num, by norm_num, by norm_num⟩
    simp only [List.mem_cons, List.not_mem_nil, or_false]
    rintro p (rfl | rfl | rfl | rfl)
    · exact ⟨f0, f0⟩
    · exact ⟨f1, f2⟩
    · exact ⟨f0, f0⟩
    · exact ⟨f3, f1⟩)).2 ⟨by norm_num [Parallel], (0, 0), ⟨0, by norm_num, by norm_num, by norm_num⟩,
      ⟨0, by norm_num, by norm_num, by norm_num⟩⟩
  exact absurd h1 (by decide +kernel)

/-! ## C169 -/

/-- C169: a point with `big.Float`s is said to be in the box of a line exactly if it is. -/
def C169_full : Prop :=
  ∀ (a b p : Pt ℚ), Float64Point a → Float64Point b → Float64Point p →
    ((containsPointBigFloat (a, b) p).1 = true ↔ InBox p a b)

/-- C169: the caller's point is as it was. -/
def C169_full_kept : Prop :=
  ∀ (a b p : Pt ℚ), Float64Point a → Float64Point b → Float64Point p → (containsPointBigFloat (a, b) p).2 = p

/-- The lesser and the greater end, as the code finds them. -/
theorem ends_eq (x y : ℚ) : (if x > y then y else x) = min x y ∧ (if x > y then x else y) = max x y := by
  rcases le_or_gt x y with h | h
  · rw [if_neg (not_lt.2 h), if_neg (not_lt.2 h), min_eq_left h, max_eq_right h]; exact ⟨rfl, rfl⟩
  · rw [if_pos h, if_pos h, min_eq_right h.le, max_eq_left h.le]; exact ⟨rfl, rfl⟩

/-- The answer compares the rounded numbers. -/
theorem contains_iff (a b p : Pt ℚ) : (containsPointBigFloat (a, b) p).1 = true ↔
    (Verif.Rounded.roundTo 20 (min a.1 b.1) ≤ Verif.Rounded.roundTo 20 p.1 ∧
      Verif.Rounded.roundTo 20 p.1 ≤ Verif.Rounded.roundTo 20 (max a.1 b.1)) ∧
    (Verif.Rounded.roundTo 20 (min a.2 b.2) ≤ Verif.Rounded.roundTo 20 p.2 ∧
      Verif.Rounded.roundTo 20 p.2 ≤ Verif.Rounded.roundTo 20 (max a.2 b.2)) := by
  unfold containsPointBigFloat
  simp only [(ends_eq a.1 b.1).1, (ends_eq a.1 b.1).2, (ends_eq a.2 b.2).1, (ends_eq a.2 b.2).2, Bool.and_eq_true,
    decide_eq_true_eq]

/-- C169, the part that holds: a point in the box is never missed. -/
theorem C169_found_partial (a b p : Pt ℚ) (h : InBox p a b) : (containsPointBigFloat (a, b) p).1 = true := by
  rw [contains_iff]
  obtain ⟨h1, h2, h3, h4⟩ := h
  exact ⟨⟨roundTo_mono (by norm_num) h1, roundTo_mono (by norm_num) h2⟩, roundTo_mono (by norm_num) h3,
    roundTo_mono (by norm_num) h4⟩

example : InBox ((1, 2) : Pt ℚ) (0, 3) (2, 1) := by norm_num [InBox]

/-- `2⁻²⁰` of the sizes of the two numbers. -/
def C169_slack (x y : ℚ) : ℚ := (|x| + |y|) / 2 ^ 20

/-- A number that is not greater after rounding is greater by no more than the slack. -/
theorem round_le {x y : ℚ} (h : Verif.Rounded.roundTo 20 x ≤ Verif.Rounded.roundTo 20 y) : x ≤ y + C169_slack x y := by
  have h1 := abs_le.1 (roundTo_near 20 (by norm_num) x)
  have h2 := abs_le.1 (roundTo_near 20 (by norm_num) y)
  unfold C169_slack
  rw [add_div]
  linarith [h1.1, h2.2]

/-- C169, the part that holds: a point that is said to be in the box is beyond none of its sides by more than `2⁻²⁰` of
the numbers compared. -/
theorem C169_near_partial (a b p : Pt ℚ) (h : (containsPointBigFloat (a, b) p).1 = true) :
    min a.1 b.1 ≤ p.1 + C169_slack (min a.1 b.1) p.1 ∧ p.1 ≤ max a.1 b.1 + C169_slack p.1 (max a.1 b.1) ∧
    min a.2 b.2 ≤ p.2 + C169_slack (min a.2 b.2) p.2 ∧ p.2 ≤ max a.2 b.2 + C169_slack p.2 (max a.2 b.2) := by
  obtain ⟨⟨h1, h2⟩, h3, h4⟩ := (contains_iff a b p).1 h
  exact ⟨round_le h1, round_le h2, round_le h3, round_le h4⟩

example : (containsPointBigFloat ((0, 0), (1, 1)) (1 + 2 ^ (-30 : Int), 1)).1 = true := by decide +kernel

/-- C169, the part that holds: the answer is right for numbers of 20 bits. -/
theorem C169_short_partial (a b p : Pt ℚ) (h : ∀ q ∈ [a, b, p], Fits 20 q.1 ∧ Fits 20 q.2) :
    (containsPointBigFloat (a, b) p).1 = true ↔ InBox p a b := by
  have ha := h a (by simp)
  have hb := h b (by simp)
  have hp := h p (by simp)
  have mn : ∀ {x y : ℚ}, Fits 20 x → Fits 20 y → Fits 20 (min x y) ∧ Fits 20 (max x y) := by
    intro x y hx hy
    rcases le_total x y with h | h
    · rw [min_eq_left h, max_eq_right h]; exact ⟨hx, hy⟩
    · rw [min_eq_right h, max_eq_left h]; exact ⟨hy, hx⟩
  rw [contains_iff, roundTo_fits (by norm_num) (mn ha.1 hb.1).1, roundTo_fits (by norm_num) (mn ha.1 hb.1).2,
    roundTo_fits (by norm_num) (mn ha.2 hb.2).1, roundTo_fits (by norm_num) (mn ha.2 hb.2).2,
    roundTo_fits (by norm_num) hp.1, roundTo_fits (by norm_num) hp.2]
  unfold InBox
  tauto

example : ∀ q ∈ [((0, 0) : Pt ℚ), (1000, 1000), (500, 1 / 2)], Fits 20 q.1 ∧ Fits 20 q.2 := by
  simp only [List.mem_cons, List.not_mem_nil, or_false]
  rintro p (rfl | rfl | rfl)
  · exact ⟨⟨0, 0, by norm_num, by norm_num⟩, ⟨0, 0, by norm_num, by norm_num⟩⟩
  · exact ⟨⟨1000, 0, by norm_num, by norm_num⟩, ⟨1000, 0, by norm_num, by norm_num⟩⟩
  · exact ⟨⟨500, 0, by norm_num, by norm_num⟩, ⟨1, -1, by norm_num, by norm_num⟩⟩

/-- C169, the part that holds of the caller's point: its coordinates become the numbers of 20 bits next to them; it is
as it was exactly if they had no more. -/
theorem C169_caller_partial (a b p : Pt ℚ) :
    Nearest 20 p.1 (containsPointBigFloat (a, b) p).2.1 ∧ Nearest 20 p.2 (containsPointBigFloat (a, b) p).2.2 ∧
    ((containsPointBigFloat (a, b) p).2 = p ↔ Fits 20 p.1 ∧ Fits 20 p.2) := by
  have e : (containsPointBigFloat (a, b) p).2 = (Verif.Rounded.roundTo 20 p.1, Verif.Rounded.roundTo 20 p.2) := rfl
  rw [e]
  refine ⟨roundTo_nearest (by norm_num) _, roundTo_nearest (by norm_num) _, ?_, ?_⟩
  · intro h
    have h1 := congrArg Prod.fst h
    have h2 := congrArg Prod.snd h
    simp only [] at h1 h2
    exact ⟨h1 ▸ roundTo_is_fit (by norm_num) p.1, h2 ▸ roundTo_is_fit (by norm_num) p.2⟩
  · rintro ⟨h1, h2⟩
    rw [roundTo_fits (by norm_num) h1, roundTo_fits (by norm_num) h2]

example : Fits 20 (1 / 2) ∧ (containsPointBigFloat ((0, 0), (1, 1)) (1 + 2 ^ (-30 : Int), 1)).2 = (1, 1) :=
  ⟨⟨1, -1, by norm_num, by norm_num⟩, by decide +kernel⟩

/-- The float `1 + 2⁻³⁰`. -/
theorem float64_above_one : IsFloat64 (1 + 2 ^ (-30 : Int)) :=
  ⟨2 ^ 30 + 1, -30, by norm_num, by norm_num, by norm_num, by norm_num⟩

/-- A point beyond the right end of the box is said to be inside. -/
theorem C169_violated : ¬ C169_full := by
  intro h
  have f0 : IsFloat64 0 := ⟨0, 0, by norm_num, by norm_num, by norm_num, by norm_num⟩
  have f1 : IsFloat64 1 := ⟨1, 0, by norm_num, by norm_num, by norm_num, by norm_num⟩
  have h1 := (h (0, 0) (1, 1) (1 + 2 ^ (-30 : Int), 1) ⟨f0, f0⟩ ⟨f1, f1⟩ ⟨float64_above_one, f1⟩).1 (by decide +kernel)
  have h2 := h1.2.1
  norm_num at h2

/-- The caller's point is changed. -/
theorem C169_violated_kept : ¬ C169_full_kept := by
  intro h
  have f0 : IsFloat64 0 := ⟨0, 0, by norm_num, by norm_num, by norm_num, by norm_num⟩
  have f1 : IsFloat64 1 := ⟨1, 0, by norm_num, by norm_num, by norm_num, by norm_num⟩
  have h1 := h (0, 0) (1, 1) (1 + 2 ^ (-30 : Int), 1) ⟨f0, f0⟩ ⟨f1, f1⟩ ⟨float64_above_one, f1⟩
  exact absurd h1 (by decide +kernel)

end Verif.Props
