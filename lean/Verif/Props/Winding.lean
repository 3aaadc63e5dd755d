import Verif.Lemmas.Winding
import Mathlib.Algebra.Order.Ring.Int

/-!
# Winding (C31, C32)

Coordinates are elements of any linearly ordered commutative ring, so the
statements hold for integers, rationals and reals; float64 rounding is outside
the model.
-/

namespace Verif.Props
open Verif Verif.Winding Verif.Spec.Winding

variable {α : Type} [CommRing α] [LinearOrder α] [IsStrictOrderedRing α]

/-- A unit square, counter-clockwise with y up, used in the examples. -/
def square : List (Pt Int) := [(0, 0), (1, 0), (1, 1), (0, 1)]

/-! ## C31 -/

omit [IsStrictOrderedRing α] in
/-- C31: colinear exactly if the signed area is zero; with y growing downwards
clockwise means positive signed area, with y growing upwards negative. -/
theorem C31_winding_is_area_sign (ps : List (Pt α)) (yd : Bool) :
    (orientation yd ps = colinear ↔ area2 ps = 0) ∧
    (orientation true ps = clockwise ↔ 0 < area2 ps) ∧
    (orientation true ps = counterClockwise ↔ area2 ps < 0) ∧
    (orientation false ps = clockwise ↔ area2 ps < 0) ∧
    (orientation false ps = counterClockwise ↔ 0 < area2 ps) := by
  refine ⟨orientation_zero yd ps, orientation_down_cw ps, ?_, orientation_up_cw ps, ?_⟩
  · have := orientation_not false ps
    simp only [Bool.not_false] at this
    rw [this, ← orientation_up_cw, counterClockwise]; omega
  · have := orientation_not true ps
    simp only [Bool.not_true] at this
    rw [this, ← orientation_down_cw, counterClockwise]; omega

example : area2 square = 2 ∧ orientation false square = counterClockwise ∧
    area2 [((0 : Int), (0 : Int)), (1, 1), (3, 3)] = 0 := by decide

/-- C31: reversing the ring inverts the winding (`Not`). -/
theorem C31_reverse (yd : Bool) (ps : List (Pt α)) :
    orientation yd ps.reverse = Winding.not (orientation yd ps) := by
  rw [orientation_reverse, Winding.not]; omega

example : orientation true square = clockwise ∧ orientation true square.reverse = counterClockwise := by
  decide

omit [IsStrictOrderedRing α] in
/-- C31: flipping the direction of the y axis inverts the winding. -/
theorem C31_flip_axis (yd : Bool) (ps : List (Pt α)) :
    orientation (!yd) ps = Winding.not (orientation yd ps) := by
  rw [orientation_not, Winding.not]; omega

omit [IsStrictOrderedRing α] in
/-- C31: the start vertex does not matter. -/
theorem C31_rotate (yd : Bool) (a b : List (Pt α)) :
    orientation yd (b ++ a) = orientation yd (a ++ b) := by
  rw [orientation_eq, orientation_eq, area2_rotate]

omit [IsStrictOrderedRing α] in
/-- C31: the position of the ring does not matter. -/
theorem C31_translate (yd : Bool) (t : Pt α) (ps : List (Pt α)) :
    orientation yd (ps.map (fun p => (p.1 + t.1, p.2 + t.2))) = orientation yd ps := by
  have := area2_translate (-t.1, -t.2) ps
  simp only [sub_neg_eq_add] at this
  rw [orientation_eq, orientation_eq, this]

omit [IsStrictOrderedRing α] in
/-- C31: repeating the first vertex at the end does not matter. -/
theorem C31_closing_point (yd : Bool) (p : Pt α) (ps : List (Pt α)) :
    orientation yd (p :: ps ++ [p]) = orientation yd (p :: ps) := by
  rw [orientation_eq, orientation_eq, area2_closing]

/-! ## C32 -/

/-- What rectifying should give, in terms of signed areas only: nothing for a
polygon without a proper first ring; otherwise the first ring and the other rings
of non-zero area, turned to the required direction. -/
def rectified (yd : Bool) : List (List (Pt α)) → List (List (Pt α))
  | [] => []
  | r :: rs =>
    if area2 r = 0 then []
    else turn yd r :: (rs.filter (fun r => decide (area2 r ≠ 0))).map (turn (!yd))

omit [IsStrictOrderedRing α] in
/-- C32: `RectifyPolygon` keeps exactly the non-colinear rings, in order, each as
it was or reversed; the first is clockwise and the others counter-clockwise
(`turn` towards positive area is clockwise with y down).  A colinear first ring
drops the polygon. -/
theorem C32_rectify (yd : Bool) (rs : List (List (Pt α))) :
    rectifyPolygon yd rs = rectified yd rs := by
  cases rs with
  | nil => rfl
  | cons r rs =>
    rw [rectifyPolygon, rectifyLoop, rectified]
    by_cases h : area2 r = 0
    · have h0 : orientation yd r = colinear := (orientation_zero yd r).2 h
      simp [h0, h]
    · have h0 : orientation yd r ≠ colinear := fun hc => h ((orientation_zero yd r).1 hc)
      simp only [if_neg h0, if_neg h, rectifyLoop_tail yd (0 + 1) (by omega)]
      have : (if True ∧ orientation yd r = counterClockwise ∨ 0 ≠ 0 ∧ orientation yd r = clockwise
          then r.reverse else r) = turn yd r := by
        rw [turn]
        have h1 := orientation_cw_iff yd r h
        have h2 := orientation_cases yd r
        have h3 : orientation yd r ≠ 0 := h0
        simp only [clockwise, counterClockwise] at *
        by_cases hd : decide (0 < area2 r) = yd
        · have := h1.2 hd
          simp [hd, this]
        · have : orientation yd r ≠ -1 := fun hc => hd (h1.1 hc)
          have : orientation yd r = 1 := by omega
          simp [hd, this]
      rw [this]
      simp

example : rectifyPolygon true [square.reverse, square, [(0, 0), (2, 2), (1, 1)]] = [square, square.reverse] := by
  decide

/-- C32: the direction of the result: the first ring is clockwise, all others are
counter-clockwise. -/
theorem C32_rectify_windings (yd : Bool) (rs : List (List (Pt α))) :
    (∀ r ∈ (rectifyPolygon yd rs).head?, orientation yd r = clockwise) ∧
    (∀ r ∈ (rectifyPolygon yd rs).tail, orientation yd r = counterClockwise) := by
  rw [C32_rectify]
  cases rs with
  | nil => simp [rectified]
  | cons r rs =>
    rw [rectified]
    split
    · simp
    · rename_i h
      simp only [List.head?_cons, Option.mem_def, Option.some.injEq, List.tail_cons, List.mem_map,
        List.mem_filter]
      constructor
      · rintro _ rfl
        obtain ⟨h1, h2⟩ := turn_winding yd r h
        exact (orientation_cw_iff yd _ h2).2 h1
      · rintro _ ⟨q, ⟨_, hq⟩, rfl⟩
        simp only [decide_eq_true_eq] at hq
        obtain ⟨h1, h2⟩ := turn_winding (!yd) q hq
        have h3 := orientation_cw_iff yd _ h2
        have h4 : orientation yd (turn (!yd) q) ≠ clockwise := by
          rw [ne_eq, h3, h1]; cases yd <;> simp
        have h5 : orientation yd (turn (!yd) q) ≠ 0 := fun hc => h2 ((orientation_zero yd _).1 hc)
        have h6 := orientation_cases yd (turn (!yd) q)
        simp only [clockwise, counterClockwise] at *
        omega

/-- C32: rectifying twice is rectifying once. -/
theorem C32_rectify_idempotent (yd : Bool) (rs : List (List (Pt α))) :
    rectifyPolygon yd (rectifyPolygon yd rs) = rectifyPolygon yd rs := by
  rw [C32_rectify, C32_rectify]
  cases rs with
  | nil => rfl
  | cons r rs =>
    rw [rectified]
    split
    · rfl
    · rename_i h
      rw [rectified, if_neg (turn_winding yd r h).2, turn_turn yd r h]
      congr 1
      rw [List.filter_map, List.map_map]
      have hf : (rs.filter (fun r => decide (area2 r ≠ 0))).filter
          ((fun r => decide (area2 r ≠ 0)) ∘ turn (!yd)) = rs.filter (fun r => decide (area2 r ≠ 0)) := by
        rw [List.filter_eq_self]
        intro a ha
        simp only [List.mem_filter, decide_eq_true_eq] at ha
        simpa using (turn_winding (!yd) a ha.2).2
      rw [hf]
      apply List.map_congr_left
      intro a ha
      simp only [List.mem_filter, decide_eq_true_eq] at ha
      exact turn_turn (!yd) a ha.2

omit [IsStrictOrderedRing α] in
/-- C32, side effect: the caller's own rings are reversed in place.  A ring of the
argument still holds its old vertices after the call exactly when it did not have
to be turned: afterwards the argument's kept rings are the result's rings. -/
theorem C32_rectify_mutates_argument (yd : Bool) (r : List (Pt α)) (rs : List (List (Pt α)))
    (h : area2 r ≠ 0) :
    (rectifyCaller yd (r :: rs)).filter (fun r => decide (area2 r ≠ 0)) =
      rectifyPolygon yd (r :: rs) := by
  rw [C32_rectify, rectified, if_neg h]
  have har : ∀ (b : Bool) (q : List (Pt α)), area2 (turn b q) = 0 ↔ area2 q = 0 := by
    intro b q
    rw [turn]
    split
    · rfl
    · rw [area2_reverse]; simp
  have tail : ∀ (i : Nat) (rs : List (List (Pt α))), i ≠ 0 → (rectifyCaller.go yd i rs).filter
      (fun r => decide (area2 r ≠ 0)) = (rs.filter (fun r => decide (area2 r ≠ 0))).map (turn (!yd)) := by
    intro i rs
    induction rs generalizing i with
    | nil => intro _; simp [rectifyCaller.go]
    | cons q rs ih =>
      intro hi
      rw [rectifyCaller.go]
      by_cases hq : area2 q = 0
      · have h0 : orientation yd q = colinear := (orientation_zero yd q).2 hq
        simp only [h0, if_true, if_neg hi]
        rw [List.filter_cons, ih (i + 1) (by omega), List.filter_cons]
        simp [hq]
      · have h0 : orientation yd q ≠ colinear := fun hc => hq ((orientation_zero yd q).1 hc)
        simp only [if_neg h0, hi, false_and, false_or, not_false_eq_true, true_and, ne_eq]
        have : (if orientation yd q = clockwise then q.reverse else q) = turn (!yd) q := by
          rw [turn]
          have := orientation_cw_iff yd q hq
          cases yd <;> cases hd : decide (0 < area2 q) <;> simp [hd, this]
        rw [this, List.filter_cons, List.filter_cons]
        have := ih (i + 1) (by omega)
        simp only [ne_eq, decide_not] at this
        simp [har, hq, this]
  rw [rectifyCaller, rectifyCaller.go]
  have h0 : orientation yd r ≠ colinear := fun hc => h ((orientation_zero yd r).1 hc)
  simp only [if_neg h0]
  have : (if True ∧ orientation yd r = counterClockwise ∨ 0 ≠ 0 ∧ orientation yd r = clockwise
      then r.reverse else r) = turn yd r := by
    rw [turn]
    have h1 := orientation_cw_iff yd r h
    have h2 := orientation_cases yd r
    have h3 : orientation yd r ≠ 0 := h0
    simp only [clockwise, counterClockwise] at *
    by_cases hd : decide (0 < area2 r) = yd
    · have := h1.2 hd
      simp [hd, this]
    · have : orientation yd r ≠ -1 := fun hc => hd (h1.1 hc)
      have : orientation yd r = 1 := by omega
      simp [hd, this]
  rw [this, List.filter_cons, tail _ _ (by omega)]
  simp [har, h]

example : area2 square ≠ 0 ∧ rectifyCaller false [square] = [square.reverse] := by decide

end Verif.Props
