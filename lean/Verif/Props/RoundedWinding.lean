import Verif.Lemmas.RoundedWinding
import Mathlib.Tactic.NormNum

/-!
# The winding of integer points (C167)

`Order.OfInt64Points`, by which the encoder of vector tiles decides the direction of rings, in floats.
-/

namespace Verif.Props
open Verif Verif.Spec.Rounded Verif.Spec.Winding
open Verif.Rounded (ofInt64Points)
open Verif.Lemmas.Rounded

/-- C167: the winding of integer points is that of the sign of their area, whatever the points. -/
def C167_full : Prop :=
  ∀ (yd : Bool) (ps : List (Int × Int)), (∀ p ∈ ps, IsInt64 p.1 ∧ IsInt64 p.2) →
    Tells yd (area2 ps) (ofInt64Points yd ps)

/-- -1, 0 or 1 tells of a number. -/
theorem tells_sgn (yd : Bool) (a : Int) (x : ℚ) (h0 : x = 0 ↔ a = 0) (h1 : x < 0 ↔ a < 0) :
    Tells yd a ((if yd then -1 else 1) * sgn x) := by
  have h2 : 0 < x ↔ 0 < a := by
    rcases lt_trichotomy x 0 with h | h | h
    · have := h1.1 h; constructor <;> intro <;> linarith
    · have := h0.1 h; subst this; constructor <;> intro <;> linarith
    · refine ⟨fun _ => ?_, fun _ => h⟩
      have n0 : a ≠ 0 := fun e => h.ne' (h0.2 e)
      have n1 : ¬ a < 0 := fun e => absurd (h1.2 e) (not_lt.2 h.le)
      omega
  unfold Tells sgn
  rcases lt_trichotomy a 0 with h | h | h
  · have hx := h1.2 h
    rw [if_neg hx.ne, if_pos hx]
    cases yd <;> simp <;> omega
  · have hx := h0.2 h
    rw [if_pos hx]
    cases yd <;> simp <;> omega
  · have hx := h2.2 h
    rw [if_neg hx.ne', if_neg (not_lt.2 hx.le)]
    cases yd <;> simp <;> omega

/-- A list of fewer than three points has no area, and is said to be colinear. -/
theorem tells_short (yd : Bool) (ps : List (Int × Int)) (h : ps.length < 3) :
    Tells yd (area2 ps) (ofInt64Points yd ps) := by
  rw [Verif.Winding.area2_short ps h]
  have e : ofInt64Points yd ps = 0 := by
    unfold ofInt64Points Verif.Rounded.orientation
    cases ps with
    | nil => rfl
    | cons p ps =>
      simp only [List.map_cons, List.length_cons, List.length_map] at h ⊢
      rw [if_pos h]
      rfl
  rw [e]
  cases yd <;> simp [Tells]

/-- C167, the part that holds: as long as no coordinate is beyond `2 ^ 53`, none is further than `D` from that of the
first point, and `2 · D² ` times the number of points is at most `2 ^ 53`, the winding is that of the sign of the
area. (For a tile of 4096 units, whose points keep within 8192 of each other: up to 2 ^ 26 points.) -/
theorem C167_near_partial (yd : Bool) (ps : List (Int × Int)) (D : Int)
    (hc : ∀ p ∈ ps, |p.1| ≤ 2 ^ 53 ∧ |p.2| ≤ 2 ^ 53)
    (hd : ∀ p ∈ ps, ∀ o ∈ ps.head?, |p.1 - o.1| ≤ D ∧ |p.2 - o.2| ≤ D)
    (hn : 2 * D * D * ps.length ≤ 2 ^ 53) : Tells yd (area2 ps) (ofInt64Points yd ps) := by
  by_cases h3 : ps.length < 3
  · exact tells_short yd ps h3
  · cases ps with
    | nil => simp at h3
    | cons o ps =>
      have hd' : ∀ p ∈ o :: ps, |p.1 - o.1| ≤ D ∧ |p.2 - o.2| ≤ D := fun p hp => hd p hp o (by simp)
      have hD0 : 0 ≤ D := (abs_nonneg _).trans (hd' o (by simp)).1
      have hD : D ≤ 2 ^ 53 := by
        simp only [List.length_cons] at hn
        push_cast at hn
        by_contra hc
        push Not at hc
        have a1 : D * 1 ≤ D * D := mul_le_mul_of_nonneg_left (by omega) hD0
        have a2 : 0 ≤ 2 * D * D * (ps.length : Int) :=
          mul_nonneg (mul_nonneg (by omega) hD0) (Int.natCast_nonneg _)
        linarith
      rw [ofInt64Points_eq yd o ps hc
        (fun p hp => ⟨(hd' p hp).1.trans hD, (hd' p hp).2.trans hD⟩) h3,
        xprod_exact D o ps hd' (by simpa using hn)]
      exact tells_sgn yd _ _ (by exact_mod_cast Iff.rfl) (by exact_mod_cast Iff.rfl)

example : (∀ p ∈ [((0 : Int), (0 : Int)), (4096, 0), (4096, 4096), (0, 4096)], |p.1| ≤ 2 ^ 53 ∧ |p.2| ≤ 2 ^ 53) ∧
    (∀ p ∈ [((0 : Int), (0 : Int)), (4096, 0), (4096, 4096), (0, 4096)], |p.1 - 0| ≤ 4096 ∧ |p.2 - 0| ≤ 4096) ∧
    (2 : Int) * 4096 * 4096 * 4 ≤ 2 ^ 53 ∧
    area2 [((0 : Int), (0 : Int)), (4096, 0), (4096, 4096), (0, 4096)] = 33554432 := by decide

/-- C167, the part that holds: no coordinate is beyond `2 ^ 53`, none further than `2 ^ d` from that of the first
point; then an area that is large enough gives the right winding, how large depending on the number of points. -/
theorem C167_large_partial (yd : Bool) (ps : List (Int × Int)) (d : Nat) (hd53 : d ≤ 53)
    (hc : ∀ p ∈ ps, |p.1| ≤ 2 ^ 53 ∧ |p.2| ≤ 2 ^ 53)
    (hd : ∀ p ∈ ps, ∀ o ∈ ps.head?, |p.1 - o.1| ≤ 2 ^ d ∧ |p.2 - o.2| ≤ 2 ^ d)
    (hl : ps.length ≤ 2 ^ 52)
    (ha : (ps.length * (4 + 2 * ps.length) * 4 ^ d : Int) < |area2 ps| * 2 ^ 53) :
    Tells yd (area2 ps) (ofInt64Points yd ps) := by
  by_cases h3 : ps.length < 3
  · exact tells_short yd ps h3
  · cases ps with
    | nil => simp at h3
    | cons o ps =>
      have hd' : ∀ p ∈ o :: ps, |p.1 - o.1| ≤ 2 ^ d ∧ |p.2 - o.2| ≤ 2 ^ d := fun p hp => hd p hp o (by simp)
      have hp : (2 : Int) ^ d ≤ 2 ^ 53 := pow_le_pow_right₀ (by norm_num) hd53
      rw [ofInt64Points_eq yd o ps hc (fun p h => ⟨(hd' p h).1.trans hp, (hd' p h).2.trans hp⟩) h3]
      have key := xprod_err d o ps hd' hl
      generalize Verif.Rounded.xprod (from0 o (o :: ps)) = x at *
      generalize area2 (o :: ps) = a at *
      have ha' : (((o :: ps).length : Nat) : ℚ) * (4 + 2 * ((o :: ps).length : Nat)) * 4 ^ d / 2 ^ 53 < |(a : ℚ)| := by
        rw [div_lt_iff₀ (by positivity)]
        exact_mod_cast ha
      have h := abs_lt.1 (lt_of_le_of_lt key ha')
      rcases lt_trichotomy a 0 with h0 | h0 | h0
      · have hq : (a : ℚ) < 0 := by exact_mod_cast h0
        rw [abs_of_neg hq] at h
        have : x < 0 := by linarith [h.1, h.2]
        exact tells_sgn yd _ _ ⟨fun e => absurd e this.ne, fun e => absurd e h0.ne⟩ ⟨fun _ => h0, fun _ => this⟩
      · subst h0
        simp at h
        linarith [h.1, h.2]
      · have hq : (0 : ℚ) < a := by exact_mod_cast h0
        rw [abs_of_pos hq] at h
        have : 0 < x := by linarith [h.1, h.2]
        exact tells_sgn yd _ _ ⟨fun e => absurd e this.ne', fun e => absurd e h0.ne'⟩
          ⟨fun e => absurd e (not_lt.2 this.le), fun e => absurd e (not_lt.2 h0.le)⟩

example : (∀ p ∈ [((0 : Int), (0 : Int)), (2 ^ 35, 0), (2 ^ 35, 2 ^ 30)], |p.1 - 0| ≤ 2 ^ 35 ∧ |p.2 - 0| ≤ 2 ^ 35) ∧
    (3 * (4 + 2 * 3) * 4 ^ 35 : Int) < |area2 [((0 : Int), (0 : Int)), (2 ^ 35, 0), (2 ^ 35, 2 ^ 30)]| * 2 ^ 53 := by
  decide

/-- C167, the part that holds: the winding of a triangle whose coordinates are at most `2 ^ 52` is never the
opposite one; at worst the triangle is said to be colinear. -/
theorem C167_triangle_partial (yd : Bool) (o a b : Int × Int)
    (hc : ∀ p ∈ [o, a, b], |p.1| ≤ 2 ^ 52 ∧ |p.2| ≤ 2 ^ 52) :
    ofInt64Points yd [o, a, b] = 0 ∨ Tells yd (area2 [o, a, b]) (ofInt64Points yd [o, a, b]) := by
  have hd : ∀ p ∈ [o, a, b], |p.1 - o.1| ≤ 2 ^ 53 ∧ |p.2 - o.2| ≤ 2 ^ 53 := by
    intro p hp
    have h1 := hc p hp
    have h2 := hc o (by simp)
    constructor
    · have := abs_sub p.1 o.1; omega
    · have := abs_sub p.2 o.2; omega
  rw [ofInt64Points_eq yd o [a, b] (fun p hp => ⟨(hc p hp).1.trans (by norm_num), (hc p hp).2.trans (by norm_num)⟩)
    hd (by simp)]
  have e : area2 (from0 o [o, a, b]) = ((area2 (α := Int) [o, a, b] : Int) : ℚ) := area2_from0 o _
  have e0 : from0 o [o, a, b] = [(0, 0), castPt (a.1 - o.1, a.2 - o.2), castPt (b.1 - o.1, b.2 - o.2)] := by
    simp [from0, castPt]
  rw [e0] at e ⊢
  generalize castPt (a.1 - o.1, a.2 - o.2) = A at *
  generalize castPt (b.1 - o.1, b.2 - o.2) = B at *
  rw [triangle_xprod]
  have hs := triangle_sign A B
  have e1 : A.1 * B.2 - B.1 * A.2 = ((area2 (α := Int) [o, a, b] : Int) : ℚ) := by
    rw [← e]
    simp [area2, cross]
  rw [e1] at hs
  generalize Verif.Rounded.sub 53 (Verif.Rounded.mul 53 A.1 B.2) (Verif.Rounded.mul 53 B.1 A.2) = x at *
  generalize area2 (α := Int) [o, a, b] = w at *
  rcases lt_trichotomy x 0 with h | h | h
  · right
    have := hs.2 h
    have hw : w < 0 := by exact_mod_cast this
    exact tells_sgn yd _ _ ⟨fun e => absurd e h.ne, fun e => absurd e hw.ne⟩ ⟨fun _ => hw, fun _ => h⟩
  · left
    simp [sgn, h]
  · right
    have := hs.1 h
    have hw : 0 < w := by exact_mod_cast this
    exact tells_sgn yd _ _ ⟨fun e => absurd e h.ne', fun e => absurd e hw.ne'⟩
      ⟨fun e => absurd e (not_lt.2 h.le), fun e => absurd e (not_lt.2 hw.le)⟩

example : ∀ p ∈ [((0 : Int), (0 : Int)), (2 ^ 27, 2 ^ 27 - 1), (2 ^ 27 + 1, 2 ^ 27)],
    |p.1| ≤ 2 ^ 52 ∧ |p.2| ≤ 2 ^ 52 := by decide

/-- A triangle of area one half, with coordinates about `2 ^ 27`, is said to be colinear. -/
theorem C167_violated : ¬ C167_full := by
  intro h
  have := (h false [(0, 0), (2 ^ 27, 2 ^ 27 - 1), (2 ^ 27 + 1, 2 ^ 27)] (by unfold IsInt64; decide)).1
  have e : area2 [((0 : Int), (0 : Int)), (2 ^ 27, 2 ^ 27 - 1), (2 ^ 27 + 1, 2 ^ 27)] = 1 := by decide
  rw [e] at this
  have e2 : ofInt64Points false [(0, 0), (2 ^ 27, 2 ^ 27 - 1), (2 ^ 27 + 1, 2 ^ 27)] = 0 := by decide +kernel
  exact absurd (this.1 e2) (by decide)

end Verif.Props
