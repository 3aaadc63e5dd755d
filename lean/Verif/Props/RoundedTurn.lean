import Verif.Lemmas.RoundedTurn
import Mathlib.Data.List.Rotate

/-!
# The winding of `float64` points, however they are written (C181)
-/

namespace Verif.Props
open Verif Verif.Rounded Verif.Spec.Rounded Verif.Lemmas.Rounded
open Verif.Lemmas.Float64 (roundTo_neg)

/-- C181 in full: a ring of `float64` points read backwards has the opposite winding, and it does not
matter where the ring starts. -/
def C181_full : Prop :=
  ∀ (yd : Bool) (ps : List (Pt ℚ)), (∀ p ∈ ps, IsFloat64 p.1 ∧ IsFloat64 p.2) →
    orientation yd ps.reverse = -orientation yd ps
    ∧ ∀ n, orientation yd (ps.rotate n) = orientation yd ps

/-- Three points, nearly on one line. -/
def longTriangle : List (Pt ℚ) := [(-1, 0), (1, 1), (10578094473700376, 12263323356261706)]

theorem longTriangle_floats : ∀ p ∈ longTriangle, IsFloat64 p.1 ∧ IsFloat64 p.2 := by
  intro p hp
  simp only [longTriangle, List.mem_cons, List.not_mem_nil, or_false] at hp
  rcases hp with rfl | rfl | rfl
  · exact ⟨⟨-1, 0, by norm_num, by norm_num, by norm_num, by norm_num⟩,
      ⟨0, 0, by norm_num, by norm_num, by norm_num, by norm_num⟩⟩
  · exact ⟨⟨1, 0, by norm_num, by norm_num, by norm_num, by norm_num⟩,
      ⟨1, 0, by norm_num, by norm_num, by norm_num, by norm_num⟩⟩
  · exact ⟨⟨10578094473700376 / 8, 3, by norm_num, by norm_num, by norm_num, by norm_num⟩,
      ⟨12263323356261706 / 2, 1, by norm_num, by norm_num, by norm_num, by norm_num⟩⟩

/-- C181 fails: read either way, the triangle winds the same. -/
theorem C181_violated : ¬ C181_full := by
  intro h
  have := (h false longTriangle longTriangle_floats).1
  revert this
  decide +kernel

/-- C181 fails for the start as well: the triangle winds the other way when it starts at its last corner. -/
theorem C181_violated_start :
    (∀ p ∈ longTriangle, IsFloat64 p.1 ∧ IsFloat64 p.2)
    ∧ orientation false (longTriangle.rotate 2) = -orientation false longTriangle
    ∧ orientation false longTriangle ≠ 0 := by
  refine ⟨longTriangle_floats, ?_, ?_⟩ <;> decide +kernel

/-- What holds of mirrored and turned points, of whatever rings: the winding is the opposite when one
coordinate of all points changes its sign or the coordinates change places, it stays the same for a
quarter turn and a half turn; and it is the opposite with the other direction of the y axis. -/
theorem C181_mirror_partial (yd : Bool) (ps : List (Pt ℚ)) :
    orientation yd (ps.map fun p => (-p.1, p.2)) = -orientation yd ps
    ∧ orientation yd (ps.map fun p => (p.1, -p.2)) = -orientation yd ps
    ∧ orientation yd (ps.map fun p => (p.2, p.1)) = -orientation yd ps
    ∧ orientation yd (ps.map fun p => (-p.2, p.1)) = orientation yd ps
    ∧ orientation yd (ps.map fun p => (-p.1, -p.2)) = orientation yd ps
    ∧ orientation (!yd) ps = -orientation yd ps := by
  have hr : ∀ x : ℚ, roundTo 53 (-1 * x) = -1 * roundTo 53 x := fun x => by
    rw [neg_one_mul, neg_one_mul, roundTo_neg]
  have mn : ∀ x y : ℚ, mul 53 (-x) y = -mul 53 x y := fun x y => by
    unfold mul; rw [neg_mul, roundTo_neg]
  have nm : ∀ x y : ℚ, mul 53 x (-y) = -mul 53 x y := fun x y => by
    unfold mul; rw [mul_neg, roundTo_neg]
  have mc : ∀ x y : ℚ, mul 53 x y = mul 53 y x := fun x y => by unfold mul; rw [mul_comm]
  have sn : ∀ x y : ℚ, sub 53 (-x) (-y) = -sub 53 x y := fun x y => by
    unfold sub; rw [← roundTo_neg]; congr 1; ring
  have sc : ∀ x y : ℚ, sub 53 x y = -sub 53 y x := fun x y => by
    unfold sub; rw [← roundTo_neg, neg_sub]
  have mx : ∀ qs : List (Pt ℚ), orientation yd (qs.map fun p => (-p.1, p.2)) = -orientation yd qs :=
    fun qs => (orientation_map (fun p => (-p.1, p.2)) (-1) hr
      (fun l p => by simp only [term, mn, sn]; ring) (fun p o => by simp only [sn]) yd qs).2 (by norm_num)
  have my : ∀ qs : List (Pt ℚ), orientation yd (qs.map fun p => (p.1, -p.2)) = -orientation yd qs :=
    fun qs => (orientation_map (fun p => (p.1, -p.2)) (-1) hr
      (fun l p => by simp only [term, nm, sn]; ring) (fun p o => by simp only [sn]) yd qs).2 (by norm_num)
  have sw : ∀ qs : List (Pt ℚ), orientation yd (qs.map fun p => (p.2, p.1)) = -orientation yd qs :=
    fun qs => (orientation_map (fun p => (p.2, p.1)) (-1) hr
      (fun l p => by
        simp only [term]
        rw [sc, mc p.2 l.1, mc l.2 p.1]
        ring)
      (fun p o => rfl) yd qs).2 (by norm_num)
  refine ⟨mx ps, my ps, sw ps, ?_, ?_, ?_⟩
  · have e : (ps.map fun p => (-p.2, p.1)) = (ps.map fun p => (p.2, p.1)).map fun p => (-p.1, p.2) := by
      simp [List.map_map, Function.comp_def]
    rw [e, mx, sw, neg_neg]
  · have e : (ps.map fun p => (-p.1, -p.2)) = (ps.map fun p => (p.1, -p.2)).map fun p => (-p.1, p.2) := by
      simp [List.map_map, Function.comp_def]
    rw [e, mx, my, neg_neg]
  · cases ps with
    | nil => rfl
    | cons o ps =>
      rw [orientation_eq, orientation_eq]
      cases yd <;> simp

example : orientation true (longTriangle.map fun p => (-p.2, p.1)) = -1 := by decide +kernel

/-- What holds of scaled points: with all coordinates multiplied by one power of two the winding is the
same, as long as no number gets too large or too small for a `float64`. -/
theorem C181_scale_partial (yd : Bool) (ps : List (Pt ℚ)) (k : Int) :
    orientation yd (ps.map fun p => (2 ^ k * p.1, 2 ^ k * p.2)) = orientation yd ps := by
  have h2 : (2 : ℚ) ^ k * 2 ^ k = 2 ^ (k + k) := (zpow_add₀ (by norm_num) k k).symm
  have sk : ∀ (j : Int) (x y : ℚ), sub 53 (2 ^ j * x) (2 ^ j * y) = 2 ^ j * sub 53 x y := fun j x y => by
    unfold sub; rw [← mul_sub, roundTo_scale]
  have mk : ∀ x y : ℚ, mul 53 (2 ^ k * x) (2 ^ k * y) = 2 ^ (k + k) * mul 53 x y := fun x y => by
    unfold mul; rw [← roundTo_scale, ← h2]; congr 1; ring
  exact (orientation_map (fun p => (2 ^ k * p.1, 2 ^ k * p.2)) (2 ^ (k + k))
    (fun x => roundTo_scale 53 x (k + k)) (fun l p => by simp only [term, mk, sk])
    (fun p o => by simp only [sk]) yd ps).1 (two_pow_pos _)

example : (longTriangle.map fun p => ((2 : ℚ) ^ (-3 : Int) * p.1, (2 : ℚ) ^ (-3 : Int) * p.2)) ≠ longTriangle
    ∧ orientation false longTriangle = 1 := by decide +kernel

/-- What holds of repeated points: a point written twice in a row changes nothing, nor does the first
point at the end. -/
theorem C181_repeated_partial (yd : Bool) :
    (∀ (a : List (Pt ℚ)) (p : Pt ℚ) (b : List (Pt ℚ)),
      orientation yd (a ++ p :: p :: b) = orientation yd (a ++ p :: b))
    ∧ ∀ (o : Pt ℚ) (ps : List (Pt ℚ)), orientation yd (o :: ps ++ [o]) = orientation yd (o :: ps) :=
  ⟨orientation_repeat yd, orientation_closed yd⟩

example : orientation false [(0, 0), (0, 0), (1, 0), (1, 1), (0, 0)] = 1 := by decide +kernel

/-- What holds of a triangle: with the last two corners swapped it winds the other way. -/
theorem C181_swap_partial (yd : Bool) (o a b : Pt ℚ) :
    orientation yd [o, b, a] = -orientation yd [o, a, b] := orientation_swap yd o a b

example : orientation false [(-1, 0), (10578094473700376, 12263323356261706), (1, 1)] = -1 := by
  decide +kernel

end Verif.Props
