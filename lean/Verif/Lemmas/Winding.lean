import Verif.Model.Winding
import Verif.Spec.Winding
import Mathlib.Tactic.Ring
import Mathlib.Tactic.Linarith
import Mathlib.Algebra.BigOperators.Group.List.Basic

namespace Verif.Winding
open Verif Verif.Spec.Winding

variable {α : Type} [CommRing α]

/-- Sum of cross products along a path starting at `l`. -/
def pathFrom : Pt α → List (Pt α) → α
  | _, [] => 0
  | l, p :: ps => cross l p + pathFrom p ps

theorem xprodLoop_eq [LinearOrder α] (s : α) (l : Pt α) (ps : List (Pt α)) :
    xprodLoop s l ps = s + pathFrom l ps := by
  induction ps generalizing s l with
  | nil => simp [xprodLoop, pathFrom]
  | cons p ps ih => rw [xprodLoop, ih, pathFrom, cross]; ring

/-- Last point of a path starting at `l`. -/
def lastOf {α : Type} : Pt α → List (Pt α) → Pt α
  | l, [] => l
  | _, p :: ps => lastOf p ps

theorem lastOf_append {α : Type} (l : Pt α) (a b : List (Pt α)) :
    lastOf l (a ++ b) = lastOf (lastOf l a) b := by
  induction a generalizing l with
  | nil => rfl
  | cons p a ih => exact ih p

theorem getLast?_cons {α : Type} (l : Pt α) (ps : List (Pt α)) :
    (l :: ps).getLast? = some (lastOf l ps) := by
  induction ps generalizing l with
  | nil => rfl
  | cons p a ih => rw [List.getLast?_cons_cons, ih]; rfl

theorem pathFrom_append (l : Pt α) (a b : List (Pt α)) :
    pathFrom l (a ++ b) = pathFrom l a + pathFrom (lastOf l a) b := by
  induction a generalizing l with
  | nil => simp [pathFrom, lastOf]
  | cons p a ih => simp [pathFrom, ih, lastOf]; ring

theorem cross_swap (p q : Pt α) : cross q p = - cross p q := by
  simp only [cross]; ring

theorem cross_self (p : Pt α) : cross p p = 0 := by
  simp only [cross]; ring

theorem area2_cons (p : Pt α) (ps : List (Pt α)) : area2 (p :: ps) = pathFrom p (ps ++ [p]) := by
  have key : ∀ (q : Pt α) (ps : List (Pt α)),
      (((q :: ps).zip (ps ++ [p])).map (fun e => cross e.1 e.2)).sum = pathFrom q (ps ++ [p]) := by
    intro q ps
    induction ps generalizing q with
    | nil => simp [pathFrom]
    | cons r ps ih =>
      rw [List.cons_append, List.zip_cons_cons, List.map_cons, List.sum_cons, pathFrom, ih]
  rw [area2]
  simp only [List.drop_succ_cons, List.drop_zero, List.take_succ_cons, List.take_zero]
  exact key p ps

theorem xprod_eq [LinearOrder α] (ps : List (Pt α)) : xprod ps = area2 ps := by
  cases ps with
  | nil => simp [xprod, area2]
  | cons p ps =>
    rw [xprod, getLast?_cons, area2_cons, pathFrom_append]
    simp only [xprodLoop_eq, pathFrom, zero_add, add_zero]
    ring

/-- Rotation. -/
theorem area2_rotate (a b : List (Pt α)) : area2 (b ++ a) = area2 (a ++ b) := by
  cases a with
  | nil => simp
  | cons x a =>
    cases b with
    | nil => simp
    | cons y b =>
      simp only [List.cons_append, area2_cons, List.append_assoc, pathFrom_append, pathFrom]
      ring

theorem pathFrom_reverse (a b : Pt α) (ps : List (Pt α)) :
    pathFrom a (ps.reverse ++ [b]) = - pathFrom b (ps ++ [a]) := by
  induction ps generalizing b with
  | nil => simp [pathFrom, cross_swap a b]
  | cons p ps ih =>
    rw [List.reverse_cons, pathFrom_append, ih]
    simp [pathFrom, lastOf_append, lastOf]
    rw [cross_swap b p]

theorem area2_reverse (ps : List (Pt α)) : area2 ps.reverse = - area2 ps := by
  cases ps with
  | nil => simp [area2]
  | cons p ps =>
    rw [List.reverse_cons, area2_rotate]
    rw [List.singleton_append, area2_cons, area2_cons, pathFrom_reverse]

theorem pathFrom_translate (t l : Pt α) (ps : List (Pt α)) :
    pathFrom (l.1 - t.1, l.2 - t.2) (ps.map (fun p => (p.1 - t.1, p.2 - t.2))) =
      pathFrom l ps + cross t l - cross t (lastOf l ps) := by
  induction ps generalizing l with
  | nil => simp [pathFrom, lastOf]
  | cons p ps ih =>
    rw [List.map_cons, pathFrom, ih, pathFrom, lastOf]
    simp only [cross]; ring

theorem area2_translate (t : Pt α) (ps : List (Pt α)) :
    area2 (ps.map (fun p => (p.1 - t.1, p.2 - t.2))) = area2 ps := by
  cases ps with
  | nil => simp [area2]
  | cons p ps =>
    rw [List.map_cons, area2_cons, area2_cons]
    have := pathFrom_translate t p (ps ++ [p])
    rw [List.map_append] at this
    simp only [List.map_cons, List.map_nil] at this
    rw [this]
    simp [lastOf_append, lastOf]

theorem area2_closing (p : Pt α) (ps : List (Pt α)) : area2 (p :: ps ++ [p]) = area2 (p :: ps) := by
  simp only [List.cons_append, area2_cons, pathFrom_append, List.append_assoc, pathFrom]
  simp [cross_self, lastOf]

theorem area2_short (ps : List (Pt α)) (h : ps.length < 3) : area2 ps = 0 := by
  match ps, h with
  | [], _ => simp [area2]
  | [p], _ => simp [area2, cross_self]
  | [p, q], _ => simp [area2, cross_swap p q]

variable [LinearOrder α]

/-- Everything about `orientation`. -/
theorem orientation_eq (yd : Bool) (ps : List (Pt α)) :
    orientation yd ps = (if yd then -1 else 1) *
      (if area2 ps = 0 then 0 else if area2 ps < 0 then -1 else 1) := by
  unfold orientation
  split
  · simp [colinear, area2]
  · rename_i p0 t
    split
    · rename_i h
      simp [area2_short _ h, colinear]
    · rename_i h
      simp only [orient, List.length_map, if_neg h, xprod_eq]
      rw [area2_translate]

theorem orientation_zero (yd : Bool) (ps : List (Pt α)) :
    orientation yd ps = 0 ↔ area2 ps = 0 := by
  rw [orientation_eq]
  cases yd <;> by_cases h : area2 ps = 0 <;> simp [h] <;> split <;> simp

theorem orientation_down_cw (ps : List (Pt α)) : orientation true ps = -1 ↔ 0 < area2 ps := by
  rw [orientation_eq]
  rcases lt_trichotomy (area2 ps) 0 with h | h | h
  · simp [ne_of_lt h, h, le_of_lt h]
  · simp [h]
  · simp [ne_of_gt h, h, not_lt_of_gt h]

theorem orientation_up_cw (ps : List (Pt α)) : orientation false ps = -1 ↔ area2 ps < 0 := by
  rw [orientation_eq]
  rcases lt_trichotomy (area2 ps) 0 with h | h | h
  · simp [ne_of_lt h, h]
  · simp [h]
  · simp [ne_of_gt h, not_lt_of_gt h]

theorem orientation_cases (yd : Bool) (ps : List (Pt α)) :
    orientation yd ps = -1 ∨ orientation yd ps = 0 ∨ orientation yd ps = 1 := by
  rw [orientation_eq]
  rcases lt_trichotomy (area2 ps) 0 with h | h | h
  · cases yd <;> simp [ne_of_lt h, h]
  · cases yd <;> simp [h]
  · cases yd <;> simp [ne_of_gt h, not_lt_of_gt h]

theorem orientation_not (yd : Bool) (ps : List (Pt α)) :
    orientation (!yd) ps = - orientation yd ps := by
  rw [orientation_eq, orientation_eq]
  generalize (if area2 ps = 0 then (0 : Int) else if area2 ps < 0 then -1 else 1) = v
  cases yd <;> simp

theorem orientation_reverse [IsStrictOrderedRing α] (yd : Bool) (ps : List (Pt α)) :
    orientation yd ps.reverse = - orientation yd ps := by
  rw [orientation_eq, orientation_eq, area2_reverse]
  rcases lt_trichotomy (area2 ps) 0 with h | h | h
  · have h1 : ¬ (0 < area2 ps) := not_lt_of_gt h
    simp [ne_of_lt h, h, h1]
  · simp [h]
  · have h1 : ¬ (area2 ps < 0) := not_lt_of_gt h
    simp [ne_of_gt h, h, h1]

theorem orientation_cw_iff (yd : Bool) (r : List (Pt α)) (h : area2 r ≠ 0) :
    orientation yd r = clockwise ↔ decide (0 < area2 r) = yd := by
  cases yd
  · rw [show clockwise = -1 from rfl, orientation_up_cw]
    rcases lt_trichotomy (area2 r) 0 with h' | h' | h'
    · simp [h', le_of_lt h']
    · exact absurd h' h
    · simp [h', not_lt_of_gt h']
  · rw [show clockwise = -1 from rfl, orientation_down_cw]; simp

theorem rectifyLoop_tail (yd : Bool) (i : Nat) (hi : i ≠ 0) (acc rs : List (List (Pt α))) :
    rectifyLoop yd i acc rs =
      some (acc ++ (rs.filter (fun r => decide (area2 r ≠ 0))).map (turn (!yd))) := by
  induction rs generalizing i acc with
  | nil => simp [rectifyLoop]
  | cons r rs ih =>
    rw [rectifyLoop]
    by_cases h : area2 r = 0
    · have h0 : orientation yd r = colinear := (orientation_zero yd r).2 h
      simp only [h0, if_true, if_neg hi, ih (i + 1) (by omega)]
      simp [h]
    · have h0 : orientation yd r ≠ colinear := fun hc => h ((orientation_zero yd r).1 hc)
      simp only [if_neg h0, ih (i + 1) (by omega), hi, false_and, false_or, not_false_eq_true, true_and,
        ne_eq]
      have : (if orientation yd r = clockwise then r.reverse else r) = turn (!yd) r := by
        rw [turn]
        have := orientation_cw_iff yd r h
        cases yd <;> cases hd : decide (0 < area2 r) <;> simp [hd, this]
      rw [this]
      simp [h]

variable [IsStrictOrderedRing α]

theorem turn_winding (pos : Bool) (r : List (Pt α)) (h : area2 r ≠ 0) :
    decide (0 < area2 (turn pos r)) = pos ∧ area2 (turn pos r) ≠ 0 := by
  rw [turn]
  split
  · exact ⟨by assumption, h⟩
  · rename_i hd
    rw [area2_reverse]
    refine ⟨?_, by simpa using h⟩
    rcases lt_trichotomy (area2 r) 0 with h' | h' | h'
    · have : ¬ 0 < area2 r := not_lt_of_gt h'
      cases pos <;> simp_all
    · exact absurd h' h
    · cases pos <;> simp_all [not_lt_of_gt h']

theorem turn_turn (pos : Bool) (r : List (Pt α)) (h : area2 r ≠ 0) : turn pos (turn pos r) = turn pos r := by
  conv_lhs => rw [turn]
  rw [if_pos (turn_winding pos r h).1]

end Verif.Winding
