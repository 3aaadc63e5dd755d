import Verif.Lemmas.Rounded
import Verif.Lemmas.Winding

namespace Verif.Lemmas.Rounded
open Verif Verif.Rounded Verif.Spec.Rounded Verif.Spec.Winding
open Verif.Winding (pathFrom lastOf area2_cons getLast?_cons pathFrom_append area2_translate area2_short)

/-- -1, 0 or 1. -/
def sgn (x : ℚ) : Int := if x = 0 then 0 else if x < 0 then -1 else 1

/-- The point as a pair of rationals. -/
def castPt (p : Int × Int) : Pt ℚ := ((p.1 : ℚ), (p.2 : ℚ))

/-- The points as seen from `o`. -/
def from0 (o : Int × Int) (ps : List (Int × Int)) : List (Pt ℚ) := ps.map (fun p => castPt (p.1 - o.1, p.2 - o.2))

theorem int_multiple {z B : Int} (h : |z| ≤ B) : Multiple 0 B (z : ℚ) := ⟨z, h, by simp⟩

theorem round_int {z : Int} (h : |z| ≤ 2 ^ 53) : roundTo 53 (z : ℚ) = z :=
  multiple_round (by norm_num) le_rfl (int_multiple h)

theorem pathFrom_cast (l : Int × Int) (ps : List (Int × Int)) :
    pathFrom (castPt l) (ps.map castPt) = ((pathFrom (α := Int) l ps : Int) : ℚ) := by
  induction ps generalizing l with
  | nil => simp [pathFrom]
  | cons p ps ih =>
    rw [List.map_cons, pathFrom, ih, pathFrom]
    simp [cross, castPt]

theorem area2_cast (ps : List (Int × Int)) : area2 (ps.map castPt) = ((area2 (α := Int) ps : Int) : ℚ) := by
  cases ps with
  | nil => simp [area2]
  | cons p ps =>
    rw [List.map_cons, area2_cons, area2_cons, ← pathFrom_cast]
    simp

theorem area2_from0 (o : Int × Int) (ps : List (Int × Int)) :
    area2 (from0 o ps) = ((area2 (α := Int) ps : Int) : ℚ) := by
  rw [← area2_translate (α := Int) o ps, ← area2_cast, from0, List.map_map]
  rfl

/-- The running sum starts at the last point. -/
theorem xprod_loop (p : Pt ℚ) (ps : List (Pt ℚ)) :
    xprod (p :: ps) = xprodLoop 0 (lastOf p ps) (p :: ps) := by
  rw [xprod, getLast?_cons]

theorem area2_loop (p : Pt ℚ) (ps : List (Pt ℚ)) : area2 (p :: ps) = pathFrom (lastOf p ps) (p :: ps) := by
  rw [area2_cons, pathFrom_append, pathFrom]
  simp only [pathFrom, add_zero]
  ring

theorem lastOf_mem {α : Type} (p : Pt α) (ps : List (Pt α)) : lastOf p ps ∈ p :: ps := by
  induction ps generalizing p with
  | nil => simp [lastOf]
  | cons q ps ih => exact List.mem_cons_of_mem _ (ih q)

/-- What `OfInt64Points` comes to where conversions and differences are exact. -/
theorem ofInt64Points_eq (yd : Bool) (o : Int × Int) (ps : List (Int × Int))
    (hc : ∀ p ∈ o :: ps, |p.1| ≤ 2 ^ 53 ∧ |p.2| ≤ 2 ^ 53)
    (hd : ∀ p ∈ o :: ps, |p.1 - o.1| ≤ 2 ^ 53 ∧ |p.2 - o.2| ≤ 2 ^ 53) (h3 : ¬ (o :: ps).length < 3) :
    ofInt64Points yd (o :: ps) = (if yd then -1 else 1) * sgn (xprod (from0 o (o :: ps))) := by
  have hm : (o :: ps).map (fun p => ((roundTo 53 (p.1 : ℚ), roundTo 53 (p.2 : ℚ)) : Pt ℚ)) = (o :: ps).map castPt := by
    refine List.map_congr_left fun p hp => ?_
    rw [round_int (hc p hp).1, round_int (hc p hp).2]
    rfl
  rw [ofInt64Points, hm, List.map_cons, orientation]
  simp only [List.length_cons, List.length_map] at h3 ⊢
  rw [if_neg h3, ← List.map_cons, List.map_map]
  have e : (o :: ps).map ((fun p => ((sub 53 p.1 (castPt o).1, sub 53 p.2 (castPt o).2) : Pt ℚ)) ∘ castPt)
      = from0 o (o :: ps) := by
    refine List.map_congr_left fun p hp => ?_
    simp only [Function.comp, castPt, sub]
    rw [← Int.cast_sub, ← Int.cast_sub, round_int (hd p hp).1, round_int (hd p hp).2]
  rw [e, orient]
  simp only [from0, List.length_map, List.length_cons]
  rw [if_neg h3]
  rfl

theorem loop_exact (D : Int) (l : Pt ℚ) (ps : List (Pt ℚ)) (hl : OnGrid 0 D l) (hps : ∀ p ∈ ps, OnGrid 0 D p)
    (s : ℚ) (M : Int) (hM0 : 0 ≤ M) (hs : Multiple 0 M s) (hM : M + 2 * D * D * ps.length ≤ 2 ^ 53) :
    xprodLoop s l ps = s + pathFrom l ps := by
  induction ps generalizing l s M with
  | nil => simp [xprodLoop, pathFrom]
  | cons p ps ih =>
    have hp := hps p (by simp)
    simp only [List.length_cons] at hM
    push_cast at hM
    have hDD : 0 ≤ D * D := mul_self_nonneg D
    have hn : 0 ≤ 2 * D * D * (ps.length : Int) := by
      have := mul_nonneg hDD (Int.natCast_nonneg ps.length)
      linarith
    have hM' : M + 2 * D * D + 2 * D * D * (ps.length : Int) ≤ 2 ^ 53 := by linarith
    have m1 := multiple_mul hl.1 hp.2
    have m2 := multiple_mul hp.1 hl.2
    rw [add_zero] at m1 m2
    have m3 := multiple_sub m1 m2
    have hs' := multiple_add hs m3
    have e1 : mul 53 l.1 p.2 = l.1 * p.2 := multiple_round (by norm_num) (by linarith) m1
    have e2 : mul 53 p.1 l.2 = p.1 * l.2 := multiple_round (by norm_num) (by linarith) m2
    have e3 : sub 53 (l.1 * p.2) (p.1 * l.2) = l.1 * p.2 - p.1 * l.2 :=
      multiple_round (by norm_num) (by linarith) m3
    have e4 : add 53 s (l.1 * p.2 - p.1 * l.2) = s + (l.1 * p.2 - p.1 * l.2) :=
      multiple_round (by norm_num) (by linarith) hs'
    rw [xprodLoop, e1, e2, e3, e4, ih p hp (fun q hq => hps q (List.mem_cons_of_mem _ hq)) _ (M + (D * D + D * D))
      (by linarith) hs' (by linarith), pathFrom, cross]
    ring

theorem from0_grid {D : Int} (o : Int × Int) (ps : List (Int × Int))
    (hd : ∀ p ∈ ps, |p.1 - o.1| ≤ D ∧ |p.2 - o.2| ≤ D) : ∀ p ∈ from0 o ps, OnGrid 0 D p := by
  intro p hp
  obtain ⟨q, hq, rfl⟩ := List.mem_map.1 hp
  exact ⟨int_multiple (hd q hq).1, int_multiple (hd q hq).2⟩

theorem xprod_exact (D : Int) (o : Int × Int) (ps : List (Int × Int))
    (hd : ∀ p ∈ o :: ps, |p.1 - o.1| ≤ D ∧ |p.2 - o.2| ≤ D) (hD : 2 * D * D * (ps.length + 1) ≤ 2 ^ 53) :
    xprod (from0 o (o :: ps)) = ((area2 (α := Int) (o :: ps) : Int) : ℚ) := by
  have hg := from0_grid o (o :: ps) hd
  rw [← area2_from0 o]
  simp only [from0, List.map_cons] at hg ⊢
  rw [xprod_loop, area2_loop, loop_exact D _ _ (hg _ (lastOf_mem _ _)) hg 0 0 le_rfl ⟨0, by simp, by simp⟩
    (by simpa using hD), zero_add]

/-! ## The error -/

theorem round_abs_le {x : ℚ} {B : ℚ} (hB : Fits 53 B) (h : |x| ≤ B) : |roundTo 53 x| ≤ B := by
  have h1 := abs_le.1 h
  have hB' : Fits 53 (-B) := by
    obtain ⟨m, e, hm, rfl⟩ := hB
    exact ⟨-m, e, by rwa [abs_neg], by push_cast; ring⟩
  have a := roundTo_mono (p := 53) (by norm_num) h1.1
  have b := roundTo_mono (p := 53) (by norm_num) h1.2
  rw [roundTo_fits (by norm_num) hB] at b
  rw [roundTo_fits (by norm_num) hB'] at a
  exact abs_le.2 ⟨a, b⟩

theorem round_err {x B : ℚ} (h : |x| ≤ B) : |roundTo 53 x - x| ≤ B / 2 ^ 53 :=
  (roundTo_near 53 (by norm_num) x).trans (div_le_div_of_nonneg_right h (by positivity))

theorem fits_pow {d k : Nat} (hk : k ≤ 2 ^ 53) : Fits 53 ((k : ℚ) * 2 ^ d) :=
  ⟨k, d, by rw [abs_of_nonneg (by positivity)]; exact_mod_cast hk, by push_cast; rw [zpow_natCast]⟩

/-- One summand. -/
theorem dop_err {W : Nat} {a b c e : ℚ} (h1 : |a * b| ≤ 2 ^ W) (h2 : |c * e| ≤ 2 ^ W) :
    |sub 53 (mul 53 a b) (mul 53 c e)| ≤ 2 * 2 ^ W ∧
      |sub 53 (mul 53 a b) (mul 53 c e) - (a * b - c * e)| ≤ 4 * 2 ^ W / 2 ^ 53 := by
  have f1 : Fits 53 ((2 : ℚ) ^ W) := by simpa using fits_pow (d := W) (k := 1) (by norm_num)
  have f2 : Fits 53 ((2 : ℚ) * 2 ^ W) := by simpa using fits_pow (d := W) (k := 2) (by norm_num)
  have a1 := round_abs_le f1 h1
  have a2 := round_abs_le f1 h2
  have b1 := round_err h1
  have b2 := round_err h2
  rw [← mul] at a1 a2 b1 b2
  have c1 : |mul 53 a b - mul 53 c e| ≤ 2 * 2 ^ W := (abs_sub _ _).trans (by linarith)
  refine ⟨round_abs_le f2 c1, ?_⟩
  have c2 := round_err c1
  have e1 := abs_le.1 b1
  have e2 := abs_le.1 b2
  have e3 := abs_le.1 c2
  rw [← sub] at e3
  rw [abs_le]
  constructor
  · linarith [e1.1, e1.2, e2.1, e2.2, e3.1, e3.2]
  · linarith [e1.1, e1.2, e2.1, e2.2, e3.1, e3.2]

/-- The loop strays from the sum by no more than this. -/
theorem loop_err (W n : Nat) (hn : n ≤ 2 ^ 52) (l : Pt ℚ) (ps : List (Pt ℚ))
    (hb : ∀ p ∈ l :: ps, ∀ q ∈ l :: ps, |p.1 * q.2| ≤ 2 ^ W) (s : ℚ) (k : Nat) (hk : k + ps.length = n)
    (hs : |s| ≤ 2 * k * 2 ^ W) :
    |xprodLoop s l ps - (s + pathFrom l ps)| ≤ ps.length * (4 + 2 * n) * 2 ^ W / 2 ^ 53 := by
  induction ps generalizing l s k with
  | nil => simp [xprodLoop, pathFrom]
  | cons p ps ih =>
    simp only [List.length_cons] at hk
    obtain ⟨d1, d2⟩ := dop_err (hb l (by simp) p (by simp)) (hb p (by simp) l (by simp))
    rw [xprodLoop, pathFrom, cross]
    generalize sub 53 (mul 53 l.1 p.2) (mul 53 p.1 l.2) = dop at *
    generalize l.1 * p.2 - p.1 * l.2 = x at *
    have hW : (0 : ℚ) < 2 ^ W := by positivity
    have s1 : |s + dop| ≤ ((2 * (k + 1) : Nat) : ℚ) * 2 ^ W := by
      refine (abs_add_le _ _).trans ?_
      push_cast
      linarith
    have s2 := round_abs_le (fits_pow (d := W) (k := 2 * (k + 1)) (by omega)) s1
    have s3 := round_err s1
    rw [← add] at s2 s3
    have i := ih p (fun a ha b hb' => hb a (List.mem_cons_of_mem _ ha) b (List.mem_cons_of_mem _ hb')) (add 53 s dop)
      (k + 1) (by omega) (by push_cast at s2 ⊢; linarith)
    generalize xprodLoop (add 53 s dop) p ps = X at *
    generalize pathFrom p ps = P at *
    have hkn : ((k : ℚ) + 1) ≤ n := by exact_mod_cast (by omega : k + 1 ≤ n)
    have hmul : (2 * ((k : ℚ) + 1)) * 2 ^ W ≤ 2 * n * 2 ^ W :=
      mul_le_mul_of_nonneg_right (by linarith) hW.le
    have hmul' : (2 * ((k : ℚ) + 1)) * 2 ^ W / 2 ^ 53 ≤ 2 * n * 2 ^ W / 2 ^ 53 :=
      div_le_div_of_nonneg_right hmul (by positivity)
    have e1 := abs_le.1 d2
    have e2 := abs_le.1 s3
    have e3 := abs_le.1 i
    have split : (((p :: ps).length : Nat) : ℚ) * (4 + 2 * n) * 2 ^ W / 2 ^ 53
        = ps.length * (4 + 2 * n) * 2 ^ W / 2 ^ 53 + (4 * 2 ^ W / 2 ^ 53 + 2 * n * 2 ^ W / 2 ^ 53) := by
      simp only [List.length_cons]
      push_cast
      ring
    rw [split]
    push_cast at e2
    rw [abs_le]
    constructor
    · linarith [e1.1, e1.2, e2.1, e2.2, e3.1, e3.2]
    · linarith [e1.1, e1.2, e2.1, e2.2, e3.1, e3.2]

theorem xprod_err (d : Nat) (o : Int × Int) (ps : List (Int × Int))
    (hd : ∀ p ∈ o :: ps, |p.1 - o.1| ≤ 2 ^ d ∧ |p.2 - o.2| ≤ 2 ^ d) (hn : (o :: ps).length ≤ 2 ^ 52) :
    |xprod (from0 o (o :: ps)) - ((area2 (α := Int) (o :: ps) : Int) : ℚ)|
      ≤ (o :: ps).length * (4 + 2 * (o :: ps).length) * 4 ^ d / 2 ^ 53 := by
  have hb : ∀ p ∈ from0 o (o :: ps), |p.1| ≤ 2 ^ d ∧ |p.2| ≤ 2 ^ d := by
    intro p hp
    obtain ⟨q, hq, rfl⟩ := List.mem_map.1 hp
    obtain ⟨a, b⟩ := hd q hq
    constructor
    · have : ((|q.1 - o.1| : Int) : ℚ) ≤ ((2 ^ d : Int) : ℚ) := Int.cast_le.2 a
      rw [Int.cast_abs] at this
      simp only [castPt]
      exact_mod_cast this
    · have : ((|q.2 - o.2| : Int) : ℚ) ≤ ((2 ^ d : Int) : ℚ) := Int.cast_le.2 b
      rw [Int.cast_abs] at this
      simp only [castPt]
      exact_mod_cast this
  have hlen : (from0 o (o :: ps)).length = (o :: ps).length := by simp [from0]
  rw [← area2_from0 o]
  obtain ⟨q, qs, hq⟩ : ∃ q qs, from0 o (o :: ps) = q :: qs := ⟨_, _, rfl⟩
  rw [hq] at hb hlen ⊢
  rw [xprod_loop, area2_loop]
  have key := loop_err (2 * d) (o :: ps).length hn (lastOf q qs) (q :: qs) ?_ 0 0 (by omega) (by simp)
  · rw [zero_add, hlen] at key
    refine key.trans (le_of_eq ?_)
    rw [show (4 : ℚ) ^ d = 2 ^ (2 * d) by rw [pow_mul]; norm_num]
  · have hb' : ∀ a ∈ lastOf q qs :: q :: qs, |a.1| ≤ 2 ^ d ∧ |a.2| ≤ 2 ^ d := by
      intro a ha
      rcases List.mem_cons.1 ha with rfl | ha
      · exact hb _ (lastOf_mem _ _)
      · exact hb _ ha
    intro a ha b hb2
    rw [abs_mul, show 2 * d = d + d by ring, pow_add]
    exact mul_le_mul (hb' a ha).1 (hb' b hb2).2 (abs_nonneg _) (by positivity)

/-! ## A triangle -/

theorem mul_zero_left (x : ℚ) : mul 53 0 x = 0 := by simp [mul, roundTo_zero]
theorem mul_zero_right (x : ℚ) : mul 53 x 0 = 0 := by simp [mul, roundTo_zero]

theorem roundTo_idem {p : Nat} (hp : 1 ≤ p) (x : ℚ) : roundTo p (roundTo p x) = roundTo p x :=
  roundTo_fits hp (roundTo_is_fit hp x)

theorem triangle_xprod (a b : Pt ℚ) :
    xprod [(0, 0), a, b] = sub 53 (mul 53 a.1 b.2) (mul 53 b.1 a.2) := by
  rw [xprod_loop]
  simp only [lastOf, xprodLoop, mul_zero_left, mul_zero_right, sub, add, sub_zero, roundTo_zero, add_zero, zero_add]
  rw [roundTo_idem (by norm_num)]

theorem triangle_sign (a b : Pt ℚ) :
    (0 < sub 53 (mul 53 a.1 b.2) (mul 53 b.1 a.2) → 0 < a.1 * b.2 - b.1 * a.2) ∧
    (sub 53 (mul 53 a.1 b.2) (mul 53 b.1 a.2) < 0 → a.1 * b.2 - b.1 * a.2 < 0) := by
  constructor
  · intro h
    by_contra hc
    push Not at hc
    have := roundTo_mono (p := 53) (by norm_num) (sub_nonpos.1 hc)
    rw [← not_le] at h
    exact h (by
      rw [sub, ← not_lt]
      intro h2
      have h3 : ¬ roundTo 53 (mul 53 a.1 b.2 - mul 53 b.1 a.2) ≤ roundTo 53 0 := by rw [roundTo_zero]; exact not_le.2 h2
      exact h3 (roundTo_mono (by norm_num) (sub_nonpos.2 this)))
  · intro h
    by_contra hc
    push Not at hc
    have := roundTo_mono (p := 53) (by norm_num) (sub_nonneg.1 hc)
    rw [sub, roundTo_neg_iff (by norm_num)] at h
    rw [← mul, ← mul] at this
    linarith

end Verif.Lemmas.Rounded
