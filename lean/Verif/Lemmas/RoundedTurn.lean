import Verif.Lemmas.RoundedWinding
import Verif.Lemmas.Float64

/-!
# The winding in floats, of points that are mirrored, scaled or repeated
-/

namespace Verif.Lemmas.Rounded
open Verif Verif.Rounded Verif.Spec.Rounded
open Verif.HitMap (roundEven)
open Verif.Winding (lastOf getLast?_cons)

theorem log_scale {x : ℚ} (hx : 0 < x) (k : Int) : Int.log 2 (x * 2 ^ k) = Int.log 2 x + k := by
  have h1 : (2 : ℚ) ^ Int.log 2 x ≤ x := by
    have := Int.zpow_log_le_self (b := 2) (by norm_num) hx
    simpa using this
  have h2 : x < (2 : ℚ) ^ (Int.log 2 x + 1) := by
    have := Int.lt_zpow_succ_log_self (b := 2) (by norm_num) x
    simpa using this
  have hk := two_pow_pos k
  have hxk : 0 < x * 2 ^ k := mul_pos hx hk
  apply le_antisymm
  · rw [← Int.lt_add_one_iff]
    have : x * 2 ^ k < ((2 : Nat) : ℚ) ^ (Int.log 2 x + k + 1) := by
      rw [show Int.log 2 x + k + 1 = (Int.log 2 x + 1) + k by ring]
      push_cast
      rw [zpow_add₀ (by norm_num)]
      exact mul_lt_mul_of_pos_right h2 hk
    exact (Int.lt_zpow_iff_log_lt (by norm_num) hxk).mp this
  · have : ((2 : Nat) : ℚ) ^ (Int.log 2 x + k) ≤ x * 2 ^ k := by
      push_cast
      rw [zpow_add₀ (by norm_num)]
      exact mul_le_mul_of_nonneg_right h1 hk.le
    exact (Int.zpow_le_iff_le_log (by norm_num) hxk).mp this

/-- A factor that is a power of two does not take part in rounding. -/
theorem roundTo_scale (p : Nat) (x : ℚ) (k : Int) : roundTo p (2 ^ k * x) = 2 ^ k * roundTo p x := by
  have hk := two_pow_pos k
  by_cases hx : x = 0
  · simp [hx, roundTo_zero]
  · have hne : (2 : ℚ) ^ k * x ≠ 0 := mul_ne_zero hk.ne' hx
    unfold roundTo
    rw [if_neg hx, if_neg hne, abs_mul, abs_of_pos hk, mul_comm ((2 : ℚ) ^ k) |x|,
      log_scale (abs_pos.mpr hx)]
    have e : Int.log 2 |x| + k - ((p : Int) - 1) = (Int.log 2 |x| - ((p : Int) - 1)) + k := by ring
    rw [e, zpow_add₀ (by norm_num : (2 : ℚ) ≠ 0)]
    generalize Int.log 2 |x| - ((p : Int) - 1) = j
    have hj := two_pow_pos j
    have : 2 ^ k * x / (2 ^ j * 2 ^ k) = x / 2 ^ j := by field_simp
    rw [this]
    ring

/-- What one side adds to the sum. -/
def term (l p : Pt ℚ) : ℚ := sub 53 (mul 53 l.1 p.2) (mul 53 p.1 l.2)

theorem loop_map (f : Pt ℚ → Pt ℚ) (c : ℚ) (hr : ∀ x, roundTo 53 (c * x) = c * roundTo 53 x)
    (ht : ∀ l p, term (f l) (f p) = c * term l p) (ps : List (Pt ℚ)) : ∀ (s : ℚ) (l : Pt ℚ),
    xprodLoop (c * s) (f l) (ps.map f) = c * xprodLoop s l ps := by
  induction ps with
  | nil => intro s l; rfl
  | cons p ps ih =>
    intro s l
    rw [List.map_cons, xprodLoop, xprodLoop, ← ih]
    congr 1
    change add 53 (c * s) (term (f l) (f p)) = c * add 53 s (term l p)
    rw [ht, add, add, ← mul_add, hr]

theorem xprod_map (f : Pt ℚ → Pt ℚ) (c : ℚ) (hr : ∀ x, roundTo 53 (c * x) = c * roundTo 53 x)
    (ht : ∀ l p, term (f l) (f p) = c * term l p) (ps : List (Pt ℚ)) :
    xprod (ps.map f) = c * xprod ps := by
  unfold xprod
  rw [List.getLast?_map]
  cases ps.getLast? with
  | none => simp
  | some l =>
    have := loop_map f c hr ht ps 0 l
    rw [mul_zero] at this
    simpa using this

/-- The sign of the sum. -/
theorem orient_eq (ps : List (Pt ℚ)) (h : ¬ ps.length < 3) : orient ps = sgn (xprod ps) := by
  unfold orient sgn
  rw [if_neg h]

theorem sgn_pos_mul {c : ℚ} (hc : 0 < c) (x : ℚ) : sgn (c * x) = sgn x := by
  unfold sgn
  have h1 : c * x = 0 ↔ x = 0 := by simp [hc.ne']
  have h2 : c * x < 0 ↔ x < 0 := by
    constructor
    · intro h; by_contra hx; push Not at hx; have := mul_nonneg hc.le hx; linarith
    · intro h; exact mul_neg_of_pos_of_neg hc h
  simp only [h1, h2]

theorem sgn_neg (x : ℚ) : sgn (-x) = -sgn x := by
  unfold sgn
  rcases lt_trichotomy x 0 with h | h | h
  · have : ¬ x = 0 := h.ne
    have h' : ¬ -x < 0 := by linarith
    simp [this, h, h']
  · simp [h]
  · have : ¬ x = 0 := h.ne'
    have h' : ¬ x < 0 := by linarith
    simp [this, h, h']

theorem sgn_neg_mul {c : ℚ} (hc : c < 0) (x : ℚ) : sgn (c * x) = -sgn x := by
  have : c * x = -((-c) * x) := by ring
  rw [this, sgn_neg, sgn_pos_mul (by linarith)]

/-- The points as seen from `o`. -/
def seen (o : Pt ℚ) (ps : List (Pt ℚ)) : List (Pt ℚ) :=
  ps.map (fun p => (sub 53 p.1 o.1, sub 53 p.2 o.2))

theorem orientation_cons (yd : Bool) (o : Pt ℚ) (ps : List (Pt ℚ)) (h : ¬ (o :: ps).length < 3) :
    orientation yd (o :: ps) = (if yd then -1 else 1) * sgn (xprod (seen o (o :: ps))) := by
  unfold orientation
  simp only [if_neg h]
  rw [orient_eq _ (by simpa using h)]
  rfl

theorem orientation_short (yd : Bool) (ps : List (Pt ℚ)) (h : ps.length < 3) : orientation yd ps = 0 := by
  unfold orientation
  cases ps with
  | nil => rfl
  | cons p ps => simp only [if_pos h]; rfl

/-- A map that goes along with subtraction and multiplies the sum by `c`. -/
theorem orientation_map (f : Pt ℚ → Pt ℚ) (c : ℚ) (hr : ∀ x, roundTo 53 (c * x) = c * roundTo 53 x)
    (ht : ∀ l p, term (f l) (f p) = c * term l p)
    (hs : ∀ p o : Pt ℚ, (sub 53 (f p).1 (f o).1, sub 53 (f p).2 (f o).2)
      = f (sub 53 p.1 o.1, sub 53 p.2 o.2)) (yd : Bool) (ps : List (Pt ℚ)) :
    (0 < c → orientation yd (ps.map f) = orientation yd ps)
    ∧ (c < 0 → orientation yd (ps.map f) = -orientation yd ps) := by
  by_cases h3 : ps.length < 3
  · rw [orientation_short yd ps h3, orientation_short yd _ (by simpa using h3)]
    simp
  · cases ps with
    | nil => simp at h3
    | cons o ps =>
      have e : seen (f o) ((o :: ps).map f) = (seen o (o :: ps)).map f := by
        unfold seen
        rw [List.map_map, List.map_map]
        apply List.map_congr_left
        intro p _
        exact hs p o
      have h3' : ¬ (f o :: ps.map f).length < 3 := by simpa using h3
      rw [orientation_cons yd o ps h3]
      rw [List.map_cons, orientation_cons yd _ _ h3', ← List.map_cons, e, xprod_map f c hr ht]
      refine ⟨fun hc => by rw [sgn_pos_mul hc], fun hc => by rw [sgn_neg_mul hc]; ring⟩

theorem term_same (p : Pt ℚ) : term p p = 0 := by
  unfold term sub
  rw [sub_self, roundTo_zero]

theorem term_zero_left (p : Pt ℚ) : term (0, 0) p = 0 := by
  simp [term, mul_zero_left, mul_zero_right, sub, roundTo_zero]

theorem term_zero_right (p : Pt ℚ) : term p (0, 0) = 0 := by
  simp [term, mul_zero_left, mul_zero_right, sub, roundTo_zero]

theorem loop_cons (s : ℚ) (l p : Pt ℚ) (ps : List (Pt ℚ)) :
    xprodLoop s l (p :: ps) = xprodLoop (add 53 s (term l p)) p ps := rfl

theorem add_zero_fits {s : ℚ} (h : Fits 53 s) : add 53 s 0 = s := by
  rw [add, add_zero, roundTo_fits (by norm_num) h]

theorem add_fits (s t : ℚ) : Fits 53 (add 53 s t) := roundTo_is_fit (by norm_num) _

theorem zero_fits : Fits 53 0 := ⟨0, 0, by norm_num, by norm_num⟩

/-- A point that is repeated adds nothing. -/
theorem loop_repeat (a : List (Pt ℚ)) (p : Pt ℚ) (b : List (Pt ℚ)) : ∀ (s : ℚ) (l : Pt ℚ),
    xprodLoop s l (a ++ p :: p :: b) = xprodLoop s l (a ++ p :: b) := by
  induction a with
  | nil =>
    intro s l
    rw [List.nil_append, List.nil_append, loop_cons, loop_cons, loop_cons, term_same,
      add_zero_fits (add_fits _ _)]
  | cons q a ih =>
    intro s l
    rw [List.cons_append, List.cons_append, loop_cons, loop_cons, ih]

theorem xprod_repeat (a : List (Pt ℚ)) (p : Pt ℚ) (b : List (Pt ℚ)) :
    xprod (a ++ p :: p :: b) = xprod (a ++ p :: b) := by
  unfold xprod
  have e : (a ++ p :: p :: b).getLast? = (a ++ p :: b).getLast? := by
    rw [List.getLast?_append, List.getLast?_append, List.getLast?_cons_cons]
  rw [e]
  cases (a ++ p :: b).getLast? with
  | none => rfl
  | some l => exact loop_repeat a p b 0 l

/-- The first point, as seen from itself. -/
theorem seen_self (o : Pt ℚ) : (sub 53 o.1 o.1, sub 53 o.2 o.2) = ((0, 0) : Pt ℚ) := by
  simp [sub, roundTo_zero]

theorem xprod_two (q : Pt ℚ) : xprod [(0, 0), q] = 0 := by
  rw [xprod_loop]
  simp [lastOf, xprodLoop, mul_zero_left, mul_zero_right, sub, add, roundTo_zero]

/-- With the first point as the origin, rings of fewer than three points have no area in floats either. -/
theorem xprod_seen_short (o : Pt ℚ) (ps : List (Pt ℚ)) (h : (o :: ps).length < 3) :
    xprod (seen o (o :: ps)) = 0 := by
  match ps, h with
  | [], _ =>
    simp only [seen, List.map_cons, List.map_nil, seen_self]
    rw [xprod_loop]
    simp [lastOf, xprodLoop, mul_zero_left, sub, add, roundTo_zero]
  | [q], _ =>
    simp only [seen, List.map_cons, List.map_nil, seen_self]
    exact xprod_two _

theorem orientation_eq (yd : Bool) (o : Pt ℚ) (ps : List (Pt ℚ)) :
    orientation yd (o :: ps) = (if yd then -1 else 1) * sgn (xprod (seen o (o :: ps))) := by
  by_cases h : (o :: ps).length < 3
  · rw [orientation_short yd _ h, xprod_seen_short o ps h]
    simp [sgn]
  · exact orientation_cons yd o ps h

theorem orientation_repeat (yd : Bool) (a : List (Pt ℚ)) (p : Pt ℚ) (b : List (Pt ℚ)) :
    orientation yd (a ++ p :: p :: b) = orientation yd (a ++ p :: b) := by
  cases a with
  | nil =>
    rw [List.nil_append, List.nil_append, orientation_eq, orientation_eq]
    have := xprod_repeat [] (sub 53 p.1 p.1, sub 53 p.2 p.2) (seen p b)
    simp only [List.nil_append] at this
    simp only [seen, List.map_cons]
    rw [← seen, this]
  | cons o a =>
    rw [List.cons_append, List.cons_append, orientation_eq, orientation_eq]
    have := xprod_repeat (seen o (o :: a)) (sub 53 p.1 o.1, sub 53 p.2 o.2) (seen o b)
    have e1 : seen o (o :: (a ++ p :: p :: b)) = seen o (o :: a) ++ (sub 53 p.1 o.1, sub 53 p.2 o.2) ::
        (sub 53 p.1 o.1, sub 53 p.2 o.2) :: seen o b := by simp [seen]
    have e2 : seen o (o :: (a ++ p :: b)) = seen o (o :: a) ++ (sub 53 p.1 o.1, sub 53 p.2 o.2) ::
        seen o b := by simp [seen]
    rw [e1, e2, this]

theorem loop_fits (ps : List (Pt ℚ)) : ∀ (s : ℚ) (l : Pt ℚ), Fits 53 s → Fits 53 (xprodLoop s l ps) := by
  induction ps with
  | nil => intro s l h; exact h
  | cons p ps ih => intro s l _; rw [loop_cons]; exact ih _ _ (add_fits _ _)

theorem loop_snoc (ps : List (Pt ℚ)) (q : Pt ℚ) : ∀ (s : ℚ) (l : Pt ℚ),
    xprodLoop s l (ps ++ [q]) = add 53 (xprodLoop s l ps) (term (lastOf l ps) q) := by
  induction ps with
  | nil => intro s l; rfl
  | cons p ps ih => intro s l; rw [List.cons_append, loop_cons, loop_cons, ih]; rfl

/-- A ring that is written with its first point again at the end. -/
theorem orientation_closed (yd : Bool) (o : Pt ℚ) (ps : List (Pt ℚ)) :
    orientation yd (o :: ps ++ [o]) = orientation yd (o :: ps) := by
  rw [List.cons_append, orientation_eq, orientation_eq]
  have e1 : seen o (o :: (ps ++ [o])) = (0, 0) :: (seen o ps ++ [(0, 0)]) := by
    simp [seen, sub, roundTo_zero]
  have e2 : seen o (o :: ps) = (0, 0) :: seen o ps := by simp [seen, sub, roundTo_zero]
  rw [e1, e2, xprod_loop, xprod_loop]
  have e3 : lastOf (0, 0) (seen o ps ++ [(0, 0)]) = ((0, 0) : Pt ℚ) := by
    generalize ((0, 0) : Pt ℚ) = z
    generalize seen o ps = qs
    have : ∀ w : Pt ℚ, lastOf w (qs ++ [z]) = z := by
      induction qs with
      | nil => intro w; rfl
      | cons q qs ih => intro w; exact ih q
    exact this z
  rw [e3, loop_cons, loop_cons, term_zero_left, term_zero_right, add_zero_fits zero_fits, loop_snoc,
    term_zero_right, add_zero_fits (loop_fits _ _ _ zero_fits)]

/-- A triangle with its last two corners swapped. -/
theorem orientation_swap (yd : Bool) (o a b : Pt ℚ) :
    orientation yd [o, b, a] = -orientation yd [o, a, b] := by
  rw [orientation_eq, orientation_eq]
  simp only [seen, List.map_cons, List.map_nil, seen_self]
  rw [triangle_xprod, triangle_xprod]
  have : ∀ x y : ℚ, sub 53 x y = -sub 53 y x := fun x y => by
    unfold sub; rw [← Verif.Lemmas.Float64.roundTo_neg, neg_sub]
  have mc : ∀ x y : ℚ, mul 53 x y = mul 53 y x := fun x y => by unfold mul; rw [mul_comm]
  rw [this, sgn_neg]
  ring

end Verif.Lemmas.Rounded
