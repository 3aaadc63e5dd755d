import Verif.Lemmas.Float64

/-!
# C172, C173: rounding to decimals, and extents that are expanded or scaled

`RoundToPrec` (geom.go:549-558), `ScaleBy` and `ExpandBy` (bbox.go:303-322) on finite `float64`s.
-/

namespace Verif.Props
open Verif Verif.Float64 Verif.Spec.Rounded Verif.Spec.Float64 Verif.Lemmas.Rounded Verif.Lemmas.Float64

/-! ## C172 -/

/-- C172: for every number and precision the answer is the `float64` of a decimal, with so many digits after the
point, that is next to the number. -/
def C172_full : Prop :=
  ∀ (v : ℚ) (prec : Int), IsFloat64 v →
    ∃ (n : Int) (y : ℚ), |n - v * 10 ^ prec| ≤ 1 / 2 ∧ roundToPrec v prec = some y ∧ Nearest64 (n / 10 ^ prec) y

/-- The `float64` written 1.45: a little less than that. -/
def v145 : ℚ := 6530219459687219 / 2 ^ 52

theorem v145_float : IsFloat64 v145 :=
  ⟨6530219459687219, -52, by norm_num, by norm_num, by norm_num, by unfold v145; norm_num [zpow_neg]⟩

theorem isFloat64_one : IsFloat64 1 := ⟨1, 0, by norm_num, by norm_num, by norm_num, by norm_num⟩
theorem isFloat64_zero : IsFloat64 0 := ⟨0, 0, by norm_num, by norm_num, by norm_num, by norm_num⟩

/-- The code breaks C172: 1.45 as a `float64` is nearer to 1.4 than to 1.5, and is rounded to 1.5. -/
theorem C172_violated : ¬ C172_full := by
  intro h
  obtain ⟨n, y, h1, h2, h3⟩ := h v145 1 v145_float
  have hy : roundToPrec v145 1 = some (3 / 2) := by decide +kernel
  rw [hy] at h2
  cases h2
  have hn : n = 14 := by
    rw [abs_le] at h1
    have e : v145 * 10 ^ (1 : Int) = 65302194596872190 / 2 ^ 52 := by unfold v145; norm_num
    rw [e] at h1
    have a : (13 : ℚ) < n := by have := h1.1; norm_num at this ⊢; linarith
    have b : (n : ℚ) < 15 := by have := h1.2; norm_num at this ⊢; linarith
    have a' : (13 : Int) < n := by exact_mod_cast a
    have b' : n < (15 : Int) := by exact_mod_cast b
    omega
  subst hn
  have := h3.2 1 isFloat64_one
  norm_num at this
  have h4 := h3.2 (11 / 8) ⟨11, -3, by norm_num, by norm_num, by norm_num, by norm_num⟩
  norm_num [abs_le, abs_of_pos, abs_of_neg] at h4

/-- The answer can be infinite though the number is not, and even if it is an integer. -/
theorem C172_violated_finite :
    ¬ ∀ (v : ℚ) (prec : Int), IsFloat64 v → 0 ≤ prec → prec ≤ 22 → (roundToPrec v prec).isSome := by
  intro h
  have := h (2 ^ 1000) 22
    ⟨2 ^ 52, 948, by norm_num, by norm_num, by norm_num, by
      have : ((2 ^ 52 : Int) : ℚ) = 2 ^ 52 := by norm_cast
      rw [this, ← zpow_natCast, ← zpow_natCast, ← zpow_add₀ (by norm_num)]; norm_num⟩
    (by norm_num) (by norm_num)
  revert this
  decide +kernel

/-- With a precision below -323 there is no number as an answer, where 0 was due. -/
theorem C172_violated_nan :
    ¬ ∀ (v : ℚ) (prec : Int), IsFloat64 v → prec ≤ 0 → (roundToPrec v prec).isSome := by
  intro h
  have := h 1 (-400) isFloat64_one (by norm_num)
  revert this
  decide +kernel

/-- C172 for up to 22 digits after the point: the answer is a number, the `float64` of a decimal with so many
digits, and that decimal is the next one but for the rounding of the product.  What is missing from `C172_full`:
that rounding, precisions that are negative or above 22, and products that are too large. -/
theorem C172_decimal_partial (v : ℚ) (prec : Nat) (hp : prec ≤ 22) (hv : IsFloat64 v)
    (hm : |v * 10 ^ prec| ≤ 2 ^ 1022) :
    ∃ (n : Int) (y : ℚ), |n - v * 10 ^ prec| ≤ 1 / 2 + |v * 10 ^ prec| / 2 ^ 53 ∧
      roundToPrec v prec = some y ∧ Nearest64 (n / 10 ^ prec) y := by
  have hpos : (0 : ℚ) < 10 ^ prec := by positivity
  unfold roundToPrec
  by_cases h0 : v = 0
  · refine ⟨0, 0, by subst h0; norm_num, if_pos h0, ?_⟩
    exact ⟨isFloat64_zero, fun z _ => by norm_num⟩
  rw [if_neg h0]
  by_cases hz : prec = 0
  · subst hz
    refine ⟨roundAway v, roundAway v, ?_, by simp, ?_⟩
    · have := roundAway_near v
      have h2 : 0 ≤ |v * 10 ^ 0| / 2 ^ 53 := by positivity
      rw [pow_zero, mul_one] at h2 ⊢
      linarith
    · rw [pow_zero, div_one]
      exact ⟨roundAway_isFloat64 hv, fun z _ => by simp⟩
  · rw [if_neg (by exact_mod_cast hz), pow10_exact hp]
    obtain ⟨x, hx⟩ := toFloat64_finite (hm.trans (pow_le_pow_right₀ (by norm_num) (by norm_num)))
    have hxe := (toFloat64_some.1 hx).1
    have hn := round_pre_near (v * 10 ^ prec)
    rw [← hxe] at hn
    have hfin : |((roundAway x : Int) : ℚ) / 10 ^ prec| ≤ 2 ^ 1023 := by
      have h1 : |((roundAway x : Int) : ℚ)| ≤ 2 ^ 1023 := by
        have t := abs_sub_abs_le_abs_sub ((roundAway x : Int) : ℚ) (v * 10 ^ prec)
        have e : (2 : ℚ) ^ 1023 = 2 ^ 1022 + 2 ^ 1022 := by
          rw [← two_mul, ← pow_succ']
        have e1 : |v * 10 ^ prec| / 2 ^ 53 ≤ 2 ^ 1022 / 2 := by
          refine div_le_div₀ (by positivity) hm (by norm_num) (by norm_num)
        have e2 : (1 : ℚ) ≤ 2 ^ 1022 := one_le_pow₀ (by norm_num)
        rw [e]
        clear e
        generalize (2 : ℚ) ^ 1022 = M at *
        linarith
      rw [abs_div, abs_of_pos hpos, div_le_iff₀ hpos]
      refine h1.trans (le_mul_of_one_le_right (by positivity) (one_le_pow₀ (by norm_num)))
    obtain ⟨y, hy⟩ := toFloat64_finite hfin
    refine ⟨roundAway x, y, hn, ?_, toFloat64_nearest hy⟩
    simp only [Option.bind_some, hx, if_neg hpos.ne', hy]

example : IsFloat64 v145 ∧ |v145 * 10 ^ 1| ≤ 2 ^ 1022 ∧ roundToPrec v145 1 = some (3 / 2) :=
  ⟨v145_float, by
    have : (2 : ℚ) ^ 10 ≤ 2 ^ 1022 := pow_le_pow_right₀ (by norm_num) (by norm_num)
    refine le_trans ?_ this
    unfold v145; norm_num [abs_le], by decide +kernel⟩

/-- C172: rounding keeps the order, with any precision. -/
theorem C172_order (v w : ℚ) (prec : Int) (h : v ≤ w) (a b : ℚ) (ha : roundToPrec v prec = some a)
    (hb : roundToPrec w prec = some b) : a ≤ b := roundToPrec_mono h ha hb

example : roundToPrec v145 1 = some (3 / 2) ∧ roundToPrec 2 1 = some 2 ∧ v145 ≤ 2 := by
  refine ⟨by decide +kernel, by decide +kernel, ?_⟩
  unfold v145; norm_num

/-- C172: the sign of the number does not matter. -/
theorem C172_sign (v : ℚ) (prec : Int) : roundToPrec (-v) prec = (roundToPrec v prec).map (- ·) := by
  unfold roundToPrec
  by_cases h0 : v = 0
  · simp [h0]
  · rw [if_neg h0, if_neg (neg_ne_zero.2 h0)]
    split_ifs with hp
    · simp [roundAway_neg]
    · cases hf : pow10 prec with
      | none => rfl
      | some f =>
        simp only [Option.bind_some]
        rw [neg_mul, toFloat64_neg]
        cases hx : toFloat64 (v * f) with
        | none => rfl
        | some x =>
          simp only [Option.bind_some, Option.map_some]
          split_ifs
          · rfl
          · rw [roundAway_neg, ← toFloat64_neg]
            congr 1
            push_cast
            ring

example : roundToPrec (-v145) 1 = some (-(3 / 2)) := by decide +kernel

/-- C172: a number that is such a decimal already is kept.  The numbers beyond 2 ^ 53 units of the last digit are
left out. -/
theorem C172_kept_partial (v : ℚ) (prec : Nat) (n : Int) (hp : prec ≤ 22) (hv : IsFloat64 v)
    (hn : v * 10 ^ prec = n) (hm : |n| < 2 ^ 53) : roundToPrec v prec = some v := by
  have hpos : (0 : ℚ) < 10 ^ prec := by positivity
  unfold roundToPrec
  by_cases h0 : v = 0
  · rw [if_pos h0, h0]
  rw [if_neg h0]
  by_cases hz : prec = 0
  · subst hz
    rw [if_pos (by norm_num)]
    rw [pow_zero, mul_one] at hn
    rw [hn, roundAway_int]
  · rw [if_neg (by exact_mod_cast hz), pow10_exact hp]
    have hf : IsFloat64 (n : ℚ) := ⟨n, 0, hm, by norm_num, by norm_num, by simp⟩
    simp only [Option.bind_some]
    rw [hn, toFloat64_float hf]
    simp only [Option.bind_some, if_neg hpos.ne', roundAway_int]
    rw [← hn, mul_div_cancel_right₀ _ hpos.ne', toFloat64_float hv]

example : IsFloat64 (5 / 4) ∧ (5 / 4 : ℚ) * 10 ^ 2 = (125 : Int) ∧ roundToPrec (5 / 4) 2 = some (5 / 4) :=
  ⟨⟨5, -2, by norm_num, by norm_num, by norm_num, by norm_num⟩, by norm_num, by decide +kernel⟩

/-- C172: to round the answer once more changes nothing, up to 2 ^ 50 units of the last digit. -/
theorem C172_again_partial (v : ℚ) (prec : Nat) (hp : prec ≤ 22) (hm : |v * 10 ^ prec| ≤ 2 ^ 50) (y : ℚ)
    (hy : roundToPrec v prec = some y) : roundToPrec y prec = some y := roundToPrec_again hp hm hy

example : |v145 * 10 ^ 1| ≤ 2 ^ 50 ∧ roundToPrec v145 1 = some (3 / 2) := by
  refine ⟨?_, by decide +kernel⟩
  unfold v145; norm_num [abs_le]

/-! ## C173 -/

/-- C173: what is expanded by a positive distance has grown, and by a negative one has shrunk. -/
def C173_full : Prop :=
  ∀ (e r : Box) (s : ℚ), IsFloat64 e.minx → IsFloat64 e.miny → IsFloat64 e.maxx → IsFloat64 e.maxy →
    IsFloat64 s → e.minx ≤ e.maxx → e.miny ≤ e.maxy → expandBy e s = some r →
    (0 ≤ s → ∀ p, Inside e.minx e.miny e.maxx e.maxy p → Inside r.minx r.miny r.maxx r.maxy p) ∧
    (s ≤ 0 → ∀ p, Inside r.minx r.miny r.maxx r.maxy p → Inside e.minx e.miny e.maxx e.maxy p)

/-- The unit square. -/
def unitBox : Box := ⟨0, 0, 1, 1⟩

/-- The code breaks C173: the unit square expanded by -3 is the larger square from -2 to 3. -/
theorem C173_violated : ¬ C173_full := by
  intro h
  have h3 : IsFloat64 (-3) := ⟨-3, 0, by norm_num, by norm_num, by norm_num, by norm_num⟩
  have hr : expandBy unitBox (-3) = some ⟨-2, -2, 3, 3⟩ := by decide +kernel
  have := (h unitBox _ (-3) isFloat64_zero isFloat64_zero isFloat64_one isFloat64_one h3 (by decide +kernel)
    (by decide +kernel) hr).2 (by norm_num) (2, 2) ⟨by norm_num, by norm_num, by norm_num, by norm_num⟩
  have h4 := this.2.1
  revert h4
  decide +kernel

/-- C173 where the extent is not expanded by less than minus its width and height. -/
theorem C173_expand_partial (e r : Box) (s : ℚ) (h1 : IsFloat64 e.minx) (h2 : IsFloat64 e.miny)
    (h3 : IsFloat64 e.maxx) (h4 : IsFloat64 e.maxy) (hx : e.minx ≤ e.maxx) (hy : e.miny ≤ e.maxy)
    (hr : expandBy e s = some r) :
    (0 ≤ s → ∀ p, Inside e.minx e.miny e.maxx e.maxy p → Inside r.minx r.miny r.maxx r.maxy p) ∧
    (s ≤ 0 → -s ≤ e.maxx - e.minx → -s ≤ e.maxy - e.miny →
      ∀ p, Inside r.minx r.miny r.maxx r.maxy p → Inside e.minx e.miny e.maxx e.maxy p) := by
  obtain ⟨a, b, c, d, ha, hb, hc, hd, rfl⟩ := expandBy_some hr
  have fa := toFloat64_float h1
  have fb := toFloat64_float h2
  have fc := toFloat64_float h3
  have fd := toFloat64_float h4
  refine ⟨fun hs p hp => ?_, fun hs hw hh p hp => ?_⟩
  · have g1 := toFloat64_mono (by linarith) ha fa
    have g2 := toFloat64_mono (by linarith) hb fb
    have g3 := toFloat64_mono (by linarith) fc hc
    have g4 := toFloat64_mono (by linarith) fd hd
    obtain ⟨p1, p2, p3, p4⟩ := hp
    refine ⟨?_, ?_, ?_, ?_⟩ <;> simp only [newExtent] <;> split_ifs <;> linarith
  · have g1 := toFloat64_mono (by linarith) fa ha
    have g2 := toFloat64_mono (by linarith) fb hb
    have g3 := toFloat64_mono (by linarith) hc fc
    have g4 := toFloat64_mono (by linarith) hd fd
    have k1 := toFloat64_mono (by linarith) fa hc
    have k2 := toFloat64_mono (by linarith) fb hd
    have k3 := toFloat64_mono (by linarith) ha fc
    have k4 := toFloat64_mono (by linarith) hb fd
    obtain ⟨p1, p2, p3, p4⟩ := hp
    simp only [newExtent] at p1 p2 p3 p4
    refine ⟨?_, ?_, ?_, ?_⟩
    · split_ifs at p1 <;> linarith
    · split_ifs at p2 <;> linarith
    · split_ifs at p3 <;> linarith
    · split_ifs at p4 <;> linarith

example : expandBy unitBox 2 = some ⟨-2, -2, 3, 3⟩ ∧ expandBy unitBox (-(1 / 4)) = some ⟨1 / 4, 1 / 4, 3 / 4, 3 / 4⟩ :=
  ⟨by decide +kernel, by decide +kernel⟩

/-- C173: expanded by a positive distance, each edge is as near to the distance from its old place as a `float64`
can be. -/
theorem C173_expand_edges (e r : Box) (s : ℚ) (hx : e.minx ≤ e.maxx) (hy : e.miny ≤ e.maxy) (hs : 0 ≤ s)
    (hr : expandBy e s = some r) :
    Nearest64 (e.minx - s) r.minx ∧ Nearest64 (e.miny - s) r.miny ∧ Nearest64 (e.maxx + s) r.maxx ∧
      Nearest64 (e.maxy + s) r.maxy := by
  obtain ⟨a, b, c, d, ha, hb, hc, hd, rfl⟩ := expandBy_some hr
  have g1 := toFloat64_mono (by linarith) ha hc
  have g2 := toFloat64_mono (by linarith) hb hd
  rw [newExtent_sorted g1 g2]
  exact ⟨toFloat64_nearest ha, toFloat64_nearest hb, toFloat64_nearest hc, toFloat64_nearest hd⟩

example : unitBox.minx ≤ unitBox.maxx ∧ expandBy unitBox 2 = some ⟨-2, -2, 3, 3⟩ :=
  ⟨by decide +kernel, by decide +kernel⟩

/-- C173: scaled by a positive number each edge goes where the number times it is, by a negative one the edges of
the opposite sides change places. -/
theorem C173_scale_edges (e r : Box) (s : ℚ) (hx : e.minx ≤ e.maxx) (hy : e.miny ≤ e.maxy)
    (hr : scaleBy e s = some r) :
    (0 ≤ s → Nearest64 (e.minx * s) r.minx ∧ Nearest64 (e.miny * s) r.miny ∧ Nearest64 (e.maxx * s) r.maxx ∧
      Nearest64 (e.maxy * s) r.maxy) ∧
    (s ≤ 0 → Nearest64 (e.maxx * s) r.minx ∧ Nearest64 (e.maxy * s) r.miny ∧ Nearest64 (e.minx * s) r.maxx ∧
      Nearest64 (e.miny * s) r.maxy) := by
  obtain ⟨a, b, c, d, ha, hb, hc, hd, rfl⟩ := scaleBy_some hr
  refine ⟨fun hs => ?_, fun hs => ?_⟩
  · have g1 := toFloat64_mono (mul_le_mul_of_nonneg_right hx hs) ha hc
    have g2 := toFloat64_mono (mul_le_mul_of_nonneg_right hy hs) hb hd
    rw [newExtent_sorted g1 g2]
    exact ⟨toFloat64_nearest ha, toFloat64_nearest hb, toFloat64_nearest hc, toFloat64_nearest hd⟩
  · have g1 := toFloat64_mono (mul_le_mul_of_nonpos_right hx hs) hc ha
    have g2 := toFloat64_mono (mul_le_mul_of_nonpos_right hy hs) hd hb
    rw [newExtent_swap, newExtent_sorted g1 g2]
    exact ⟨toFloat64_nearest hc, toFloat64_nearest hd, toFloat64_nearest ha, toFloat64_nearest hb⟩

example : scaleBy ⟨1, 2, 3, 4⟩ (-2) = some ⟨-6, -8, -2, -4⟩ := by decide +kernel

/-- C173: a point of the extent, scaled exactly, is in the scaled extent if its coordinates are `float64`s. -/
theorem C173_scale_points (e r : Box) (s : ℚ) (hr : scaleBy e s = some r) (p : Pt ℚ)
    (hp : Inside e.minx e.miny e.maxx e.maxy p) (h1 : IsFloat64 (p.1 * s)) (h2 : IsFloat64 (p.2 * s)) :
    Inside r.minx r.miny r.maxx r.maxy (p.1 * s, p.2 * s) := by
  obtain ⟨a, b, c, d, ha, hb, hc, hd, rfl⟩ := scaleBy_some hr
  obtain ⟨p1, p2, p3, p4⟩ := hp
  have f1 := toFloat64_float h1
  have f2 := toFloat64_float h2
  rcases le_total 0 s with hs | hs
  · have g1 := toFloat64_mono (mul_le_mul_of_nonneg_right p1 hs) ha f1
    have g2 := toFloat64_mono (mul_le_mul_of_nonneg_right p2 hs) f1 hc
    have g3 := toFloat64_mono (mul_le_mul_of_nonneg_right p3 hs) hb f2
    have g4 := toFloat64_mono (mul_le_mul_of_nonneg_right p4 hs) f2 hd
    rw [newExtent_sorted (g1.trans g2) (g3.trans g4)]
    exact ⟨g1, g2, g3, g4⟩
  · have g1 := toFloat64_mono (mul_le_mul_of_nonpos_right p1 hs) f1 ha
    have g2 := toFloat64_mono (mul_le_mul_of_nonpos_right p2 hs) hc f1
    have g3 := toFloat64_mono (mul_le_mul_of_nonpos_right p3 hs) f2 hb
    have g4 := toFloat64_mono (mul_le_mul_of_nonpos_right p4 hs) hd f2
    rw [newExtent_swap, newExtent_sorted (g2.trans g1) (g4.trans g3)]
    exact ⟨g2, g1, g4, g3⟩

example : Inside 1 2 3 4 (2, 3) ∧ IsFloat64 (2 * -2) ∧ IsFloat64 (3 * -2) ∧
    scaleBy ⟨1, 2, 3, 4⟩ (-2) = some ⟨-6, -8, -2, -4⟩ :=
  ⟨⟨by norm_num, by norm_num, by norm_num, by norm_num⟩,
    ⟨-4, 0, by norm_num, by norm_num, by norm_num, by norm_num⟩,
    ⟨-6, 0, by norm_num, by norm_num, by norm_num, by norm_num⟩, by decide +kernel⟩

/-- C173: whatever the factor, the result is in order, and it is a number on every side as long as the results of
the operations are below half of the largest `float64`. -/
theorem C173_in_order (e : Box) (s : ℚ) :
    (∀ r, expandBy e s = some r ∨ scaleBy e s = some r → r.minx ≤ r.maxx ∧ r.miny ≤ r.maxy) ∧
    (|e.minx - s| ≤ 2 ^ 1023 → |e.miny - s| ≤ 2 ^ 1023 → |e.maxx + s| ≤ 2 ^ 1023 → |e.maxy + s| ≤ 2 ^ 1023 →
      (expandBy e s).isSome) ∧
    (|e.minx * s| ≤ 2 ^ 1023 → |e.miny * s| ≤ 2 ^ 1023 → |e.maxx * s| ≤ 2 ^ 1023 → |e.maxy * s| ≤ 2 ^ 1023 →
      (scaleBy e s).isSome) := by
  refine ⟨?_, ?_, ?_⟩
  · rintro r (hr | hr)
    · obtain ⟨a, b, c, d, -, -, -, -, rfl⟩ := expandBy_some hr
      exact newExtent_order _ _ _ _
    · obtain ⟨a, b, c, d, -, -, -, -, rfl⟩ := scaleBy_some hr
      exact newExtent_order _ _ _ _
  · intro h1 h2 h3 h4
    obtain ⟨a, ha⟩ := toFloat64_finite h1
    obtain ⟨b, hb⟩ := toFloat64_finite h2
    obtain ⟨c, hc⟩ := toFloat64_finite h3
    obtain ⟨d, hd⟩ := toFloat64_finite h4
    simp [expandBy, ha, hb, hc, hd]
  · intro h1 h2 h3 h4
    obtain ⟨a, ha⟩ := toFloat64_finite h1
    obtain ⟨b, hb⟩ := toFloat64_finite h2
    obtain ⟨c, hc⟩ := toFloat64_finite h3
    obtain ⟨d, hd⟩ := toFloat64_finite h4
    simp [scaleBy, ha, hb, hc, hd]

example : (expandBy unitBox (-3)).isSome ∧ (scaleBy unitBox (-3)).isSome := ⟨by decide +kernel, by decide +kernel⟩

/-- C173: what was expanded can be taken back by the opposite distance. -/
def C173_full_back : Prop :=
  ∀ (e r : Box) (s : ℚ), IsFloat64 e.minx → IsFloat64 e.miny → IsFloat64 e.maxx → IsFloat64 e.maxy →
    IsFloat64 s → e.minx ≤ e.maxx → e.miny ≤ e.maxy → 0 ≤ s → expandBy e s = some r → expandBy r (-s) = some e

/-- The code breaks it: a large distance swallows the square. -/
theorem C173_violated_back : ¬ C173_full_back := by
  intro h
  have hs : IsFloat64 (2 ^ 60) := ⟨1, 60, by norm_num, by norm_num, by norm_num, by norm_num⟩
  have hr : expandBy unitBox (2 ^ 60) = some ⟨-2 ^ 60, -2 ^ 60, 2 ^ 60, 2 ^ 60⟩ := by decide +kernel
  have := h unitBox _ (2 ^ 60) isFloat64_zero isFloat64_zero isFloat64_one isFloat64_one hs (by decide +kernel)
    (by decide +kernel) (by norm_num) hr
  revert this
  decide +kernel

/-- C173: it can be taken back when the edges and the distance are multiples, at most 2 ^ 51 of them, of one power
of two. -/
theorem C173_back_partial (e r : Box) (s : ℚ) (k : Int) (hk : -1074 ≤ k) (hk' : k ≤ 900)
    (h1 : Multiple k (2 ^ 51) e.minx) (h2 : Multiple k (2 ^ 51) e.miny) (h3 : Multiple k (2 ^ 51) e.maxx)
    (h4 : Multiple k (2 ^ 51) e.maxy) (h5 : Multiple k (2 ^ 51) s) (hx : e.minx ≤ e.maxx) (hy : e.miny ≤ e.maxy)
    (hs : 0 ≤ s) (hr : expandBy e s = some r) : expandBy r (-s) = some e := by
  obtain ⟨a, b, c, d, ha, hb, hc, hd, rfl⟩ := expandBy_some hr
  have key : ∀ {x : ℚ}, Multiple k (2 ^ 51 + 2 ^ 51) x → toFloat64 x = some x := by
    rintro x ⟨m, hm, rfl⟩
    exact toFloat64_float ⟨m, k, lt_of_le_of_lt hm (by norm_num), hk, by omega, rfl⟩
  have key' : ∀ {x : ℚ}, Multiple k (2 ^ 51) x → toFloat64 x = some x := fun h =>
    key (multiple_mono h (by norm_num))
  rw [key (multiple_sub h1 h5)] at ha
  rw [key (multiple_sub h2 h5)] at hb
  rw [key (multiple_add h3 h5)] at hc
  rw [key (multiple_add h4 h5)] at hd
  cases ha; cases hb; cases hc; cases hd
  rw [newExtent_sorted (by linarith) (by linarith)]
  unfold expandBy
  simp only [sub_neg_eq_add, sub_add_cancel, add_neg_cancel_right, key' h1, key' h2, key' h3, key' h4,
    Option.bind_some]
  rw [newExtent_sorted hx hy]

example : Multiple 0 (2 ^ 51) 1 ∧ expandBy unitBox 2 = some ⟨-2, -2, 3, 3⟩ ∧
    expandBy ⟨-2, -2, 3, 3⟩ (-2) = some unitBox :=
  ⟨⟨1, by norm_num, by norm_num⟩, by decide +kernel, by decide +kernel⟩

end Verif.Props
