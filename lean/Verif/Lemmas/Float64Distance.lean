import Verif.Model.Float64Distance
import Verif.Lemmas.Float64

/-!
# Lemmas on the square of a distance in floats
-/

namespace Verif.Lemmas.Float64
open Verif Verif.Float64 Verif.Spec.Rounded Verif.Spec.Float64 Verif.Lemmas.Rounded

/-- The rounded square. -/
def fsq (x : ℚ) : ℚ := pre (pre x * pre x)

theorem dist2_some {p q : Pt ℚ} {d : ℚ} (h : pointDistance2 p q = some d) :
    d = pre (fsq (p.1 - q.1) + fsq (p.2 - q.2)) := by
  simp only [pointDistance2, Option.bind_eq_some_iff, toFloat64_some] at h
  obtain ⟨v1, ⟨rfl, -⟩, v2, ⟨rfl, -⟩, a, ⟨rfl, -⟩, b, ⟨rfl, -⟩, rfl, -⟩ := h
  rfl

theorem pre_zero : pre 0 = 0 := pre_float ⟨0, 0, by norm_num, by norm_num, by norm_num, by norm_num⟩

theorem pre_nonneg {x : ℚ} (h : 0 ≤ x) : 0 ≤ pre x := by
  have := pre_mono h
  rwa [pre_zero] at this

theorem pre_abs (x : ℚ) : |pre x| = pre |x| := by
  rcases le_total 0 x with h | h
  · rw [abs_of_nonneg h, abs_of_nonneg (pre_nonneg h)]
  · rw [abs_of_nonpos h, pre_neg, abs_of_nonpos]
    have := pre_mono h
    rwa [pre_zero] at this

theorem fsq_nonneg' (x : ℚ) : 0 ≤ fsq x := pre_nonneg (mul_self_nonneg _)

theorem fsq_mono {x y : ℚ} (h : |x| ≤ |y|) : fsq x ≤ fsq y := by
  apply pre_mono
  rw [← abs_mul_abs_self (pre x), ← abs_mul_abs_self (pre y), pre_abs, pre_abs]
  have h0 : 0 ≤ pre |x| := pre_nonneg (abs_nonneg x)
  exact mul_self_le_mul_self h0 (pre_mono h)

theorem dist2_symm (p q : Pt ℚ) : pointDistance2 p q = pointDistance2 q p := by
  have key : ∀ x y : ℚ, toFloat64 (x - y) = (toFloat64 (y - x)).map (- ·) := fun x y => by
    rw [← toFloat64_neg, neg_sub]
  unfold pointDistance2
  rw [key p.1 q.1, key p.2 q.2]
  cases toFloat64 (q.1 - p.1) <;> cases toFloat64 (q.2 - p.2) <;> simp

theorem float_pow {e : Int} (h1 : -1074 ≤ e) (h2 : e ≤ 971) : IsFloat64 (2 ^ e) :=
  ⟨1, e, by norm_num, h1, h2, by simp⟩

/-- Squares of up to this are lost. -/
theorem pre_tiny {x : ℚ} (h0 : 0 ≤ x) (h : x ≤ 2 ^ (-1076 : Int)) : pre x = 0 := by
  apply le_antisymm _ (pre_nonneg h0)
  refine (pre_mono h).trans (le_of_eq ?_)
  have hlt : |(2 : ℚ) ^ (-1076 : Int)| < 2 ^ (-1022 : Int) := by
    rw [abs_of_pos (two_pow_pos _)]
    exact zpow_lt_zpow_right₀ (by norm_num) (by norm_num)
  unfold pre
  rw [if_pos hlt]
  have e : (2 : ℚ) ^ (-1076 : Int) * 2 ^ 1074 = 1 / 4 := by
    rw [← zpow_natCast, ← zpow_add₀ (by norm_num)]
    norm_num
  rw [e]
  have : Verif.HitMap.roundEven (1 / 4 : ℚ) = 0 := by
    have hf : ⌊(1 / 4 : ℚ)⌋ = 0 := by norm_num
    unfold Verif.HitMap.roundEven
    rw [hf]
    norm_num
  rw [this]
  simp

theorem fsq_tiny {x : ℚ} (h : |x| ≤ 2 ^ (-538 : Int)) : fsq x = 0 := by
  have h1 : |pre x| ≤ 2 ^ (-538 : Int) := by
    rw [pre_abs]
    refine (pre_mono h).trans (le_of_eq (pre_float (float_pow (by norm_num) (by norm_num))))
  refine pre_tiny (mul_self_nonneg _) ?_
  rw [← abs_mul_abs_self]
  refine (mul_self_le_mul_self (abs_nonneg _) h1).trans (le_of_eq ?_)
  rw [← zpow_add₀ (by norm_num)]
  norm_num

theorem fsq_seen {x : ℚ} (h : 2 ^ (-537 : Int) ≤ |x|) : 2 ^ (-1074 : Int) ≤ fsq x := by
  have h1 : 2 ^ (-537 : Int) ≤ |pre x| := by
    rw [pre_abs, ← pre_float (float_pow (e := -537) (by norm_num) (by norm_num))]
    exact pre_mono h
  have h2 : (2 : ℚ) ^ (-1074 : Int) ≤ pre x * pre x := by
    rw [← abs_mul_abs_self]
    refine le_trans (le_of_eq ?_) (mul_self_le_mul_self (two_pow_pos _).le h1)
    rw [← zpow_add₀ (by norm_num)]
    norm_num
  have := pre_mono h2
  rwa [pre_float (float_pow (by norm_num) (by norm_num))] at this

/-- Numbers that are not very small are rounded to 53 bits. -/
theorem pre_near {x : ℚ} (h : x = 0 ∨ 2 ^ (-1022 : Int) ≤ |x|) : |pre x - x| ≤ |x| / 2 ^ 53 := by
  rcases h with rfl | h
  · rw [pre_zero]
    simp
  · unfold pre
    rw [if_neg (not_lt.2 h)]
    exact roundTo_near 53 (by norm_num) x

theorem fsq_near {x : ℚ} (h : x = 0 ∨ 2 ^ (-500 : Int) ≤ |x|) :
    |fsq x - x * x| ≤ 4 * (x * x) / 2 ^ 53 ∧ (fsq x = 0 ∨ 2 ^ (-1002 : Int) ≤ fsq x) := by
  rcases h with rfl | h
  · have : fsq 0 = 0 := by
      unfold fsq
      rw [pre_zero, mul_zero, pre_zero]
    rw [this]
    simp
  · have h500 : (2 : ℚ) ^ (-1022 : Int) ≤ 2 ^ (-500 : Int) := zpow_le_zpow_right₀ (by norm_num) (by norm_num)
    have hv := pre_near (Or.inr (h500.trans h))
    have hv1 : (2 : ℚ) ^ (-500 : Int) ≤ |pre x| := by
      rw [pre_abs, ← pre_float (float_pow (e := -500) (by norm_num) (by norm_num))]
      exact pre_mono h
    have hp1 : (2 : ℚ) ^ (-1000 : Int) ≤ pre x * pre x := by
      rw [← abs_mul_abs_self]
      refine le_trans (le_of_eq ?_) (mul_self_le_mul_self (two_pow_pos _).le hv1)
      rw [← zpow_add₀ (by norm_num)]
      norm_num
    have hp2 : (2 : ℚ) ^ (-1022 : Int) ≤ |pre x * pre x| := by
      rw [abs_of_nonneg (mul_self_nonneg _)]
      exact (zpow_le_zpow_right₀ (by norm_num) (by norm_num : (-1022 : Int) ≤ -1000)).trans hp1
    have ha := pre_near (Or.inr hp2)
    rw [abs_of_nonneg (mul_self_nonneg (pre x))] at ha
    constructor
    · unfold fsq
      have hA : 0 ≤ x * x := mul_self_nonneg x
      have k1 : |pre x * pre x - x * x| ≤ (2 * (x * x) + x * x / 2 ^ 53) / 2 ^ 53 := by
        have e : pre x * pre x - x * x = (pre x - x) * (pre x - x) + 2 * (x * (pre x - x)) := by ring
        rw [e]
        refine (abs_add_le _ _).trans ?_
        rw [abs_mul, abs_mul, abs_mul, abs_two]
        have m1 := mul_self_le_mul_self (abs_nonneg _) hv
        have m2 := mul_le_mul_of_nonneg_left hv (abs_nonneg x)
        have e1 : |x| / 2 ^ 53 * (|x| / 2 ^ 53) = x * x / 2 ^ 53 / 2 ^ 53 := by
          rw [← abs_mul_abs_self x]
          ring
        have e2 : |x| * (|x| / 2 ^ 53) = x * x / 2 ^ 53 := by
          rw [← abs_mul_abs_self x]
          ring
        rw [e1] at m1
        rw [e2] at m2
        have : (2 * (x * x) + x * x / 2 ^ 53) / 2 ^ 53 = x * x / 2 ^ 53 / 2 ^ 53 + 2 * (x * x / 2 ^ 53) := by ring
        rw [this]
        linarith
      generalize x * x = A at *
      generalize pre x * pre x = V at *
      rw [abs_le] at *
      have p : (2 : ℚ) ^ 53 = 9007199254740992 := by norm_num
      rw [p] at *
      constructor <;> linarith
    · right
      unfold fsq
      have := pre_mono hp1
      rw [pre_float (float_pow (by norm_num) (by norm_num))] at this
      exact (zpow_le_zpow_right₀ (by norm_num) (by norm_num : (-1002 : Int) ≤ -1000)).trans this

theorem dist2_near {p q : Pt ℚ} {d : ℚ} (h : pointDistance2 p q = some d)
    (h1 : p.1 = q.1 ∨ 2 ^ (-500 : Int) ≤ |p.1 - q.1|) (h2 : p.2 = q.2 ∨ 2 ^ (-500 : Int) ≤ |p.2 - q.2|) :
    |d - ((p.1 - q.1) ^ 2 + (p.2 - q.2) ^ 2)| ≤ 6 * ((p.1 - q.1) ^ 2 + (p.2 - q.2) ^ 2) / 2 ^ 53 := by
  obtain ⟨a1, a2⟩ := fsq_near (x := p.1 - q.1) (h1.imp_left sub_eq_zero.2)
  obtain ⟨b1, b2⟩ := fsq_near (x := p.2 - q.2) (h2.imp_left sub_eq_zero.2)
  rw [dist2_some h, pow_two, pow_two]
  have ha := fsq_nonneg' (p.1 - q.1)
  have hb := fsq_nonneg' (p.2 - q.2)
  have hA : 0 ≤ (p.1 - q.1) * (p.1 - q.1) := mul_self_nonneg _
  have hB : 0 ≤ (p.2 - q.2) * (p.2 - q.2) := mul_self_nonneg _
  have hs : fsq (p.1 - q.1) + fsq (p.2 - q.2) = 0 ∨ 2 ^ (-1022 : Int) ≤ |fsq (p.1 - q.1) + fsq (p.2 - q.2)| := by
    have hle : (2 : ℚ) ^ (-1022 : Int) ≤ 2 ^ (-1002 : Int) := zpow_le_zpow_right₀ (by norm_num) (by norm_num)
    rw [abs_of_nonneg (add_nonneg ha hb)]
    rcases a2 with a2 | a2
    · rcases b2 with b2 | b2
      · left; rw [a2, b2, add_zero]
      · right; linarith
    · right; linarith
  have hd := pre_near hs
  rw [abs_of_nonneg (add_nonneg ha hb)] at hd
  generalize (p.1 - q.1) * (p.1 - q.1) = A at *
  generalize (p.2 - q.2) * (p.2 - q.2) = B at *
  generalize fsq (p.1 - q.1) = a at *
  generalize fsq (p.2 - q.2) = b at *
  rw [abs_le] at *
  have e : (2 : ℚ) ^ 53 = 9007199254740992 := by norm_num
  rw [e] at *
  constructor <;> linarith

/-- Coordinates of up to `2 ^ 509` have a finite distance. -/
theorem dist2_finite {p q : Pt ℚ} (h1 : |p.1 - q.1| ≤ 2 ^ 510) (h2 : |p.2 - q.2| ≤ 2 ^ 510) :
    ∃ d, pointDistance2 p q = some d := by
  have f1 : (2 : ℚ) ^ 510 = 2 ^ (510 : Int) := (zpow_natCast 2 510).symm
  have f2 : IsFloat64 (2 ^ 510) := by rw [f1]; exact float_pow (by norm_num) (by norm_num)
  have f3 : (2 : ℚ) ^ 1020 = 2 ^ (1020 : Int) := (zpow_natCast 2 1020).symm
  have f4 : IsFloat64 (2 ^ 1020) := by
    refine ⟨2 ^ 52, 968, by norm_num, by norm_num, by norm_num, ?_⟩
    have : ((2 ^ 52 : Int) : ℚ) = 2 ^ (52 : Int) := by norm_cast
    rw [this, f3, ← zpow_add₀ (by norm_num)]
    norm_num
  have lt : ∀ n : Nat, n < 1024 → (2 : ℚ) ^ n < 2 ^ 1024 := fun n h => pow_lt_pow_right₀ (by norm_num) h
  have step : ∀ x : ℚ, |x| ≤ 2 ^ 510 → |pre x| ≤ 2 ^ 510 ∧ 0 ≤ fsq x ∧ fsq x ≤ 2 ^ 1020 := by
    intro x hx
    have k : |pre x| ≤ 2 ^ 510 := by
      rw [pre_abs]
      exact (pre_mono hx).trans (pre_float f2).le
    refine ⟨k, fsq_nonneg' x, ?_⟩
    refine (pre_mono (y := 2 ^ 1020) ?_).trans (pre_float f4).le
    rw [← abs_mul_abs_self]
    refine (mul_self_le_mul_self (abs_nonneg _) k).trans (le_of_eq ?_)
    rw [← pow_add]
  obtain ⟨x1, x2, x3⟩ := step _ h1
  obtain ⟨y1, y2, y3⟩ := step _ h2
  have e1 : toFloat64 (p.1 - q.1) = some (pre (p.1 - q.1)) :=
    toFloat64_some.2 ⟨rfl, x1.trans_lt (lt 510 (by norm_num))⟩
  have e2 : toFloat64 (p.2 - q.2) = some (pre (p.2 - q.2)) :=
    toFloat64_some.2 ⟨rfl, y1.trans_lt (lt 510 (by norm_num))⟩
  have e3 : toFloat64 (pre (p.1 - q.1) * pre (p.1 - q.1)) = some (fsq (p.1 - q.1)) :=
    toFloat64_some.2 ⟨rfl, by rw [abs_of_nonneg x2]; exact x3.trans_lt (lt 1020 (by norm_num))⟩
  have e4 : toFloat64 (pre (p.2 - q.2) * pre (p.2 - q.2)) = some (fsq (p.2 - q.2)) :=
    toFloat64_some.2 ⟨rfl, by rw [abs_of_nonneg y2]; exact y3.trans_lt (lt 1020 (by norm_num))⟩
  have e5 : |fsq (p.1 - q.1) + fsq (p.2 - q.2)| ≤ 2 ^ 1023 := by
    rw [abs_of_nonneg (add_nonneg x2 y2)]
    have : (2 : ℚ) ^ 1023 = 8 * 2 ^ 1020 := by
      rw [show (1023 : Nat) = 3 + 1020 from rfl, pow_add]
      norm_num
    rw [this]
    have h0 : (0 : ℚ) < 2 ^ 1020 := pow_pos (by norm_num) _
    generalize (2 : ℚ) ^ 1020 = c at x3 y3 h0 ⊢
    clear f1 f2 f3 f4 lt step h1 h2 x1 y1 e1 e2 e3 e4 this
    linarith
  obtain ⟨d, hd⟩ := toFloat64_finite e5
  exact ⟨d, by simp only [pointDistance2, e1, e2, e3, e4, Option.bind_some, hd]⟩

end Verif.Lemmas.Float64
