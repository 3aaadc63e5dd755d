import Verif.Spec.CmpNew
import Verif.Lemmas.Cmp
import Verif.Lemmas.Rounded
import Verif.Props.Cmp
import Mathlib.Tactic.Ring
import Mathlib.Tactic.Linarith
import Mathlib.Tactic.NormNum
import Mathlib.Tactic.Positivity

/-!
# Numbers and bit patterns
-/

namespace Verif.Lemmas.CmpNew
open Verif Verif.Cmp Verif.Spec.Cmp Verif.Spec.CmpNew Verif.Rounded
open Verif.HitMap (roundEven)
open Verif.Lemmas.Rounded

/-- The step from one magnitude to the next. -/
def ulp (m : Nat) : ℚ := if m < 2 ^ 52 then 2 ^ (-1074 : Int) else 2 ^ (((m / 2 ^ 52 : Nat) : Int) - 1075)

theorem ulp_pos (m : Nat) : 0 < ulp m := by
  unfold ulp; split <;> positivity

theorem magValue_succ (m : Nat) : F64.magValue (m + 1) = F64.magValue m + ulp m := by
  unfold F64.magValue ulp
  by_cases h1 : m + 1 < 2 ^ 52
  · rw [if_pos h1, if_pos (by omega), if_pos (by omega)]
    push_cast; ring
  · rw [if_neg h1]
    by_cases h2 : m < 2 ^ 52
    · have : m = 2 ^ 52 - 1 := by omega
      subst this
      rw [if_pos (by norm_num), if_pos (by norm_num)]
      norm_num
      ring
    · rw [if_neg h2, if_neg h2]
      by_cases h3 : (m + 1) % 2 ^ 52 = 0
      · have hq : (m + 1) / 2 ^ 52 = m / 2 ^ 52 + 1 := by omega
        have hr : m % 2 ^ 52 = 2 ^ 52 - 1 := by omega
        rw [hq, h3, hr]
        have : (((m / 2 ^ 52 + 1 : Nat) : Int) - 1075) = (((m / 2 ^ 52 : Nat) : Int) - 1075) + 1 := by
          push_cast; ring
        rw [this, zpow_add₀ (by norm_num : (2 : ℚ) ≠ 0)]
        push_cast [show (2 ^ 52 - 1 : Nat) = 4503599627370495 by norm_num]
        norm_num
        ring
      · have hq : (m + 1) / 2 ^ 52 = m / 2 ^ 52 := by omega
        have hr : (m + 1) % 2 ^ 52 = m % 2 ^ 52 + 1 := by omega
        rw [hq, hr]
        push_cast; ring

theorem magValue_nonneg (m : Nat) : 0 ≤ F64.magValue m := by
  unfold F64.magValue; split <;> positivity

theorem magValue_zero : F64.magValue 0 = 0 := by
  unfold F64.magValue; rw [if_pos (by norm_num)]; simp

theorem magValue_strictMono : StrictMono F64.magValue :=
  strictMono_nat_of_lt_succ fun m => by rw [magValue_succ]; have := ulp_pos m; linarith

/-- A step is at most a part of the number, or of the least normal one. -/
theorem ulp_le (m : Nat) : ulp m ≤ max (F64.magValue m) (2 ^ (-1022 : Int)) / 2 ^ 52 := by
  by_cases h : m < 2 ^ 52
  · rw [ulp, if_pos h, le_div_iff₀ (by positivity)]
    refine le_trans (le_of_eq ?_) (le_max_right _ _)
    rw [← zpow_natCast, ← zpow_add₀ (by norm_num : (2 : ℚ) ≠ 0)]
    norm_num
  · rw [ulp, if_neg h, le_div_iff₀ (by positivity)]
    refine le_trans ?_ (le_max_left _ _)
    rw [F64.magValue, if_neg h, mul_comm]
    refine mul_le_mul_of_nonneg_right ?_ (by positivity)
    push_cast
    have : (0 : ℚ) ≤ ((m % 2 ^ 52 : Nat) : ℚ) := by positivity
    push_cast at this
    linarith

/-- A step is at least a part of the number. -/
theorem le_ulp (m : Nat) : F64.magValue m / 2 ^ 53 ≤ ulp m := by
  rw [div_le_iff₀ (by positivity)]
  by_cases h : m < 2 ^ 52
  · rw [ulp, if_pos h, F64.magValue, if_pos h, mul_comm]
    refine mul_le_mul_of_nonneg_left ?_ (by positivity)
    have : (m : ℚ) ≤ ((2 ^ 52 : Nat) : ℚ) := by exact_mod_cast h.le
    push_cast at this
    refine this.trans (by norm_num)
  · rw [ulp, if_neg h, F64.magValue, if_neg h, mul_comm]
    refine mul_le_mul_of_nonneg_left ?_ (by positivity)
    have h1 : 2 ^ 52 + m % 2 ^ 52 ≤ 2 ^ 53 := by omega
    exact_mod_cast h1

theorem magValue_add_le (m n : Nat) :
    F64.magValue (m + n) - F64.magValue m ≤ n * (max (F64.magValue (m + n)) (2 ^ (-1022 : Int)) / 2 ^ 52) := by
  induction n with
  | zero => simp
  | succ n ih =>
    have h1 := magValue_succ (m + n)
    have h2 := ulp_le (m + n)
    have h3 : F64.magValue (m + n) ≤ F64.magValue (m + n + 1) := by have := ulp_pos (m + n); linarith
    have h4 : max (F64.magValue (m + n)) (2 ^ (-1022 : Int)) / 2 ^ 52 ≤
        max (F64.magValue (m + n + 1)) (2 ^ (-1022 : Int)) / 2 ^ 52 := by
      refine div_le_div_of_nonneg_right (max_le_max_right _ h3) (by positivity)
    have h5 := mul_le_mul_of_nonneg_left h4 (show (0 : ℚ) ≤ n by positivity)
    rw [← Nat.add_assoc]
    push_cast
    rw [add_mul, one_mul]
    linarith

theorem le_magValue_add (m n : Nat) :
    n * (F64.magValue m / 2 ^ 53) ≤ F64.magValue (m + n) - F64.magValue m := by
  induction n with
  | zero => simp
  | succ n ih =>
    have h1 := magValue_succ (m + n)
    have h2 := le_ulp (m + n)
    have h3 : F64.magValue m ≤ F64.magValue (m + n) := magValue_strictMono.monotone (by omega)
    have h4 : F64.magValue m / 2 ^ 53 ≤ F64.magValue (m + n) / 2 ^ 53 :=
      div_le_div_of_nonneg_right h3 (by positivity)
    rw [← Nat.add_assoc]
    push_cast
    rw [add_mul, one_mul]
    linarith

theorem abs_value (f : F64) : |f.value| = F64.magValue f.mag := by
  unfold F64.value
  split
  · rw [abs_neg, abs_of_nonneg (magValue_nonneg _)]
  · rw [abs_of_nonneg (magValue_nonneg _)]

theorem value_sub_same (a b : F64) (h : a.sign = b.sign) :
    |a.value - b.value| = |F64.magValue a.mag - F64.magValue b.mag| := by
  unfold F64.value
  rw [h]
  split
  · rw [← abs_neg]; congr 1; ring
  · rfl

theorem value_sub_other (a b : F64) (h : a.sign ≠ b.sign) :
    |a.value - b.value| = F64.magValue a.mag + F64.magValue b.mag := by
  have ha := magValue_nonneg a.mag
  have hb := magValue_nonneg b.mag
  unfold F64.value
  cases h1 : a.sign <;> cases h2 : b.sign
  · exact absurd (h1.trans h2.symm) h
  · simp only [Bool.false_eq_true, if_false, if_true]
    rw [abs_of_nonneg (by linarith)]; ring
  · simp only [Bool.false_eq_true, if_false, if_true]
    rw [abs_of_nonpos (by linarith)]; ring
  · exact absurd (h1.trans h2.symm) h

/-- How far the keys are apart, for equal signs. -/
theorem key_sub_same (a b : F64) (h : a.sign = b.sign) (k : Int) :
    (a.key - b.key < k ∧ b.key - a.key < k) ↔ ((a.mag : Int) - b.mag < k ∧ (b.mag : Int) - a.mag < k) := by
  unfold F64.key
  rw [h]
  split
  · constructor <;> intro ⟨h1, h2⟩ <;> constructor <;> omega
  · rfl

theorem near_of_mag (m n : Nat) (k : Int) (h1 : (m : Int) - n < k) (h2 : (n : Int) - m < k) :
    |F64.magValue m - F64.magValue n| <
      (k : ℚ) / 2 ^ 52 * max (max (F64.magValue m) (F64.magValue n)) (2 ^ (-1022 : Int)) := by
  have key : ∀ (m n : Nat), m ≤ n → (n : Int) - m < k →
      |F64.magValue m - F64.magValue n| <
        (k : ℚ) / 2 ^ 52 * max (max (F64.magValue m) (F64.magValue n)) (2 ^ (-1022 : Int)) := by
    intro m n hmn hk
    obtain ⟨d, rfl⟩ := Nat.exists_eq_add_of_le hmn
    have hle : F64.magValue m ≤ F64.magValue (m + d) := magValue_strictMono.monotone hmn
    rw [abs_sub_comm, abs_of_nonneg (by linarith), max_eq_right hle]
    have h := magValue_add_le m d
    have hd : (d : ℚ) < (k : ℚ) := by
      have : ((d : Int)) < k := by push_cast at hk; omega
      exact_mod_cast this
    set M := max (F64.magValue (m + d)) (2 ^ (-1022 : Int)) with hM
    have hM0 : 0 < M := lt_of_lt_of_le (by positivity) (le_max_right _ _)
    have : (d : ℚ) * (M / 2 ^ 52) < (k : ℚ) * (M / 2 ^ 52) := mul_lt_mul_of_pos_right hd (by positivity)
    calc _ ≤ (d : ℚ) * (M / 2 ^ 52) := h
      _ < (k : ℚ) * (M / 2 ^ 52) := this
      _ = (k : ℚ) / 2 ^ 52 * M := by ring
  rcases Nat.le_total m n with h | h
  · exact key m n h h2
  · rw [abs_sub_comm, max_comm (F64.magValue m)]
    exact key n m h h1

theorem far_of_mag (m n : Nat) (k : Int) (h : k ≤ (n : Int) - m) (hk : 0 < k) :
    (k : ℚ) / 2 ^ 53 * min (F64.magValue m) (F64.magValue n) ≤ |F64.magValue m - F64.magValue n| := by
  obtain ⟨d, rfl⟩ := Nat.exists_eq_add_of_le (show m ≤ n by omega)
  have hle : F64.magValue m ≤ F64.magValue (m + d) := magValue_strictMono.monotone (by omega)
  rw [abs_sub_comm, abs_of_nonneg (by linarith), min_eq_left hle]
  have h1 := le_magValue_add m d
  have hd : (k : ℚ) ≤ (d : ℚ) := by
    have : k ≤ (d : Int) := by push_cast at h; omega
    exact_mod_cast this
  have h2 : (k : ℚ) * (F64.magValue m / 2 ^ 53) ≤ (d : ℚ) * (F64.magValue m / 2 ^ 53) :=
    mul_le_mul_of_nonneg_right hd (div_nonneg (magValue_nonneg m) (by positivity))
  calc _ = (k : ℚ) * (F64.magValue m / 2 ^ 53) := by ring
    _ ≤ _ := h2
    _ ≤ _ := h1

/-! ## The bit tolerance -/

theorem roundEven_add_even (n : Int) (hn : n % 2 = 0) (x : ℚ) : roundEven ((n : ℚ) + x) = n + roundEven x := by
  unfold roundEven
  rw [Int.floor_intCast_add]
  have e : ((n : ℚ) + x) - ((n + ⌊x⌋ : Int) : ℚ) = x - (⌊x⌋ : ℚ) := by push_cast; ring
  rw [e]
  have e2 : (n + ⌊x⌋) % 2 = ⌊x⌋ % 2 := by omega
  rw [e2]
  split_ifs <;> omega

theorem log_one_two (y : ℚ) (h1 : 1 ≤ y) (h2 : y < 2) : Int.log 2 y = 0 := by
  have hy : 0 < y := by linarith
  apply le_antisymm
  · by_contra h
    have : (1 : Int) ≤ Int.log 2 y := by omega
    have h3 := (Int.zpow_le_iff_le_log (by norm_num : 1 < 2) hy).mpr this
    norm_num at h3
    linarith
  · exact (Int.zpow_le_iff_le_log (by norm_num : 1 < 2) hy).mp (by simpa using h1)

theorem float64bits_one_two (k : Int) (h0 : 0 ≤ k) (h1 : k ≤ 2 ^ 52) :
    float64bits (1 + k / 2 ^ 52) = BitVec.ofInt 64 (1023 * 2 ^ 52 + k) := by
  unfold float64bits
  have hk0 : (0 : ℚ) ≤ k := by exact_mod_cast h0
  rcases lt_or_eq_of_le h1 with h | h
  · have hk : (k : ℚ) < 2 ^ 52 := by exact_mod_cast h
    rw [log_one_two _ (by have : (0 : ℚ) ≤ k / 2 ^ 52 := by positivity
                          linarith) (by have : (k : ℚ) / 2 ^ 52 < 1 := by rw [div_lt_one (by positivity)]; exact hk
                                        linarith)]
    have : ((1 + (k : ℚ) / 2 ^ 52) / 2 ^ (0 : Int) - 1) * 2 ^ 52 = (k : ℚ) := by
      rw [zpow_zero]; field_simp; ring
    rw [this, Int.floor_intCast]
    norm_num
  · subst h
    have : (1 + ((2 ^ 52 : Int) : ℚ) / 2 ^ 52) = 2 := by norm_num
    rw [this]
    decide +kernel

theorem bitToleranceFor_eq (t : F64) (h0 : 0 ≤ t.value) (h1 : t.value ≤ 1) :
    (bitToleranceFor t).toInt = roundEven (t.value * 2 ^ 52) ∧ 0 ≤ roundEven (t.value * 2 ^ 52) ∧
      roundEven (t.value * 2 ^ 52) ≤ 2 ^ 52 := by
  set x := t.value with hx
  set k := roundEven (x * 2 ^ 52) with hk
  have k0 : 0 ≤ k := by
    have := roundEven_mono (x := 0) (y := x * 2 ^ 52) (by positivity)
    have h : roundEven (0 : ℚ) = 0 := by simpa using HitMap.roundEven_int (K := ℚ) 0
    rw [h] at this
    exact this
  have k1 : k ≤ 2 ^ 52 := by
    have := roundEven_mono (x := x * 2 ^ 52) (y := ((2 ^ 52 : Int) : ℚ)) (by push_cast; linarith)
    rwa [HitMap.roundEven_int] at this
  have hsum : add 53 1 x = 1 + k / 2 ^ 52 := by
    rcases lt_or_eq_of_le h1 with h | h
    · rw [add, roundTo, if_neg (by linarith), abs_of_nonneg (by linarith),
        log_one_two _ (by linarith) (by linarith)]
      have e : (1 + x) / 2 ^ ((0 : Int) - (((53 : Nat) : Int) - 1)) = ((2 ^ 52 : Int) : ℚ) + x * 2 ^ 52 := by
        norm_num
        ring
      rw [e, roundEven_add_even _ (by norm_num), ← hk]
      push_cast
      norm_num
      ring
    · have hk' : k = 2 ^ 52 := by
        rw [hk, h]
        have : (1 : ℚ) * 2 ^ 52 = ((2 ^ 52 : Int) : ℚ) := by norm_num
        rw [this, HitMap.roundEven_int]
      rw [hk', h]
      have : add 53 1 1 = 2 := by decide +kernel
      rw [this]
      norm_num
  refine ⟨?_, k0, k1⟩
  unfold bitToleranceFor
  rw [← hx, hsum, float64bits_one_two k k0 k1]
  have h1b := float64bits_one_two 0 (le_refl _) (by norm_num)
  rw [show (1 : ℚ) + ((0 : Int) : ℚ) / 2 ^ 52 = 1 by norm_num] at h1b
  have e : BitVec.ofInt 64 (1023 * 2 ^ 52 + k) = BitVec.ofInt 64 (1023 * 2 ^ 52 + 0) + BitVec.ofInt 64 k := by
    rw [← BitVec.ofInt_add]; congr 1
  rw [h1b, e, BitVec.add_comm, BitVec.add_sub_cancel, BitVec.toInt_ofInt]
  rw [Int.bmod_eq_of_le] <;> norm_num <;> omega

theorem value_eq_zero (f : F64) : f.value = 0 ↔ f.key = 0 := by
  have h : f.value = 0 ↔ F64.magValue f.mag = 0 := by rw [← abs_value, abs_eq_zero]
  have h' : F64.magValue f.mag = 0 ↔ f.mag = 0 := by
    constructor
    · intro e
      by_contra hne
      have := magValue_strictMono (show 0 < f.mag by omega)
      rw [magValue_zero, e] at this
      exact lt_irrefl _ this
    · intro e; rw [e, magValue_zero]
  rw [h, h']
  unfold F64.key
  split <;> omega

theorem abs_toNat (f : F64) : (Cmp.abs f).toNat = f.mag := by
  unfold Cmp.abs F64.mag
  rw [BitVec.toNat_and, show (0x7FFFFFFFFFFFFFFF#64).toNat = 2 ^ 63 - 1 by decide, Nat.and_two_pow_sub_one_eq_mod]

theorem abs_lt_iff (f t : F64) (hf : f.isNaN = false) (ht : t.isNaN = false) :
    (Cmp.abs f).lt t = true ↔ F64.magValue f.mag < t.value := by
  have hm : f.mag < 2 ^ 63 := by unfold F64.mag; omega
  have h1 : (Cmp.abs f).mag = f.mag := by
    have := abs_toNat f
    rw [F64.mag, this]
    omega
  have h2 : (Cmp.abs f).sign = false := by
    rw [F64.sign, abs_toNat f]
    simpa using hm
  have h3 : (Cmp.abs f).isNaN = false := by rw [F64.isNaN, h1]; exact hf
  have h4 : (Cmp.abs f).key = (f.mag : Int) := by rw [F64.key, h2, h1]; simp
  rw [F64.lt_iff, h4]
  simp only [h3, ht, true_and]
  unfold F64.key F64.value
  split
  · have := magValue_nonneg f.mag
    have := magValue_nonneg t.mag
    constructor
    · intro h; omega
    · intro h; linarith
  · rw [magValue_strictMono.lt_iff_lt]
    omega

end Verif.Lemmas.CmpNew
