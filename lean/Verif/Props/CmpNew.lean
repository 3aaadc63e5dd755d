import Verif.Lemmas.CmpNew

/-!
# Tolerant equality as closeness of numbers (C184)
-/

namespace Verif.Props
open Verif Verif.Cmp Verif.Spec.Extent Verif.Spec.Cmp Verif.Spec.CmpNew Verif.Lemmas.CmpNew
open Verif.HitMap (roundEven)

/-- C184 in full: two finite floats are equal for a comparator made for a tolerance just when they differ by less
than the tolerance, as a part of the larger one, or next to zero by itself. -/
def C184_full : Prop :=
  ∀ t a b : F64, finite t → finite a → finite b → 0 < t.value → t.value < 1 →
    ((Compare.new t).float a b = true ↔ Close t.value a.value b.value)

/-- C184 fails: with a tolerance of 2^-50, 2 - 2^-52 and the fifth float below it are 5·2^-52 apart, less than
2^-50 of the larger one, but not equal. -/
theorem C184_violated : ¬ C184_full := by
  intro h
  have hc : Close (F64.value 0x3CD0000000000000#64) (F64.value 0x3FFFFFFFFFFFFFFF#64)
      (F64.value 0x3FFFFFFFFFFFFFFA#64) := by
    unfold Close
    decide +kernel
  have := (h 0x3CD0000000000000#64 0x3FFFFFFFFFFFFFFF#64 0x3FFFFFFFFFFFFFFA#64 (by unfold finite; decide)
    (by unfold finite; decide) (by unfold finite; decide) (by decide +kernel) (by decide +kernel)).mpr hc
  revert this
  decide +kernel

/-- C184 fails for comparators made for a number of digits: with sixteen digits no number is equal to itself. -/
theorem C184_violated_digits : ∃ c, newForNumPrecision 16 = some c ∧ c.float F64.one F64.one = false :=
  ⟨⟨0x3C9CD2B297D889BC#64, 0#64⟩, by decide +kernel, by decide⟩

/-- C184, the bit tolerance: the tolerance in units of 2^-52, to the nearest. -/
theorem C184_bits_partial (t : F64) (h0 : 0 ≤ t.value) (h1 : t.value ≤ 1) :
    (Compare.new t).tol = t ∧ 0 ≤ (Compare.new t).bit.toInt ∧ (Compare.new t).bit.toInt ≤ 2 ^ 52 ∧
      |((Compare.new t).bit.toInt : ℚ) / 2 ^ 52 - t.value| ≤ 1 / 2 ^ 53 := by
  obtain ⟨h, k0, k1⟩ := bitToleranceFor_eq t h0 h1
  refine ⟨rfl, ?_, ?_, ?_⟩
  · rw [Compare.new, h]; exact k0
  · rw [Compare.new, h]; exact k1
  · rw [Compare.new, h]
    have := HitMap.roundEven_near (t.value * 2 ^ 52)
    have e : ((roundEven (t.value * 2 ^ 52) : Int) : ℚ) / 2 ^ 52 - t.value =
        (((roundEven (t.value * 2 ^ 52) : Int) : ℚ) - t.value * 2 ^ 52) / 2 ^ 52 := by ring
    rw [e, abs_div, abs_of_pos (show (0 : ℚ) < 2 ^ 52 by positivity), div_le_div_iff₀ (by positivity) (by positivity)]
    calc _ ≤ 1 / 2 * 2 ^ 53 := mul_le_mul_of_nonneg_right this (by positivity)
      _ = 1 * 2 ^ 52 := by norm_num

example : 0 ≤ F64.value 0x3EB0C6F7A0B5ED8D#64 ∧ F64.value 0x3EB0C6F7A0B5ED8D#64 ≤ 1 := by decide +kernel

/-- C184, numbers that are equal are close: by less than the bit tolerance times 2^-52 of the larger one, or of the
least normal float if that is larger. -/
theorem C184_equal_close_partial (c : Compare) (a b : F64) (ha : plain a) (hb : plain b)
    (h0 : 0 < c.bit.toInt) (h1 : c.bit.toInt ≤ 2 ^ 52) (h : c.float a b = true) :
    |a.value - b.value| <
      (c.bit.toInt : ℚ) / 2 ^ 52 * max (max |a.value| |b.value|) (2 ^ (-1022 : Int)) := by
  obtain ⟨hs, hk⟩ := (C26_near c a b ha hb h0 h1).mp h
  rw [key_sub_same a b hs] at hk
  rw [value_sub_same a b hs, abs_value, abs_value]
  exact near_of_mag _ _ _ hk.1 hk.2

example : plain 0x3FF0000000000000#64 ∧ plain 0x3FF0000000000003#64
    ∧ (Compare.new 0x3CD0000000000000#64).float 0x3FF0000000000000#64 0x3FF0000000000003#64 = true :=
  ⟨by unfold plain num; decide, by unfold plain num; decide, by decide +kernel⟩

/-- C184, numbers that are close are equal: by less than the bit tolerance times 2^-53 of the smaller one. -/
theorem C184_close_equal_partial (c : Compare) (a b : F64) (ha : plain a) (hb : plain b)
    (h0 : 0 < c.bit.toInt) (h1 : c.bit.toInt ≤ 2 ^ 52)
    (h : |a.value - b.value| < (c.bit.toInt : ℚ) / 2 ^ 53 * min |a.value| |b.value|) :
    c.float a b = true := by
  rw [C26_near c a b ha hb h0 h1]
  rw [abs_value, abs_value] at h
  have hk : (c.bit.toInt : ℚ) ≤ 2 ^ 52 := by exact_mod_cast h1
  have na := magValue_nonneg a.mag
  have nb := magValue_nonneg b.mag
  have hs : a.sign = b.sign := by
    by_contra hs
    rw [value_sub_other a b hs] at h
    have h2 : (c.bit.toInt : ℚ) / 2 ^ 53 ≤ 1 := by
      rw [div_le_one (by positivity)]
      exact hk.trans (by norm_num)
    have h3 : 0 ≤ min (F64.magValue a.mag) (F64.magValue b.mag) := le_min na nb
    have h4 := mul_le_mul_of_nonneg_right h2 h3
    have h5 := min_le_left (F64.magValue a.mag) (F64.magValue b.mag)
    linarith
  refine ⟨hs, ?_⟩
  rw [key_sub_same a b hs]
  rw [value_sub_same a b hs] at h
  constructor
  · by_contra hc
    have := far_of_mag b.mag a.mag c.bit.toInt (by omega) h0
    rw [min_comm, abs_sub_comm] at this
    exact absurd h (not_lt.mpr this)
  · by_contra hc
    exact absurd h (not_lt.mpr (far_of_mag a.mag b.mag c.bit.toInt (by omega) h0))

example : |F64.value 0x3FF0000000000000#64 - F64.value 0x3FF0000000000001#64| <
    ((Compare.new 0x3CD0000000000000#64).bit.toInt : ℚ) / 2 ^ 53 *
      min |F64.value 0x3FF0000000000000#64| |F64.value 0x3FF0000000000001#64| := by decide +kernel

/-- C184, next to zero: just when the number is less than the tolerance. -/
theorem C184_zero_partial (c : Compare) (z b : F64) (hz : z.value = 0) (hf : finite z) (hb : finite b)
    (ht : c.tol.isNaN = false) : c.float z b = true ↔ |z.value - b.value| < c.tol.value := by
  have hz' : z.eq F64.zero = true := by
    rw [F64.eq_iff, F64.key_zero]
    exact ⟨hf.1, by decide, (value_eq_zero z).mp hz⟩
  rw [C26_zero c z b hz' hb.2, hz, zero_sub, abs_neg, abs_value]
  exact abs_lt_iff b c.tol hb.1 ht

example : F64.value F64.negZero = 0 ∧ finite F64.negZero ∧ finite 0x3CB0000000000000#64 ∧
    (Compare.new 0x3CD0000000000000#64).tol.isNaN = false ∧
    (Compare.new 0x3CD0000000000000#64).float F64.negZero 0x3CB0000000000000#64 = true :=
  ⟨by decide +kernel, by unfold finite; decide, by unfold finite; decide, by decide +kernel, by decide +kernel⟩

/-- C184 for a comparator made for a tolerance `t`: normal floats that are equal differ by less than `t + 2^-53` of
the larger one, and floats that differ by less than half of `t - 2^-53` of the smaller one are equal.  Missing: what
is in between, and floats below the least normal one. -/
theorem C184_new_partial (t a b : F64) (ha : plain a) (hb : plain b) (h0 : 1 / 2 ^ 53 < t.value)
    (h1 : t.value ≤ 1) :
    ((Compare.new t).float a b = true → 2 ^ (-1022 : Int) ≤ max |a.value| |b.value| →
        |a.value - b.value| < (t.value + 1 / 2 ^ 53) * max |a.value| |b.value|) ∧
    (|a.value - b.value| < (t.value - 1 / 2 ^ 53) / 2 * min |a.value| |b.value| →
        (Compare.new t).float a b = true) := by
  have ht : 0 ≤ t.value := le_trans (by positivity) h0.le
  obtain ⟨-, k0, k1, kd⟩ := C184_bits_partial t ht h1
  rw [abs_le] at kd
  have kpos : 0 < (Compare.new t).bit.toInt := by
    rcases lt_or_eq_of_le k0 with h | h
    · exact h
    · rw [← h] at kd
      push_cast at kd
      rw [zero_div, zero_sub] at kd
      linarith [kd.1]
  refine ⟨fun h hn => ?_, fun h => ?_⟩
  · have := C184_equal_close_partial _ a b ha hb kpos k1 h
    rw [max_eq_left hn] at this
    refine lt_of_lt_of_le this (mul_le_mul_of_nonneg_right (by linarith [kd.2]) (le_trans (abs_nonneg _) (le_max_left _ _)))
  · refine C184_close_equal_partial _ a b ha hb kpos k1 (lt_of_lt_of_le h ?_)
    refine mul_le_mul_of_nonneg_right ?_ (le_min (abs_nonneg _) (abs_nonneg _))
    have e : ((Compare.new t).bit.toInt : ℚ) / 2 ^ 53 = ((Compare.new t).bit.toInt : ℚ) / 2 ^ 52 / 2 := by ring
    rw [e]
    linarith [kd.1]

example : plain F64.one ∧ (1 : ℚ) / 2 ^ 53 < F64.value 0x3EB0C6F7A0B5ED8D#64 ∧ F64.value 0x3EB0C6F7A0B5ED8D#64 ≤ 1 :=
  ⟨by unfold plain num; decide, by decide +kernel, by decide +kernel⟩

/-- C184, a number and itself: equal just when the tolerance is more than 2^-53. -/
theorem C184_self_partial (t a : F64) (ha : plain a) (h0 : 0 ≤ t.value) (h1 : t.value ≤ 1) :
    (Compare.new t).float a a = true ↔ 1 / 2 ^ 53 < t.value := by
  constructor
  · intro h
    by_contra hc
    have hk : (Compare.new t).bit.toInt = 0 := by
      obtain ⟨hb, k0, -⟩ := bitToleranceFor_eq t h0 h1
      rw [Compare.new, hb]
      have hx : t.value * 2 ^ 52 ≤ 1 / 2 := by
        have := mul_le_mul_of_nonneg_right (not_lt.mp hc) (show (0 : ℚ) ≤ 2 ^ 52 by positivity)
        refine this.trans (by norm_num)
      have hm := Lemmas.Rounded.roundEven_mono hx
      have : roundEven (1 / 2 : ℚ) = 0 := by decide +kernel
      omega
    have hz : (Compare.new t).bit = 0#64 := BitVec.eq_of_toInt_eq (by rw [hk]; rfl)
    have na : a.eq F64.zero = false := by
      have := ha.2.2
      rw [Bool.eq_false_iff, Ne, F64.eq_iff, F64.key_zero]; tauto
    unfold Compare.float at h
    rw [if_neg (by simp [ha.2.1]), if_neg (by simp [na]), hz, BitVec.sub_self] at h
    exact absurd h (by decide)
  · intro h
    refine (C184_new_partial t a a ha ha h h1).2 ?_
    rw [sub_self, abs_zero, min_self]
    have : 0 < |a.value| := abs_pos.mpr fun e => ha.2.2 ((value_eq_zero a).mp e)
    have : 0 < (t.value - 1 / 2 ^ 53) / 2 := by linarith
    positivity

example : plain F64.one ∧ 0 ≤ F64.value 0x3C9CD2B297D889BC#64 ∧ F64.value 0x3C9CD2B297D889BC#64 ≤ 1 ∧
    ¬ (1 : ℚ) / 2 ^ 53 < F64.value 0x3C9CD2B297D889BC#64 :=
  ⟨by unfold plain num; decide, by decide +kernel, by decide +kernel, by decide +kernel⟩

end Verif.Props
