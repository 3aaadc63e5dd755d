import Verif.Lemmas.Rounded
import Verif.Lemmas.Planar

namespace Verif.Lemmas.Rounded
open Verif Verif.Rounded Verif.Spec.Rounded Verif.Spec.Planar
open Verif.Planar (Line parallel_iff)

/-- The powers of the bound that come up fit. -/
theorem cube_bounds {M N : Int} (h0 : 0 ≤ M) (h : 8 * M * M * M ≤ N) :
    2 * M ≤ N ∧ 2 * M * M ≤ N ∧ 8 * M * M ≤ N ∧ 4 * M * M * M ≤ N := by
  rcases eq_or_lt_of_le h0 with h1 | h1
  · subst h1; simpa using h
  · have a1 : M ≤ M * M := le_mul_of_one_le_left h0 h1
    have a2 : M * M ≤ M * M * M := le_mul_of_one_le_right (mul_self_nonneg M) h1
    refine ⟨?_, ?_, ?_, ?_⟩ <;> linarith

/-- The numbers that `denom` comes to. -/
theorem denom_exact {p : Nat} (hp : 1 ≤ p) {s M : Int} (h0 : 0 ≤ M) (hM : 8 * M * M * M ≤ 2 ^ p) {a b c d : Pt ℚ}
    (ha : OnGrid s M a) (hb : OnGrid s M b) (hc : OnGrid s M c) (hd : OnGrid s M d) :
    denom p (a, b) (c, d) = (a.1 - b.1) * (c.2 - d.2) - (a.2 - b.2) * (c.1 - d.1) ∧
      Multiple (s + s) (8 * M * M) (denom p (a, b) (c, d)) := by
  obtain ⟨b1, b2, b3, b4⟩ := cube_bounds h0 hM
  have m1 := multiple_sub ha.1 hb.1
  have m2 := multiple_sub hc.2 hd.2
  have m3 := multiple_sub ha.2 hb.2
  have m4 := multiple_sub hc.1 hd.1
  have e : denom p (a, b) (c, d) = (a.1 - b.1) * (c.2 - d.2) - (a.2 - b.2) * (c.1 - d.1) := by
    simp only [denom]
    rw [sub_grid hp ha.1 hb.1 (by linarith), sub_grid hp hc.2 hd.2 (by linarith),
      sub_grid hp ha.2 hb.2 (by linarith), sub_grid hp hc.1 hd.1 (by linarith),
      mul_grid hp m1 m2 (by linarith), mul_grid hp m3 m4 (by linarith),
      sub_grid hp (multiple_mul m1 m2) (multiple_mul m3 m4) (by linarith)]
  refine ⟨e, ?_⟩
  rw [e]
  exact multiple_mono (multiple_sub (multiple_mul m1 m2) (multiple_mul m3 m4)) (by linarith)

/-- The numerators. -/
theorem noms_exact {p : Nat} (hp : 1 ≤ p) {s M : Int} (h0 : 0 ≤ M) (hM : 8 * M * M * M ≤ 2 ^ p) {a b c d : Pt ℚ}
    (ha : OnGrid s M a) (hb : OnGrid s M b) (hc : OnGrid s M c) (hd : OnGrid s M d) :
    xnom p (a, b) (c, d) = (a.1 * b.2 - a.2 * b.1) * (c.1 - d.1) - (a.1 - b.1) * (c.1 * d.2 - c.2 * d.1) ∧
    ynom p (a, b) (c, d) = (a.1 * b.2 - a.2 * b.1) * (c.2 - d.2) - (a.2 - b.2) * (c.1 * d.2 - c.2 * d.1) := by
  obtain ⟨b1, b2, b3, b4⟩ := cube_bounds h0 hM
  have hMM : 0 ≤ M * M := mul_self_nonneg M
  have m1 := multiple_sub ha.1 hb.1
  have m2 := multiple_sub hc.2 hd.2
  have m3 := multiple_sub ha.2 hb.2
  have m4 := multiple_sub hc.1 hd.1
  have q1 := multiple_mul ha.1 hb.2
  have q2 := multiple_mul ha.2 hb.1
  have q3 := multiple_mul hc.1 hd.2
  have q4 := multiple_mul hc.2 hd.1
  have r1 := multiple_sub q1 q2
  have r2 := multiple_sub q3 q4
  have e1 : sub p (mul p a.1 b.2) (mul p a.2 b.1) = a.1 * b.2 - a.2 * b.1 := by
    rw [mul_grid hp ha.1 hb.2 (by linarith), mul_grid hp ha.2 hb.1 (by linarith), sub_grid hp q1 q2 (by linarith)]
  have e2 : sub p (mul p c.1 d.2) (mul p c.2 d.1) = c.1 * d.2 - c.2 * d.1 := by
    rw [mul_grid hp hc.1 hd.2 (by linarith), mul_grid hp hc.2 hd.1 (by linarith), sub_grid hp q3 q4 (by linarith)]
  have f1 := multiple_mul r1 m4
  have f2 := multiple_mul m1 r2
  have f3 := multiple_mul r1 m2
  have f4 := multiple_mul m3 r2
  rw [show s + (s + s) = s + s + s by ring] at f2 f4
  constructor
  · simp only [xnom]
    rw [e1, e2, sub_grid hp hc.1 hd.1 (by linarith), sub_grid hp ha.1 hb.1 (by linarith),
      mul_grid hp r1 m4 (by linarith), mul_grid hp m1 r2 (by linarith), sub_grid hp f1 f2 (by linarith)]
  · simp only [ynom]
    rw [e1, e2, sub_grid hp hc.2 hd.2 (by linarith), sub_grid hp ha.2 hb.2 (by linarith),
      mul_grid hp r1 m2 (by linarith), mul_grid hp m3 r2 (by linarith), sub_grid hp f3 f4 (by linarith)]

/-- The meeting point of two lines that are not parallel. -/
theorem meet_exact {p : Nat} (hp : 1 ≤ p) {s M : Int} (h0 : 0 ≤ M) (hM : 8 * M * M * M ≤ 2 ^ p) {a b c d : Pt ℚ}
    (ha : OnGrid s M a) (hb : OnGrid s M b) (hc : OnGrid s M c) (hd : OnGrid s M d) (hn : ¬ Parallel a b c d)
    {q : Pt ℚ} (h1 : OnLine q a b) (h2 : OnLine q c d) :
    quo p (xnom p (a, b) (c, d)) (denom p (a, b) (c, d)) = roundTo p q.1 ∧
    quo p (ynom p (a, b) (c, d)) (denom p (a, b) (c, d)) = roundTo p q.2 := by
  obtain ⟨e1, e2⟩ := noms_exact hp h0 hM ha hb hc hd
  obtain ⟨e3, _⟩ := denom_exact hp h0 hM ha hb hc hd
  have := (Verif.Planar.lineIntersect_iff a b c d q).2 ⟨hn, h1, h2⟩
  rw [parallel_iff] at hn
  unfold Verif.Planar.lineIntersect at this
  simp only [] at this
  rw [if_neg hn] at this
  have hq := congrArg Prod.fst this
  simp only [] at hq
  rw [e1, e2, e3, quo, quo, ← hq]
  exact ⟨rfl, rfl⟩

/-- Two lines that are not parallel have a point in common. -/
theorem meet_exists {a b c d : Pt ℚ} (hn : ¬ Parallel a b c d) : ∃ q, OnLine q a b ∧ OnLine q c d := by
  have h := hn
  rw [parallel_iff] at h
  have : Verif.Planar.lineIntersect (a, b) (c, d) = ((Verif.Planar.lineIntersect (a, b) (c, d)).1, true) := by
    unfold Verif.Planar.lineIntersect
    simp only []
    rw [if_neg h]
  exact ⟨_, ((Verif.Planar.lineIntersect_iff a b c d _).1 this).2⟩

/-- A quotient of two multiples of a number is beyond one exactly if it is after rounding. -/
theorem quo_le_one {s N : Int} {x y : ℚ} (hN : N ≤ 2 ^ 52) (hx : Multiple s N x) (hy : Multiple s N y) :
    quo 53 x y ≤ 1 ↔ x / y ≤ 1 := by
  constructor
  · intro h
    by_contra hc
    push Not at hc
    obtain ⟨m, hm, rfl⟩ := hx
    obtain ⟨k, hk, rfl⟩ := hy
    have hs := two_pow_pos s
    rw [quo] at h
    rw [mul_div_mul_right _ _ hs.ne'] at hc h
    have f : Fits 53 (1 + 1 / 2 ^ 52 : ℚ) := ⟨2 ^ 52 + 1, -52, by norm_num, by norm_num⟩
    have hge : (1 + 1 / 2 ^ 52 : ℚ) ≤ (m : ℚ) / k := by
      have hkq : |(k : ℚ)| ≤ 2 ^ 52 := by
        have : ((|k| : Int) : ℚ) ≤ ((2 ^ 52 : Int) : ℚ) := Int.cast_le.2 (hk.trans hN)
        rw [Int.cast_abs] at this
        exact_mod_cast this
      rcases lt_trichotomy k 0 with k0 | k0 | k0
      · have kq : (k : ℚ) < 0 := by exact_mod_cast k0
        rw [lt_div_iff_of_neg kq, one_mul] at hc
        have hmk : m + 1 ≤ k := by exact_mod_cast hc
        have hmq : (m : ℚ) + 1 ≤ k := by exact_mod_cast hmk
        rw [le_div_iff_of_neg kq]
        rw [abs_of_neg kq] at hkq
        linarith
      · subst k0
        simp at hc
        linarith
      · have kq : (0 : ℚ) < k := by exact_mod_cast k0
        rw [lt_div_iff₀ kq, one_mul] at hc
        have hmk : k + 1 ≤ m := by exact_mod_cast hc
        have hmq : (k : ℚ) + 1 ≤ m := by exact_mod_cast hmk
        rw [le_div_iff₀ kq]
        rw [abs_of_pos kq] at hkq
        linarith
    have := roundTo_mono (p := 53) (by norm_num) hge
    rw [roundTo_fits (by norm_num) f] at this
    have : (1 : ℚ) + 1 / 2 ^ 52 ≤ 1 := this.trans h
    norm_num at this
  · intro h
    have := roundTo_mono (p := 53) (by norm_num) h
    rwa [roundTo_one (by norm_num)] at this

/-- `SegmentIntersect` in floats decides as in exact numbers. -/
theorem segment_exact {s M : Int} (h0 : 0 ≤ M) (hM : 8 * M * M * M ≤ 2 ^ 53) {a b c d : Pt ℚ}
    (ha : OnGrid s M a) (hb : OnGrid s M b) (hc : OnGrid s M c) (hd : OnGrid s M d) :
    (segmentIntersect (a, b) (c, d)).2 = (Verif.Planar.segmentIntersect (a, b) (c, d)).2 := by
  obtain ⟨b1, b2, b3, b4⟩ := cube_bounds h0 hM
  obtain ⟨e, hm⟩ := denom_exact (p := 53) (by norm_num) h0 hM ha hb hc hd
  have hp : 1 ≤ 53 := by norm_num
  have m1 := multiple_sub ha.1 hb.1
  have m2 := multiple_sub hc.2 hd.2
  have m3 := multiple_sub ha.2 hb.2
  have m4 := multiple_sub hc.1 hd.1
  have m5 := multiple_sub ha.1 hc.1
  have m6 := multiple_sub ha.2 hc.2
  have hMs : 8 * M * M ≤ 2 ^ 52 := by
    have hM16 : M ≤ 2 ^ 17 := by
      by_contra hcon
      push Not at hcon
      have p1 : (2 : Int) ^ 17 * 2 ^ 17 ≤ M * M := mul_le_mul hcon.le hcon.le (by norm_num) h0
      have p2 : (2 : Int) ^ 17 * 2 ^ 17 * 2 ^ 17 ≤ M * M * M := mul_le_mul p1 hcon.le (by norm_num) (mul_self_nonneg M)
      linarith
    have : M * M ≤ 2 ^ 17 * 2 ^ 17 := mul_le_mul hM16 hM16 h0 (by norm_num)
    linarith
  have eT : sub 53 (mul 53 (sub 53 a.1 c.1) (sub 53 c.2 d.2)) (mul 53 (sub 53 a.2 c.2) (sub 53 c.1 d.1))
      = (a.1 - c.1) * (c.2 - d.2) - (a.2 - c.2) * (c.1 - d.1) := by
    rw [sub_grid hp ha.1 hc.1 (by linarith), sub_grid hp hc.2 hd.2 (by linarith),
      sub_grid hp ha.2 hc.2 (by linarith), sub_grid hp hc.1 hd.1 (by linarith),
      mul_grid hp m5 m2 (by linarith), mul_grid hp m6 m4 (by linarith),
      sub_grid hp (multiple_mul m5 m2) (multiple_mul m6 m4) (by linarith)]
  have eU : sub 53 (mul 53 (sub 53 a.1 b.1) (sub 53 a.2 c.2)) (mul 53 (sub 53 a.2 b.2) (sub 53 a.1 c.1))
      = (a.1 - b.1) * (a.2 - c.2) - (a.2 - b.2) * (a.1 - c.1) := by
    rw [sub_grid hp ha.1 hc.1 (by linarith), sub_grid hp ha.1 hb.1 (by linarith),
      sub_grid hp ha.2 hc.2 (by linarith), sub_grid hp ha.2 hb.2 (by linarith),
      mul_grid hp m1 m6 (by linarith), mul_grid hp m3 m5 (by linarith),
      sub_grid hp (multiple_mul m1 m6) (multiple_mul m3 m5) (by linarith)]
  have hT := multiple_mono (multiple_sub (multiple_mul m5 m2) (multiple_mul m6 m4))
    (show (M + M) * (M + M) + (M + M) * (M + M) ≤ 8 * M * M by linarith)
  have hU := multiple_neg (multiple_mono (multiple_sub (multiple_mul m1 m6) (multiple_mul m3 m5))
    (show (M + M) * (M + M) + (M + M) * (M + M) ≤ 8 * M * M by linarith))
  have cT := quo_le_one hMs hT hm
  have cU := quo_le_one hMs hU hm
  unfold segmentIntersect Verif.Planar.segmentIntersect
  simp only [eT, eU]
  rw [e] at cT cU ⊢
  by_cases hz : (a.1 - b.1) * (c.2 - d.2) - (a.2 - b.2) * (c.1 - d.1) = 0
  · rw [if_pos hz, if_pos hz]
  · rw [if_neg hz, if_neg hz]
    simp only []
    rw [← Bool.decide_and, ← Bool.decide_and, ← Bool.decide_and]
    rw [decide_eq_decide, cT, cU]
    simp only [ge_iff_le, quo, roundTo_nonneg hp]
    tauto

/-- A product of `OnGrid` with the precision of the coordinates. -/
theorem grid_round {p : Nat} (hp : 1 ≤ p) {s M : Int} (h : M ≤ 2 ^ p) {a : Pt ℚ} (ha : OnGrid s M a) :
    (roundTo p a.1, roundTo p a.2) = a := by
  rw [multiple_round hp h ha.1, multiple_round hp h ha.2]

/-- A multiple that is not zero is not less than the unit. -/
theorem multiple_large {s n : Int} {x : ℚ} (h : Multiple s n x) (hx : x ≠ 0) : (2 : ℚ) ^ s ≤ |x| := by
  obtain ⟨m, _, rfl⟩ := h
  have hs := two_pow_pos s
  have hm : m ≠ 0 := by rintro rfl; simp at hx
  have : (1 : ℚ) ≤ |(m : ℚ)| := by
    have : (1 : Int) ≤ |m| := Int.one_le_abs hm
    exact_mod_cast this
  rw [abs_mul, abs_of_pos hs]
  exact le_mul_of_one_le_left hs.le this

end Verif.Lemmas.Rounded
