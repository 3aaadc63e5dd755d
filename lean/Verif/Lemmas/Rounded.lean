import Verif.Model.Rounded
import Verif.Spec.Rounded
import Verif.Lemmas.HitMap

namespace Verif.Lemmas.Rounded
open Verif Verif.Rounded Verif.Spec.Rounded
open Verif.HitMap (roundEven roundEven_int roundEven_bounds roundEven_near log_bounds)

theorem two_pow_pos (e : Int) : (0 : ℚ) < 2 ^ e := zpow_pos (by norm_num) e

theorem roundEven_mono {x y : ℚ} (h : x ≤ y) : roundEven x ≤ roundEven y := by
  have hf : ⌊x⌋ ≤ ⌊y⌋ := Int.floor_le_floor h
  rcases lt_or_eq_of_le hf with hf | hf
  · have h1 := (roundEven_bounds x).2
    have h2 := (roundEven_bounds y).1
    omega
  · unfold roundEven
    rw [hf]
    split_ifs <;> first | omega | (exfalso; linarith)

theorem roundEven_best (y : ℚ) (n : Int) : |((roundEven y : Int) : ℚ) - y| ≤ |(n : ℚ) - y| := by
  by_cases h : n = roundEven y
  · rw [h]
  · have h1 := roundEven_near y
    have h2 : (1 : ℚ) ≤ |(n : ℚ) - (roundEven y : Int)| := by
      have : (1 : Int) ≤ |n - roundEven y| := Int.one_le_abs (sub_ne_zero.2 h)
      exact_mod_cast this
    have h3 : |(n : ℚ) - (roundEven y : Int)| ≤ |(n : ℚ) - y| + |((roundEven y : Int) : ℚ) - y| := by
      have := abs_sub_le (n : ℚ) y (roundEven y : Int)
      rwa [abs_sub_comm y] at this
    linarith

theorem fits_small {p : Nat} (hp : 1 ≤ p) {x : ℚ} (h : Fits p x) : ∃ m e : Int, |m| < 2 ^ p ∧ x = m * 2 ^ e := by
  obtain ⟨m, e, hm, rfl⟩ := h
  rcases lt_or_eq_of_le hm with h | h
  · exact ⟨m, e, h, rfl⟩
  · obtain ⟨q, rfl⟩ : ∃ q, p = q + 1 := ⟨p - 1, by omega⟩
    have hlt : (2 : Int) ^ q < 2 ^ (q + 1) := pow_lt_pow_right₀ (by norm_num) (by omega)
    have hpos : (0 : Int) < 2 ^ q := by positivity
    rcases (abs_eq (by positivity)).1 h with rfl | rfl
    · refine ⟨2 ^ q, e + 1, by rwa [abs_of_pos hpos], ?_⟩
      rw [zpow_add₀ (by norm_num)]
      push_cast
      ring
    · refine ⟨-2 ^ q, e + 1, by rwa [abs_neg, abs_of_pos hpos], ?_⟩
      rw [zpow_add₀ (by norm_num)]
      push_cast
      ring

theorem roundTo_fits {p : Nat} (hp : 1 ≤ p) {x : ℚ} (h : Fits p x) : roundTo p x = x := by
  unfold roundTo
  split_ifs with hx
  · exact hx.symm
  · obtain ⟨m, e, hm, rfl⟩ := fits_small hp h
    obtain ⟨h1, _⟩ := log_bounds hx
    generalize Int.log 2 |(m : ℚ) * 2 ^ e| = L at *
    have hL : L - ((p : Int) - 1) ≤ e := by
      have hlt : (2 : ℚ) ^ L < 2 ^ ((p : Int) + e) := by
        refine lt_of_le_of_lt h1 ?_
        rw [abs_mul, abs_of_pos (two_pow_pos e), zpow_add₀ (by norm_num)]
        refine mul_lt_mul_of_pos_right ?_ (two_pow_pos e)
        have : ((|m| : Int) : ℚ) < ((2 ^ p : Int) : ℚ) := Int.cast_lt.2 hm
        rw [Int.cast_abs] at this
        refine lt_of_lt_of_eq this ?_
        push_cast
        rw [zpow_natCast]
      have := (zpow_lt_zpow_iff_right₀ (by norm_num : (1 : ℚ) < 2)).1 hlt
      omega
    generalize L - ((p : Int) - 1) = u at *
    obtain ⟨n, hn⟩ := Int.eq_ofNat_of_zero_le (sub_nonneg.2 hL)
    have e1 : (m : ℚ) * 2 ^ e / 2 ^ u = ((m * 2 ^ n : Int) : ℚ) := by
      rw [mul_div_assoc, ← zpow_sub₀ (by norm_num), hn]
      push_cast
      rw [zpow_natCast]
    rw [e1, roundEven_int, ← e1, div_mul_cancel₀]
    exact (two_pow_pos _).ne'

/-- The steps of the numbers with `p` bits next to `x`. -/
theorem scaled_bounds {p : Nat} (hp : 1 ≤ p) {x : ℚ} (hx : x ≠ 0) :
    (2 : ℚ) ^ (p - 1) ≤ |x / 2 ^ (Int.log 2 |x| - ((p : Int) - 1))| ∧
      |x / 2 ^ (Int.log 2 |x| - ((p : Int) - 1))| < 2 ^ p := by
  obtain ⟨h1, h2⟩ := log_bounds hx
  generalize Int.log 2 |x| = L at *
  have hu := two_pow_pos (L - ((p : Int) - 1))
  rw [abs_div, abs_of_pos hu, le_div_iff₀ hu, div_lt_iff₀ hu, ← zpow_natCast, ← zpow_natCast (2 : ℚ) p,
    ← zpow_add₀ (by norm_num), ← zpow_add₀ (by norm_num)]
  refine ⟨le_of_eq_of_le ?_ h1, lt_of_lt_of_eq h2 ?_⟩
  · congr 1
    push_cast [Nat.cast_sub hp]
    ring
  · congr 1
    ring

theorem roundTo_is_fit {p : Nat} (hp : 1 ≤ p) (x : ℚ) : Fits p (roundTo p x) := by
  unfold roundTo
  split_ifs with hx
  · exact ⟨0, 0, by simp, by simp⟩
  · refine ⟨_, _, ?_, rfl⟩
    obtain ⟨_, h⟩ := scaled_bounds hp hx
    generalize x / 2 ^ (Int.log 2 |x| - ((p : Int) - 1)) = y at *
    have h' := abs_lt.1 h
    have c1 : roundEven y ≤ roundEven (((2 ^ p : Int)) : ℚ) := roundEven_mono (by push_cast; linarith)
    have c2 : roundEven (((-2 ^ p : Int)) : ℚ) ≤ roundEven y := roundEven_mono (by push_cast; linarith)
    rw [roundEven_int] at c1 c2
    exact abs_le.2 ⟨c2, c1⟩

theorem roundTo_near (p : Nat) (hp : 1 ≤ p) (x : ℚ) : |roundTo p x - x| ≤ |x| / 2 ^ p := by
  unfold roundTo
  split_ifs with hx
  · rw [hx]; simp
  · obtain ⟨h1, _⟩ := scaled_bounds hp hx
    generalize hU : (2 : ℚ) ^ (Int.log 2 |x| - ((p : Int) - 1)) = U at *
    have hu : (0 : ℚ) < U := hU ▸ two_pow_pos _
    have e : ((roundEven (x / U) : Int) : ℚ) * U - x = (((roundEven (x / U) : Int) : ℚ) - x / U) * U := by
      rw [sub_mul, div_mul_cancel₀ _ hu.ne']
    rw [e, abs_mul, abs_of_pos hu]
    have h3 := mul_le_mul_of_nonneg_right (roundEven_near (x / U)) hu.le
    refine h3.trans ?_
    rw [abs_div, abs_of_pos hu, le_div_iff₀ hu] at h1
    rw [le_div_iff₀ (by positivity)]
    obtain ⟨q, rfl⟩ : ∃ q, p = q + 1 := ⟨p - 1, by omega⟩
    rw [Nat.add_sub_cancel] at h1
    rw [pow_succ]
    linarith

theorem roundTo_zero (p : Nat) : roundTo p 0 = 0 := by simp [roundTo]

theorem roundTo_one {p : Nat} (hp : 1 ≤ p) : roundTo p 1 = 1 :=
  roundTo_fits hp ⟨1, 0, by simpa using one_le_pow₀ (by norm_num), by simp⟩

/-- Rounding keeps the order. -/
theorem roundTo_mono {p : Nat} (hp : 1 ≤ p) {x y : ℚ} (h : x ≤ y) : roundTo p x ≤ roundTo p y := by
  -- bounds between powers of two
  have lo : ∀ z : ℚ, 0 < z → (2 : ℚ) ^ Int.log 2 |z| ≤ roundTo p z := by
    intro z hz
    obtain ⟨h1, _⟩ := log_bounds hz.ne'
    unfold roundTo
    rw [if_neg hz.ne']
    generalize Int.log 2 |z| = L at *
    rw [abs_of_pos hz] at h1
    have hu := two_pow_pos (L - ((p : Int) - 1))
    have e : (2 : ℚ) ^ L = (((2 : Int) ^ (p - 1) : Int) : ℚ) * 2 ^ (L - ((p : Int) - 1)) := by
      push_cast
      rw [← zpow_natCast, ← zpow_add₀ (by norm_num)]
      congr 1
      push_cast [Nat.cast_sub hp]
      ring
    rw [e]
    refine mul_le_mul_of_nonneg_right (Int.cast_le.2 ?_) hu.le
    have := roundEven_mono (x := (((2 : Int) ^ (p - 1) : Int) : ℚ)) (y := z / 2 ^ (L - ((p : Int) - 1)))
      (by rw [le_div_iff₀ hu, ← e]; exact h1)
    rwa [roundEven_int] at this
  have hi : ∀ z : ℚ, 0 < z → roundTo p z ≤ (2 : ℚ) ^ (Int.log 2 |z| + 1) := by
    intro z hz
    obtain ⟨_, h1⟩ := log_bounds hz.ne'
    unfold roundTo
    rw [if_neg hz.ne']
    generalize Int.log 2 |z| = L at *
    rw [abs_of_pos hz] at h1
    have hu := two_pow_pos (L - ((p : Int) - 1))
    have e : (2 : ℚ) ^ (L + 1) = (((2 : Int) ^ p : Int) : ℚ) * 2 ^ (L - ((p : Int) - 1)) := by
      push_cast
      rw [← zpow_natCast, ← zpow_add₀ (by norm_num)]
      congr 1
      ring
    rw [e]
    refine mul_le_mul_of_nonneg_right (Int.cast_le.2 ?_) hu.le
    have := roundEven_mono (y := (((2 : Int) ^ p : Int) : ℚ)) (x := z / 2 ^ (L - ((p : Int) - 1)))
      (by rw [div_le_iff₀ hu, ← e]; exact h1.le)
    rwa [roundEven_int] at this
  -- both positive
  have pos : ∀ a b : ℚ, 0 < a → a ≤ b → roundTo p a ≤ roundTo p b := by
    intro a b ha hab
    have hb := lt_of_lt_of_le ha hab
    have hlog : Int.log 2 |a| ≤ Int.log 2 |b| := by
      rw [abs_of_pos ha, abs_of_pos hb]
      exact Int.log_mono_right ha hab
    rcases lt_or_eq_of_le hlog with hl | hl
    · refine (hi a ha).trans (le_trans ?_ (lo b hb))
      exact zpow_le_zpow_right₀ (by norm_num) (by omega)
    · unfold roundTo
      rw [if_neg ha.ne', if_neg hb.ne', hl]
      refine mul_le_mul_of_nonneg_right (Int.cast_le.2 (roundEven_mono ?_)) (two_pow_pos _).le
      exact div_le_div_of_nonneg_right hab (two_pow_pos _).le
  have nonneg : ∀ z : ℚ, 0 ≤ z → 0 ≤ roundTo p z := by
    intro z hz
    rcases lt_or_eq_of_le hz with hz | hz
    · exact (two_pow_pos _).le.trans (lo z hz)
    · rw [← hz, roundTo_zero]
  have odd : ∀ z : ℚ, roundTo p (-z) = -roundTo p z := by
    intro z
    have hr : ∀ w : ℚ, roundEven (-w) = -roundEven w := by
      intro w
      have f1 := Int.floor_le w
      have f2 := Int.lt_floor_add_one w
      rcases lt_or_eq_of_le f1 with hlt | heq
      · have hfl : ⌊-w⌋ = -⌊w⌋ - 1 := by
          rw [Int.floor_eq_iff]
          push_cast
          constructor <;> linarith
        unfold roundEven
        rw [hfl]
        push_cast
        split_ifs <;> first | omega | (exfalso; linarith)
      · have e1 : roundEven w = ⌊w⌋ := by rw [← heq]; simp [roundEven_int]
        have e2 : -w = ((-⌊w⌋ : Int) : ℚ) := by push_cast; rw [heq]
        rw [e1, e2, roundEven_int]
    unfold roundTo
    by_cases hz : z = 0
    · simp [hz]
    · rw [if_neg hz, if_neg (neg_ne_zero.2 hz), abs_neg, neg_div, hr]
      push_cast
      ring
  rcases lt_trichotomy x 0 with hx | hx | hx
  · rcases lt_or_ge y 0 with hy | hy
    · have := pos (-y) (-x) (by linarith) (by linarith)
      rw [odd, odd] at this
      linarith
    · have h1 := nonneg (-x) (by linarith)
      rw [odd] at h1
      have h2 := nonneg y hy
      linarith
  · subst hx
    rw [roundTo_zero]
    exact nonneg y h
  · exact pos x y hx h

theorem roundTo_eq_zero {p : Nat} (hp : 1 ≤ p) {x : ℚ} : roundTo p x = 0 ↔ x = 0 := by
  constructor
  · intro h
    have h1 := roundTo_near p hp x
    rw [h, zero_sub, abs_neg] at h1
    by_contra hx
    have h0 := abs_pos.2 hx
    have h2 : (2 : ℚ) ≤ 2 ^ p := by
      calc (2 : ℚ) = 2 ^ 1 := by norm_num
        _ ≤ 2 ^ p := pow_le_pow_right₀ (by norm_num) hp
    rw [le_div_iff₀ (by positivity)] at h1
    nlinarith
  · rintro rfl; exact roundTo_zero p

theorem roundTo_nonneg {p : Nat} (hp : 1 ≤ p) {x : ℚ} : 0 ≤ roundTo p x ↔ 0 ≤ x := by
  constructor
  · intro h
    by_contra hx
    push Not at hx
    have h1 := roundTo_mono hp hx.le
    rw [roundTo_zero] at h1
    exact hx.ne ((roundTo_eq_zero hp).1 (le_antisymm h1 h))
  · intro h
    have := roundTo_mono hp h
    rwa [roundTo_zero] at this

theorem roundTo_neg_iff {p : Nat} (hp : 1 ≤ p) {x : ℚ} : roundTo p x < 0 ↔ x < 0 := by
  rw [← not_le, ← not_le, roundTo_nonneg hp]

/-- The result of rounding is the nearest number that fits. -/
theorem roundTo_nearest {p : Nat} (hp : 1 ≤ p) (x : ℚ) : Nearest p x (roundTo p x) := by
  refine ⟨roundTo_is_fit hp x, ?_⟩
  intro z hz
  by_cases hx : x = 0
  · subst hx
    rw [roundTo_zero]
    simp
  · obtain ⟨h1, _⟩ := scaled_bounds hp hx
    unfold roundTo
    rw [if_neg hx]
    generalize Int.log 2 |x| - ((p : Int) - 1) = u at *
    have hu := two_pow_pos u
    obtain ⟨m, e, hm, rfl⟩ := fits_small hp hz
    have ex : x = x / 2 ^ u * 2 ^ u := (div_mul_cancel₀ _ hu.ne').symm
    have goal : |((roundEven (x / 2 ^ u) : Int) : ℚ) - x / 2 ^ u| ≤ |(m : ℚ) * 2 ^ e / 2 ^ u - x / 2 ^ u| := by
      generalize x / 2 ^ u = y at *
      rcases le_or_gt u e with hue | hue
      · obtain ⟨n, hn⟩ := Int.eq_ofNat_of_zero_le (sub_nonneg.2 hue)
        have e1 : (m : ℚ) * 2 ^ e / 2 ^ u = ((m * 2 ^ n : Int) : ℚ) := by
          rw [mul_div_assoc, ← zpow_sub₀ (by norm_num), hn]
          push_cast
          rw [zpow_natCast]
        rw [e1]
        exact roundEven_best y _
      · have hz' : |(m : ℚ) * 2 ^ e / 2 ^ u| ≤ 2 ^ (p - 1) := by
          rw [abs_div, abs_of_pos hu, div_le_iff₀ hu, abs_mul, abs_of_pos (two_pow_pos e)]
          have h2 : |(m : ℚ)| ≤ 2 ^ p := by
            have : ((|m| : Int) : ℚ) ≤ ((2 ^ p : Int) : ℚ) := Int.cast_le.2 hm.le
            rw [Int.cast_abs] at this
            exact_mod_cast this
          refine (mul_le_mul_of_nonneg_right h2 (two_pow_pos e).le).trans ?_
          rw [← zpow_natCast, ← zpow_natCast (2 : ℚ) (p - 1), ← zpow_add₀ (by norm_num),
            ← zpow_add₀ (by norm_num)]
          refine zpow_le_zpow_right₀ (by norm_num) ?_
          push_cast [Nat.cast_sub hp]
          omega
        generalize (m : ℚ) * 2 ^ e / 2 ^ u = w at *
        have hw := abs_le.1 hz'
        rcases le_or_gt 0 y with hy | hy
        · rw [abs_of_nonneg hy] at h1
          refine (roundEven_best y (2 ^ (p - 1))).trans ?_
          push_cast
          rw [abs_of_nonpos (by linarith), abs_of_nonpos (by linarith)]
          linarith
        · rw [abs_of_neg hy] at h1
          refine (roundEven_best y (-2 ^ (p - 1))).trans ?_
          push_cast
          rw [abs_of_nonneg (by linarith), abs_of_nonneg (by linarith)]
          linarith
    have key := mul_le_mul_of_nonneg_right goal hu.le
    rw [← abs_of_pos hu, ← abs_mul, ← abs_mul, abs_of_pos hu, sub_mul, sub_mul, ← ex,
      div_mul_cancel₀ _ hu.ne'] at key
    exact key

/-! ## Numbers on a grid -/

theorem multiple_fits {s n : Int} {p : Nat} {x : ℚ} (hn : n ≤ 2 ^ p) (h : Multiple s n x) : Fits p x := by
  obtain ⟨m, hm, rfl⟩ := h
  exact ⟨m, s, hm.trans hn, rfl⟩

theorem multiple_round {s n : Int} {p : Nat} (hp : 1 ≤ p) {x : ℚ} (hn : n ≤ 2 ^ p) (h : Multiple s n x) :
    roundTo p x = x := roundTo_fits hp (multiple_fits hn h)

theorem multiple_sub {s n n' : Int} {x y : ℚ} (hx : Multiple s n x) (hy : Multiple s n' y) :
    Multiple s (n + n') (x - y) := by
  obtain ⟨m, hm, rfl⟩ := hx
  obtain ⟨m', hm', rfl⟩ := hy
  refine ⟨m - m', (abs_sub _ _).trans (by omega), by push_cast; ring⟩

theorem multiple_add {s n n' : Int} {x y : ℚ} (hx : Multiple s n x) (hy : Multiple s n' y) :
    Multiple s (n + n') (x + y) := by
  obtain ⟨m, hm, rfl⟩ := hx
  obtain ⟨m', hm', rfl⟩ := hy
  refine ⟨m + m', (abs_add_le _ _).trans (by omega), by push_cast; ring⟩

theorem multiple_mul {s t n n' : Int} {x y : ℚ} (hx : Multiple s n x) (hy : Multiple t n' y) :
    Multiple (s + t) (n * n') (x * y) := by
  obtain ⟨m, hm, rfl⟩ := hx
  obtain ⟨m', hm', rfl⟩ := hy
  refine ⟨m * m', ?_, ?_⟩
  · rw [abs_mul]
    exact mul_le_mul hm hm' (abs_nonneg _) ((abs_nonneg _).trans hm)
  · rw [zpow_add₀ (by norm_num)]; push_cast; ring

theorem multiple_neg {s n : Int} {x : ℚ} (hx : Multiple s n x) : Multiple s n (-x) := by
  obtain ⟨m, hm, rfl⟩ := hx
  exact ⟨-m, by rwa [abs_neg], by push_cast; ring⟩

theorem multiple_mono {s n n' : Int} {x : ℚ} (hx : Multiple s n x) (h : n ≤ n') : Multiple s n' x := by
  obtain ⟨m, hm, rfl⟩ := hx
  exact ⟨m, hm.trans h, rfl⟩

theorem sub_grid {s n n' : Int} {p : Nat} (hp : 1 ≤ p) {x y : ℚ} (hx : Multiple s n x) (hy : Multiple s n' y)
    (h : n + n' ≤ 2 ^ p) : sub p x y = x - y := multiple_round hp h (multiple_sub hx hy)

theorem add_grid {s n n' : Int} {p : Nat} (hp : 1 ≤ p) {x y : ℚ} (hx : Multiple s n x) (hy : Multiple s n' y)
    (h : n + n' ≤ 2 ^ p) : add p x y = x + y := multiple_round hp h (multiple_add hx hy)

theorem mul_grid {s t n n' : Int} {p : Nat} (hp : 1 ≤ p) {x y : ℚ} (hx : Multiple s n x) (hy : Multiple t n' y)
    (h : n * n' ≤ 2 ^ p) : mul p x y = x * y := multiple_round hp h (multiple_mul hx hy)

end Verif.Lemmas.Rounded
