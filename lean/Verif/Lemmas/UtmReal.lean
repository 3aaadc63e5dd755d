import Verif.Lemmas.Utm
import Mathlib.Analysis.SpecialFunctions.Trigonometric.Deriv

/-! Helper lemmas for degrees, NATO squares and the projection. -/

set_option linter.unusedSectionVars false

namespace Verif.Lemmas.Utm
open Verif.Utm Verif.Spec.Utm

section field
variable {K : Type} [Field K] [LinearOrder K] [IsStrictOrderedRing K] [FloorRing K]

theorem goInt_neg_eq (f : K) : goInt (-f) = - goInt f := by
  unfold goInt
  rcases lt_trichotomy f 0 with h | h | h
  · rw [if_pos (by linarith), if_neg (by linarith), Int.floor_neg]
  · subst h; simp
  · rw [if_neg (by linarith), if_pos h.le, Int.ceil_neg]

theorem toDMS_neg (v : K) : toDMS (-v) = toDMS v := by
  have h1 : -v - ((-goInt v : Int) : K) = -(v - goInt v) := by push_cast; ring
  unfold toDMS
  simp only [goInt_neg_eq]
  rw [h1, mul_neg, goInt_neg_eq]
  have h2 : -(60 * (v - (goInt v : K))) - ((-goInt (60 * (v - (goInt v : K))) : Int) : K)
      = -(60 * (v - goInt v) - goInt (60 * (v - (goInt v : K)))) := by push_cast; ring
  rw [h2, mul_neg, abs_neg, abs_neg, abs_neg]

theorem toDMS_nonneg {v : K} (h : 0 ≤ v) :
    0 ≤ (toDMS v).1 ∧ 0 ≤ (toDMS v).2.1 ∧ (toDMS v).2.1 < 60 ∧ 0 ≤ (toDMS v).2.2
      ∧ (toDMS v).2.2 < 60
      ∧ v = ((toDMS v).1 : K) + ((toDMS v).2.1 : K) / 60 + (toDMS v).2.2 / 3600 := by
  obtain ⟨a, b, c⟩ := goInt_nonneg h
  have hf : 0 ≤ 60 * (v - (goInt v : K)) := by
    apply mul_nonneg <;> linarith
  obtain ⟨a', b', c'⟩ := goInt_nonneg hf
  have hm : goInt (60 * (v - (goInt v : K))) < 60 := by
    have : (goInt (60 * (v - (goInt v : K))) : K) < 60 := by linarith
    exact_mod_cast this
  have hs : 0 ≤ 60 * (60 * (v - (goInt v : K)) - goInt (60 * (v - (goInt v : K)))) := by
    apply mul_nonneg <;> linarith
  unfold toDMS
  simp only
  rw [abs_of_nonneg c, abs_of_nonneg c', abs_of_nonneg hs]
  refine ⟨c, c', hm, hs, by linarith, by ring⟩

theorem written {v : K} {p n : Char} :
    Written v (toDMS v).1 (toDMS v).2.1 (toDMS v).2.2 (if v < 0 then n else p) p n := by
  rcases lt_or_ge v 0 with h | h
  · obtain ⟨a, b, c, d, e, f⟩ := toDMS_nonneg (v := -v) (by linarith)
    rw [toDMS_neg] at a b c d e f
    refine ⟨a, b, c, d, e, Or.inr ⟨if_pos h, h, by linarith⟩⟩
  · obtain ⟨a, b, c, d, e, f⟩ := toDMS_nonneg h
    exact ⟨a, b, c, d, e, Or.inl ⟨if_neg (not_lt.2 h), h, f⟩⟩

theorem normalizeLng_same {l : LngLat K} (h : -180 ≤ l.lng) (h' : l.lng < 180) :
    normalizeLng l = l := by
  have hx : 0 ≤ (l.lng + 180) / 360 := by apply div_nonneg <;> linarith
  have hy : (l.lng + 180) / 360 < 1 := by
    rw [div_lt_one (by norm_num)]; linarith
  have : goInt ((l.lng + 180) / 360) = 0 := by
    unfold goInt
    rw [if_pos hx, Int.floor_eq_iff]
    constructor <;> push_cast <;> linarith
  unfold normalizeLng
  rw [this]
  simp

/-- How far a place is from the middle of its zone. -/
theorem zone_width {l : LngLat K} (h1 : -180 ≤ l.lng) (h2 : l.lng < 180) (hlat : l.lat ≤ 84) :
    let n := zoneNumberFromLngLat l
    1 ≤ n ∧ n ≤ 60 ∧ |l.lng - (6 * n - 183)| ≤ 6
      ∧ (l.lat < 56 → |l.lng - (6 * n - 183)| ≤ 3) := by
  simp only
  by_cases hN : Norway l.lng l.lat
  · rw [zone_norway hN]
    obtain ⟨a, b, c, d⟩ := hN
    refine ⟨by norm_num, by norm_num, ?_, fun h => by linarith⟩
    rw [abs_le]; push_cast; constructor <;> linarith
  by_cases hS : 72 ≤ l.lat ∧ l.lat < 84 ∧ 0 ≤ l.lng ∧ l.lng < 42
  · obtain ⟨a, b, c, d⟩ := hS
    obtain ⟨z1, z2, z3, z4⟩ := zone_svalbard a b c d
    rcases lt_or_ge l.lng 9 with h9 | h9
    · rw [z1 h9]
      refine ⟨by norm_num, by norm_num, ?_, fun h => by linarith⟩
      rw [abs_le]; push_cast; constructor <;> linarith
    rcases lt_or_ge l.lng 21 with h21 | h21
    · rw [z2 ⟨h9, h21⟩]
      refine ⟨by norm_num, by norm_num, ?_, fun h => by linarith⟩
      rw [abs_le]; push_cast; constructor <;> linarith
    rcases lt_or_ge l.lng 33 with h33 | h33
    · rw [z3 ⟨h21, h33⟩]
      refine ⟨by norm_num, by norm_num, ?_, fun h => by linarith⟩
      rw [abs_le]; push_cast; constructor <;> linarith
    · rw [z4 h33]
      refine ⟨by norm_num, by norm_num, ?_, fun h => by linarith⟩
      rw [abs_le]; push_cast; constructor <;> linarith
  · rw [zone_eq_strip hlat hN hS]
    obtain ⟨a, b⟩ := strip_goInt h1
    generalize goInt ((l.lng + 180) / 6) + 1 = n at a b
    have hn1 : (0 : K) < n := by linarith
    have hn2 : (n : K) < 61 := by linarith
    have hn1' : 0 < n := by exact_mod_cast hn1
    have hn2' : n < 61 := by exact_mod_cast hn2
    have hw : |l.lng - (6 * n - 183)| ≤ 3 := by
      rw [abs_le]; constructor <;> linarith
    exact ⟨by omega, by omega, by linarith, fun _ => hw⟩

theorem isZone_of {l : LngLat K} (h1 : -180 ≤ l.lng) (hlat : l.lat < 84) :
    IsZone (zoneNumberFromLngLat l) l.lng l.lat := by
  refine ⟨zone_norway, fun h => zone_svalbard h.1 hlat h.2.2.1 h.2.2.2, fun hN hS => ?_⟩
  rw [zone_eq_strip hlat.le hN (fun h => hS ⟨h.1, hlat.le, h.2.2.1, h.2.2.2⟩)]
  exact strip_goInt h1

end field

theorem abs_goInt_le (x : ℝ) : |(goInt x : ℝ)| ≤ |x| := by
  rcases lt_or_ge x 0 with h | h
  · obtain ⟨a, b, c⟩ := goInt_neg h
    have c' : (goInt x : ℝ) ≤ 0 := by exact_mod_cast c
    rw [abs_of_nonpos c', abs_of_neg h]; linarith
  · obtain ⟨a, b, c⟩ := goInt_nonneg h
    have c' : 0 ≤ (goInt x : ℝ) := by exact_mod_cast c
    rw [abs_of_nonneg c', abs_of_nonneg h]; exact a

/-! ## NATO squares -/

theorem index_eq_none {A : Type} {l : List A} {i : Int} :
    index l i = none ↔ i < 0 ∨ (l.length : Int) ≤ i := by
  unfold index
  split
  · simp [*]
  · rw [List.getElem?_eq_none_iff]; omega

theorem column_isSome {n km : Int} {e : Bool} (hn : 1 ≤ n) (hk : |km| < 400) :
    ∃ c, columnLetter n km e = some c := by
  have h3 : n.tmod 3 = 0 ∨ n.tmod 3 = 1 ∨ n.tmod 3 = 2 := by
    have := Int.tmod_lt_of_pos n (b := 3) (by norm_num)
    have := Int.tmod_nonneg (a := n) 3 (by omega)
    omega
  have hk' : |km.tdiv 100| = 0 ∨ |km.tdiv 100| = 1 ∨ |km.tdiv 100| = 2 ∨ |km.tdiv 100| = 3 := by
    rw [abs_lt] at hk
    have e1 := Int.mul_tdiv_add_tmod km 100
    rcases le_total 0 km with h | h
    · have := Int.tmod_lt_of_pos km (b := 100) (by norm_num)
      have := Int.tmod_nonneg (a := km) 100 h
      rw [abs_of_nonneg (by omega)]; omega
    · have e2 := Int.neg_tdiv km 100
      have e3 := Int.neg_tmod km 100
      have := Int.tmod_lt_of_pos (-km) (b := 100) (by norm_num)
      have := Int.tmod_nonneg (a := -km) 100 (by omega)
      rw [abs_of_nonpos (by omega)]; omega
  unfold columnLetter
  rcases h3 with h | h | h <;> rcases hk' with g | g | g | g <;> cases e <;> rw [h, g] <;>
    exact ⟨_, rfl⟩

theorem row_none {z : Zone} {km : Int} (hz : 1 ≤ z.number) (hk : 0 ≤ km) :
    rowLetter z km = none ↔ km % 2000 = 0 ∧ (z.isNorthern = true ↔ z.number % 2 = 1) := by
  have hm0 := Int.emod_nonneg km (b := 2000) (by norm_num)
  have hm1 := Int.emod_lt_of_pos km (b := 2000) (by norm_num)
  unfold rowLetter
  rw [Int.tmod_eq_emod_of_nonneg hk, Int.tmod_eq_emod_of_nonneg (by omega)]
  generalize km % 2000 = m at *
  have hq : 0 ≤ ((m : Int) : ℚ) / 100 := by
    have : (0 : ℚ) ≤ m := by exact_mod_cast hm0
    positivity
  have hc0 : 0 ≤ ⌈((m : Int) : ℚ) / 100⌉ := Int.ceil_nonneg hq
  have hc1 : ⌈((m : Int) : ℚ) / 100⌉ ≤ 20 := by
    rw [Int.ceil_le, div_le_iff₀ (by norm_num)]
    have : m ≤ 2000 := by omega
    have : (m : ℚ) ≤ 2000 := by exact_mod_cast this
    push_cast; linarith
  have hc2 : ⌈((m : Int) : ℚ) / 100⌉ = 0 ↔ m = 0 := by
    rw [Int.ceil_eq_zero_iff]
    constructor
    · rintro ⟨-, h⟩
      rw [div_le_iff₀ (by norm_num)] at h
      have : (m : ℚ) ≤ 0 := by linarith
      have : m ≤ 0 := by exact_mod_cast this
      omega
    · rintro rfl; simp
  simp only [abs_of_nonneg hc0]
  generalize ⌈((m : Int) : ℚ) / 100⌉ = c at *
  rw [index_eq_none]
  have hlen : (latDigraphZones.length : Int) = 25 := rfl
  rw [hlen]
  cases z.isNorthern <;> simp <;> split <;> omega

/-- `cos` of 56 degrees and more. -/
theorem cos_north {lat : ℝ} (h : 56 ≤ lat) (h' : lat ≤ 84) : Real.cos (toRadian lat) ≤ 0.6 := by
  have hp := Real.pi_gt_d2
  have hp' := Real.pi_lt_d2
  have hx0 : (0.976 : ℝ) ≤ toRadian 56 := by unfold toRadian; linarith
  have hx1 : toRadian 56 ≤ 1 := by unfold toRadian; linarith
  have h1 : Real.cos (toRadian lat) ≤ Real.cos (toRadian 56) := by
    apply Real.cos_le_cos_of_nonneg_of_le_pi
    · linarith
    · unfold toRadian; rw [div_le_iff₀ (by norm_num)]; nlinarith
    · unfold toRadian
      have : 56 * Real.pi ≤ lat * Real.pi := by nlinarith
      linarith
  have h2 := Real.cos_bound (x := toRadian 56) (by rw [abs_of_nonneg (by linarith)]; exact hx1)
  rw [abs_le] at h2
  have h3 := h2.2
  rw [abs_of_nonneg (by linarith : (0 : ℝ) ≤ toRadian 56)] at h3
  generalize toRadian 56 = x at *
  have h4 : x ^ 4 ≤ 1 := pow_le_one₀ (by linarith) hx1
  have h5 : (0.976 : ℝ) ^ 2 ≤ x ^ 2 := by
    apply pow_le_pow_left₀ (by norm_num) hx0
  norm_num at h5 ⊢
  linarith

theorem cos_nonneg_lat {lat : ℝ} (h : -80 ≤ lat) (h' : lat ≤ 84) :
    0 ≤ Real.cos (toRadian lat) := by
  apply Real.cos_nonneg_of_neg_pi_div_two_le_of_le
  · unfold toRadian; have := Real.pi_pos
    have : -80 * Real.pi ≤ lat * Real.pi := by nlinarith
    linarith
  · unfold toRadian; have := Real.pi_pos
    have : lat * Real.pi ≤ 84 * Real.pi := by nlinarith
    linarith

theorem km_small {l : LngLat ℝ} (h1 : -180 ≤ l.lng) (h2 : l.lng < 180) (h3 : -80 ≤ l.lat)
    (h4 : l.lat ≤ 84) :
    |goInt (111 * (((6 * zoneNumberFromLngLat l - 183 : Int) : ℝ) - l.lng)
      * Real.cos (toRadian l.lat))| < 400 := by
  obtain ⟨-, -, hw, hw'⟩ := zone_width h1 h2 h4
  generalize zoneNumberFromLngLat l = n at *
  have hc0 := cos_nonneg_lat h3 h4
  have hc1 := Real.cos_le_one (toRadian l.lat)
  have key : |111 * (((6 * n - 183 : Int) : ℝ) - l.lng) * Real.cos (toRadian l.lat)| < 400 := by
    rw [abs_mul, abs_mul, abs_of_nonneg hc0]
    have e : |(((6 * n - 183 : Int) : ℝ) - l.lng)| = |l.lng - (6 * n - 183)| := by
      rw [abs_sub_comm]; push_cast; rfl
    rw [e]
    have hd := abs_nonneg (l.lng - (6 * (n : ℝ) - 183))
    generalize |l.lng - (6 * (n : ℝ) - 183)| = d at *
    rw [abs_of_pos (by norm_num : (0 : ℝ) < 111)]
    rcases lt_or_ge l.lat 56 with h | h
    · have := hw' h
      nlinarith
    · have := cos_north h h4
      nlinarith
  have h6 := abs_goInt_le (111 * (((6 * n - 183 : Int) : ℝ) - l.lng) * Real.cos (toRadian l.lat))
  have h7 := lt_of_le_of_lt h6 key
  exact_mod_cast h7

theorem bands_valid {i : Nat} {c : Char} (h : bands[i]? = some c) :
    letterIsValid c = true ∧ (letterIsNorthern c = true ↔ 10 ≤ i) := by
  have hl : i < 20 := by
    obtain ⟨hh, -⟩ := List.getElem?_eq_some_iff.1 h
    exact hh
  interval_cases i <;> (simp [bands] at h; subst h; decide)

theorem newZone_spec {K : Type} [Field K] [LinearOrder K] [IsStrictOrderedRing K] [FloorRing K]
    {l : LngLat K} (h1 : -180 ≤ l.lng) (h2 : l.lng < 180) (h3 : -80 ≤ l.lat) (h4 : l.lat ≤ 84) :
    ∃ z, newZone l = some z ∧ z.isValid = true ∧ z.number = zoneNumberFromLngLat l
      ∧ (z.isNorthern = true ↔ 0 ≤ l.lat) := by
  obtain ⟨i, c, hc, hb⟩ := exists_band h3 h4
  obtain ⟨v1, v2⟩ := bands_valid hc
  obtain ⟨n1, n2, -, -⟩ := zone_width h1 h2 h4
  refine ⟨⟨zoneNumberFromLngLat l, c⟩, ?_, ?_, rfl, ?_⟩
  · unfold newZone
    rw [letter_of_band hc hb]; rfl
  · unfold Zone.isValid
    simp [v1, n1, n2]
  · unfold Zone.isNorthern
    simp only
    rw [v2]
    obtain ⟨a, b, d⟩ := hb
    constructor
    · intro h
      have : ((10 : Nat) : K) ≤ i := by exact_mod_cast h
      push_cast at this; linarith
    · intro h
      by_contra hlt
      have := b (by omega)
      have h9 : i + 1 ≤ 10 := by omega
      have h9' : (i : K) + 1 ≤ 10 := by exact_mod_cast h9
      linarith

/-- When the NATO square cannot be named. -/
theorem newDigraph_none {l : LngLat ℝ} {z : Zone} (h1 : -180 ≤ l.lng) (h2 : l.lng < 180)
    (h3 : -80 ≤ l.lat) (h4 : l.lat ≤ 84) (hz : newZone l = some z) :
    newDigraph z l = none ↔
      ⌊111 * |l.lat|⌋ % 2000 = 0 ∧ (0 ≤ l.lat ↔ z.number % 2 = 1) := by
  obtain ⟨z', hz', hv, hnum, hnor⟩ := newZone_spec h1 h2 h3 h4
  rw [hz] at hz'
  injection hz' with hz'
  subst hz'
  obtain ⟨n1, n2, -, -⟩ := zone_width h1 h2 h4
  rw [← hnum] at n1 n2
  unfold newDigraph
  rw [hv, centralMeridian_eq hv]
  simp only [Bool.not_true, Bool.false_eq_true, if_false, Option.getD_some]
  have hk := km_small h1 h2 h3 h4
  rw [← hnum] at hk
  obtain ⟨c, hc⟩ := column_isSome (e := decide (((6 * z.number - 183 : Int) : ℝ) - l.lng < 0))
    n1 hk
  rw [hc]
  have hg : goInt |111 * l.lat| = ⌊111 * |l.lat|⌋ := by
    unfold goInt
    rw [if_pos (abs_nonneg _), abs_mul]
    simp
  have hr := row_none (z := z) (km := goInt |111 * l.lat|) n1
    (goInt_nonneg (abs_nonneg _)).2.2
  rw [hnor, hg] at hr
  rw [hg, ← hr]
  cases rowLetter z ⌊111 * |l.lat|⌋ <;> simp

end Verif.Lemmas.Utm
