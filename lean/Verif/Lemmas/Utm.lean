import Verif.Model.Utm
import Verif.Spec.Utm
import Mathlib.Tactic.Linarith
import Mathlib.Tactic.NormNum
import Mathlib.Tactic.Ring
import Mathlib.Tactic.FieldSimp
import Mathlib.Tactic.Positivity
import Mathlib.Tactic.LinearCombination
import Mathlib.Tactic.IntervalCases
import Mathlib.Analysis.Real.Pi.Bounds

/-! Helper lemmas for the UTM properties. -/

set_option linter.unusedSectionVars false

namespace Verif.Lemmas.Utm
open Verif.Utm Verif.Spec.Utm
variable {K : Type} [Field K] [LinearOrder K] [IsStrictOrderedRing K] [FloorRing K]

theorem goInt_nonneg {f : K} (h : 0 ≤ f) : (goInt f : K) ≤ f ∧ f < goInt f + 1 ∧ 0 ≤ goInt f := by
  unfold goInt
  rw [if_pos h]
  exact ⟨Int.floor_le f, Int.lt_floor_add_one f, Int.floor_nonneg.2 h⟩

theorem goInt_neg {f : K} (h : f < 0) : f ≤ goInt f ∧ (goInt f : K) < f + 1 ∧ goInt f ≤ 0 := by
  unfold goInt
  rw [if_neg (not_le.2 h)]
  exact ⟨Int.le_ceil f, Int.ceil_lt_add_one f, Int.ceil_le.2 (by exact_mod_cast h.le)⟩

theorem goInt_int (n : Int) : goInt (n : K) = n := by
  unfold goInt; split <;> simp

/-- Zone numbers of the sixty strips. -/
theorem strip_unique {n m : Int} {lng : K} (h : Strip n lng) (h' : Strip m lng) : n = m := by
  obtain ⟨a, b⟩ := h
  obtain ⟨c, d⟩ := h'
  have h1 : (n : K) < m + 1 := by linarith
  have h2 : (m : K) < n + 1 := by linarith
  have h1' : n < m + 1 := by exact_mod_cast h1
  have h2' : m < n + 1 := by exact_mod_cast h2
  omega

theorem strip_goInt {lng : K} (h : -180 ≤ lng) : Strip (goInt ((lng + 180) / 6) + 1) lng := by
  have hx : 0 ≤ (lng + 180) / 6 := by
    apply div_nonneg <;> linarith
  obtain ⟨a, b, c⟩ := goInt_nonneg hx
  rw [le_div_iff₀ (by norm_num)] at a
  rw [div_lt_iff₀ (by norm_num)] at b
  unfold Strip
  push_cast
  constructor <;> linarith

theorem zone_eq_strip {l : LngLat K} (hlat : l.lat ≤ 84) (h1 : ¬ Norway l.lng l.lat)
    (h2 : ¬ (72 ≤ l.lat ∧ l.lat < 84 ∧ 0 ≤ l.lng ∧ l.lng < 42)) :
    zoneNumberFromLngLat l = goInt ((l.lng + 180) / 6) + 1 := by
  unfold Norway at h1
  unfold zoneNumberFromLngLat
  simp only
  have a1 : ¬ ((84 < l.lat ∧ l.lat < 90) ∨ (-80 < l.lat ∧ l.lat < -90)) := by
    rintro (⟨h, _⟩ | ⟨h, h'⟩) <;> linarith
  rw [if_neg a1, if_neg h1]
  rw [if_neg (fun h => h2 ⟨h.1, h.2.1, h.2.2.1, by linarith [h.2.2.2]⟩)]
  rw [if_neg (fun h => h2 ⟨h.1, h.2.1, by linarith [h.2.2.1], by linarith [h.2.2.2]⟩)]
  rw [if_neg (fun h => h2 ⟨h.1, h.2.1, by linarith [h.2.2.1], by linarith [h.2.2.2]⟩)]
  rw [if_neg (fun h => h2 ⟨h.1, h.2.1, by linarith [h.2.2.1], by linarith [h.2.2.2]⟩)]

theorem zone_norway {l : LngLat K} (h : Norway l.lng l.lat) : zoneNumberFromLngLat l = 32 := by
  unfold Norway at h
  unfold zoneNumberFromLngLat
  simp only
  have a1 : ¬ ((84 < l.lat ∧ l.lat < 90) ∨ (-80 < l.lat ∧ l.lat < -90)) := by
    have := h.2.1
    rintro (⟨h, _⟩ | ⟨h, h'⟩) <;> linarith
  rw [if_neg a1, if_pos h]

theorem zone_svalbard {l : LngLat K} (h1 : 72 ≤ l.lat) (h2 : l.lat < 84) (h3 : 0 ≤ l.lng)
    (h4 : l.lng < 42) :
    (l.lng < 9 → zoneNumberFromLngLat l = 31) ∧ (9 ≤ l.lng ∧ l.lng < 21 → zoneNumberFromLngLat l = 33)
      ∧ (21 ≤ l.lng ∧ l.lng < 33 → zoneNumberFromLngLat l = 35)
      ∧ (33 ≤ l.lng → zoneNumberFromLngLat l = 37) := by
  unfold zoneNumberFromLngLat
  simp only
  have a1 : ¬ ((84 < l.lat ∧ l.lat < 90) ∨ (-80 < l.lat ∧ l.lat < -90)) := by
    rintro (⟨h, _⟩ | ⟨h, h'⟩) <;> linarith
  have a2 : ¬ (56 ≤ l.lat ∧ l.lat < 64 ∧ 3 ≤ l.lng ∧ l.lng < 12) := fun h => by
    linarith [h.2.1]
  rw [if_neg a1, if_neg a2]
  refine ⟨fun h => ?_, fun h => ?_, fun h => ?_, fun h => ?_⟩
  · rw [if_pos ⟨h1, h2, h3, h⟩]
  · rw [if_neg (fun q => by linarith [q.2.2.2, h.1]), if_pos ⟨h1, h2, h⟩]
  · rw [if_neg (fun q => by linarith [q.2.2.2, h.1]), if_neg (fun q => by linarith [q.2.2.2, h.1]),
      if_pos ⟨h1, h2, h⟩]
  · rw [if_neg (fun q => by linarith [q.2.2.2, h]), if_neg (fun q => by linarith [q.2.2.2, h]),
      if_neg (fun q => by linarith [q.2.2.2, h]), if_pos ⟨h1, h2, h, h4⟩]

/-- The centre of a zone. -/
theorem centralMeridian_eq {z : Zone} (hz : z.isValid = true) :
    centralMeridian z = some (some (6 * z.number - 183)) := by
  obtain ⟨n, c⟩ := z
  unfold centralMeridian
  rw [hz]
  simp only [Zone.isValid, Bool.and_eq_true, decide_eq_true_eq] at hz
  obtain ⟨⟨-, h1⟩, h2⟩ := hz
  interval_cases n <;> rfl


theorem letter_of_band {lat : K} {i : Nat} {c : Char} (hi : bands[i]? = some c)
    (h : InBand i lat) : zoneLetterForLat lat = some c := by
  have hl : i < 20 := by
    obtain ⟨hh, -⟩ := List.getElem?_eq_some_iff.1 hi
    exact hh
  obtain ⟨a, b, d⟩ := h
  unfold zoneLetterForLat
  interval_cases i <;>
    (simp [bands] at hi; subst hi; norm_num at a b;
     repeat rw [if_neg (by rintro ⟨_, _⟩; linarith)]
     rw [if_pos ⟨by linarith, by linarith⟩])

theorem exists_band {lat : K} (h1 : -80 ≤ lat) (h2 : lat ≤ 84) :
    ∃ (i : Nat) (c : Char), bands[i]? = some c ∧ InBand i lat := by
  have hx : 0 ≤ (lat + 80) / 8 := by apply div_nonneg <;> linarith
  have hf := Int.floor_nonneg.2 hx
  obtain ⟨n, hn⟩ := Int.eq_ofNat_of_zero_le hf
  have a := Int.floor_le ((lat + 80) / 8)
  have b := Int.lt_floor_add_one ((lat + 80) / 8)
  rw [hn] at a b
  rw [le_div_iff₀ (by norm_num)] at a
  rw [div_lt_iff₀ (by norm_num)] at b
  push_cast at a b
  have hb : ∀ j, j < 20 → ∃ c, bands[j]? = some c := by
    intro j hj
    exact ⟨_, List.getElem?_eq_getElem (by simpa [bands] using hj)⟩
  rcases Nat.lt_or_ge n 19 with hlt | hge
  · obtain ⟨c, hc⟩ := hb n (by omega)
    exact ⟨n, c, hc, by linarith, fun _ => by linarith, h2⟩
  · obtain ⟨c, hc⟩ := hb 19 (by omega)
    refine ⟨19, c, hc, ?_, fun h => absurd h (by omega), h2⟩
    have : ((19 : Nat) : K) ≤ n := by exact_mod_cast hge
    push_cast at this ⊢
    linarith

theorem letter_none {lat : K} (h : lat < -80 ∨ 84 < lat) : zoneLetterForLat lat = none := by
  unfold zoneLetterForLat
  rcases h with h | h <;>
  · repeat rw [if_neg (by rintro ⟨_, _⟩; linarith)]

theorem letter_iff {lat : K} {c : Char} :
    zoneLetterForLat lat = some c ↔ ∃ i : Nat, bands[i]? = some c ∧ InBand i lat := by
  constructor
  · intro h
    by_cases hr : -80 ≤ lat ∧ lat ≤ 84
    · obtain ⟨i, d, hd, hb⟩ := exists_band hr.1 hr.2
      rw [letter_of_band hd hb] at h
      injection h with h
      exact ⟨i, h ▸ hd, hb⟩
    · rw [letter_none (by rcases not_and_or.1 hr with h | h <;> [left; right] <;> linarith)] at h
      exact absurd h (by simp)
  · rintro ⟨i, hi, hb⟩
    exact letter_of_band hi hb

end Verif.Lemmas.Utm
