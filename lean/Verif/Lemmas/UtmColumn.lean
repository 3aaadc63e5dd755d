import Verif.Lemmas.UtmProj

/-! Helper lemmas for the columns of NATO squares. -/

namespace Verif.Lemmas.Utm
open Verif.Utm Verif.Spec.Utm

/-- Columns counted from the central meridian: 0, 1, … to the east, -1, -2, … to the west. -/
def column (east : Bool) (a : Int) : Int := if east then a else -1 - a

theorem columnLetter_lt {n km km' : Int} {e e' : Bool} {c c' : Char} (hn : n.tmod 3 ≠ 0)
    (h : columnLetter n km e = some c) (h' : columnLetter n km' e' = some c')
    (hlt : column e |km.tdiv 100| < column e' |km'.tdiv 100|) : c < c' := by
  unfold columnLetter at h h'
  have a0 := abs_nonneg (km.tdiv 100)
  have b0 := abs_nonneg (km'.tdiv 100)
  generalize |km.tdiv 100| = a at *
  generalize |km'.tdiv 100| = b at *
  generalize n.tmod 3 = m at *
  have hm : m = 1 ∨ m = 2 := by
    by_contra hcon
    have : index lngDigraphZones m = none ∨ m = 0 := by
      by_cases h0 : m = 0
      · right; exact h0
      · left; rw [index_eq_none]
        have : (lngDigraphZones.length : Int) = 3 := rfl
        omega
    rcases this with h1 | h1
    · rw [h1] at h; simp at h
    · exact hn h1
  have bound : ∀ (m x : Int) (e : Bool) (c : Char), (m = 1 ∨ m = 2) → 0 ≤ x →
      (do let dZone ← index lngDigraphZones m
          let side ← index dZone (if e then 1 else 0)
          index side x) = some c → x < 4 := by
    intro m x e c hm hx h
    by_contra hcon
    rcases hm with rfl | rfl <;> cases e <;>
    · simp [index, lngDigraphZones] at h
      have := (List.getElem?_eq_some_iff.1 h.2).1
      simp at this
      omega
  have ha := bound m a e c hm a0 h
  have hb := bound m b e' c' hm b0 h'
  have key : ∀ m ∈ ([1, 2] : List Int), ∀ e e' : Bool, ∀ a ∈ ([0, 1, 2, 3] : List Int),
      ∀ b ∈ ([0, 1, 2, 3] : List Int), column e a < column e' b →
      ((do let dZone ← index lngDigraphZones m
           let side ← index dZone (if e then 1 else 0)
           index side a).getD 'A'
        < (do let dZone ← index lngDigraphZones m
              let side ← index dZone (if e' then 1 else 0)
              index side b).getD 'A') := by decide +kernel
  have := key m (by simpa using hm) e e' a (by simp; omega) b (by simp; omega) hlt
  rw [h, h'] at this
  exact this

theorem col_nonneg {x : ℝ} (hx : 0 ≤ x) : |(goInt x).tdiv 100| = goInt x / 100 := by
  have := (goInt_nonneg hx).2.2
  rw [Int.tdiv_eq_ediv_of_nonneg this, abs_of_nonneg (Int.ediv_nonneg this (by norm_num))]

theorem col_lt {x y : ℝ} (hx : 0 ≤ x) (hxy : x + 100 ≤ y) :
    |(goInt x).tdiv 100| < |(goInt y).tdiv 100| := by
  rw [col_nonneg hx, col_nonneg (by linarith)]
  obtain ⟨a, b, c⟩ := goInt_nonneg hx
  obtain ⟨a', b', c'⟩ := goInt_nonneg (by linarith : 0 ≤ y)
  have : (goInt x : ℝ) + 99 < goInt y := by linarith
  have h2 : goInt x + 99 < goInt y := by exact_mod_cast this
  have h3 : goInt x + 100 ≤ goInt y := by omega
  omega

theorem col_neg (x : ℝ) : |(goInt (-x)).tdiv 100| = |(goInt x).tdiv 100| := by
  rw [goInt_neg_eq, Int.neg_tdiv, abs_neg]

/-- Two distances, to the west of the central meridian, the first a hundred greater. -/
theorem column_lt {d d' : ℝ} {q : ℝ} (hq : 0 ≤ q) (h : 111 * d' * q + 100 ≤ 111 * d * q) :
    column (decide (d < 0)) |(goInt (111 * d * q)).tdiv 100|
      < column (decide (d' < 0)) |(goInt (111 * d' * q)).tdiv 100| := by
  unfold column
  have h0 := abs_nonneg ((goInt (111 * d * q)).tdiv 100)
  have h0' := abs_nonneg ((goInt (111 * d' * q)).tdiv 100)
  by_cases hd : d < 0
  · have hx : 111 * d * q ≤ 0 := by nlinarith
    have hd' : d' < 0 := by
      by_contra hcon
      have : 0 ≤ 111 * d' * q := mul_nonneg (by linarith) hq
      linarith
    have := col_lt (x := -(111 * d * q)) (y := -(111 * d' * q)) (by linarith) (by linarith)
    rw [col_neg, col_neg] at this
    simpa [hd, hd'] using this
  · by_cases hd' : d' < 0
    · simp only [hd, hd', decide_true, decide_false, if_true, Bool.false_eq_true, if_false]
      omega
    · have := col_lt (x := 111 * d' * q) (y := 111 * d * q)
        (mul_nonneg (by linarith) hq) h
      simp only [hd, hd', decide_false, Bool.false_eq_true, if_false]
      omega

theorem newDigraph_some {z : Zone} {l : LngLat ℝ} {a b : Char}
    (h : newDigraph z l = some (some (a, b))) :
    z.isValid = true ∧ columnLetter z.number
      (goInt (111 * (((6 * z.number - 183 : Int) : ℝ) - l.lng) * Real.cos (toRadian l.lat)))
      (decide (((6 * z.number - 183 : Int) : ℝ) - l.lng < 0)) = some a := by
  unfold newDigraph at h
  by_cases hv : z.isValid = true
  · refine ⟨hv, ?_⟩
    rw [hv, centralMeridian_eq hv] at h
    simp only [Bool.not_true, Bool.false_eq_true, if_false, Option.getD_some] at h
    cases hc : columnLetter z.number
      (goInt (111 * (((6 * z.number - 183 : Int) : ℝ) - l.lng) * Real.cos (toRadian l.lat)))
      (decide (((6 * z.number - 183 : Int) : ℝ) - l.lng < 0)) with
    | none => rw [hc] at h; simp at h
    | some c =>
      rw [hc] at h
      cases hr : rowLetter z (goInt |111 * l.lat|) with
      | none => rw [hr] at h; simp at h
      | some d => rw [hr] at h; simp at h; rw [h.1]
  · rw [Bool.not_eq_true] at hv
    rw [hv] at h
    simp at h

theorem fromLngLat_digraph {l : LngLat ℝ} {e : Ellipsoid} {c : Coord} {a b : Char}
    (h1 : -180 ≤ l.lng) (h2 : l.lng < 180) (h : fromLngLat l e = some (some c))
    (hd : c.digraph = some (a, b)) : newDigraph c.zone l = some (some (a, b)) := by
  unfold fromLngLat at h
  cases hz : newZone l with
  | none => rw [hz] at h; simp at h
  | some z =>
    rw [hz, normalizeLng_same h1 h2] at h
    unfold fromLngLatIn at h
    cases hn : e.natoCompatible with
    | false =>
      rw [hn] at h; simp at h; subst h; simp at hd
    | true =>
      rw [hn] at h
      simp at h
      obtain ⟨d, hd', rfl⟩ := h
      simp at hd
      subst hd
      exact hd'

/-- Places on the equator. -/
theorem equator_zone {x : ℝ} {n : Int} (h1 : 6 * (n : ℝ) - 186 ≤ x) (h2 : x < 6 * n - 180)
    (hn : 1 ≤ n) :
    zoneNumberFromLngLat (⟨x, 0⟩ : LngLat ℝ) = n ∧ newZone (⟨x, 0⟩ : LngLat ℝ) = some ⟨n, 'N'⟩ := by
  have hn' : (1 : ℝ) ≤ n := by exact_mod_cast hn
  have hz : zoneNumberFromLngLat (⟨x, 0⟩ : LngLat ℝ) = n := by
    rw [zone_eq_strip (by norm_num) (fun h => by norm_num [Norway] at h)
      (fun h => by norm_num at h)]
    apply strip_unique (lng := x) (strip_goInt (by linarith))
    unfold Strip
    constructor <;> linarith
  refine ⟨hz, ?_⟩
  unfold newZone
  rw [letter_of_band (i := 10) (c := 'N') rfl (by unfold InBand; norm_num), hz]
  rfl

/-- The square of a place on the equator, east of the central meridian of its zone. -/
theorem equator_square {x : ℝ} {n k : Int} (hv : (⟨n, 'N'⟩ : Zone).isValid = true)
    (h1 : 6 * (n : ℝ) - 183 < x) (h2 : x < 6 * n - 180)
    (hk : ⌊111 * (x - (6 * n - 183))⌋ = k) {ch row : Char}
    (hch : columnLetter n (-k) true = some ch) (hrow : rowLetter ⟨n, 'N'⟩ 0 = some row)
    (e : Ellipsoid) (he : e.natoCompatible = true) :
    ∃ c, fromLngLat (⟨x, 0⟩ : LngLat ℝ) e = some (some c) ∧ c.zone = ⟨n, 'N'⟩
      ∧ c.digraph = some (ch, row) := by
  have hn : 1 ≤ n ∧ n ≤ 60 := by simp [Zone.isValid] at hv; omega
  have hn1 : (1 : ℝ) ≤ n := by exact_mod_cast hn.1
  have hn2 : (n : ℝ) ≤ 60 := by exact_mod_cast hn.2
  obtain ⟨-, hz⟩ := equator_zone (by linarith) h2 hn.1
  unfold fromLngLat fromLngLatIn
  rw [hz, normalizeLng_same (by simp only; linarith) (by simp only; linarith)]
  have hd : newDigraph ⟨n, 'N'⟩ (⟨x, 0⟩ : LngLat ℝ) = some (some (ch, row)) := by
    unfold newDigraph
    rw [hv, centralMeridian_eq hv]
    simp only [Bool.not_true, Bool.false_eq_true, if_false, Option.getD_some]
    have e1 : (((6 * n - 183 : Int) : ℝ) - x) = -(x - (6 * n - 183)) := by push_cast; ring
    simp only [e1]
    have e2 : Real.cos (toRadian 0) = 1 := by unfold toRadian; simp
    rw [e2, mul_one, mul_neg, goInt_neg_eq]
    have e3 : goInt (111 * (x - (6 * n - 183))) = k := by
      unfold goInt
      rw [if_pos (by apply mul_nonneg <;> linarith), hk]
    rw [e3, decide_eq_true (by linarith : -(x - (6 * n - 183)) < 0), hch]
    have e4 : goInt |111 * (0 : ℝ)| = 0 := by simp [goInt]
    rw [e4, hrow]
  simp only [hd, he, if_true, Option.map_some]
  exact ⟨_, rfl, rfl, rfl⟩

end Verif.Lemmas.Utm
