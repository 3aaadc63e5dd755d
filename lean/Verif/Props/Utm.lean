import Verif.Lemmas.UtmColumn

/-!
# UTM zones, degrees and the projection (planar/coord, planar/coord/utm)
-/

set_option linter.unusedSectionVars false

namespace Verif.Props
open Verif.Utm Verif.Spec.Utm Verif.Lemmas.Utm

section zones
variable {K : Type} [Field K] [LinearOrder K] [IsStrictOrderedRing K] [FloorRing K]

/-- C49: every place between the antimeridian and itself, from 80 south to 84 north, gets the
zone the UTM grid gives it: a number from 1 to 60, with its central meridian at most 6 degrees
away (3 degrees south of the exceptions that start at 56 north), and the letter of its band. -/
def C49_full (K : Type) [Field K] [LinearOrder K] [FloorRing K] : Prop :=
  ∀ l : LngLat K, -180 ≤ l.lng → l.lng ≤ 180 → -80 ≤ l.lat → l.lat ≤ 84 →
    ∃ z, newZone l = some z ∧ 1 ≤ z.number ∧ z.number ≤ 60
      ∧ IsZone z.number l.lng l.lat
      ∧ (∃ cm : Int, centralMeridian z = some (some cm) ∧ |l.lng - (cm : K)| ≤ 6
          ∧ (l.lat < 56 → |l.lng - (cm : K)| ≤ 3))
      ∧ z.isValid = true ∧ ∃ i : Nat, bands[i]? = some z.letter ∧ InBand i l.lat

/-- C49 without the edges: all longitudes but 180, all latitudes but 84 itself. -/
theorem C49_zone_partial (l : LngLat K) (h1 : -180 ≤ l.lng) (h2 : l.lng < 180)
    (h3 : -80 ≤ l.lat) (h4 : l.lat < 84) :
    ∃ z, newZone l = some z ∧ 1 ≤ z.number ∧ z.number ≤ 60
      ∧ IsZone z.number l.lng l.lat
      ∧ (∃ cm : Int, centralMeridian z = some (some cm) ∧ |l.lng - (cm : K)| ≤ 6
          ∧ (l.lat < 56 → |l.lng - (cm : K)| ≤ 3))
      ∧ z.isValid = true ∧ ∃ i : Nat, bands[i]? = some z.letter ∧ InBand i l.lat := by
  obtain ⟨z, hz, hv, hn, -⟩ := newZone_spec h1 h2 h3 h4.le
  obtain ⟨a, b, c, d⟩ := zone_width h1 h2 h4.le
  refine ⟨z, hz, hn ▸ a, hn ▸ b, hn ▸ isZone_of h1 h4, ?_, hv, ?_⟩
  · refine ⟨_, centralMeridian_eq hv, ?_, ?_⟩
    · rw [hn]; push_cast; exact c
    · rw [hn]; push_cast; exact d
  · unfold newZone at hz
    cases hl : zoneLetterForLat l.lat with
    | none => rw [hl] at hz; simp at hz
    | some ch =>
      rw [hl] at hz
      simp at hz
      subst hz
      exact letter_iff.1 hl

example : newZone (⟨5, 60⟩ : LngLat ℚ) = some ⟨32, 'V'⟩ := by decide +kernel
example : newZone (⟨-180, -80⟩ : LngLat ℚ) = some ⟨1, 'C'⟩ := by decide +kernel
example : newZone (⟨20, 75⟩ : LngLat ℚ) = some ⟨33, 'X'⟩ := by decide +kernel

/-- C49 fails at 180 degrees: the zone is number 61. -/
theorem C49_violated : ¬ C49_full ℚ := by
  intro h
  obtain ⟨z, hz, -, h60, -⟩ := h ⟨180, 0⟩ (by norm_num) (by norm_num) (by norm_num) (by norm_num)
  have : newZone (⟨180, 0⟩ : LngLat ℚ) = some ⟨61, 'N'⟩ := by decide +kernel
  rw [this] at hz
  injection hz with hz
  subst hz
  exact absurd h60 (by decide)

/-- C49 also fails on the northern edge: at 84 degrees north band X uses the ordinary strips,
so that zone 32X, which the grid does not have, is given. -/
theorem C49_violated_north :
    newZone (⟨10, 84⟩ : LngLat ℚ) = some ⟨32, 'X'⟩ ∧ ¬ IsZone 32 (10 : ℚ) 84 := by
  refine ⟨by decide +kernel, fun h => ?_⟩
  have := (h.2.1 ⟨by norm_num, by norm_num, by norm_num, by norm_num⟩).2.1
    ⟨by norm_num, by norm_num⟩
  exact absurd this (by norm_num)

/-- C49, letters: a latitude gets the letter of the band it is in; an error outside of the
bands, that is south of 80 south and north of 84 north; and letters never go down from south to
north.  Every letter given is valid. -/
theorem C49_letter (lat : K) :
    (∀ c, zoneLetterForLat lat = some c ↔ ∃ i : Nat, bands[i]? = some c ∧ InBand i lat)
    ∧ (zoneLetterForLat lat = none ↔ lat < -80 ∨ 84 < lat)
    ∧ (∀ c, zoneLetterForLat lat = some c → letterIsValid c = true)
    ∧ ∀ lat' c c', lat ≤ lat' → zoneLetterForLat lat = some c → zoneLetterForLat lat' = some c'
        → c ≤ c' := by
  refine ⟨fun c => letter_iff, ⟨fun h => ?_, letter_none⟩, fun c h => ?_, ?_⟩
  · by_contra hcon
    rw [not_or, not_lt, not_lt] at hcon
    obtain ⟨i, c, hc, hb⟩ := exists_band hcon.1 hcon.2
    rw [letter_of_band hc hb] at h
    exact absurd h (by simp)
  · obtain ⟨i, hi, -⟩ := letter_iff.1 h
    exact (bands_valid hi).1
  · intro lat' c c' hle h h'
    obtain ⟨i, hi, hb⟩ := letter_iff.1 h
    obtain ⟨j, hj, hb'⟩ := letter_iff.1 h'
    have hij : i ≤ j := by
      by_contra hcon
      have hjl : j < 19 := by
        have : i < 20 := (List.getElem?_eq_some_iff.1 hi).1
        omega
      have h1 := hb'.2.1 hjl
      have h2 := hb.1
      have h3 : j + 1 ≤ i := by omega
      have h3' : (j : K) + 1 ≤ i := by exact_mod_cast h3
      linarith
    obtain ⟨hil, hi'⟩ := List.getElem?_eq_some_iff.1 hi
    obtain ⟨hjl, hj'⟩ := List.getElem?_eq_some_iff.1 hj
    subst hi' hj'
    have key : ∀ i j : Fin 20, i ≤ j → bands[i] ≤ bands[j] := by decide +kernel
    exact key ⟨i, hil⟩ ⟨j, hjl⟩ hij

example : zoneLetterForLat (-0.5 : ℚ) = some 'M' ∧ zoneLetterForLat (84 : ℚ) = some 'X'
    ∧ zoneLetterForLat (84.5 : ℚ) = none := by decide +kernel

/-- C97: normalizing a longitude keeps the latitude and the direction (it adds whole turns) and
brings the longitude to at least -180 and below 180. -/
def C97_full (K : Type) [Field K] [LinearOrder K] [FloorRing K] : Prop :=
  ∀ l : LngLat K, (normalizeLng l).lat = l.lat ∧ SameDirection (normalizeLng l).lng l.lng
    ∧ -180 ≤ (normalizeLng l).lng ∧ (normalizeLng l).lng < 180

/-- C97 in part: direction and latitude are always kept; the range is reached from longitudes
of -180 and up. -/
theorem C97_normalize_partial (l : LngLat K) :
    (normalizeLng l).lat = l.lat ∧ SameDirection (normalizeLng l).lng l.lng
    ∧ (-180 ≤ l.lng → -180 ≤ (normalizeLng l).lng ∧ (normalizeLng l).lng < 180)
    ∧ (l.lng < -180 → -540 < (normalizeLng l).lng ∧ (normalizeLng l).lng ≤ -180) := by
  refine ⟨rfl, ⟨-goInt ((l.lng + 180) / 360), ?_⟩, fun h => ?_, fun h => ?_⟩
  · unfold normalizeLng
    push_cast
    ring
  · have hx : 0 ≤ (l.lng + 180) / 360 := by apply div_nonneg <;> linarith
    obtain ⟨a, b, -⟩ := goInt_nonneg hx
    rw [le_div_iff₀ (by norm_num)] at a
    rw [div_lt_iff₀ (by norm_num)] at b
    unfold normalizeLng
    push_cast
    constructor <;> linarith
  · have hx : (l.lng + 180) / 360 < 0 := div_neg_of_neg_of_pos (by linarith) (by norm_num)
    obtain ⟨a, b, -⟩ := goInt_neg hx
    rw [div_le_iff₀ (by norm_num)] at a
    have b' : (goInt ((l.lng + 180) / 360) : K) - 1 < (l.lng + 180) / 360 := by linarith
    rw [lt_div_iff₀ (by norm_num)] at b'
    unfold normalizeLng
    push_cast
    constructor <;> linarith

example : normalizeLng (⟨190, 3⟩ : LngLat ℚ) = ⟨-170, 3⟩
    ∧ normalizeLng (⟨725, 3⟩ : LngLat ℚ) = ⟨5, 3⟩ := by decide +kernel

/-- C97 fails west of -180: -190 degrees is left alone. -/
theorem C97_violated : ¬ C97_full ℚ := by
  intro h
  have h1 := (h ⟨-190, 0⟩).2.2.1
  have : normalizeLng (⟨-190, 0⟩ : LngLat ℚ) = ⟨-190, 0⟩ := by decide +kernel
  rw [this] at h1
  exact absurd h1 (by norm_num)

/-- C98: an angle is written as degrees, minutes and seconds (minutes and seconds below 60)
whose sum, with the sign the letter stands for, is exactly the angle: N and S for latitudes, E
and W for longitudes. -/
theorem C98_dms (l : LngLat K) :
    Written l.lat (latAsDMS l).degree (latAsDMS l).minute (latAsDMS l).second
      (latAsDMS l).hemisphere 'N' 'S'
    ∧ Written l.lng (lngAsDMS l).degree (lngAsDMS l).minute (lngAsDMS l).second
      (lngAsDMS l).hemisphere 'E' 'W' :=
  ⟨written, written⟩

example : latAsDMS (⟨-73.5, 40.7625⟩ : LngLat ℚ) = ⟨40, 45, 45, 'N'⟩
    ∧ lngAsDMS (⟨-73.5, 40.7625⟩ : LngLat ℚ) = ⟨73, 30, 0, 'W'⟩ := by decide +kernel

end zones

/-- C99: converting a place of the grid to UTM gives a coordinate, it does not panic. -/
def C99_full : Prop :=
  ∀ (l : LngLat ℝ) (e : Ellipsoid), -180 ≤ l.lng → l.lng < 180 → -80 ≤ l.lat → l.lat ≤ 84 →
    ∃ c, fromLngLat l e = some (some c)

/-- C99, exactly: with an ellipsoid that asks for NATO squares the conversion panics just in the
first kilometre (111 to a degree) of every 2000 from the equator, in the odd zones of the north
and in the even zones of the south; otherwise it gives a coordinate in the zone of the place. -/
theorem C99_panics_partial (l : LngLat ℝ) (e : Ellipsoid) (h1 : -180 ≤ l.lng) (h2 : l.lng < 180)
    (h3 : -80 ≤ l.lat) (h4 : l.lat ≤ 84) :
    ∃ z, newZone l = some z
      ∧ (fromLngLat l e = none ↔ e.natoCompatible = true ∧ ⌊111 * |l.lat|⌋ % 2000 = 0
          ∧ (0 ≤ l.lat ↔ z.number % 2 = 1))
      ∧ (fromLngLat l e = none ∨ ∃ c, fromLngLat l e = some (some c) ∧ c.zone = z
          ∧ (c.digraph.isSome = true ↔ e.natoCompatible = true)) := by
  obtain ⟨z, hz, hv, -, -⟩ := newZone_spec h1 h2 h3 h4
  refine ⟨z, hz, ?_, ?_⟩
  · unfold fromLngLat fromLngLatIn
    rw [hz, normalizeLng_same h1 h2]
    rw [← newDigraph_none h1 h2 h3 h4 hz]
    cases e.natoCompatible <;> simp
  · unfold fromLngLat fromLngLatIn
    rw [hz, normalizeLng_same h1 h2]
    cases e.natoCompatible
    · right
      exact ⟨_, rfl, rfl, by simp⟩
    · cases hd : newDigraph z l with
      | none => left; simp [hd]
      | some d =>
        right
        refine ⟨_, by simp only [if_true, hd, Option.map_some]; rfl, rfl, ?_⟩
        cases d with
        | some p => simp
        | none =>
          exfalso
          unfold newDigraph at hd
          rw [hv, centralMeridian_eq hv] at hd
          simp only [Bool.not_true, Bool.false_eq_true, if_false] at hd
          split at hd <;> simp at hd

example : ∃ c, fromLngLat ⟨10.5, 0⟩ ⟨6378137, 0.00669438, true⟩ = some (some c)
    ∧ c.zone = ⟨32, 'N'⟩ ∧ c.digraph = some ('P', 'E') :=
  equator_square (k := 166) (by decide) (by norm_num) (by norm_num)
    (by rw [Int.floor_eq_iff]; norm_num) (by decide +kernel) (by decide +kernel) _ rfl

/-- C99 fails on the equator, at 3 degrees east (zone 31). -/
theorem C99_violated : ¬ C99_full := by
  intro h
  obtain ⟨c, hc⟩ := h ⟨3, 0⟩ ⟨6378137, 0.00669438, true⟩ (by norm_num) (by norm_num)
    (by norm_num) (by norm_num)
  obtain ⟨z, hz, hn, -⟩ := C99_panics_partial ⟨3, 0⟩ ⟨6378137, 0.00669438, true⟩ (by norm_num)
    (by norm_num) (by norm_num) (by norm_num)
  have hnum : z.number = 31 := by
    obtain ⟨z', hz', -, hn', -⟩ := newZone_spec (K := ℝ) (l := ⟨3, 0⟩) (by norm_num) (by norm_num)
      (by norm_num) (by norm_num)
    rw [hz] at hz'
    injection hz' with hz'
    subst hz'
    rw [hn', zone_eq_strip (by norm_num) (fun h => by norm_num [Norway] at h)
      (fun h => by norm_num at h)]
    have e : (((3 : ℝ) + 180) / 6) = 30.5 := by norm_num
    have : ⌊(30.5 : ℝ)⌋ = 30 := by rw [Int.floor_eq_iff]; norm_num
    simp only [goInt, e]
    rw [if_pos (by norm_num), this]
    norm_num
  rw [hn.2 ⟨rfl, by simp, by rw [hnum]; norm_num⟩] at hc
  exact absurd hc (by simp)

/-- C100: of two places of one zone, at one latitude, a hundred kilometres or more apart (111 to
a degree, shortened by the latitude), the eastern one is in a column of NATO squares with a later
letter. -/
def C100_full : Prop :=
  ∀ (l l' : LngLat ℝ) (e : Ellipsoid) (c c' : Coord) (a b a' b' : Char),
    -180 ≤ l.lng → l.lng < 180 → -180 ≤ l'.lng → l'.lng < 180 → -80 ≤ l.lat → l.lat ≤ 84 →
    fromLngLat l e = some (some c) → fromLngLat l' e = some (some c') →
    l.lat = l'.lat → c.zone = c'.zone → c.digraph = some (a, b) → c'.digraph = some (a', b') →
    100 ≤ 111 * (l'.lng - l.lng) * Real.cos (toRadian l.lat) → a < a'

/-- C100 in the zones whose number is not a multiple of 3. -/
theorem C100_columns_partial (l l' : LngLat ℝ) (e : Ellipsoid) (c c' : Coord)
    (a b a' b' : Char) (h1 : -180 ≤ l.lng) (h2 : l.lng < 180) (h1' : -180 ≤ l'.lng)
    (h2' : l'.lng < 180) (h3 : -80 ≤ l.lat) (h4 : l.lat ≤ 84)
    (hc : fromLngLat l e = some (some c)) (hc' : fromLngLat l' e = some (some c'))
    (hlat : l.lat = l'.lat) (hz : c.zone = c'.zone) (hd : c.digraph = some (a, b))
    (hd' : c'.digraph = some (a', b')) (h3' : c.zone.number % 3 ≠ 0)
    (hfar : 100 ≤ 111 * (l'.lng - l.lng) * Real.cos (toRadian l.lat)) : a < a' := by
  obtain ⟨hv, k⟩ := newDigraph_some (fromLngLat_digraph h1 h2 hc hd)
  obtain ⟨hv', k'⟩ := newDigraph_some (fromLngLat_digraph h1' h2' hc' hd')
  rw [← hz, ← hlat] at k'
  have hpos : 0 ≤ c.zone.number := by
    simp [Zone.isValid] at hv
    omega
  refine columnLetter_lt (by rw [Int.tmod_eq_emod_of_nonneg hpos]; exact h3') k k'
    (column_lt (cos_nonneg_lat h3 h4) ?_)
  generalize ((6 * c.zone.number - 183 : Int) : ℝ) = m at *
  generalize Real.cos (toRadian l.lat) = q at *
  nlinarith

example : ∃ c c', fromLngLat ⟨10.5, 0⟩ ⟨6378137, 0.00669438, true⟩ = some (some c)
    ∧ fromLngLat ⟨11.9, 0⟩ ⟨6378137, 0.00669438, true⟩ = some (some c')
    ∧ c.zone = c'.zone ∧ c.zone.number % 3 ≠ 0 ∧ c.digraph = some ('P', 'E')
    ∧ c'.digraph = some ('R', 'E') ∧ 100 ≤ 111 * ((11.9 : ℝ) - 10.5) * Real.cos (toRadian 0) := by
  obtain ⟨c, hc, hz, hd⟩ := equator_square (x := 10.5) (n := 32) (k := 166) (ch := 'P')
    (row := 'E') (by decide) (by norm_num) (by norm_num) (by rw [Int.floor_eq_iff]; norm_num)
    (by decide +kernel) (by decide +kernel) ⟨6378137, 0.00669438, true⟩ rfl
  obtain ⟨c', hc', hz', hd'⟩ := equator_square (x := 11.9) (n := 32) (k := 321) (ch := 'R')
    (row := 'E') (by decide) (by norm_num) (by norm_num) (by rw [Int.floor_eq_iff]; norm_num)
    (by decide +kernel) (by decide +kernel) ⟨6378137, 0.00669438, true⟩ rfl
  refine ⟨c, c', hc, hc', hz.trans hz'.symm, by rw [hz]; norm_num, hd, hd', ?_⟩
  have e2 : Real.cos (toRadian 0) = 1 := by unfold toRadian; simp
  rw [e2]
  norm_num

/-- C100 fails in zones that are multiples of 3: the second and the fourth column east of the
central meridian are both X (the fourth should be Z).  On the equator, at 1.5 and 0.1 degrees
west. -/
theorem C100_violated : ¬ C100_full := by
  intro h
  obtain ⟨c, hc, hz, hd⟩ := equator_square (x := -1.5) (n := 30) (k := 166) (ch := 'X')
    (row := 'E') (by decide) (by norm_num) (by norm_num) (by rw [Int.floor_eq_iff]; norm_num)
    (by decide +kernel) (by decide +kernel) ⟨6378137, 0.00669438, true⟩ rfl
  obtain ⟨c', hc', hz', hd'⟩ := equator_square (x := -0.1) (n := 30) (k := 321) (ch := 'X')
    (row := 'E') (by decide) (by norm_num) (by norm_num) (by rw [Int.floor_eq_iff]; norm_num)
    (by decide +kernel) (by decide +kernel) ⟨6378137, 0.00669438, true⟩ rfl
  refine absurd (h _ _ _ c c' 'X' 'E' 'X' 'E' (by norm_num) (by norm_num) (by norm_num) (by norm_num)
    (by norm_num) (by norm_num) hc hc' rfl (hz.trans hz'.symm) hd hd' ?_) (by decide)
  have e2 : Real.cos (toRadian 0) = 1 := by unfold toRadian; simp
  rw [e2]
  norm_num

/-- C101: in the plane, places on either side of the central meridian of a zone are mirror
images of each other (easting 500000 is the meridian itself), and places north and south of the
equator are mirror images in the equator, whose northing is 0 for the north and 10000000 for the
south. -/
theorem C101_mirror (l l' : LngLat ℝ) (e : Ellipsoid) (c c' : Coord)
    (h1 : -180 ≤ l.lng) (h2 : l.lng < 180) (h1' : -180 ≤ l'.lng) (h2' : l'.lng < 180)
    (hc : fromLngLat l e = some (some c)) (hc' : fromLngLat l' e = some (some c'))
    (hz : c.zone.number = c'.zone.number) (cm : Int)
    (hcm : centralMeridian c.zone = some (some cm)) :
    (l.lng = cm → c.easting = 500000)
    ∧ (l.lat = l'.lat → l.lng + l'.lng = 2 * (cm : ℝ) →
        c.easting + c'.easting = 1000000 ∧ c.northing = c'.northing)
    ∧ (0 < l.lat → l'.lat = -l.lat → l.lng = l'.lng →
        c'.easting = c.easting ∧ c'.northing = 10000000 - c.northing) := by
  have key : ∀ (l : LngLat ℝ) (c : Coord), -180 ≤ l.lng → l.lng < 180 →
      fromLngLat l e = some (some c) →
      c.easting = (project l c.zone e).2 ∧ c.northing = (project l c.zone e).1 := by
    intro l c h1 h2 hc
    unfold fromLngLat at hc
    cases hz : newZone l with
    | none => rw [hz] at hc; simp at hc
    | some z =>
      rw [hz, normalizeLng_same h1 h2] at hc
      unfold fromLngLatIn at hc
      cases hn : e.natoCompatible with
      | false => rw [hn] at hc; simp at hc; subst hc; exact ⟨rfl, rfl⟩
      | true =>
        rw [hn] at hc
        simp at hc
        obtain ⟨d, hd', rfl⟩ := hc
        exact ⟨rfl, rfl⟩
  obtain ⟨k1, k2⟩ := key l c h1 h2 hc
  obtain ⟨k1', k2'⟩ := key l' c' h1' h2' hc'
  have hv : c.zone.isValid = true := by
    by_contra hcon
    rw [Bool.not_eq_true] at hcon
    unfold centralMeridian at hcm
    rw [hcon] at hcm
    simp at hcm
  rw [centralMeridian_eq hv] at hcm
  simp at hcm
  subst hcm
  rw [k1, k2, k1', k2']
  refine ⟨fun h => ?_, fun h h' => ?_, fun h h' h'' => ?_⟩
  · apply project_centre
    rw [h]; push_cast; ring
  · apply project_reflect e h.symm hz.symm
    rw [h']; push_cast; ring
  · exact project_mirror e h' hz.symm h''.symm h

example : ∃ (c c' : Coord), fromLngLat ⟨-1.5, 0⟩ ⟨6378137, 0.00669438, true⟩ = some (some c)
    ∧ fromLngLat ⟨-4.5, 0⟩ ⟨6378137, 0.00669438, false⟩ = some (some c')
    ∧ c.zone.number = c'.zone.number ∧ centralMeridian c.zone = some (some (-3))
    ∧ (-1.5 : ℝ) + -4.5 = 2 * ((-3 : Int) : ℝ) := by
  obtain ⟨c, hc, hz, -⟩ := equator_square (x := -1.5) (n := 30) (k := 166) (ch := 'X')
    (row := 'E') (by decide) (by norm_num) (by norm_num) (by rw [Int.floor_eq_iff]; norm_num)
    (by decide +kernel) (by decide +kernel) ⟨6378137, 0.00669438, true⟩ rfl
  obtain ⟨-, hz'⟩ := equator_zone (x := -4.5) (n := 30) (by norm_num) (by norm_num)
    (by norm_num)
  refine ⟨c, ⟨(project ⟨-4.5, 0⟩ ⟨30, 'N'⟩ ⟨6378137, 0.00669438, false⟩).1,
      (project ⟨-4.5, 0⟩ ⟨30, 'N'⟩ ⟨6378137, 0.00669438, false⟩).2, ⟨30, 'N'⟩, none⟩, hc, ?_, ?_,
      ?_, by norm_num⟩
  · unfold fromLngLat fromLngLatIn
    rw [hz', normalizeLng_same (by norm_num) (by norm_num)]
    rfl
  · rw [hz]
  · rw [hz]; decide +kernel

/-- C102: going to UTM and back returns to within half a degree of the start, on any ellipsoid
that is nearly a sphere. -/
def C102_full : Prop :=
  ∀ (l : LngLat ℝ) (e : Ellipsoid) (c : Coord), -180 ≤ l.lng → l.lng < 180 → -80 ≤ l.lat →
    l.lat < 84 → 0 < e.radius → 0 ≤ e.eccentricity → e.eccentricity ≤ 0.01 →
    fromLngLat l e = some (some c) →
    ∃ l', toLngLat c e = some l' ∧ |l'.lat - l.lat| ≤ 1 / 2 ∧ |l'.lng - l.lng| ≤ 1 / 2

/-- C102 in part: on a sphere the central meridians are followed exactly both ways. -/
theorem C102_round_trip_partial (l : LngLat ℝ) (e : Ellipsoid) (c : Coord) (h1 : -180 ≤ l.lng)
    (h2 : l.lng < 180) (h3 : -80 ≤ l.lat) (h4 : l.lat < 84) (hr : 0 < e.radius)
    (he : e.eccentricity = 0) (hc : fromLngLat l e = some (some c)) (cm : Int)
    (hcm : centralMeridian c.zone = some (some cm)) (hl : l.lng = cm) :
    toLngLat c e = some l := by
  obtain ⟨z, hz, hv, hnum, hnor⟩ := newZone_spec h1 h2 h3 h4.le
  have hcz : c.zone = z ∧ c.easting = (project l z e).2 ∧ c.northing = (project l z e).1 := by
    unfold fromLngLat fromLngLatIn at hc
    rw [hz, normalizeLng_same h1 h2] at hc
    cases hn : e.natoCompatible with
    | false => rw [hn] at hc; simp at hc; subst hc; exact ⟨rfl, rfl, rfl⟩
    | true =>
      rw [hn] at hc
      simp at hc
      obtain ⟨d, hd', rfl⟩ := hc
      exact ⟨rfl, rfl, rfl⟩
  obtain ⟨rfl, hE, hN⟩ := hcz
  rw [centralMeridian_eq hv] at hcm
  simp at hcm
  have hl' : l.lng = 6 * (c.zone.number : ℝ) - 183 := by rw [hl, ← hcm]; push_cast; ring
  have hE' := project_centre e hl'
  have hN' := project_sphere_centre e he hl'
  have key := toLngLat_sphere (c := c) he hr.ne' hv (y := toRadian l.lat) (d := 0) (by
    rw [hN, hN']
    by_cases h0 : l.lat < 0
    · have : c.zone.isNorthern = false := by
        rw [← Bool.not_eq_true, hnor]; linarith
      rw [this, if_pos h0]; simp
    · have : c.zone.isNorthern = true := hnor.2 (not_lt.1 h0)
      rw [this, if_neg h0]; simp) (by rw [hE, hE']; simp)
  rw [key]
  congr 1
  have e1 : (lngOrigin c.zone : ℝ) = l.lng := by
    unfold lngOrigin; rw [hl']; push_cast; ring
  cases l with
  | mk lng lat =>
    simp only [LngLat.mk.injEq]
    constructor
    · rw [e1]; simp [toDegree]
    · have := toDegree_toRadian lat
      simp only at *
      rw [← this]
      congr 1
      rw [this]
      ring

example : ∃ c, fromLngLat ⟨9, 0⟩ ⟨6371000, 0, false⟩ = some (some c)
    ∧ centralMeridian c.zone = some (some 9) := by
  obtain ⟨-, hz⟩ := equator_zone (x := 9) (n := 32) (by norm_num) (by norm_num) (by norm_num)
  have hcm : centralMeridian ⟨32, 'N'⟩ = some (some 9) := by decide +kernel
  refine ⟨⟨(project ⟨9, 0⟩ ⟨32, 'N'⟩ ⟨6371000, 0, false⟩).1,
    (project ⟨9, 0⟩ ⟨32, 'N'⟩ ⟨6371000, 0, false⟩).2, ⟨32, 'N'⟩, none⟩, ?_, hcm⟩
  unfold fromLngLat fromLngLatIn
  rw [hz, normalizeLng_same (by norm_num) (by norm_num)]
  rfl

/-- C102 fails: at 60 north and 3 east, in the wide zone 32 of Norway, the way back loses more
than half a degree of latitude (already on a sphere): the last term of the series is multiplied
by 720 where it should be divided. -/
theorem C102_violated : ¬ C102_full := by
  intro h
  have hN : Norway (3 : ℝ) 60 := by unfold Norway; norm_num
  have hz : newZone (⟨3, 60⟩ : LngLat ℝ) = some ⟨32, 'V'⟩ := by
    unfold newZone
    rw [letter_of_band (i := 17) (c := 'V') rfl (by unfold InBand; norm_num),
      zone_norway (l := ⟨3, 60⟩) hN]
    rfl
  have hp3 : toRadian 60 = Real.pi / 3 := by unfold toRadian; ring
  have hpne : Real.pi / 3 ≠ 0 := by have := Real.pi_pos; positivity
  have ha : (toRadian 3 - toRadian ((lngOrigin ⟨32, 'V'⟩ : Int) : ℝ)) * (1 / 2)
      = -(Real.pi / 60) := by
    have : lngOrigin ⟨32, 'V'⟩ = 9 := by decide
    rw [this]; unfold toRadian; push_cast; ring
  generalize hA : -(Real.pi / 60) = a at ha
  have hp1 : (project ⟨3, 60⟩ ⟨32, 'V'⟩ ⟨1, 0, false⟩).1
      = k0 * (1 * (Real.pi / 3 + √3 * (a ^ 2 / 2 + a ^ 4 / 12 - 104 * a ^ 6 / 720))) := by
    unfold project
    simp only
    rw [hp3, if_pos hpne, Real.tan_pi_div_three, Real.cos_pi_div_three, ha,
      Real.sq_sqrt (by norm_num), if_neg (by norm_num)]
    simp only [zero_mul, sub_zero, Real.sqrt_one]
    ring
  have hp2 : (project ⟨3, 60⟩ ⟨32, 'V'⟩ ⟨1, 0, false⟩).2 - 500000
      = k0 * (1 * (a - a ^ 3 / 3 - 265 * a ^ 5 / 120)) := by
    unfold project
    simp only
    rw [hp3, if_pos hpne, Real.tan_pi_div_three, Real.cos_pi_div_three, ha,
      Real.sq_sqrt (by norm_num)]
    simp only [zero_mul, sub_zero, Real.sqrt_one]
    ring
  have hc : fromLngLat ⟨3, 60⟩ ⟨1, 0, false⟩ = some (some
      ⟨(project ⟨3, 60⟩ ⟨32, 'V'⟩ ⟨1, 0, false⟩).1, (project ⟨3, 60⟩ ⟨32, 'V'⟩ ⟨1, 0, false⟩).2,
        ⟨32, 'V'⟩, none⟩) := by
    unfold fromLngLat fromLngLatIn
    rw [hz, normalizeLng_same (by norm_num) (by norm_num)]
    rfl
  obtain ⟨l', hl', hlat, -⟩ := h _ _ _ (by norm_num) (by norm_num) (by norm_num) (by norm_num)
    (by norm_num) (by norm_num) (by norm_num) hc
  rw [toLngLat_sphere (e := ⟨1, 0, false⟩) rfl one_ne_zero (by decide)
    (by
      have : (⟨32, 'V'⟩ : Zone).isNorthern = true := by decide
      simp only [this, Bool.not_true, Bool.false_eq_true, if_false]
      exact hp1) hp2] at hl'
  injection hl' with hl'
  rw [← hl'] at hlat
  simp only at hlat
  have key := far_from_centre hA.symm rfl rfl rfl
  rw [abs_le] at hlat
  have h1 := hlat.1
  generalize √3 * (a ^ 2 / 2 + a ^ 4 / 12 - 104 * a ^ 6 / 720) = u at *
  generalize Real.pi / 3 + u - Real.tan (Real.pi / 3 + u) *
    ((a - a ^ 3 / 3 - 265 * a ^ 5 / 120) ^ 2 / 2
      - (5 + 3 * Real.tan (Real.pi / 3 + u) ^ 2) * (a - a ^ 3 / 3 - 265 * a ^ 5 / 120) ^ 4 / 24
      + (61 + 90 * Real.tan (Real.pi / 3 + u) ^ 2 + 45 * Real.tan (Real.pi / 3 + u) ^ 4)
        * (a - a ^ 3 / 3 - 265 * a ^ 5 / 120) ^ 6 * 720) = r at *
  have h2 : r < toRadian (60 - 1 / 2) := by
    have : toRadian (60 - 1 / 2) = Real.pi / 3 - toRadian (1 / 2) := by
      rw [← hp3]; unfold toRadian; ring
    rw [this]; exact key
  have h3 : toDegree r < 60 - 1 / 2 := by
    have hp := Real.pi_pos
    rw [← toDegree_toRadian (60 - 1 / 2)]
    unfold toDegree
    apply div_lt_div_of_pos_right _ hp
    linarith
  linarith

end Verif.Props
