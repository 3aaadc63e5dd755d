import Mathlib.Algebra.Order.Floor.Ring
import Mathlib.Analysis.SpecialFunctions.Trigonometric.Basic
import Mathlib.Analysis.Real.Sqrt

/-!
# Degrees and UTM coordinates (planar/coord/coord.go, planar/coord/utm/utm.go)

Longitudes and latitudes are elements of an ordered field with a floor function where no
trigonometry is involved (so that everything can be run over the rationals), and real numbers
elsewhere.  The rounding of float64, NaN and infinities are not modelled; `int(f)` is exact.
-/

namespace Verif.Utm

section zones
variable {K : Type} [Field K] [LinearOrder K] [FloorRing K]

/-- `LngLat` (coord.go:18-23). -/
structure LngLat (K : Type) where
  lng : K
  lat : K
deriving DecidableEq, Repr

/-- `int(f)` and `int64(f)`: towards zero (Go language; planar/coord/utm/utm.go:519-522), also the whole part of `math.Modf`. -/
def goInt (f : K) : Int := if 0 ≤ f then ⌊f⌋ else ⌈f⌉

/-- `LngLat.NormalizeLng` (coord.go:26-31). -/
def normalizeLng (l : LngLat K) : LngLat K :=
  { lat := l.lat, lng := l.lng - (goInt ((l.lng + 180) / 360) * 360 : Int) }

/-- `toDMS` (coord.go:89-95): `Modf` gives the whole part and the rest, both with the sign of
the argument. -/
def toDMS (v : K) : Int × Int × K :=
  let df := goInt v
  let frac := v - df
  let mf := goInt (60 * frac)
  let frac2 := 60 * frac - mf
  let s := 60 * frac2
  (|df|, |mf|, |s|)

/-- `DMS` (coord.go:98-103). -/
structure DMS (K : Type) where
  degree : Int
  minute : Int
  second : K
  hemisphere : Char
deriving DecidableEq, Repr

/-- `LngLat.LatAsDMS` (coord.go:40-52). -/
def latAsDMS (l : LngLat K) : DMS K :=
  let (d, m, s) := toDMS l.lat
  { degree := d, minute := m, second := s, hemisphere := if l.lat < 0 then 'S' else 'N' }

/-- `LngLat.LngAsDMS` (coord.go:55-67). -/
def lngAsDMS (l : LngLat K) : DMS K :=
  let (d, m, s) := toDMS l.lng
  { degree := d, minute := m, second := s, hemisphere := if l.lng < 0 then 'W' else 'E' }

/-- `ZoneLetter.IsNorthern` (utm.go:55). -/
def letterIsNorthern (c : Char) : Bool := 'N' ≤ c

/-- `ZoneLetter.IsValid` (utm.go:58). -/
def letterIsValid (c : Char) : Bool := 'C' ≤ c && c ≤ 'X' && c != 'O'

/-- `Zone` (utm.go:172-175).  The zero letter of the code is `'\x00'`. -/
structure Zone where
  number : Int
  letter : Char
deriving DecidableEq, Repr

/-- `Zone.IsNorthern` (utm.go:181). -/
def Zone.isNorthern (z : Zone) : Bool := letterIsNorthern z.letter

/-- `Zone.IsValid` (utm.go:184). -/
def Zone.isValid (z : Zone) : Bool := letterIsValid z.letter && 1 ≤ z.number && z.number ≤ 60

/-- `centralMeridianDegrees` (utm.go:68-70). -/
def centralMeridianDegrees : List Nat :=
  [3, 9, 15, 21, 27, 33, 39, 45, 51, 57, 63, 69, 75, 81, 87, 93, 99, 105, 111, 117, 123, 129, 135,
    141, 147, 153, 159, 165, 171, 177]

/-- Indexing a table: an index outside of it is a panic, `none` (Go language;
planar/coord/utm/utm.go:84-87, 128, 166). -/
def index {A : Type} (l : List A) (i : Int) : Option A := if i < 0 then none else l[i.toNat]?

/-- `CentralMeridian` (utm.go:76-89).  `none` is a panic, `some none` is ErrInvalidZone. -/
def centralMeridian (z : Zone) : Option (Option Int) :=
  if !z.isValid then some none
  else if z.number ≤ 30 then
    (index centralMeridianDegrees (30 - z.number)).map fun d => some (-1 * (d : Int))
  else (index centralMeridianDegrees (z.number - 31)).map fun d => some (d : Int)

/-- `ZoneNumberFromLngLat` (utm.go:194-221). -/
def zoneNumberFromLngLat (l : LngLat K) : Int :=
  let lng := l.lng
  let lat := l.lat
  if (84 < lat ∧ lat < 90) ∨ (-80 < lat ∧ lat < -90) then 0
  else if 56 ≤ lat ∧ lat < 64 ∧ 3 ≤ lng ∧ lng < 12 then 32
  else if 72 ≤ lat ∧ lat < 84 ∧ 0 ≤ lng ∧ lng < 9 then 31
  else if 72 ≤ lat ∧ lat < 84 ∧ 9 ≤ lng ∧ lng < 21 then 33
  else if 72 ≤ lat ∧ lat < 84 ∧ 21 ≤ lng ∧ lng < 33 then 35
  else if 72 ≤ lat ∧ lat < 84 ∧ 33 ≤ lng ∧ lng < 42 then 37
  else goInt ((lng + 180) / 6) + 1

/-- `ZoneLetterForLat` (utm.go:227-292).  `none` is ErrLatitudeOutOfRange. -/
def zoneLetterForLat (lat : K) : Option Char :=
  if 84 ≥ lat ∧ lat ≥ 72 then some 'X'
  else if 72 > lat ∧ lat ≥ 64 then some 'W'
  else if 64 > lat ∧ lat ≥ 56 then some 'V'
  else if 56 > lat ∧ lat ≥ 48 then some 'U'
  else if 48 > lat ∧ lat ≥ 40 then some 'T'
  else if 40 > lat ∧ lat ≥ 32 then some 'S'
  else if 32 > lat ∧ lat ≥ 24 then some 'R'
  else if 24 > lat ∧ lat ≥ 16 then some 'Q'
  else if 16 > lat ∧ lat ≥ 8 then some 'P'
  else if 8 > lat ∧ lat ≥ 0 then some 'N'
  else if 0 > lat ∧ lat ≥ -8 then some 'M'
  else if -8 > lat ∧ lat ≥ -16 then some 'L'
  else if -16 > lat ∧ lat ≥ -24 then some 'K'
  else if -24 > lat ∧ lat ≥ -32 then some 'J'
  else if -32 > lat ∧ lat ≥ -40 then some 'H'
  else if -40 > lat ∧ lat ≥ -48 then some 'G'
  else if -48 > lat ∧ lat ≥ -56 then some 'F'
  else if -56 > lat ∧ lat ≥ -64 then some 'E'
  else if -64 > lat ∧ lat ≥ -72 then some 'D'
  else if -72 > lat ∧ lat ≥ -80 then some 'C'
  else none

/-- `NewZone` (utm.go:298-305).  `none` is ErrLatitudeOutOfRange. -/
def newZone (l : LngLat K) : Option Zone :=
  (zoneLetterForLat l.lat).map fun c => { number := zoneNumberFromLngLat l, letter := c }

end zones

/-! ## NATO squares -/

/-- `lngDigraphZones` (utm.go:93-106). -/
def lngDigraphZones : List (List (List Char)) :=
  [[['V', 'U', 'T', 'S'], ['W', 'X', 'Y', 'X']],
   [['D', 'C', 'B', 'A'], ['E', 'F', 'G', 'H']],
   [['M', 'L', 'K', 'J'], ['N', 'P', 'Q', 'R']]]

/-- `latDigraphZones` (utm.go:109). -/
def latDigraphZones : List Char :=
  ['A', 'B', 'C', 'D', 'E', 'F', 'G', 'H', 'J', 'K', 'L', 'M', 'N', 'P', 'Q', 'R', 'S', 'T', 'U',
    'V', 'A', 'B', 'C', 'D', 'E']

/-- `ToRadian` (coord.go:70-72). -/
noncomputable def toRadian (d : ℝ) : ℝ := d * Real.pi / 180

/-- `ToDegree` (coord.go:75-77). -/
noncomputable def toDegree (r : ℝ) : ℝ := r * 180 / Real.pi

/-- The letter for the column (utm.go:128, 138-143): `kmDist` is the distance from the central
meridian, towards the west, in whole kilometres. -/
def columnLetter (number kmDist : Int) (east : Bool) : Option Char := do
  let dZone ← index lngDigraphZones (number.tmod 3)
  let side ← index dZone (if east then 1 else 0)
  index side |kmDist.tdiv 100|

/-- The letter for the row (utm.go:145-166): `kmDistLat` is the distance from the equator in
whole kilometres. -/
def rowLetter (z : Zone) (kmDistLat : Int) : Option Char :=
  let offset : Int := if z.number.tmod 2 = 0 then 4 else -1
  let idx : Int := |⌈((kmDistLat.tmod 2000 : Int) : ℚ) / 100⌉|
  let idx := if z.isNorthern then idx else 21 - idx
  index latDigraphZones (offset + idx)

/-- `newDigraph` (utm.go:121-169).  `none` is a panic, `some none` is ErrInvalidZone. -/
noncomputable def newDigraph (z : Zone) (l : LngLat ℝ) : Option (Option (Char × Char)) :=
  if !z.isValid then some none
  else
    match centralMeridian z with
    | none => none
    | some r =>
      let cm := r.getD 0
      let degreeDiff : ℝ := cm - l.lng
      let kmDist := goInt (111 * degreeDiff * Real.cos (toRadian l.lat))
      match columnLetter z.number kmDist (decide (degreeDiff < 0)),
          rowLetter z (goInt |111 * l.lat|) with
      | some a, some b => some (some (a, b))
      | _, _ => none

/-! ## The projection -/

/-- `Ellipsoid` (coord.go:81-86), without its name. -/
structure Ellipsoid where
  radius : ℝ
  eccentricity : ℝ
  natoCompatible : Bool

/-- `Coord` (utm.go:308-313). -/
structure Coord where
  northing : ℝ
  easting : ℝ
  zone : Zone
  digraph : Option (Char × Char)

/-- `k0` (utm.go:18). -/
noncomputable def k0 : ℝ := 0.9996

/-- The degree of the central meridian as the projection computes it (utm.go:359, 455). -/
def lngOrigin (z : Zone) : Int := (z.number - 1) * 6 - 180 + 3

/-- `fromLngLat` (utm.go:354-429) up to the digraph: northing and easting.  `math.Pow(x, n)` is
the n-th power. -/
noncomputable def project (l : LngLat ℝ) (z : Zone) (e : Ellipsoid) : ℝ × ℝ :=
  let ecc := e.eccentricity
  let latRad := toRadian l.lat
  let lngRad := toRadian l.lng
  let lngOriginRad := toRadian (lngOrigin z)
  let eccentPrime := ecc / (1 - ecc)
  let sinLatRad := Real.sin latRad
  let n := e.radius / √(1 - ecc * sinLatRad * sinLatRad)
  let t0 := if latRad ≠ 0 then Real.tan latRad else 0
  let cosLatRad := Real.cos latRad
  let t := t0 ^ 2
  let c := eccentPrime ^ 2 * cosLatRad ^ 2
  let a := (lngRad - lngOriginRad) * cosLatRad
  let e2 := ecc ^ 2
  let e3 := ecc ^ 3
  let m01 := (1 - ecc / 4 - 3 / 64 * e2 - 5 / 256 * e3) * latRad
  let m02 := (3 / 8 * ecc + 3 / 32 * e2 + 45 / 1024 * e3) * Real.sin (latRad * 2)
  let m03 := (15 / 256 * e2 + 45 / 1024 * e3) * Real.sin (latRad * 4)
  let m04 := 35 / 3072 * e3 * Real.sin (latRad * 6)
  let m := e.radius * (m01 - m02 + m03 - m04)
  let easting := k0 * n * (a + (1 - t + c) * a ^ 3 / 6
    + (5 - 10 * t ^ 3 + 72 * c - 58 * eccentPrime) * a ^ 5 / 120) + 500000
  let northing := k0 * (m + n * t0 * (a ^ 2 / 2
    + (5 - t + 9 * c + 4 * c ^ 2) * a ^ 4 / 24
    + (61 - 58 * t + t ^ 2 + 600 * c - 330 * eccentPrime) * a ^ 6 / 720))
  let northing := if l.lat < 0 then northing + 10000000 else northing
  (northing, easting)

/-- `fromLngLat` (utm.go:354-429).  `none` is a panic; the digraph is missing for ellipsoids
that are not NATO compatible and for zones that are not valid (the error is ignored). -/
noncomputable def fromLngLatIn (l : LngLat ℝ) (z : Zone) (e : Ellipsoid) : Option Coord :=
  let p := project l z e
  if e.natoCompatible then
    (newDigraph z l).map fun d => { northing := p.1, easting := p.2, zone := z, digraph := d }
  else some { northing := p.1, easting := p.2, zone := z, digraph := none }

/-- `FromLngLat` (utm.go:432-438).  `none` is a panic, `some none` is ErrLatitudeOutOfRange. -/
noncomputable def fromLngLat (l : LngLat ℝ) (e : Ellipsoid) : Option (Option Coord) :=
  match newZone l with
  | none => some none
  | some z => (fromLngLatIn (normalizeLng l) z e).map some

/-- `Coord.ToLngLat` (utm.go:441-514).  `none` is the error for a zone that is not valid.
`math.Pow(a, 1.5)` is `a * √a` (for `a` not negative). -/
noncomputable def toLngLat (c : Coord) (e : Ellipsoid) : Option (LngLat ℝ) :=
  if !c.zone.isValid then none
  else
    let ecc := e.eccentricity
    let x := c.easting - 500000
    let y := if !c.zone.isNorthern then c.northing - 10000000 else c.northing
    let eccPrimeSqr := ecc / (1 - ecc)
    let m := y / k0
    let mu := m / (e.radius * (1 - ecc / 4 - 3 / 64 * ecc ^ 2 - 5 / 256 * ecc ^ 3))
    let e_1 := 1 - ecc
    let e1 := (1 - √e_1) / (1 + √e_1)
    let phi1Rad := mu + (3 / 2 * e1 - 27 / 32 * e1 ^ 3) * Real.sin (mu * 2)
      + (21 / 16 * e1 ^ 2 - 55 / 32 * e1 ^ 4) * Real.sin (mu * 4)
      + 151 / 96 * e1 ^ 3 * Real.sin (mu * 6)
    let phi1Tan := Real.tan phi1Rad
    let phi1Sin := Real.sin phi1Rad
    let phi1Cos := Real.cos phi1Rad
    let a := 1 - ecc * phi1Sin * phi1Sin
    let n1 := e.radius / √a
    let t1 := phi1Tan ^ 2
    let t12 := t1 ^ 2
    let c1 := ecc * phi1Cos ^ 2
    let c12 := c1 ^ 2
    let c12_3 := 3 * c12
    let r1 := e.radius * e_1 / (a * √a)
    let d := x / (n1 * k0)
    let latRad := phi1Rad - n1 * phi1Tan / r1 * (d ^ 2 / 2
      - (5 + 3 * t1 + 10 * c1 - 4 * c12 - 9 * eccPrimeSqr) * d ^ 4 / 24
      + (61 + 90 * t1 + 298 * c1 + 45 * t12 - 252 * eccPrimeSqr - c12_3) * d ^ 6 * 720)
    let lngRad := (d - (1 + 2 * t1 + c1) * d ^ 3 / 6
      + (5 - 2 * c1 + 28 * t1 - c12_3 + 8 * eccPrimeSqr + 24 * t12) * d ^ 5 / 120) / phi1Cos
    some { lng := lngOrigin c.zone + toDegree lngRad, lat := toDegree latRad }

end Verif.Utm
