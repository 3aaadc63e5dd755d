import Mathlib.Algebra.Order.Field.Basic

/-!
# What the UTM grid is

Independent of the code: zones, bands and the ways of writing an angle.
-/

namespace Verif.Spec.Utm
variable {K : Type} [Field K] [LinearOrder K]

/-- The n-th of the sixty strips of six degrees, counted from the antimeridian eastwards. -/
def Strip (n : Int) (lng : K) : Prop := -180 + 6 * ((n : K) - 1) ≤ lng ∧ lng < -180 + 6 * (n : K)

/-- The part of band V given to the zone of western Norway. -/
def Norway (lng lat : K) : Prop := 56 ≤ lat ∧ lat < 64 ∧ 3 ≤ lng ∧ lng < 12

/-- The part of band X divided among the four wide zones of Svalbard. -/
def Svalbard (lng lat : K) : Prop := 72 ≤ lat ∧ lat ≤ 84 ∧ 0 ≤ lng ∧ lng < 42

/-- The zone number of a place: the strip it is in, except around Norway (32) and Svalbard
(31 up to 9 degrees, 33 up to 21, 35 up to 33, 37 up to 42). -/
def IsZone (n : Int) (lng lat : K) : Prop :=
  (Norway lng lat → n = 32)
  ∧ (Svalbard lng lat → (lng < 9 → n = 31) ∧ (9 ≤ lng ∧ lng < 21 → n = 33)
      ∧ (21 ≤ lng ∧ lng < 33 → n = 35) ∧ (33 ≤ lng → n = 37))
  ∧ (¬ Norway lng lat → ¬ Svalbard lng lat → Strip n lng)

/-- The letters of the bands from south to north: no I, no O. -/
def bands : List Char :=
  ['C', 'D', 'E', 'F', 'G', 'H', 'J', 'K', 'L', 'M', 'N', 'P', 'Q', 'R', 'S', 'T', 'U', 'V', 'W',
    'X']

/-- Band number `i` (from 0) starts at -80 + 8 i and is eight degrees high; the last one
reaches 84, inclusive. -/
def InBand (i : Nat) (lat : K) : Prop :=
  -80 + 8 * (i : K) ≤ lat ∧ (i < 19 → lat < -80 + 8 * ((i : K) + 1)) ∧ lat ≤ 84

/-- An angle written as degrees, minutes, seconds and a direction: `neg` is the letter for
negative angles. -/
def Written (v : K) (d m : Int) (s : K) (h pos neg : Char) : Prop :=
  0 ≤ d ∧ 0 ≤ m ∧ m < 60 ∧ 0 ≤ s ∧ s < 60
  ∧ ((h = pos ∧ 0 ≤ v ∧ v = (d : K) + (m : K) / 60 + s / 3600)
    ∨ (h = neg ∧ v < 0 ∧ v = -((d : K) + (m : K) / 60 + s / 3600)))

/-- `x` is the same direction as `lng`: a whole number of turns away. -/
def SameDirection (x lng : K) : Prop := ∃ k : Int, x = lng + 360 * (k : K)

end Verif.Spec.Utm
