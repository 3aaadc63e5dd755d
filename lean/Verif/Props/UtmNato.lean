import Verif.Lemmas.UtmNato

/-!
# C198: the place of a coordinate in its square of a hundred kilometres

Over the real numbers.
-/

namespace Verif.Props
open Verif.Utm Verif.Spec.UtmNato Verif.Lemmas.UtmNato

/-- C198, in full: easting and northing for NATO are the metres in the square. -/
def C198_full : Prop :=
  ∀ c : Coord, MetreInSquare c.easting (natoEasting c) ∧ MetreInSquare c.northing (natoNorthing c)

/-- **C198 is violated**: of a coordinate one metre west of the beginning the easting is -1. -/
theorem C198_violated : ¬ C198_full := by
  intro h
  have h1 := (h ⟨0, -1, ⟨1, 'N'⟩, none⟩).1.1
  have e : natoEasting ⟨0, -1, ⟨1, 'N'⟩, none⟩ = -1 := by
    unfold natoEasting toInt x50
    rw [if_neg (by norm_num)]
    norm_num
    decide
  rw [e] at h1
  exact absurd h1 (by decide)

/-- C198: for coordinates that are not negative the metres in the square are given, and no other number is it. -/
theorem C198_metres_partial (c : Coord) (he : 0 ≤ c.easting) (hn : 0 ≤ c.northing) (m n : Int) :
    (m = natoEasting c ↔ MetreInSquare c.easting m) ∧ (n = natoNorthing c ↔ MetreInSquare c.northing n) := by
  have h1 : MetreInSquare c.easting (natoEasting c) := metre_of_nonneg he
  have h2 : MetreInSquare c.northing (natoNorthing c) := metre_of_nonneg hn
  exact ⟨⟨fun h => h ▸ h1, fun h => metre_unique h h1⟩, ⟨fun h => h ▸ h2, fun h => metre_unique h h2⟩⟩

/-- Non-vacuous: a coordinate in the fifth square. -/
example : natoEasting ⟨5000000, 412345.75, ⟨32, 'N'⟩, none⟩ = 12345 :=
  ((C198_metres_partial ⟨5000000, 412345.75, ⟨32, 'N'⟩, none⟩ (by norm_num) (by norm_num) 12345 0).1.2
    ⟨by norm_num, by norm_num, 4, by norm_num, by norm_num⟩).symm

/-- C198: coordinates that are negative are mirrored: the metres are those of the mirrored coordinate, with a minus. -/
theorem C198_negative_partial (c : Coord) (he : c.easting < 0) (hn : c.northing < 0) :
    MetreInSquare (-c.easting) (-natoEasting c) ∧ MetreInSquare (-c.northing) (-natoNorthing c) := by
  have key : ∀ x : ℝ, x < 0 → MetreInSquare (-x) (-(toInt x).tmod x50) := by
    intro x hx
    have h1 := metre_of_nonneg (x := -x) (by linarith)
    have e : toInt (-x) = -toInt x := by
      unfold toInt
      rw [if_pos (by linarith), if_neg (not_le.2 hx), Int.floor_neg]
    rw [e, Int.neg_tmod] at h1
    exact h1
  exact ⟨key _ he, key _ hn⟩

/-- Non-vacuous: a coordinate south and west of the beginning. -/
example : MetreInSquare 12.5 (-natoEasting ⟨-3, -12.5, ⟨32, 'N'⟩, none⟩) := by
  have h := (C198_negative_partial ⟨-3, -12.5, ⟨32, 'N'⟩, none⟩ (by norm_num) (by norm_num)).1
  norm_num at h ⊢
  exact h

end Verif.Props
