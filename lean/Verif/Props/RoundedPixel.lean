import Verif.Lemmas.RoundedPixel
import Verif.Lemmas.Float64

/-!
# C194: the position of a point in a tile, in floats
-/

namespace Verif.Props
open Verif Verif.Spec.Rounded
open Verif.Lemmas.Rounded
open Verif.MvtPrepare (Tile)

/-- C194, in full: the pixel of a point is in the square of the tile just if the point is in the tile. -/
def C194_full : Prop :=
  ∀ (tile : Tile ℚ) (px : ℚ) (p : Pt ℚ), Float64Point (tile.minX, tile.minY) → Float64Point (tile.maxX, tile.maxY) →
    Float64Point p → IsFloat64 px → tile.minX < tile.maxX → tile.minY < tile.maxY → 0 < px →
    ((0 ≤ (Rounded.preparePt tile px p).1 ∧ (Rounded.preparePt tile px p).1 ≤ px) ↔
      (tile.minX ≤ p.1 ∧ p.1 ≤ tile.maxX)) ∧
    ((0 ≤ (Rounded.preparePt tile px p).2 ∧ (Rounded.preparePt tile px p).2 ≤ px) ↔
      (tile.minY ≤ p.2 ∧ p.2 ≤ tile.maxY))

/-- A tile of size `2 ^ 53`. -/
def wideTile : Tile ℚ := ⟨-1, -1, 2 ^ 53 - 1, 2 ^ 53 - 1⟩

/-- C194, violated: a point just right of the wide tile gets the pixel of the right side. -/
theorem C194_violated : ¬ C194_full := by
  intro h
  have h1 := (h wideTile 4096 (2 ^ 53, 0)
    ⟨⟨-1, 0, by norm_num, by norm_num, by norm_num, by norm_num [wideTile]⟩,
      ⟨-1, 0, by norm_num, by norm_num, by norm_num, by norm_num [wideTile]⟩⟩
    ⟨⟨2 ^ 53 - 1, 0, by norm_num, by norm_num, by norm_num, by norm_num [wideTile]⟩,
      ⟨2 ^ 53 - 1, 0, by norm_num, by norm_num, by norm_num, by norm_num [wideTile]⟩⟩
    ⟨⟨1, 53, by norm_num, by norm_num, by norm_num, by norm_num⟩,
      ⟨0, 0, by norm_num, by norm_num, by norm_num, by norm_num⟩⟩
    ⟨4096, 0, by norm_num, by norm_num, by norm_num, by norm_num⟩
    (by norm_num [wideTile]) (by norm_num [wideTile]) (by norm_num)).1
  have e : (Rounded.preparePt wideTile 4096 (2 ^ 53, 0)).1 = 4096 := by decide +kernel
  rw [e] at h1
  have := (h1.1 (by norm_num)).2
  norm_num [wideTile] at this

/-- C194: a point in the tile, also on its sides, gets a pixel in the square, whatever is rounded. -/
theorem C194_inside_partial (tile : Tile ℚ) (px : ℚ) (p : Pt ℚ) (hpx : IsFloat64 px) (h0 : 0 ≤ px)
    (hx : tile.minX < tile.maxX) (hy : tile.minY < tile.maxY)
    (x1 : tile.minX ≤ p.1) (x2 : p.1 ≤ tile.maxX) (y1 : tile.minY ≤ p.2) (y2 : p.2 ≤ tile.maxY) :
    0 ≤ (Rounded.preparePt tile px p).1 ∧ (Rounded.preparePt tile px p).1 ≤ px ∧
      0 ≤ (Rounded.preparePt tile px p).2 ∧ (Rounded.preparePt tile px p).2 ≤ px := by
  have hf := Lemmas.Float64.isFloat64_fits hpx
  have sx := sub_pos.2 hx
  have sy := sub_pos.2 hy
  refine ⟨?_, ?_, ?_, ?_⟩
  · exact (along_zero _ px).ge.trans (along_mono sx h0 (sub_nonneg.2 x1))
  · exact (along_mono sx h0 (sub_le_sub_right x2 _)).trans (along_all sx hf).le
  · exact (along_zero _ px).ge.trans (along_mono sy h0 (sub_nonneg.2 y2))
  · exact (along_mono sy h0 (sub_le_sub_left y1 _)).trans (along_all sy hf).le

/-- A tile of Web Mercator, with sides as floats. -/
def mercTile : Tile ℚ := ⟨-20037508.25, 10018754.125, -10018754.125, 20037508.25⟩

/-- Non-vacuous: a point next to the corner. -/
example : 0 ≤ (Rounded.preparePt mercTile 4096 (-10018754.5, 10018755)).1 ∧
    (Rounded.preparePt mercTile 4096 (-10018754.5, 10018755)).1 ≤ 4096 ∧
    0 ≤ (Rounded.preparePt mercTile 4096 (-10018754.5, 10018755)).2 ∧
    (Rounded.preparePt mercTile 4096 (-10018754.5, 10018755)).2 ≤ 4096 :=
  C194_inside_partial mercTile 4096 (-10018754.5, 10018755)
    ⟨4096, 0, by norm_num, by norm_num, by norm_num, by norm_num⟩ (by norm_num) (by norm_num [mercTile])
    (by norm_num [mercTile]) (by norm_num [mercTile]) (by norm_num [mercTile]) (by norm_num [mercTile])
    (by norm_num [mercTile])

/-- C194: a pixel is negative exactly if the point is left of, or above, the tile. -/
theorem C194_sign_partial (tile : Tile ℚ) (px : ℚ) (p : Pt ℚ) (h0 : 0 < px)
    (hx : tile.minX < tile.maxX) (hy : tile.minY < tile.maxY) :
    ((Rounded.preparePt tile px p).1 < 0 ↔ p.1 < tile.minX) ∧
      ((Rounded.preparePt tile px p).2 < 0 ↔ tile.maxY < p.2) :=
  ⟨(along_neg (sub_pos.2 hx) h0).trans sub_neg, (along_neg (sub_pos.2 hy) h0).trans sub_neg⟩

/-- Non-vacuous: a point above the tile. -/
example : (Rounded.preparePt mercTile 4096 (-10018754.5, 20037508.5)).2 < 0 :=
  (C194_sign_partial mercTile 4096 (-10018754.5, 20037508.5) (by norm_num) (by norm_num [mercTile])
    (by norm_num [mercTile])).2.2 (by norm_num [mercTile])

/-- C194: the sides of the tile are the sides of the square, exactly. -/
theorem C194_sides_partial (tile : Tile ℚ) (px : ℚ) (p : Pt ℚ) (hpx : IsFloat64 px)
    (hx : tile.minX < tile.maxX) (hy : tile.minY < tile.maxY) :
    (p.1 = tile.minX → (Rounded.preparePt tile px p).1 = 0) ∧ (p.1 = tile.maxX → (Rounded.preparePt tile px p).1 = px) ∧
      (p.2 = tile.maxY → (Rounded.preparePt tile px p).2 = 0) ∧
      (p.2 = tile.minY → (Rounded.preparePt tile px p).2 = px) := by
  have hf := Lemmas.Float64.isFloat64_fits hpx
  have z := along_zero
  have a1 := along_all (sub_pos.2 hx) hf
  have a2 := along_all (sub_pos.2 hy) hf
  unfold along at z a1 a2
  unfold Rounded.preparePt Rounded.mul Rounded.quo Rounded.sub
  refine ⟨fun h => ?_, fun h => ?_, fun h => ?_, fun h => ?_⟩
  · simp only [h, sub_self, z]
  · simp only [h, a1]
  · simp only [h, sub_self, z]
  · simp only [h, a2]

/-- Non-vacuous: the lower right corner. -/
example : (Rounded.preparePt mercTile 4096 (-10018754.125, 10018754.125)).1 = 4096 :=
  (C194_sides_partial mercTile 4096 (-10018754.125, 10018754.125)
    ⟨4096, 0, by norm_num, by norm_num, by norm_num, by norm_num⟩ (by norm_num [mercTile]) (by norm_num [mercTile])).2.1
    (by norm_num [mercTile])

/-- C194: pixels are in the order of the points: who is not right of, or below, another has no larger pixel. -/
theorem C194_order_partial (tile : Tile ℚ) (px : ℚ) (p q : Pt ℚ) (h0 : 0 ≤ px)
    (hx : tile.minX < tile.maxX) (hy : tile.minY < tile.maxY) :
    (p.1 ≤ q.1 → (Rounded.preparePt tile px p).1 ≤ (Rounded.preparePt tile px q).1) ∧
      (q.2 ≤ p.2 → (Rounded.preparePt tile px p).2 ≤ (Rounded.preparePt tile px q).2) :=
  ⟨fun h => along_mono (sub_pos.2 hx) h0 (sub_le_sub_right h _),
    fun h => along_mono (sub_pos.2 hy) h0 (sub_le_sub_left h _)⟩

/-- Non-vacuous: two points that are a float apart. -/
example : (Rounded.preparePt mercTile 4096 (-15000000, 15000000)).1 ≤
    (Rounded.preparePt mercTile 4096 (-14999999.75, 15000000)).1 :=
  (C194_order_partial mercTile 4096 (-15000000, 15000000) (-14999999.75, 15000000) (by norm_num)
    (by norm_num [mercTile]) (by norm_num [mercTile])).1 (by norm_num)

/-- C194: a pixel is right up to five units of rounding, also for tiles whose sides are swapped. -/
theorem C194_near_partial (tile : Tile ℚ) (px : ℚ) (p : Pt ℚ) (hx : tile.minX ≠ tile.maxX)
    (hy : tile.minY ≠ tile.maxY) :
    |(Rounded.preparePt tile px p).1 - (p.1 - tile.minX) / (tile.maxX - tile.minX) * px| ≤
        5 * |(p.1 - tile.minX) / (tile.maxX - tile.minX) * px| / 2 ^ 53 ∧
      |(Rounded.preparePt tile px p).2 - (tile.maxY - p.2) / (tile.maxY - tile.minY) * px| ≤
        5 * |(tile.maxY - p.2) / (tile.maxY - tile.minY) * px| / 2 ^ 53 :=
  ⟨along_near (sub_ne_zero.2 hx.symm), along_near (sub_ne_zero.2 hy.symm)⟩

/-- Non-vacuous: a third of a tile. -/
example : |(Rounded.preparePt ⟨0, 0, 3, 3⟩ 4096 (1, 1)).1 - 4096 / 3| ≤ 5 * (4096 / 3) / 2 ^ 53 := by
  have h := (C194_near_partial ⟨0, 0, 3, 3⟩ 4096 (1, 1) (by norm_num) (by norm_num)).1
  norm_num at h ⊢
  exact h

end Verif.Props
