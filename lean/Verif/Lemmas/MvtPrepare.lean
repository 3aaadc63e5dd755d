import Verif.Spec.MvtPrepare
import Verif.Props.Winding
import Mathlib.Tactic.FieldSimp
import Mathlib.Tactic.Ring

/-!
# Lemmas for tile pixels
-/

namespace Verif.Lemmas.MvtPrepare
open Verif Verif.MvtPrepare Verif.Spec.MvtPrepare

set_option linter.unusedSectionVars false

variable {K : Type} [Field K] [LinearOrder K] [IsStrictOrderedRing K]

theorem pixel_iff {tile : Tile K} (h : tile.Proper) (px : K) (p q : Pt K) :
    PixelOf tile px p q ↔ q = preparePt tile px p := by
  obtain ⟨h1, h2⟩ := h
  have h1' : tile.maxX - tile.minX ≠ 0 := sub_ne_zero.2 h1.symm
  have h2' : tile.maxY - tile.minY ≠ 0 := sub_ne_zero.2 h2.symm
  obtain ⟨x, y⟩ := q
  simp only [PixelOf, preparePt, Prod.mk.injEq]
  rw [div_mul_eq_mul_div, div_mul_eq_mul_div, eq_div_iff h1', eq_div_iff h2']

theorem pixels_iff {tile : Tile K} (h : tile.Proper) (px : K) (ps qs : List (Pt K)) :
    PixelsOf tile px ps qs ↔ qs = ps.map (preparePt tile px) := by
  unfold PixelsOf
  induction ps generalizing qs with
  | nil => simp
  | cons p ps ih =>
    cases qs with
    | nil => simp
    | cons q qs => simp [pixel_iff h, ih]

theorem differ_iff (feq : K → K → Bool) (p q : Pt K) : Differ feq p q ↔ ptEq feq p q = false := by
  unfold Differ ptEq
  cases feq p.1 q.1 <;> cases feq p.2 q.2 <;> simp

theorem lineLoop_go (feq : K → K → Bool) (tile : Tile K) (px : K) (acc : List (Pt K)) (l : Pt K)
    (gs : List (Pt K)) : lineLoop feq tile px (acc ++ [l]) gs =
      acc ++ (gs.map (preparePt tile px)).destutter' (Differ feq) l := by
  induction gs generalizing acc l with
  | nil => simp [lineLoop]
  | cons g gs ih =>
    rw [lineLoop]
    simp only [List.getLast?_append, List.getLast?_singleton, Option.some_or, List.map_cons]
    by_cases h : ptEq feq l (preparePt tile px g) = true
    · rw [if_pos h, ih, List.destutter'_cons_neg]
      rw [differ_iff]; simp [h]
    · rw [if_neg h, ih (acc ++ [l]), List.destutter'_cons_pos]
      · simp
      · rw [differ_iff]; simpa using h

theorem lineLoop_eq (feq : K → K → Bool) (tile : Tile K) (px : K) (gs : List (Pt K)) :
    lineLoop feq tile px [] gs = thin feq (gs.map (preparePt tile px)) := by
  cases gs with
  | nil => rfl
  | cons g gs =>
    rw [lineLoop]
    simp only [List.getLast?_nil, List.nil_append]
    have := lineLoop_go feq tile px [] (preparePt tile px g) gs
    simpa [thin, List.destutter_cons'] using this

theorem prepareLine_eq (feq : K → K → Bool) (tile : Tile K) (px : K) (pts : List (Pt K)) :
    prepareLine feq tile px pts =
      if 2 ≤ (thin feq (pts.map (preparePt tile px))).length then thin feq (pts.map (preparePt tile px))
      else [] := by
  unfold prepareLine
  simp only [lineLoop_eq]
  have : (thin feq (pts.map (preparePt tile px))).length ≤ pts.length := by
    have := (List.destutter_sublist (Differ feq) (pts.map (preparePt tile px))).length_le
    simpa [thin] using this
  by_cases h : pts.length < 2
  · rw [if_pos h, if_neg (by omega)]
  · rw [if_neg h]
    by_cases h2 : (thin feq (pts.map (preparePt tile px))).length < 2
    · rw [if_pos h2, if_neg (by omega)]
    · rw [if_neg h2, if_pos (by omega)]

/-- A list thins out to one point just if all the others are equal to the first. -/
theorem thin_short (feq : K → K → Bool) (f : Pt K) (qs : List (Pt K)) :
    (thin feq (f :: qs)).length < 2 ↔ ∀ q ∈ qs, ¬ Differ feq f q := by
  rw [thin, List.destutter_cons']
  induction qs with
  | nil => simp
  | cons q qs ih =>
    by_cases h : Differ feq f q
    · rw [List.destutter'_cons_pos _ h]
      have : List.destutter' (Differ feq) q qs ≠ [] := List.destutter'_ne_nil _ _
      have := List.length_pos_iff.2 this
      simp only [List.length_cons, List.mem_cons, forall_eq_or_imp]
      constructor
      · intro h; omega
      · exact fun hc => absurd h hc.1
    · rw [List.destutter'_cons_neg _ h, ih]
      simp [h]

theorem collapses_iff {tile : Tile K} (h : tile.Proper) (feq : K → K → Bool) (px : K) (ring : List (Pt K)) :
    Collapses feq tile px ring ↔
      2 ≤ ring.length ∧ (thin feq (ring.map (preparePt tile px))).length < 2 := by
  unfold Collapses
  refine and_congr_right fun hl => ?_
  cases ring with
  | nil => simp at hl
  | cons r rs =>
    simp only [pixels_iff h, List.map_cons, List.cons.injEq, thin_short]
    constructor
    · rintro ⟨f, qs, ⟨rfl, rfl⟩, hq⟩; exact hq
    · intro hq; exact ⟨_, _, ⟨rfl, rfl⟩, hq⟩

/-- A thinned list of two or more points keeps two after opening. -/
theorem opened_long (feq : K → K → Bool) (qs : List (Pt K)) (h : 2 ≤ (thin feq qs).length) :
    2 ≤ (opened feq (thin feq qs)).length := by
  unfold opened
  split
  · rename_i hc
    obtain ⟨f, hf, l, hl, hd⟩ := hc
    rw [List.length_dropLast]
    by_contra hlt
    have h2 : (thin feq qs).length = 2 := by omega
    have hch : (thin feq qs).IsChain (Differ feq) := List.isChain_destutter _ _
    match hq : thin feq qs, h2 with
    | [a, b], _ =>
      rw [hq] at hf hl hch
      simp at hf hl hch
      subst hf hl
      exact hd hch
  · exact h

theorem opened_eq (feq : K → K → Bool) {ln : List (Pt K)} {f l : Pt K} (hf : ln.head? = some f)
    (hl : ln.getLast? = some l) :
    (if ptEq feq f l then ln.take (ln.length - 1) else ln) = opened feq ln := by
  unfold opened
  rw [hf, hl]
  simp only [Option.mem_def, Option.some.injEq, exists_eq_left', differ_iff, Bool.not_eq_false,
    List.dropLast_eq_take]

/-- What the rings of a polygon become before they are turned. -/
def ringsFor (feq : K → K → Bool) (tile : Tile K) (px : K) (g : List (List (Pt K))) : List (List (Pt K)) :=
  (g.filter fun r => decide (2 ≤ r.length)).map fun r => opened feq (thin feq (r.map (preparePt tile px)))

theorem ringLoop_eq {tile : Tile K} (h : tile.Proper) (feq : K → K → Bool) (px : K)
    (p g : List (List (Pt K))) :
    ((∃ r ∈ g, Collapses feq tile px r) → ringLoop feq tile px p g = none) ∧
    ((¬ ∃ r ∈ g, Collapses feq tile px r) →
      ringLoop feq tile px p g = some (p ++ ringsFor feq tile px g)) := by
  induction g generalizing p with
  | nil => simp [ringLoop, ringsFor]
  | cons r rs ih =>
    rw [ringLoop]
    by_cases hl : r.length < 2
    · rw [if_pos hl]
      have hc : ¬ Collapses feq tile px r := fun hc => by have := hc.1; omega
      have he : ringsFor feq tile px (r :: rs) = ringsFor feq tile px rs := by
        unfold ringsFor
        rw [List.filter_cons_of_neg]
        simpa using hl
      simp only [List.mem_cons, exists_eq_or_imp, hc, false_or, he]
      exact ih p
    · rw [if_neg hl]
      simp only [prepareLine_eq]
      by_cases hs : (thin feq (r.map (preparePt tile px))).length < 2
      · have hc : Collapses feq tile px r := (collapses_iff h feq px r).2 ⟨by omega, hs⟩
        rw [if_neg (by omega)]
        refine ⟨fun _ => rfl, fun hn => absurd ⟨r, by simp, hc⟩ hn⟩
      · have hc : ¬ Collapses feq tile px r := fun hc => hs ((collapses_iff h feq px r).1 hc).2
        rw [if_pos (by omega)]
        have hne : thin feq (r.map (preparePt tile px)) ≠ [] := by
          intro h0; rw [h0] at hs; simp at hs
        have e1 : (thin feq (r.map (preparePt tile px))).head? =
            some ((thin feq (r.map (preparePt tile px))).head hne) := List.head?_eq_some_head hne
        have e2 : (thin feq (r.map (preparePt tile px))).getLast? =
            some ((thin feq (r.map (preparePt tile px))).getLast hne) := List.getLast?_eq_some_getLast hne
        rw [e1, e2]
        simp only [opened_eq feq e1 e2]
        rw [if_neg (by have := opened_long feq (r.map (preparePt tile px)) (by omega); omega)]
        have he : p ++ ringsFor feq tile px (r :: rs) =
            (p ++ [opened feq (thin feq (r.map (preparePt tile px)))]) ++ ringsFor feq tile px rs := by
          unfold ringsFor
          rw [List.filter_cons_of_pos]
          · simp
          · simpa using hl
        simp only [List.mem_cons, exists_eq_or_imp, hc, false_or, he]
        exact ih _

theorem preparePolygon_panics {tile : Tile K} (h : tile.Proper) (feq : K → K → Bool) (px : K)
    (g : List (List (Pt K))) (hc : ∃ r ∈ g, Collapses feq tile px r) :
    preparePolygon feq tile px g = none := by
  unfold preparePolygon
  rw [if_neg, ((ringLoop_eq h feq px [] g).1 hc)]
  · rfl
  · obtain ⟨r, hr, _⟩ := hc
    intro h0
    rw [List.length_eq_zero_iff] at h0
    simp [h0] at hr

theorem preparePolygon_eq {tile : Tile K} (h : tile.Proper) (feq : K → K → Bool) (px : K)
    (g : List (List (Pt K))) (hc : ¬ ∃ r ∈ g, Collapses feq tile px r) :
    preparePolygon feq tile px g = some (Props.rectified false (ringsFor feq tile px g)) := by
  unfold preparePolygon
  split
  · rename_i h0
    rw [List.length_eq_zero_iff] at h0
    subst h0
    simp [ringsFor, Props.rectified]
  · rw [((ringLoop_eq h feq px [] g).2 hc)]
    simp [Props.C32_rectify]

theorem polygonsLoop_eq {tile : Tile K} (h : tile.Proper) (feq : K → K → Bool) (px : K)
    (mp ps : List (List (List (Pt K)))) :
    ((∃ r ∈ ps.flatten, Collapses feq tile px r) → polygonsLoop feq tile px mp ps = none) ∧
    ((¬ ∃ r ∈ ps.flatten, Collapses feq tile px r) →
      polygonsLoop feq tile px mp ps = some (mp ++ (ps.map fun p =>
        Props.rectified false (ringsFor feq tile px p)).filter (· ≠ []))) := by
  induction ps generalizing mp with
  | nil => simp [polygonsLoop]
  | cons p ps ih =>
    rw [polygonsLoop]
    by_cases hp : ∃ r ∈ p, Collapses feq tile px r
    · rw [preparePolygon_panics h feq px p hp]
      refine ⟨fun _ => rfl, fun hn => absurd ?_ hn⟩
      obtain ⟨r, hr, hc⟩ := hp
      exact ⟨r, by simp [hr], hc⟩
    · rw [preparePolygon_eq h feq px p hp]
      have e : (∃ r ∈ (p :: ps).flatten, Collapses feq tile px r) ↔
          ∃ r ∈ ps.flatten, Collapses feq tile px r := by
        simp only [List.flatten_cons, List.mem_append]
        constructor
        · rintro ⟨r, hr | hr, hc⟩
          · exact absurd ⟨r, hr, hc⟩ hp
          · exact ⟨r, hr, hc⟩
        · rintro ⟨r, hr, hc⟩; exact ⟨r, Or.inr hr, hc⟩
      rw [e]
      simp only [List.map_cons]
      by_cases h0 : Props.rectified false (ringsFor feq tile px p) = []
      · rw [h0, List.filter_cons_of_neg (by simp)]
        simpa using ih mp
      · rw [List.filter_cons_of_pos (by simpa using h0), if_pos (List.length_pos_iff.2 h0)]
        have := ih (mp ++ [Props.rectified false (ringsFor feq tile px p)])
        simpa using this

theorem linesLoop_eq (feq : K → K → Bool) (tile : Tile K) (px : K) (ml ls : List (List (Pt K))) :
    linesLoop feq tile px ml ls = ml ++ (ls.map fun l => thin feq (l.map (preparePt tile px))).filter
      (fun l => decide (2 ≤ l.length)) := by
  induction ls generalizing ml with
  | nil => simp [linesLoop]
  | cons l ls ih =>
    rw [linesLoop]
    simp only [prepareLine_eq, List.map_cons]
    by_cases h : 2 ≤ (thin feq (l.map (preparePt tile px))).length
    · rw [if_pos h, ih, List.filter_cons_of_pos (by simpa using h), if_pos (by omega)]
      simp
    · rw [if_neg h, ih, List.filter_cons_of_neg (by simpa using h)]
      simp

end Verif.Lemmas.MvtPrepare
