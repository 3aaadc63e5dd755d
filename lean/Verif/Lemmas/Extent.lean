import Verif.Lemmas.F64
import Verif.Model.Extent
import Verif.Spec.Extent

namespace Verif.Ext
open Verif Verif.Spec.Extent

/-- The box of an extent value. -/
def box (e : Ext) : Box := ⟨e.minx, e.miny, e.maxx, e.maxy⟩

theorem numeric_of_valid {b : Box} (h : b.valid) : b.numeric := by
  simp only [Box.valid, F64.le_iff] at h
  exact ⟨h.1.1, h.2.1, h.1.2.1, h.2.2.1⟩

/-- One step of growing. -/
def Grows (I : Ext → Prop) (s : Ext → Pt F64 → Ext) : Prop :=
  ∀ e p, I e → numPt p → I (s e p) ∧ (box (s e p)).has p ∧ (box e).within (box (s e p)) ∧
    ∀ b', (box e).within b' → b'.has p → (box (s e p)).within b'

theorem within_refl {b : Box} (h : b.numeric) : b.within b := by
  obtain ⟨h1, h2, h3, h4⟩ := h
  simp only [num] at *
  simp [Box.within, F64.le_iff, *]

theorem within_trans {a b c : Box} (h1 : a.within b) (h2 : b.within c) : a.within c := by
  simp only [Box.within, F64.le_iff] at *
  obtain ⟨⟨_, _, _⟩, ⟨_, _, _⟩, ⟨_, _, _⟩, ⟨_, _, _⟩⟩ := h1
  obtain ⟨⟨_, _, _⟩, ⟨_, _, _⟩, ⟨_, _, _⟩, ⟨_, _, _⟩⟩ := h2
  refine ⟨⟨?_, ?_, ?_⟩, ⟨?_, ?_, ?_⟩, ⟨?_, ?_, ?_⟩, ⟨?_, ?_, ?_⟩⟩ <;> first | assumption | omega

theorem has_of_within {a b : Box} {p : Pt F64} (h1 : a.within b) (h2 : a.has p) : b.has p := by
  simp only [Box.within, Box.has, F64.le_iff] at *
  obtain ⟨⟨_, _, _⟩, ⟨_, _, _⟩, ⟨_, _, _⟩, ⟨_, _, _⟩⟩ := h1
  obtain ⟨⟨_, _, _⟩, ⟨_, _, _⟩, ⟨_, _, _⟩, ⟨_, _, _⟩⟩ := h2
  refine ⟨⟨?_, ?_, ?_⟩, ⟨?_, ?_, ?_⟩, ⟨?_, ?_, ?_⟩, ⟨?_, ?_, ?_⟩⟩ <;> first | assumption | omega

theorem same_of_within {a b : Box} (h1 : a.within b) (h2 : b.within a) : a.same b := by
  simp only [Box.within, Box.same, F64.le_iff, F64.eq_iff] at *
  obtain ⟨⟨_, _, _⟩, ⟨_, _, _⟩, ⟨_, _, _⟩, ⟨_, _, _⟩⟩ := h1
  obtain ⟨⟨_, _, _⟩, ⟨_, _, _⟩, ⟨_, _, _⟩, ⟨_, _, _⟩⟩ := h2
  refine ⟨⟨?_, ?_, ?_⟩, ⟨?_, ?_, ?_⟩, ⟨?_, ?_, ?_⟩, ⟨?_, ?_, ?_⟩⟩ <;> first | assumption | omega

theorem fold_grows {I : Ext → Prop} {s : Ext → Pt F64 → Ext} (hs : Grows I s)
    (hI : ∀ e, I e → (box e).numeric) (ps : List (Pt F64)) :
    ∀ e, I e → (∀ p ∈ ps, numPt p) →
      I (ps.foldl s e) ∧ (∀ p ∈ ps, (box (ps.foldl s e)).has p) ∧
      (box e).within (box (ps.foldl s e)) ∧
      ∀ b' : Box, (box e).within b' → (∀ p ∈ ps, b'.has p) → (box (ps.foldl s e)).within b' := by
  induction ps with
  | nil =>
    intro e he _
    exact ⟨he, by simp, within_refl (hI e he), fun b' h _ => h⟩
  | cons p ps ih =>
    intro e he hp
    obtain ⟨h1, h2, h3, h4⟩ := hs e p he (hp p (by simp))
    obtain ⟨g1, g2, g3, g4⟩ := ih (s e p) h1 (fun q hq => hp q (by simp [hq]))
    refine ⟨g1, ?_, within_trans h3 g3, ?_⟩
    · intro q hq
      rcases List.mem_cons.1 hq with rfl | hq
      · exact has_of_within g3 h2
      · exact g2 q hq
    · intro b' hb hps
      exact g4 b' (h4 b' hb (hps p (by simp))) (fun q hq => hps q (by simp [hq]))

theorem addPoint_grows : Grows (fun e => (box e).numeric) addPoint := by
  rintro e p ⟨h1, h2, h3, h4⟩ ⟨p1, p2⟩
  simp only [num, box] at *
  obtain ⟨a1, a2⟩ := F64.min_spec p1 h1
  obtain ⟨b1, b2⟩ := F64.min_spec p2 h2
  obtain ⟨c1, c2⟩ := F64.max_spec p1 h3
  obtain ⟨d1, d2⟩ := F64.max_spec p2 h4
  refine ⟨⟨a1, b1, c1, d1⟩, ?_, ?_, ?_⟩
  · simp only [Box.has, addPoint, F64.le_iff, a2, b2, c2, d2, a1, b1, c1, d1, p1, p2, true_and]
    refine ⟨?_, ?_, ?_, ?_⟩ <;> split <;> omega
  · simp only [Box.within, addPoint, F64.le_iff, a2, b2, c2, d2, a1, b1, c1, d1, h1, h2, h3, h4,
      true_and]
    refine ⟨?_, ?_, ?_, ?_⟩ <;> split <;> omega
  · intro b' hw hh
    simp only [Box.within, Box.has, addPoint, F64.le_iff, a2, b2, c2, d2, a1, b1, c1, d1, h1, h2, h3,
      h4, p1, p2, true_and] at *
    obtain ⟨⟨w1, w2⟩, ⟨w3, w4⟩, ⟨w5, w6⟩, ⟨w7, w8⟩⟩ := hw
    obtain ⟨⟨v1, v2⟩, ⟨v3, v4⟩, ⟨v5, v6⟩, ⟨v7, v8⟩⟩ := hh
    simp only [w1, w3, w5, w7, true_and]
    refine ⟨?_, ?_, ?_, ?_⟩ <;> split <;> omega

/-- One axis of the switch in NewExtent. -/
def grow1 (lo hi x : F64) : F64 × F64 :=
  if x.lt lo then (x, hi) else if hi.lt x then (lo, x) else (lo, hi)

theorem grow_eq (e : Ext) (p : Pt F64) :
    grow e p = ⟨(grow1 e.minx e.maxx p.1).1, (grow1 e.miny e.maxy p.2).1,
      (grow1 e.minx e.maxx p.1).2, (grow1 e.miny e.maxy p.2).2⟩ := by
  unfold grow grow1
  split <;> split <;> (try split) <;> (try split) <;> (try rfl) <;> simp_all

theorem grow1_spec {lo hi x : F64} (h : lo.le hi = true) (hx : x.isNaN = false) :
    (grow1 lo hi x).1.le x = true ∧ x.le (grow1 lo hi x).2 = true ∧
    (grow1 lo hi x).1.le lo = true ∧ hi.le (grow1 lo hi x).2 = true ∧
    (∀ a : F64, a.le lo = true → a.le x = true → a.le (grow1 lo hi x).1 = true) ∧
    (∀ a : F64, hi.le a = true → x.le a = true → (grow1 lo hi x).2.le a = true) := by
  simp only [F64.le_iff] at *
  obtain ⟨h1, h2, h3⟩ := h
  unfold grow1
  split
  · rename_i hlt; rw [F64.lt_iff] at hlt
    simp only [hx, h1, h2, true_and]
    refine ⟨by omega, by omega, by omega, by omega, ?_, ?_⟩ <;> intros <;> simp_all
  · rename_i hlt; rw [Bool.not_eq_true, F64.lt_false_iff hx h1] at hlt
    split
    · rename_i hgt; rw [F64.lt_iff] at hgt
      simp only [hx, h1, h2, true_and]
      refine ⟨by omega, by omega, by omega, by omega, ?_, ?_⟩ <;> intros <;> simp_all
    · rename_i hgt; rw [Bool.not_eq_true, F64.lt_false_iff h2 hx] at hgt
      simp only [hx, h1, h2, true_and]
      refine ⟨by omega, by omega, by omega, by omega, ?_, ?_⟩ <;> intros <;> simp_all

theorem le_trans' {a b c : F64} (h1 : a.le b = true) (h2 : b.le c = true) : a.le c = true := by
  rw [F64.le_iff] at *
  exact ⟨h1.1, h2.2.1, by omega⟩

theorem grow_grows : Grows (fun e => (box e).valid) grow := by
  rintro e p ⟨h1, h2⟩ ⟨p1, p2⟩
  obtain ⟨a1, a2, a3, a4, a5, a6⟩ := grow1_spec h1 p1
  obtain ⟨b1, b2, b3, b4, b5, b6⟩ := grow1_spec h2 p2
  simp only [box] at *
  rw [grow_eq]
  refine ⟨⟨le_trans' a1 a2, le_trans' b1 b2⟩, ⟨a1, a2, b1, b2⟩, ⟨a3, a4, b3, b4⟩, ?_⟩
  rintro b' ⟨w1, w2, w3, w4⟩ ⟨v1, v2, v3, v4⟩
  exact ⟨a5 _ w1 v1, a6 _ w2 v2, b5 _ w3 v3, b6 _ w4 v4⟩

theorem single_valid {p : Pt F64} (h : numPt p) : (box ⟨p.1, p.2, p.1, p.2⟩).valid := by
  simp only [numPt, num] at h
  simp [box, Box.valid, F64.le_iff, h]

theorem single_has {p : Pt F64} (h : numPt p) : (box ⟨p.1, p.2, p.1, p.2⟩).has p := by
  simp only [numPt, num] at h
  simp [box, Box.has, F64.le_iff, h]

theorem single_least {p : Pt F64} {b' : Box} (h : b'.has p) : (box ⟨p.1, p.2, p.1, p.2⟩).within b' := by
  obtain ⟨h1, h2, h3, h4⟩ := h
  exact ⟨h1, h2, h3, h4⟩

theorem tight_unique {a b : Box} {ps : List (Pt F64)} (ha : Tight a ps) (hb : Tight b ps) :
    a.same b := same_of_within (ha.2 b hb.1) (hb.2 a ha.1)

/-- Any growing fold from the first point is tight. -/
theorem fold_tight {I : Ext → Prop} {s : Ext → Pt F64 → Ext} (hs : Grows I s)
    (hI : ∀ e, I e → (box e).numeric) (h1 : ∀ p, numPt p → I ⟨p.1, p.2, p.1, p.2⟩)
    (p : Pt F64) (ps : List (Pt F64)) (hp : ∀ q ∈ p :: ps, numPt q) :
    Tight (box (ps.foldl s ⟨p.1, p.2, p.1, p.2⟩)) (p :: ps) := by
  have hp0 := hp p (by simp)
  obtain ⟨-, g2, g3, g4⟩ := fold_grows hs hI ps _ (h1 p hp0) (fun q hq => hp q (by simp [hq]))
  constructor
  · intro q hq
    rcases List.mem_cons.1 hq with rfl | hq
    · exact has_of_within g3 (single_has hp0)
    · exact g2 q hq
  · intro b' hb
    exact g4 b' (single_least (hb p (by simp))) (fun q hq => hb q (by simp [hq]))

/-! ## Traversals -/

theorem coords_known {α : Type} (g : Geom α) : known g = true → g.coords = (verticesOf g, false) := by
  induction g using Geom.induct with
  | collection gs ih =>
    have key : ∀ gs : List (Geom α), (∀ g ∈ gs, known g = true → g.coords = (verticesOf g, false)) →
        knownAll gs = true → Geom.coordsAll gs = (verticesOfAll gs, false) := by
      intro gs
      induction gs with
      | nil => intro _ _; rfl
      | cons g gs ihg =>
        intro h hk
        rw [knownAll, Bool.and_eq_true] at hk
        rw [Geom.coordsAll, h g (by simp) hk.1]
        simp [ihg (fun g' h' => h g' (by simp [h'])) hk.2, verticesOfAll]
    intro hk
    rw [known] at hk
    rw [Geom.coords, key gs ih hk, verticesOf]
  | other => intro h; simp [known] at h
  | multiPolygon ps => intro _; simp [Geom.coords, verticesOf, List.flatten_flatten]
  | _ => intro _; rfl

theorem coords_err {α : Type} (g : Geom α) : g.coords.2 = !known g := by
  induction g using Geom.induct with
  | collection gs ih =>
    have key : ∀ gs : List (Geom α), (∀ g ∈ gs, g.coords.2 = !known g) →
        (Geom.coordsAll gs).2 = !knownAll gs := by
      intro gs
      induction gs with
      | nil => intro _; rfl
      | cons g gs ihg =>
        intro h
        have h0 := h g (by simp)
        have h1 := ihg (fun g' h' => h g' (by simp [h']))
        rw [Geom.coordsAll]
        split
        · rename_i hc; rw [hc] at h0; simp at h0; simp [knownAll, h0]
        · rename_i hc; rw [hc] at h0; simp at h0; simp [knownAll, h0, h1]
    rw [Geom.coords, key gs ih, known]
  | _ => rfl

theorem addPoints_append (e : Option Ext) (a b : List (Pt F64)) :
    addPoints e (a ++ b) = addPoints (addPoints e a) b := by
  cases e <;> simp [addPoints]

theorem foldl_addPoints (ls : List (List (Pt F64))) (e : Option Ext) :
    ls.foldl addPoints e = addPoints e ls.flatten := by
  induction ls generalizing e with
  | nil => cases e <;> simp [addPoints]
  | cons l ls ih => simp [ih, addPoints_append]

theorem addGeometry_eq (g : Geom F64) : ∀ e,
    addGeometry e g = (addPoints e g.coords.1, g.coords.2) := by
  induction g using Geom.induct with
  | collection gs ih =>
    have key : ∀ gs : List (Geom F64),
        (∀ g ∈ gs, ∀ e, addGeometry e g = (addPoints e g.coords.1, g.coords.2)) →
        ∀ e, addGeometries e gs = (addPoints e (Geom.coordsAll gs).1, (Geom.coordsAll gs).2) := by
      intro gs
      induction gs with
      | nil => intro _ e; cases e <;> rfl
      | cons g gs ihg =>
        intro h e
        have h0 := h g (by simp) e
        have h1 := ihg (fun g' h' => h g' (by simp [h']))
        rw [addGeometries, Geom.coordsAll, h0]
        rcases hc : g.coords with ⟨ps, b⟩
        cases b
        · simp [h1, addPoints_append]
        · rfl
    intro e
    rw [addGeometry, key gs ih, Geom.coords]
  | multiLineString ls => intro e; rw [addGeometry, foldl_addPoints]; rfl
  | polygon ls => intro e; rw [addGeometry, foldl_addPoints]; rfl
  | multiPolygon ps =>
    intro e
    have : ∀ (ps : List (List (List (Pt F64)))) e,
        ps.foldl (fun e rs => rs.foldl addPoints e) e = addPoints e (ps.map List.flatten).flatten := by
      intro ps
      induction ps with
      | nil => intro e; cases e <;> rfl
      | cons p ps ih => intro e; rw [List.foldl_cons, ih, foldl_addPoints, List.map_cons, List.flatten_cons, addPoints_append]
    rw [addGeometry, this]; rfl
  | other => intro e; cases e <;> rfl
  | _ => intro e; rfl

theorem foldl_clauses (e : Ext) (ps : List (Pt F64)) (he : (box e).numeric) (hp : ∀ p ∈ ps, numPt p) (b' : Box) :
    (box (ps.foldl addPoint e)).within b' ↔ (box e).within b' ∧ ∀ p ∈ ps, b'.has p := by
  obtain ⟨_, g2, g3, g4⟩ := fold_grows addPoint_grows (fun e h => h) ps e he hp
  constructor
  · intro h
    exact ⟨within_trans g3 h, fun p hp => has_of_within h (g2 p hp)⟩
  · rintro ⟨h1, h2⟩; exact g4 b' h1 h2

end Verif.Ext
