import Verif.Model.Delaunay
import Verif.Lemmas.SubTriangles
import Verif.Props.InsertSite

/-!
# Helper lemmas: triangulations of given points
-/

namespace Verif.Lemmas.DelaunayPoints
open Verif.Quad Verif.Spec.Quad Verif.Subdivision Verif.Spec.Subdivision Verif.Spec.Planar Verif.Delaunay
open Verif.Spec.Resolve Verif.Lemmas.Resolve Verif.Lemmas.Circle Verif.Lemmas.SubMesh Verif.Lemmas.SubCover
open Verif.Lemmas.SubHistory Verif.Lemmas.SubNew Verif.Lemmas.SubTriangles Verif.Props

set_option linter.unusedSectionVars false

variable {K : Type} [Field K] [LinearOrder K] [IsStrictOrderedRing K]

/-! ## The frame -/

/-- The extent has its points. -/
theorem extendBy_spec (e : K × K × K × K) (p : Pt K) (hx : e.1 ≤ e.2.2.1) (hy : e.2.1 ≤ e.2.2.2) :
    let e' := extendBy e p
    e'.1 ≤ e'.2.2.1 ∧ e'.2.1 ≤ e'.2.2.2 ∧ e'.1 ≤ e.1 ∧ e'.2.1 ≤ e.2.1 ∧ e.2.2.1 ≤ e'.2.2.1 ∧ e.2.2.2 ≤ e'.2.2.2 ∧
      e'.1 ≤ p.1 ∧ p.1 ≤ e'.2.2.1 ∧ e'.2.1 ≤ p.2 ∧ p.2 ≤ e'.2.2.2 := by
  unfold extendBy
  simp only
  refine ⟨?_, ?_, ?_, ?_, ?_, ?_, ?_, ?_, ?_, ?_⟩ <;> split_ifs <;> linarith

theorem foldl_extendBy : ∀ (ps : List (Pt K)) (e : K × K × K × K), e.1 ≤ e.2.2.1 → e.2.1 ≤ e.2.2.2 →
    let e' := ps.foldl extendBy e
    e'.1 ≤ e'.2.2.1 ∧ e'.2.1 ≤ e'.2.2.2 ∧ e'.1 ≤ e.1 ∧ e'.2.1 ≤ e.2.1 ∧ e.2.2.1 ≤ e'.2.2.1 ∧ e.2.2.2 ≤ e'.2.2.2 ∧
      ∀ p ∈ ps, e'.1 ≤ p.1 ∧ p.1 ≤ e'.2.2.1 ∧ e'.2.1 ≤ p.2 ∧ p.2 ≤ e'.2.2.2
  | [], e, hx, hy => ⟨hx, hy, le_rfl, le_rfl, le_rfl, le_rfl, by simp⟩
  | q :: ps, e, hx, hy => by
    obtain ⟨a1, a2, a3, a4, a5, a6, a7, a8, a9, a10⟩ := extendBy_spec e q hx hy
    obtain ⟨b1, b2, b3, b4, b5, b6, b7⟩ := foldl_extendBy ps (extendBy e q) a1 a2
    simp only [List.foldl_cons]
    refine ⟨b1, b2, b3.trans a3, b4.trans a4, a5.trans b5, a6.trans b6, ?_⟩
    intro p hp
    rcases List.mem_cons.1 hp with rfl | hp
    · exact ⟨b3.trans a7, a8.trans b5, b4.trans a9, a10.trans b6⟩
    · exact b7 p hp

theorem extentOf_spec {ps : List (Pt K)} (h : ps ≠ []) : ∃ e, extentOf ps = some e ∧ e.1 ≤ e.2.2.1 ∧ e.2.1 ≤ e.2.2.2 ∧
    ∀ p ∈ ps, e.1 ≤ p.1 ∧ p.1 ≤ e.2.2.1 ∧ e.2.1 ≤ p.2 ∧ p.2 ≤ e.2.2.2 := by
  cases ps with
  | nil => exact absurd rfl h
  | cons q ps =>
    obtain ⟨b1, b2, b3, b4, b5, b6, b7⟩ := foldl_extendBy ps (q.1, q.2, q.1, q.2) le_rfl le_rfl
    refine ⟨_, rfl, b1, b2, fun p hp => ?_⟩
    rcases List.mem_cons.1 hp with rfl | hp
    · exact ⟨b3, b5, b4, b6⟩
    · exact b7 p hp

theorem frame_inside (e0 e1 e2 e3 : K) (hx : e0 ≤ e2) (hy : e1 ≤ e3) (p : Pt K) (p1 : e0 ≤ p.1) (p2 : p.1 ≤ e2)
    (p3 : e1 ≤ p.2) (p4 : p.2 ≤ e3) :
    let t := Shapes.triangleForExtent e0 e1 e2 e3 10
    InsideTriangle p t.1 t.2.1 t.2.2 := by
  obtain ⟨x, hxd⟩ : ∃ x, x = (e2 - e0) / 2 := ⟨_, rfl⟩
  obtain ⟨y, hyd⟩ : ∃ y, y = e3 - e1 := ⟨_, rfl⟩
  have hx0 : 0 ≤ x := by rw [hxd]; linarith
  have hy0 : 0 ≤ y := by rw [hyd]; linarith
  obtain ⟨h, hh⟩ : ∃ h, h = 11 * x + 10 := ⟨_, rfl⟩
  obtain ⟨H, hH⟩ : ∃ H, H = 31 * y + 20 := ⟨_, rfl⟩
  have hpos : 0 < h := by rw [hh]; linarith
  have Hpos : 0 < H := by rw [hH]; linarith
  have e2' : e2 = e0 + 2 * x := by rw [hxd]; ring
  have e3' : e3 = e1 + y := by rw [hyd]; ring
  simp only [Shapes.triangleForExtent]
  rw [← hxd, ← hyd]
  obtain ⟨v, hv⟩ : ∃ v, v = (p.2 - (e1 - y * 10 - 10)) / H := ⟨_, rfl⟩
  obtain ⟨d, hd⟩ : ∃ d, d = (p.1 - (e0 + x)) / h := ⟨_, rfl⟩
  have hvH : v * H = p.2 - (e1 - y * 10 - 10) := by rw [hv]; field_simp
  have hdh : d * h = p.1 - (e0 + x) := by rw [hd]; field_simp
  have hv0 : 0 < v := by rw [hv]; exact div_pos (by linarith) Hpos
  have key : x * H < h * (20 * y + 10) := by
    have h1 : 0 ≤ x * y := mul_nonneg hx0 hy0
    rw [hh, hH]
    nlinarith
  have hv1 : 20 * y + 10 ≤ (1 - v) * H := by
    have : (1 - v) * H = H - v * H := by ring
    rw [this, hvH, hH]
    linarith
  have hxv : x < (1 - v) * h := by
    have h1 : x * H < (1 - v) * h * H := by
      calc x * H < h * (20 * y + 10) := key
        _ ≤ h * ((1 - v) * H) := mul_le_mul_of_nonneg_left hv1 hpos.le
        _ = (1 - v) * h * H := by ring
    exact lt_of_mul_lt_mul_right h1 Hpos.le
  have hd1 : d < 1 - v := by
    have : d * h < (1 - v) * h := by rw [hdh]; linarith
    exact lt_of_mul_lt_mul_right this hpos.le
  have hd2 : -(1 - v) < d := by
    have : -(1 - v) * h < d * h := by
      rw [hdh]
      have : -(1 - v) * h = -((1 - v) * h) := by ring
      rw [this]; linarith
    exact lt_of_mul_lt_mul_right this hpos.le
  refine ⟨((1 - v) - d) / 2, v, ((1 - v) + d) / 2, by linarith, hv0, by linarith, by ring, ?_⟩
  apply Prod.ext
  · simp only []
    rw [e2']
    have : p.1 = e0 + x + d * h := by rw [hdh]; ring
    rw [this, hh]
    ring
  · simp only []
    have : p.2 = (e1 - y * 10 - 10) + v * H := by rw [hvH]; ring
    rw [this, hH, e3']
    ring

theorem frame_wedge (yd : Bool) (e0 e1 e2 e3 : K) (hx : e0 ≤ e2) (hy : e1 ≤ e3) :
    let t := Shapes.triangleForExtent e0 e1 e2 e3 10
    wedge yd (arrow t.1 t.2.1) (arrow t.1 t.2.2) ≠ 0 := by
  simp only [Shapes.triangleForExtent]
  unfold wedge arrow
  intro h
  cases yd <;> simp at h <;> rcases h with h | h <;> linarith

/-- A point inside a triangle is not on a side. -/
theorem not_on_side {a b c x : Pt K} (h : InsideTriangle x a b c) (hw : wedge false (arrow a b) (arrow a c) ≠ 0) :
    ¬ OnSegment x a b := by
  obtain ⟨u, v, w, hu, hv, hw', hs, rfl⟩ := h
  rintro ⟨t, _, _, ht⟩
  apply hw
  have e1 := congrArg Prod.fst ht
  have e2 := congrArg Prod.snd ht
  simp only at e1 e2
  have : w * wedge false (arrow a b) (arrow a c) = 0 := by
    unfold wedge arrow
    have hu' : u = 1 - v - w := by linarith
    subst hu'
    simp only [Bool.false_eq_true, if_false]
    linear_combination (b.1 - a.1) * e2 - (b.2 - a.2) * e1
  exact (mul_eq_zero.1 this).resolve_left hw'.ne'

theorem not_on_sides {a b c x : Pt K} {yd : Bool} (h : InsideTriangle x a b c)
    (hw : wedge yd (arrow a b) (arrow a c) ≠ 0) : ¬ OnSegment x a b ∧ ¬ OnSegment x b c ∧ ¬ OnSegment x c a := by
  have h0 : wedge false (arrow a b) (arrow a c) ≠ 0 := by
    intro h0; apply hw
    unfold wedge arrow at *
    cases yd <;> simp at * <;> first | linear_combination h0 | linear_combination (-1 : K) * h0
  have h1 : wedge false (arrow b c) (arrow b a) ≠ 0 := by
    intro h1; apply h0
    unfold wedge arrow at *
    simp at *; linear_combination h1
  have h2 : wedge false (arrow c a) (arrow c b) ≠ 0 := by
    intro h1; apply h0
    unfold wedge arrow at *
    simp at *; linear_combination h1
  obtain ⟨u, v, w, hu, hv, hw', hs, e⟩ := h
  exact ⟨not_on_side ⟨u, v, w, hu, hv, hw', hs, e⟩ h0,
    not_on_side ⟨v, w, u, hv, hw', hu, by linarith, by rw [e]; ext <;> simp only <;> ring⟩ h1,
    not_on_side ⟨w, u, v, hw', hu, hv, by linarith, by rw [e]; ext <;> simp only <;> ring⟩ h2⟩

/-! ## The loop over the points -/

/-- The points `InsertSite` is called for. -/
def fresh : List (Pt K) → List (Pt K) → List (Pt K)
  | _, [] => []
  | seen, p :: ps => if p ∈ seen then fresh seen ps else p :: fresh (p :: seen) ps

theorem mem_fresh : ∀ (ps seen : List (Pt K)) (p : Pt K), p ∈ fresh seen ps ↔ p ∈ ps ∧ p ∉ seen
  | [], seen, p => by simp [fresh]
  | q :: ps, seen, p => by
    unfold fresh
    split_ifs with h
    · rw [mem_fresh ps seen p, List.mem_cons]
      constructor
      · rintro ⟨h1, h2⟩; exact ⟨Or.inr h1, h2⟩
      · rintro ⟨rfl | h1, h2⟩
        · exact absurd h h2
        · exact ⟨h1, h2⟩
    · rw [List.mem_cons, mem_fresh ps (q :: seen) p, List.mem_cons, List.mem_cons]
      constructor
      · rintro (rfl | ⟨h1, h2⟩)
        · exact ⟨Or.inl rfl, h⟩
        · exact ⟨Or.inr h1, fun h3 => h2 (Or.inr h3)⟩
      · rintro ⟨rfl | h1, h2⟩
        · exact Or.inl rfl
        · by_cases hq : p = q
          · exact Or.inl hq
          · exact Or.inr ⟨h1, by rintro (h3 | h3); exacts [hq h3, h2 h3]⟩

open Classical in
theorem insertPoints_eq (yd : Bool) (cancelled : Nat → Bool) : ∀ (ps : List (Pt K)) (i : Nat) (seen : List (Pt K))
    (sd sd' : Subdiv K) (rs : List Bool), insertAll yd sd (fresh seen ps) = some (rs, sd') → (∀ r ∈ rs, r = true) →
    insertPoints yd cancelled i seen sd ps =
      if ∃ j, j < ps.length ∧ cancelled (i + j) = true then .cancelled else .ok sd'
  | [], i, seen, sd, sd', rs, h, hr => by
    simp only [fresh, insertAll, Option.some.injEq, Prod.mk.injEq] at h
    rw [← h.2]
    simp [insertPoints]
  | p :: ps, i, seen, sd, sd', rs, h, hr => by
    have shift : (∃ j, j < (p :: ps).length ∧ cancelled (i + j) = true) ↔
        cancelled i = true ∨ ∃ j, j < ps.length ∧ cancelled (i + 1 + j) = true := by
      constructor
      · rintro ⟨j, h1, h2⟩
        cases j with
        | zero => exact Or.inl h2
        | succ j =>
          refine Or.inr ⟨j, by simpa using h1, ?_⟩
          rw [← h2]; congr 1; omega
      · rintro (h | ⟨j, h1, h2⟩)
        · exact ⟨0, by simp, h⟩
        · refine ⟨j + 1, by simpa using h1, ?_⟩
          rw [← h2]; congr 1; omega
    rw [if_congr shift rfl rfl]
    unfold insertPoints
    by_cases hc : cancelled i = true
    · rw [if_pos hc, if_pos (Or.inl hc)]
    · rw [if_neg hc]
      have e : (cancelled i = true ∨ ∃ j, j < ps.length ∧ cancelled (i + 1 + j) = true) ↔
          ∃ j, j < ps.length ∧ cancelled (i + 1 + j) = true := ⟨fun h => h.resolve_left hc, Or.inr⟩
      rw [if_congr e rfl rfl]
      unfold fresh at h
      by_cases hs : p ∈ seen
      · rw [if_pos hs] at h
        rw [if_pos hs]
        exact insertPoints_eq yd cancelled ps (i + 1) seen sd sd' rs h hr
      · rw [if_neg hs] at h
        rw [if_neg hs]
        simp only [insertAll] at h
        cases h1 : insertSite yd sd p with
        | none => rw [h1] at h; cases h
        | some r =>
          obtain ⟨r, sd1⟩ := r
          rw [h1] at h
          simp only at h
          cases h2 : insertAll yd sd1 (fresh (p :: seen) ps) with
          | none => rw [h2] at h; cases h
          | some r' =>
            rw [h2] at h
            simp only [Option.some.injEq, Prod.mk.injEq] at h
            obtain ⟨rfl, rfl⟩ := h
            obtain rfl := hr r List.mem_cons_self
            simp only
            exact insertPoints_eq yd cancelled ps (i + 1) (p :: seen) sd1 _ r'.1 h2
              (fun x hx => hr x (List.mem_cons_of_mem _ hx))

/-! ## What is listed -/

theorem insertAll_frame {yd : Bool} {xs : List (Pt K)} {sd sd' : Subdiv K} {rs : List Bool}
    (h : insertAll yd sd xs = some (rs, sd')) : sd'.frame = sd.frame := by
  induction xs generalizing sd rs sd' with
  | nil =>
    simp only [insertAll, Option.some.injEq, Prod.mk.injEq] at h
    rw [h.2]
  | cons x xs ih =>
    simp only [insertAll] at h
    cases h1 : insertSite yd sd x with
    | none => rw [h1] at h; cases h
    | some r =>
      rw [h1] at h
      simp only at h
      cases h2 : insertAll yd r.2 xs with
      | none => rw [h2] at h; cases h
      | some r' =>
        rw [h2] at h
        simp only [Option.some.injEq, Prod.mk.injEq] at h
        rw [← h.2, ih h2, insertSite_frame (r := r.1) h1]

/-- What `Triangles` lists of a triangulation of the frame. -/
theorem triangles_good {yd : Bool} {a b c : Pt K} {sd' : Subdiv K} (h4 : Triangulates yd a b c sd')
    (h5 : Delaunay sd'.store sd'.start) (frame : sd'.frame = (a, b, c)) :
    ∃ l1 T l2, sd'.triangles true = some (l1 ++ T :: l2) ∧
      (SameTriangle T (a, b, c) ∨ SameTriangle T (b, a, c)) ∧ ¬ Turns yd T.1 T.2.1 T.2.2 ∧
      DelaunayTriangulation yd a b c (Vertex sd'.store sd'.start) (l1 ++ l2) ∧
      sd'.triangles false =
        some ((l1 ++ l2).filter fun T : _ × _ × _ => decide (∀ v ∈ [T.1, T.2.1, T.2.2], v ≠ a ∧ v ≠ b ∧ v ≠ c)) := by
  have swap : ∀ p, InTriangle p a c b ↔ InTriangle p a b c := by
    intro p
    constructor <;> rintro ⟨u, v, w, hu, hv, hw, hs, rfl⟩ <;>
      exact ⟨u, w, v, hu, hw, hv, by linarith, Prod.ext (by simp only; ring) (by simp only; ring)⟩
  have list : ∃ l1 T l2, walkAllTriangles sd'.store sd'.start = some (l1 ++ T :: l2) ∧
      (SameTriangle T (a, b, c) ∨ SameTriangle T (b, a, c)) ∧ ¬ Turns yd T.1 T.2.1 T.2.2 ∧
      DelaunayTriangulation yd a b c (Vertex sd'.store sd'.start) (l1 ++ l2) := by
    have wrong : ∀ {f0 f1 f2 : Pt K} {T : Pt K × Pt K × Pt K}, Turns yd f0 f1 f2 → SameTriangle T (f1, f0, f2) →
        ¬ Turns yd T.1 T.2.1 T.2.2 := by
      intro f0 f1 f2 T ht hs hn
      unfold Turns Spec.Resolve.wedge Spec.Resolve.arrow at *
      rcases hs with rfl | rfl | rfl <;> cases yd <;> simp only [Bool.false_eq_true, if_true, if_false] at * <;>
        linarith
    rcases h4 with h4 | h4
    · obtain ⟨l1, T, l2, g1, g2, g3⟩ := triangles_list h4 h5
      exact ⟨l1, T, l2, g1, Or.inr g2, wrong h4.frame g2, g3⟩
    · obtain ⟨l1, T, l2, g1, g2, g3⟩ := triangles_list h4 h5
      refine ⟨l1, T, l2, g1, Or.inl ?_, wrong h4.frame g2, g3.turns, fun p => (swap p).symm.trans (g3.cover p), g3.apart,
        g3.corners, g3.delaunay⟩
      exact same_rot.1 g2
  obtain ⟨l1, T, l2, g1, g2, g3, g4⟩ := list
  have tf : ∀ x : Pt K × Pt K × Pt K, (!(isFramePoint (a, b, c) [x.1, x.2.1, x.2.2])) =
      decide (∀ v ∈ [x.1, x.2.1, x.2.2], v ≠ a ∧ v ≠ b ∧ v ≠ c) := by
    intro x
    unfold isFramePoint
    simp only [List.any_cons, List.any_nil, List.forall_mem_cons, List.not_mem_nil, false_implies, implies_true]
    rw [Bool.eq_iff_iff]
    simp
    tauto
  refine ⟨l1, T, l2, ?_, g2, g3, g4, ?_⟩
  · unfold Subdiv.triangles
    rw [g1]
    simp
  · unfold Subdiv.triangles
    rw [g1, frame]
    simp only [Option.map_some, Bool.not_false, Bool.and_true, tf]
    rw [List.filter_append, List.filter_append, List.filter_cons_of_neg]
    rw [decide_eq_true_eq]
    intro hn
    have := hn T.1 (by simp)
    rcases g2 with (rfl | rfl | rfl) | (rfl | rfl | rfl) <;> simp at this

/-! ## Which triangles are in a Delaunay triangulation -/

/-- A triangle is in a Delaunay triangulation if no other point is in its circle or on it. -/
theorem listed_of_empty {yd : Bool} {a b c : Pt K} {vs : Pt K → Prop} {ts : List (Pt K × Pt K × Pt K)}
    (h : DelaunayTriangulation yd a b c vs ts) (hvs : ∀ v, vs v → InTriangle v a b c) {o d t m : Pt K}
    (ht : Turns yd o d t) (vo : vs o) (vd : vs d) (vt : vs t)
    (h1 : dist2 m o = dist2 m d) (h2 : dist2 m o = dist2 m t)
    (he : ∀ v, vs v → v ≠ o → v ≠ d → v ≠ t → dist2 m o < dist2 m v) : ∃ T ∈ ts, SameTriangle T (o, d, t) := by
  -- the middle of the triangle
  obtain ⟨p, hp⟩ : ∃ p : Pt K, p = (1 / 3 * o.1 + 1 / 3 * d.1 + 1 / 3 * t.1, 1 / 3 * o.2 + 1 / 3 * d.2 + 1 / 3 * t.2) :=
    ⟨_, rfl⟩
  have hpi : InTriangle p a b c := by
    obtain ⟨u1, v1, w1, a1, a2, a3, a4, a5⟩ := hvs o vo
    obtain ⟨u2, v2, w2, b1, b2, b3, b4, b5⟩ := hvs d vd
    obtain ⟨u3, v3, w3, c1, c2, c3, c4, c5⟩ := hvs t vt
    refine ⟨1 / 3 * u1 + 1 / 3 * u2 + 1 / 3 * u3, 1 / 3 * v1 + 1 / 3 * v2 + 1 / 3 * v3,
      1 / 3 * w1 + 1 / 3 * w2 + 1 / 3 * w3, by linarith, by linarith, by linarith, by linarith, ?_⟩
    rw [hp, a5, b5, c5]
    ext <;> simp only <;> ring
  obtain ⟨T, hT, u, v, w, hu, hv, hw, hs, hpT⟩ := (h.cover p).1 hpi
  obtain ⟨x, y, q⟩ := T
  simp only at hpT
  have hTt := h.turns _ hT
  simp only at hTt
  have vx : vs x := (h.corners x).2 ⟨_, hT, Or.inl rfl⟩
  have vy : vs y := (h.corners y).2 ⟨_, hT, Or.inr (Or.inl rfl)⟩
  have vq : vs q := (h.corners q).2 ⟨_, hT, Or.inr (Or.inr rfl)⟩
  obtain ⟨m', g1, g2⟩ := exists_centre hTt
  have out : ∀ r, vs r → dist2 m' x ≤ dist2 m' r := by
    intro r hr
    by_contra hn
    exact h.delaunay _ hT r hr ⟨m', g1, g2, not_lt.1 (fun h' => hn h'.le) |>.lt_of_ne (fun e => hn e.ge)⟩
  have out' : ∀ r, vs r → dist2 m o ≤ dist2 m r ∧ (dist2 m o = dist2 m r → r = o ∨ r = d ∨ r = t) := by
    intro r hr
    by_cases r1 : r = o
    · subst r1; exact ⟨le_rfl, fun _ => Or.inl rfl⟩
    by_cases r2 : r = d
    · subst r2; exact ⟨h1.le, fun _ => Or.inr (Or.inl rfl)⟩
    by_cases r3 : r = t
    · subst r3; exact ⟨h2.le, fun _ => Or.inr (Or.inr rfl)⟩
    have := he r hr r1 r2 r3
    exact ⟨this.le, fun e => absurd e this.ne⟩
  -- the difference of the powers is affine
  have aff : ∀ {k l n : K} {r1 r2 r3 : Pt K}, k + l + n = 1 →
      p = (k * r1.1 + l * r2.1 + n * r3.1, k * r1.2 + l * r2.2 + n * r3.2) →
      dist2 m p - dist2 m' p = k * (dist2 m r1 - dist2 m' r1) + l * (dist2 m r2 - dist2 m' r2) +
        n * (dist2 m r3 - dist2 m' r3) := by
    intro k l n r1 r2 r3 hk he
    have hk' : k = 1 - l - n := by linarith
    subst hk'
    rw [he]
    unfold dist2
    simp only
    ring
  have A := aff (k := 1 / 3) (l := 1 / 3) (n := 1 / 3) (r1 := o) (r2 := d) (r3 := t) (by norm_num) hp
  have B := aff hs hpT
  have n1 := out o vo
  have n2 := out d vd
  have n3 := out t vt
  obtain ⟨k1, k1'⟩ := out' x vx
  obtain ⟨k2, k2'⟩ := out' y vy
  obtain ⟨k3, k3'⟩ := out' q vq
  have s1 : 0 ≤ u * (dist2 m x - dist2 m o) := mul_nonneg hu (by linarith)
  have s2 : 0 ≤ v * (dist2 m y - dist2 m o) := mul_nonneg hv (by linarith)
  have s3 : 0 ≤ w * (dist2 m q - dist2 m o) := mul_nonneg hw (by linarith)
  have eB : dist2 m p - dist2 m' p = u * (dist2 m x - dist2 m o) + v * (dist2 m y - dist2 m o) +
      w * (dist2 m q - dist2 m o) + dist2 m o - dist2 m' x := by
    rw [B, ← g1, ← g2]
    have : u = 1 - v - w := by linarith
    subst this; ring
  have z : u * (dist2 m x - dist2 m o) + v * (dist2 m y - dist2 m o) + w * (dist2 m q - dist2 m o) ≤ 0 := by
    rw [← h1, ← h2] at A
    linarith
  have z1 : u = 0 ∨ x = o ∨ x = d ∨ x = t := by
    rcases mul_eq_zero.1 (le_antisymm (by linarith) s1 : u * (dist2 m x - dist2 m o) = 0) with h | h
    · exact Or.inl h
    · exact Or.inr (k1' (by linarith))
  have z2 : v = 0 ∨ y = o ∨ y = d ∨ y = t := by
    rcases mul_eq_zero.1 (le_antisymm (by linarith) s2 : v * (dist2 m y - dist2 m o) = 0) with h | h
    · exact Or.inl h
    · exact Or.inr (k2' (by linarith))
  have z3 : w = 0 ∨ q = o ∨ q = d ∨ q = t := by
    rcases mul_eq_zero.1 (le_antisymm (by linarith) s3 : w * (dist2 m q - dist2 m o) = 0) with h | h
    · exact Or.inl h
    · exact Or.inr (k3' (by linarith))
  -- the middle lies on no side of the triangle
  have hpin : InsideTriangle p o d t := ⟨1 / 3, 1 / 3, 1 / 3, by norm_num, by norm_num, by norm_num, by norm_num, hp⟩
  obtain ⟨i1, i2, i3⟩ := insideTriangle_area ht hpin
  have zero : ∀ {k : K} {r e f g : Pt K}, (k = 0 ∨ r = e ∨ r = f ∨ r = g) → r ≠ g → k * area yd e f r = 0 := by
    rintro k r e f g (rfl | rfl | rfl | rfl) hn
    · rw [zero_mul]
    · rw [(area_self yd r f).1, mul_zero]
    · rw [(area_self yd e r).2, mul_zero]
    · exact absurd rfl hn
  have comb : ∀ e f : Pt K, area yd e f p = u * area yd e f x + v * area yd e f y + w * area yd e f q := by
    intro e f
    have : u = 1 - v - w := by linarith
    subst this
    rw [hpT]
    unfold area wedge arrow
    cases yd <;> simp <;> ring
  have has : ∀ e f g : Pt K, 0 < area yd e f p → (∀ r, (r = o ∨ r = d ∨ r = t) ↔ (r = e ∨ r = f ∨ r = g)) →
      x = g ∨ y = g ∨ q = g := by
    intro e f g hpos hp'
    by_contra hn
    push Not at hn
    rw [hp'] at z1 z2 z3
    have := comb e f
    rw [zero z1 hn.1, zero z2 hn.2.1, zero z3 hn.2.2] at this
    linarith
  have m3 := has o d t i1 (fun r => Iff.rfl)
  have m1 := has d t o i2 (fun r => by constructor <;> rintro (h | h | h) <;> simp [h])
  have m2 := has t o d i3 (fun r => by constructor <;> rintro (h | h | h) <;> simp [h])
  obtain ⟨d1, d2, d3⟩ := turns_ne ht
  refine ⟨_, hT, ?_⟩
  have back : ∀ {e f g : Pt K}, Turns yd e f g → ¬ Turns yd f e g := by
    intro e f g h1 h2
    unfold Turns wedge arrow at *
    cases yd <;> simp at * <;> linarith
  unfold SameTriangle
  simp only
  rcases m1 with rfl | rfl | rfl <;> rcases m2 with h2' | h2' | h2' <;> rcases m3 with h3' | h3' | h3'
  all_goals first
    | (exfalso; exact d1 h2')
    | (exfalso; exact d1 h2'.symm)
    | (exfalso; exact d3 h3')
    | (exfalso; exact d2 (h2'.symm.trans h3'))
    | (subst h2' h3'; exact Or.inl rfl)
    | (subst h2' h3'; exact Or.inr (Or.inl rfl))
    | (subst h2' h3'; exact Or.inr (Or.inr rfl))
    | (subst h2' h3'; exfalso; exact back ht hTt)
    | (subst h2' h3'; exfalso; exact back (turns_cycle ht) hTt)
    | (subst h2' h3'; exfalso; exact back (turns_cycle (turns_cycle ht)) hTt)

/-! ## Points without doubles -/

theorem mem_addPoint {pts : List (Pt K)} {p q : Pt K} : q ∈ addPoint pts p ↔ q ∈ pts ∨ q = p := by
  unfold addPoint
  split_ifs with h
  · exact ⟨Or.inl, by rintro (h' | rfl); exacts [h', h]⟩
  · simp

theorem nodup_addPoint {pts : List (Pt K)} {p : Pt K} (h : pts.Nodup) : (addPoint pts p).Nodup := by
  unfold addPoint
  split_ifs with hp
  · exact h
  · exact List.nodup_append.2 ⟨h, List.nodup_singleton _, by rintro a ha b hb rfl; simp at hb; subst hb; exact hp ha⟩

theorem mem_foldl_addPoint : ∀ {ps acc : List (Pt K)} {q : Pt K}, q ∈ ps.foldl addPoint acc ↔ q ∈ acc ∨ q ∈ ps
  | [], acc, q => by simp
  | p :: ps, acc, q => by
    rw [List.foldl_cons, mem_foldl_addPoint, mem_addPoint, List.mem_cons, or_assoc]

theorem nodup_foldl_addPoint : ∀ (ps : List (Pt K)) {acc : List (Pt K)}, acc.Nodup → (ps.foldl addPoint acc).Nodup
  | [], _, h => h
  | _ :: ps, _, h => nodup_foldl_addPoint ps (nodup_addPoint h)

theorem mem_foldl_ends {short : Pt K → Pt K → Bool} : ∀ {cs : List (Pt K × Pt K)} {acc : List (Pt K)} {q : Pt K},
    q ∈ cs.foldl (fun pts c => if short c.1 c.2 then pts else addPoint (addPoint pts c.1) c.2) acc ↔
      q ∈ acc ∨ ∃ e ∈ cs, short e.1 e.2 = false ∧ (q = e.1 ∨ q = e.2)
  | [], acc, q => by simp
  | c :: cs, acc, q => by
    rw [List.foldl_cons, mem_foldl_ends]
    by_cases h : short c.1 c.2 = true
    · rw [if_pos h]
      simp [h]
    · rw [if_neg h, mem_addPoint, mem_addPoint]
      simp only [Bool.not_eq_true] at h
      simp only [List.mem_cons, exists_eq_or_imp, h, true_and, or_assoc]

theorem nodup_foldl_ends {short : Pt K → Pt K → Bool} : ∀ (cs : List (Pt K × Pt K)) {acc : List (Pt K)}, acc.Nodup →
    (cs.foldl (fun pts c => if short c.1 c.2 then pts else addPoint (addPoint pts c.1) c.2) acc).Nodup
  | [], _, h => h
  | c :: cs, acc, h => by
    rw [List.foldl_cons]
    apply nodup_foldl_ends cs
    split_ifs
    · exact h
    · exact nodup_addPoint (nodup_addPoint h)

end Verif.Lemmas.DelaunayPoints
