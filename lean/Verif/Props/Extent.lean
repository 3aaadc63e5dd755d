import Verif.Lemmas.Extent

/-!
# Extent properties (C20–C23)
-/

namespace Verif.Props
open Verif Verif.Ext Verif.Spec.Extent

/-- Numbers used in the examples: 1, 2, 3 as float64. -/
def f1 : F64 := 0x3FF0000000000000#64
def f2 : F64 := 0x4000000000000000#64
def f3 : F64 := 0x4008000000000000#64

instance (f : F64) : Decidable (num f) := inferInstanceAs (Decidable (_ = _))
instance (p : Pt F64) : Decidable (numPt p) := inferInstanceAs (Decidable (_ ∧ _))
instance (b : Box) : Decidable b.valid := inferInstanceAs (Decidable (_ ∧ _))
instance (b : Box) : Decidable b.numeric := inferInstanceAs (Decidable (_ ∧ _ ∧ _ ∧ _))
instance (b : Box) (p) : Decidable (b.has p) := inferInstanceAs (Decidable (_ ∧ _ ∧ _ ∧ _))

/-! ## C20 -/

/-- C20: `NewExtent` / `NewExtentFromPoints` of a non-empty list of numeric points is
the tightest box around them. -/
theorem C20_newExtent_tight (ps : List (Pt F64)) (hne : ps ≠ []) (hp : ∀ p ∈ ps, numPt p) :
    ∃ e, newExtent ps = some e ∧ Tight (box e) ps := by
  cases ps with
  | nil => exact absurd rfl hne
  | cons p ps =>
    exact ⟨_, rfl, fold_tight grow_grows (fun e h => numeric_of_valid h)
      (fun p h => single_valid h) p ps hp⟩

example : ∀ p ∈ [(f2, F64.negInf), (f1, f3), (F64.negZero, f2)], numPt p := by decide

/-- C20: `NewExtentFromGeometry` is the tightest box around the vertices of the
geometry (nil if there are none). -/
theorem C20_newExtentFromGeometry_tight (g : Geom F64) (hk : known g = true)
    (hp : ∀ p ∈ verticesOf g, numPt p) :
    (verticesOf g = [] ∧ newExtentFromGeometry g = some none) ∨
    ∃ e, newExtentFromGeometry g = some (some e) ∧ Tight (box e) (verticesOf g) := by
  rw [newExtentFromGeometry, coords_known g hk]
  cases hv : verticesOf g with
  | nil => exact .inl ⟨rfl, rfl⟩
  | cons p ps =>
    right
    rw [hv] at hp
    refine ⟨_, rfl, ?_⟩
    have := fold_tight addPoint_grows (fun e h => h) (fun p h => numeric_of_valid (single_valid h))
      p (p :: ps) (by intro q hq; exact hp q (by simpa using hq))
    exact ⟨fun q hq => this.1 q (List.mem_cons_of_mem _ hq),
      fun b' h => this.2 b' (fun q hq => h q (by simpa using hq))⟩

example : known (.collection [.multiPoint [], .polygon [[(f1, f2), (f3, F64.zero)], []]]) = true ∧
    ∀ p ∈ verticesOf (.collection [.multiPoint [], .polygon [[(f1, f2), (f3, F64.zero)], []]]), numPt p := by
  decide

/-- C20: adding points to an existing extent gives the tightest box around the old
extent and the points, however the points are split into calls. -/
theorem C20_addPoints_tight (e : Ext) (chunks : List (List (Pt F64)))
    (he : (box e).numeric) (hp : ∀ c ∈ chunks, ∀ p ∈ c, numPt p) :
    ∃ e', chunks.foldl addPoints (some e) = some e' ∧
      (box e).within (box e') ∧ (∀ c ∈ chunks, ∀ p ∈ c, (box e').has p) ∧
      ∀ b, (box e).within b → (∀ c ∈ chunks, ∀ p ∈ c, b.has p) → (box e').within b := by
  rw [foldl_addPoints]
  have hp' : ∀ p ∈ chunks.flatten, numPt p := by
    intro p hpf
    obtain ⟨c, hc, hpc⟩ := List.mem_flatten.1 hpf
    exact hp c hc p hpc
  obtain ⟨_, g2, g3, g4⟩ := fold_grows addPoint_grows (fun e h => h) chunks.flatten e he hp'
  refine ⟨_, rfl, g3, fun c hc p hpc => g2 p (List.mem_flatten.2 ⟨c, hc, hpc⟩), ?_⟩
  intro b hb hall
  refine g4 b hb ?_
  intro p hpf
  obtain ⟨c, hc, hpc⟩ := List.mem_flatten.1 hpf
  exact hall c hc p hpc

example : (box ⟨f1, f1, f2, f2⟩).numeric ∧ ∀ c ∈ [[(f3, f1)], [], [(f1, f3), (f2, f2)]], ∀ p ∈ c, numPt p := by
  decide

/-- C20: the order of the points does not matter, and neither does the way the
extent is built. -/
theorem C20_extent_order_irrelevant (ps qs : List (Pt F64)) (hperm : ps.Perm qs)
    (hp : ∀ p ∈ ps, numPt p) (e e' : Ext) (h1 : newExtent ps = some e) (h2 : newExtent qs = some e') :
    (box e).same (box e') := by
  have hne : ps ≠ [] := by rintro rfl; simp [newExtent] at h1
  have hne' : qs ≠ [] := by rintro rfl; simp [newExtent] at h2
  obtain ⟨a, ha, ta⟩ := C20_newExtent_tight ps hne hp
  obtain ⟨b, hb, tb⟩ := C20_newExtent_tight qs hne' (fun q hq => hp q (hperm.mem_iff.2 hq))
  rw [h1] at ha; rw [h2] at hb
  cases ha; cases hb
  exact tight_unique ta ⟨fun p hp => tb.1 p (hperm.mem_iff.1 hp),
    fun b' h => tb.2 b' (fun q hq => h q (hperm.mem_iff.2 hq))⟩

example : ([(f1, f2), (f3, f1)] : List (Pt F64)).Perm [(f3, f1), (f1, f2)] := List.Perm.swap _ _ _

/-- C20: `Add` of another extent is the least extent containing both. -/
theorem C20_add_join (e m : Ext) (he : (box e).numeric) (hm : (box m).numeric) :
    ∃ r, Ext.add (some e) m = some r ∧ ∀ b, (box r).within b ↔ (box e).within b ∧ (box m).within b := by
  refine ⟨_, rfl, ?_⟩
  obtain ⟨h1, h2, h3, h4⟩ := he
  obtain ⟨m1, m2, m3, m4⟩ := hm
  simp only [num, box] at *
  obtain ⟨a1, a2⟩ := F64.min_spec h1 m1
  obtain ⟨b1, b2⟩ := F64.min_spec h2 m2
  obtain ⟨c1, c2⟩ := F64.max_spec h3 m3
  obtain ⟨d1, d2⟩ := F64.max_spec h4 m4
  intro b
  simp only [Box.within, F64.le_iff, a1, a2, b1, b2, c1, c2, d1, d2, h1, h2, h3, h4, m1, m2, m3, m4,
    true_and]
  constructor
  · rintro ⟨⟨w1, w2⟩, ⟨w3, w4⟩, ⟨w5, w6⟩, ⟨w7, w8⟩⟩
    refine ⟨⟨⟨w1, ?_⟩, ⟨w3, ?_⟩, ⟨w5, ?_⟩, ⟨w7, ?_⟩⟩, ⟨⟨w1, ?_⟩, ⟨w3, ?_⟩, ⟨w5, ?_⟩, ⟨w7, ?_⟩⟩⟩ <;>
      (split at w2 <;> split at w4 <;> split at w6 <;> split at w8 <;> omega)
  · rintro ⟨⟨⟨w1, w2⟩, ⟨w3, w4⟩, ⟨w5, w6⟩, ⟨w7, w8⟩⟩, ⟨⟨v1, v2⟩, ⟨v3, v4⟩, ⟨v5, v6⟩, ⟨v7, v8⟩⟩⟩
    refine ⟨⟨w1, ?_⟩, ⟨w3, ?_⟩, ⟨w5, ?_⟩, ⟨w7, ?_⟩⟩ <;> split <;> omega

example : (box ⟨f1, f1, f2, f2⟩).numeric ∧ (box ⟨F64.zero, f2, f3, F64.posInf⟩).numeric := by decide

/-! ## C21 -/

/-- C21: for an argument with min not above max, `Contains` holds exactly if every
point of the argument is a point of the receiver. -/
theorem C21_contains_iff_points (e n : Ext) (hn : (box n).valid) :
    contains (some e) (some n) = true ↔
      ∀ p, containsPoint (some n) p = true → containsPoint (some e) p = true := by
  simp only [contains, containsPoint, Bool.and_eq_true, F64.le_iff]
  obtain ⟨v1, v2⟩ := hn
  simp only [box, F64.le_iff] at v1 v2
  constructor
  · rintro ⟨⟨⟨⟨_, _, _⟩, _, _, _⟩, _, _, _⟩, _, _, _⟩ p ⟨⟨⟨⟨_, _, _⟩, _, _, _⟩, _, _, _⟩, _, _, _⟩
    refine ⟨⟨⟨⟨?_, ?_, ?_⟩, ?_, ?_, ?_⟩, ?_, ?_, ?_⟩, ?_, ?_, ?_⟩ <;> first | assumption | omega
  · intro h
    have a := h (n.minx, n.miny) (by
      refine ⟨⟨⟨⟨?_, ?_, ?_⟩, ?_, ?_, ?_⟩, ?_, ?_, ?_⟩, ?_, ?_, ?_⟩ <;> simp [v1, v2])
    have b := h (n.maxx, n.maxy) (by
      refine ⟨⟨⟨⟨?_, ?_, ?_⟩, ?_, ?_, ?_⟩, ?_, ?_, ?_⟩, ?_, ?_, ?_⟩ <;> simp [v1, v2])
    exact ⟨⟨⟨a.1.1.1, b.1.1.2⟩, a.1.2⟩, b.2⟩

example : (box ⟨f1, f1, f2, f3⟩).valid := by decide

/-- C21: `Contains` is reflexive on numeric extents. -/
theorem C21_contains_refl (e : Ext) (he : (box e).numeric) : contains (some e) (some e) = true := by
  obtain ⟨h1, h2, h3, h4⟩ := he
  simp only [num, box] at *
  simp [contains, F64.le_iff, *]

example : (box ⟨f1, f1, f2, f3⟩).numeric := by decide

/-- C21: extents containing each other have the same bounds (numerically). -/
theorem C21_contains_antisymm (e n : Ext) (h1 : contains (some e) (some n) = true)
    (h2 : contains (some n) (some e) = true) : (box e).same (box n) := by
  simp only [contains, Bool.and_eq_true] at h1 h2
  exact same_of_within ⟨h2.1.1.1, h2.1.1.2, h2.1.2, h2.2⟩ ⟨h1.1.1.1, h1.1.1.2, h1.1.2, h1.2⟩

example : contains (some ⟨F64.zero, f1, f2, f3⟩) (some ⟨F64.negZero, f1, f2, f3⟩) = true ∧
    contains (some ⟨F64.negZero, f1, f2, f3⟩) (some ⟨F64.zero, f1, f2, f3⟩) = true := by decide

/-- C21: `Contains` is transitive, the nil extent (universe) as receiver included. -/
theorem C21_contains_trans (e : Option Ext) (n m : Ext) (h1 : contains e (some n) = true)
    (h2 : contains (some n) (some m) = true) : contains e (some m) = true := by
  cases e with
  | none => rfl
  | some e =>
    simp only [contains, Bool.and_eq_true] at *
    have := within_trans (a := box m) (b := box n) (c := box e)
      ⟨h2.1.1.1, h2.1.1.2, h2.1.2, h2.2⟩ ⟨h1.1.1.1, h1.1.1.2, h1.1.2, h1.2⟩
    exact ⟨⟨⟨this.1, this.2.1⟩, this.2.2.1⟩, this.2.2.2⟩

example : contains (some ⟨F64.zero, F64.zero, f3, f3⟩) (some ⟨f1, f1, f3, f3⟩) = true ∧
    contains (some ⟨f1, f1, f3, f3⟩) (some ⟨f1, f1, f2, f2⟩) = true := by decide

/-- C21: the nil extent contains every extent and every point, a non-nil extent no
nil interface. -/
theorem C21_contains_nil (n : Option Ext) (p : Pt F64) (e : Ext) :
    contains none n = true ∧ containsPoint none p = true ∧ contains (some e) none = false :=
  ⟨rfl, rfl, rfl⟩

/-! ## C22 -/

/-- C22: a reported intersection of two proper extents contains exactly the common
points and has positive width and height. -/
theorem C22_intersect_common (e n : Ext) (r : Option Ext) (he : (box e).numeric) (hn : (box n).numeric)
    (h : intersect (some e) (some n) = (r, true)) :
    ∃ b, r = some b ∧ b.minx.lt b.maxx = true ∧ b.miny.lt b.maxy = true ∧
      ∀ p, containsPoint (some b) p = true ↔
        containsPoint (some e) p = true ∧ containsPoint (some n) p = true := by
  obtain ⟨e1, e2, e3, e4⟩ := he
  obtain ⟨n1, n2, n3, n4⟩ := hn
  simp only [num, box] at *
  obtain ⟨a1, a2⟩ := F64.selHi e1 n1
  obtain ⟨b1, b2⟩ := F64.selHi e2 n2
  obtain ⟨c1, c2⟩ := F64.selLo e3 n3
  obtain ⟨d1, d2⟩ := F64.selLo e4 n4
  simp only [intersect] at h
  generalize (if e.minx.lt n.minx then n.minx else e.minx) = minx at *
  generalize (if e.miny.lt n.miny then n.miny else e.miny) = miny at *
  generalize (if n.maxx.lt e.maxx then n.maxx else e.maxx) = maxx at *
  generalize (if n.maxy.lt e.maxy then n.maxy else e.maxy) = maxy at *
  split at h
  · simp at h
  · rename_i hx
    rw [Bool.not_eq_true, F64.le_false_iff c1 a1] at hx
    split at h
    · simp at h
    · rename_i hy
      rw [Bool.not_eq_true, F64.le_false_iff d1 b1] at hy
      simp only [Prod.mk.injEq, and_true] at h
      refine ⟨_, h.symm, ?_, ?_, ?_⟩
      · rw [F64.lt_iff]; exact ⟨a1, c1, hx⟩
      · rw [F64.lt_iff]; exact ⟨b1, d1, hy⟩
      · intro p
        simp only [containsPoint, Bool.and_eq_true, F64.le_iff, a1, b1, c1, d1, e1, e2, e3, e4,
          n1, n2, n3, n4, true_and, a2, b2, c2, d2]
        constructor
        · rintro ⟨⟨⟨⟨p1, q1⟩, q2⟩, ⟨p2, q3⟩⟩, q4⟩
          simp only [p1, p2, true_and]
          omega
        · rintro ⟨⟨⟨⟨⟨p1, q1⟩, q2⟩, ⟨p2, q3⟩⟩, q4⟩, ⟨⟨⟨⟨-, r1⟩, r2⟩, ⟨-, r3⟩⟩, r4⟩⟩
          simp only [p1, p2, true_and] at *
          omega

example : (box ⟨F64.zero, F64.zero, f2, f2⟩).numeric ∧ (box ⟨f1, f1, f3, f3⟩).numeric ∧
    intersect (some ⟨F64.zero, F64.zero, f2, f2⟩) (some ⟨f1, f1, f3, f3⟩) = (some ⟨f1, f1, f2, f2⟩, true) := by
  decide

/-- C22: if none is reported, no point is inside both. -/
theorem C22_intersect_none (e n : Option Ext) (r : Option Ext)
    (h : intersect e n = (r, false)) :
    r = none ∧ ∃ a b, e = some a ∧ n = some b ∧
      ∀ p, ¬ ((box a).hasInside p ∧ (box b).hasInside p) := by
  cases e with
  | none => simp [intersect] at h
  | some e =>
    cases n with
    | none => simp [intersect] at h
    | some n =>
      simp only [intersect] at h
      have key : r = none ∧
          ((if n.maxx.lt e.maxx then n.maxx else e.maxx).le
            (if e.minx.lt n.minx then n.minx else e.minx) = true ∨
           (if n.maxy.lt e.maxy then n.maxy else e.maxy).le
            (if e.miny.lt n.miny then n.miny else e.miny) = true) := by
        generalize (F64.le (if n.maxx.lt e.maxx = true then n.maxx else e.maxx)
            (if e.minx.lt n.minx = true then n.minx else e.minx)) = bx at *
        generalize (F64.le (if n.maxy.lt e.maxy = true then n.maxy else e.maxy)
            (if e.miny.lt n.miny = true then n.miny else e.miny)) = bY at *
        cases bx <;> cases bY <;> simp at h ⊢ <;> exact h.symm
      refine ⟨key.1, e, n, rfl, rfl, ?_⟩
      rintro p ⟨⟨w1, w2, w3, w4⟩, v1, v2, v3, v4⟩
      simp only [box, F64.lt_iff] at w1 w2 w3 w4 v1 v2 v3 v4
      rcases key.2 with h1 | h1 <;> rw [F64.le_iff] at h1 <;> split at h1 <;> split at h1 <;> omega

example : intersect (some ⟨F64.zero, F64.zero, f1, f1⟩) (some ⟨f1, F64.zero, f3, f1⟩) = (none, false) := by
  decide

/-- C22: the universe is neutral. -/
theorem C22_intersect_universe (e : Option Ext) :
    intersect none e = (e, true) ∧ intersect e none = (e, true) := by
  cases e <;> simp [intersect, clone]

/-- C22: the order of the arguments does not matter. -/
theorem C22_intersect_comm (e n : Ext) (he : (box e).numeric) (hn : (box n).numeric) :
    ((intersect (some e) (some n)).2 = (intersect (some n) (some e)).2) ∧
    ∀ a b, (intersect (some e) (some n)).1 = some a → (intersect (some n) (some e)).1 = some b →
      (box a).same (box b) := by
  obtain ⟨e1, e2, e3, e4⟩ := he
  obtain ⟨n1, n2, n3, n4⟩ := hn
  simp only [num, box] at *
  have hmin : ∀ a b : F64, a.isNaN = false → b.isNaN = false →
      (if a.lt b then b else a).eq (if b.lt a then a else b) = true := by
    intro a b ha hb
    have h1 := F64.selHi ha hb
    have h2 := F64.selHi hb ha
    rw [F64.eq_iff]; exact ⟨h1.1, h2.1, by rw [h1.2, h2.2]; omega⟩
  have hmax : ∀ a b : F64, a.isNaN = false → b.isNaN = false →
      (if b.lt a then b else a).eq (if a.lt b then a else b) = true := by
    intro a b ha hb
    have h1 := F64.selLo ha hb
    have h2 := F64.selLo hb ha
    rw [F64.eq_iff]; exact ⟨h1.1, h2.1, by rw [h1.2, h2.2]; omega⟩
  have a1 := hmin e.minx n.minx e1 n1
  have b1 := hmin e.miny n.miny e2 n2
  have c1 := hmax e.maxx n.maxx e3 n3
  have d1 := hmax e.maxy n.maxy e4 n4
  simp only [intersect]
  generalize (if e.minx.lt n.minx then n.minx else e.minx) = minx at *
  generalize (if e.miny.lt n.miny then n.miny else e.miny) = miny at *
  generalize (if n.maxx.lt e.maxx then n.maxx else e.maxx) = maxx at *
  generalize (if n.maxy.lt e.maxy then n.maxy else e.maxy) = maxy at *
  generalize (if n.minx.lt e.minx then e.minx else n.minx) = minx' at *
  generalize (if n.miny.lt e.miny then e.miny else n.miny) = miny' at *
  generalize (if e.maxx.lt n.maxx then e.maxx else n.maxx) = maxx' at *
  generalize (if e.maxy.lt n.maxy then e.maxy else n.maxy) = maxy' at *
  have hx : maxx.le minx = maxx'.le minx' := by
    rw [Bool.eq_iff_iff, F64.le_iff, F64.le_iff]
    rw [F64.eq_iff] at a1 c1; simp [a1, c1]
  have hy : maxy.le miny = maxy'.le miny' := by
    rw [Bool.eq_iff_iff, F64.le_iff, F64.le_iff]
    rw [F64.eq_iff] at b1 d1; simp [b1, d1]
  rw [← hx, ← hy]
  cases maxx.le minx <;> cases maxy.le miny <;> simp [Box.same, a1, b1, c1, d1]

example : (box ⟨F64.zero, F64.zero, f2, f2⟩).numeric ∧ (box ⟨F64.negZero, f1, f3, f3⟩).numeric := by
  decide

/-! ## C23 -/

/-- C23 does not hold: the geometry lies in the extent, yet `ContainsGeom` says no,
because the box it computes always includes the origin. -/
theorem C23_containsGeom_violated :
    ∃ (e : Ext) (g : Geom F64), (box e).valid ∧ known g = true ∧
      (∀ p ∈ verticesOf g, numPt p ∧ containsPoint (some e) p = true) ∧
      containsGeom (some e) g = some false :=
  ⟨⟨f1, f1, f3, f3⟩, .lineString [(f1, f2), (f2, f3)], by decide, by decide, by decide, by decide⟩

/-- C23, what does hold (missing: extents that do not contain the origin, for which
the answer is wrong): for a non-universe extent and a geometry other than
geom.Point the answer is "every vertex is in the extent and so is the origin". -/
theorem C23_containsGeom_partial (e : Ext) (g : Geom F64)
    (hu : isUniverse (some e) = false) (hk : known g = true) (hnp : ∀ p, g ≠ .point p)
    (hp : ∀ p ∈ verticesOf g, numPt p) :
    ∃ b, containsGeom (some e) g = some b ∧
      (b = true ↔ (∀ p ∈ verticesOf g, (box e).has p) ∧ (box e).has (F64.zero, F64.zero)) := by
  have hc : containsGeom (some e) g = some (contains (some e)
      (addPoints (some ⟨F64.zero, F64.zero, F64.zero, F64.zero⟩) (verticesOf g))) := by
    have := addGeometry_eq g (some ⟨F64.zero, F64.zero, F64.zero, F64.zero⟩)
    rw [coords_known g hk] at this
    cases g with
    | point p => exact absurd rfl (hnp p)
    | _ => simp only [containsGeom, hu, Bool.false_eq_true, if_false, this]
  refine ⟨_, hc, ?_⟩
  have hz : (box ⟨F64.zero, F64.zero, F64.zero, F64.zero⟩).numeric := by decide
  have := foldl_clauses ⟨F64.zero, F64.zero, F64.zero, F64.zero⟩ (verticesOf g) hz hp (box e)
  simp only [addPoints, Option.map_some, contains, Bool.and_eq_true]
  constructor
  · rintro ⟨⟨⟨h1, h2⟩, h3⟩, h4⟩
    have h := this.1 ⟨h1, h2, h3, h4⟩
    exact ⟨h.2, h.1.1, h.1.2.1, h.1.2.2.1, h.1.2.2.2⟩
  · rintro ⟨h1, h2, h3, h4, h5⟩
    have h := this.2 ⟨⟨h2, h3, h4, h5⟩, h1⟩
    exact ⟨⟨⟨h.1, h.2.1⟩, h.2.2.1⟩, h.2.2.2⟩

example : isUniverse (some ⟨F64.zero, F64.zero, f3, f3⟩) = false ∧
    known (.lineString [(f1, f2), (f2, f3)] : Geom F64) = true ∧
    (∀ p ∈ verticesOf (.lineString [(f1, f2), (f2, f3)] : Geom F64), numPt p) ∧
    containsGeom (some ⟨F64.zero, F64.zero, f3, f3⟩) (.lineString [(f1, f2), (f2, f3)]) = some true := by
  decide

/-- C23 for geom.Point, where it does hold. -/
theorem C23_containsGeom_point (e : Ext) (p : Pt F64) (hu : isUniverse (some e) = false) :
    containsGeom (some e) (.point p) = some (containsPoint (some e) p) := by
  simp [containsGeom, hu, contains, containsPoint]

example : isUniverse (some ⟨f1, f1, f3, f3⟩) = false := by decide

/-- C23: an unknown geometry is an error for every proper extent. -/
theorem C23_containsGeom_unknown (e : Ext) (g : Geom F64) (hu : isUniverse (some e) = false)
    (hk : known g = false) : containsGeom (some e) g = none := by
  have := addGeometry_eq g (some ⟨F64.zero, F64.zero, F64.zero, F64.zero⟩)
  rw [coords_err g, hk] at this
  cases g with
  | point p => simp [known] at hk
  | _ => simp only [containsGeom, hu, Bool.false_eq_true, if_false, this, Bool.not_false]

example : known (.collection [.point (f1, f1), .other] : Geom F64) = false := by decide

end Verif.Props
