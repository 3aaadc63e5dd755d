import Verif.Spec.GeoEqual
import Verif.Lemmas.Cmp

/-!
# Lemmas on comparing geometries of any type
-/

namespace Verif.Lemmas.GeoEqual
open Verif Verif.Cmp Verif.Spec.Extent Verif.Spec.Cmp Verif.Spec.GeoEqual

/-- Induction over geometries and lists of geometries. -/
theorem geo_ind {P : Geo → Prop} {Q : List Geo → Prop}
    (hg : ∀ g, (∀ l, g ≠ .collection l) → P g) (hl : ∀ l, Q l → P (.collection l)) (hn : Q [])
    (hc : ∀ g l, P g → Q l → Q (g :: l)) : ∀ g, P g := by
  intro g
  refine Geo.rec (motive_1 := P) (motive_2 := Q) ?_ ?_ ?_ ?_ ?_ ?_ ?_ ?_ ?_ ?_ ?_ ?_ ?_ ?_ g
  all_goals first
    | exact hn
    | (intro a b h1 h2; exact hc a b h1 h2)
    | (intro l h; exact hl l h)
    | (intro _; exact hg _ (by simp))
    | exact hg _ (by simp)

theorem ringLess_none {a b : List (Pt F64)} (h : ringLess a b = none) : a = [] ∧ b = [] := by
  unfold ringLess at h
  split at h
  · cases h
  · rename_i hl
    simp only [ne_eq, Decidable.not_not] at hl
    by_cases ha : a = []
    · subst ha
      exact ⟨rfl, List.length_eq_zero_iff.1 hl.symm⟩
    · have hb : b ≠ [] := by intro hb; subst hb; exact ha (List.length_eq_zero_iff.1 hl)
      rw [List.getElem?_eq_getElem (findMin_lt a ha), List.getElem?_eq_getElem (findMin_lt b hb)] at h
      cases h

theorem insertRing_perm (x : List (Pt F64)) : ∀ ys,
    (insertRing x ys = none → x = [] ∧ [] ∈ ys) ∧ ∀ zs, insertRing x ys = some zs → zs.Perm (x :: ys)
  | [] => ⟨fun h => (by cases h), fun zs h => by cases h; exact List.Perm.refl _⟩
  | y :: ys => by
    obtain ⟨i1, i2⟩ := insertRing_perm x ys
    rw [insertRing]
    cases hr : ringLess x y with
    | none =>
      obtain ⟨h1, h2⟩ := ringLess_none hr
      exact ⟨fun _ => ⟨h1, by simp [h2]⟩, fun zs h => by cases h⟩
    | some b =>
      cases b with
      | false => exact ⟨fun h => (by cases h), fun zs h => by cases h; exact List.Perm.refl _⟩
      | true =>
        constructor
        · intro h
          obtain ⟨h1, h2⟩ := i1 (by simpa using h)
          exact ⟨h1, by simp [h2]⟩
        · intro zs h
          obtain ⟨ws, h1, rfl⟩ := Option.map_eq_some_iff.1 h
          exact ((i2 ws h1).cons y).trans (List.Perm.swap x y ys)

theorem insertRings_perm (xs : List (List (Pt F64))) : ∀ acc,
    (insertRings acc xs = none → 2 ≤ (acc ++ xs).countP (fun r => r.isEmpty)) ∧
    ∀ zs, insertRings acc xs = some zs → zs.Perm (acc ++ xs) := by
  induction xs with
  | nil => intro acc; exact ⟨fun h => (by cases h), fun zs h => by cases h; simp⟩
  | cons x xs ih =>
    intro acc
    obtain ⟨i1, i2⟩ := insertRing_perm x acc
    rw [insertRings]
    cases h : insertRing x acc with
    | none =>
      refine ⟨fun _ => ?_, fun zs h => by cases h⟩
      obtain ⟨h1, h2⟩ := i1 h
      have : 0 < acc.countP (fun r => r.isEmpty) := List.countP_pos_iff.2 ⟨[], h2, rfl⟩
      simp only [List.countP_append, List.countP_cons, h1, List.isEmpty_nil, if_true]
      omega
    | some acc' =>
      have hp := i2 acc' h
      have hq : (acc' ++ xs).Perm (acc ++ x :: xs) :=
        (hp.append_right xs).trans (by rw [List.cons_append]; exact List.perm_middle.symm)
      refine ⟨fun h => ?_, fun zs h => ((ih acc').2 zs h).trans hq⟩
      have := (ih acc').1 h
      rwa [hq.countP_eq] at this

theorem sortRings_moved (p : List (List (Pt F64))) :
    (sortRings p = none → ¬ FewEmpty p) ∧ ∀ q, sortRings p = some q → RingsMoved p q := by
  cases p with
  | nil => exact ⟨fun h => (by cases h), fun q h => by cases h; exact .nil⟩
  | cons r rs =>
    obtain ⟨i1, i2⟩ := insertRings_perm rs []
    rw [sortRings]
    constructor
    · intro h h'
      have := i1 (by simpa using h)
      unfold FewEmpty at h'
      simp only [List.nil_append] at this
      rw [List.tail_cons] at h'
      omega
    · intro q h
      obtain ⟨zs, h1, rfl⟩ := Option.map_eq_some_iff.1 h
      exact .cons (by simpa using i2 zs h1)

theorem ringsMoved_refl (p : List (List (Pt F64))) : RingsMoved p p := by
  cases p with
  | nil => exact .nil
  | cons r rs => exact .cons (List.Perm.refl _)

theorem polygonEqual_safe (dflt c : Compare) (p q : List (List (Pt F64))) :
    (FewEmpty p → FewEmpty q → ∃ r, polygonEqual dflt c p q = some r) ∧
    ∀ b p' q', polygonEqual dflt c p q = some (b, p', q') → RingsMoved p p' ∧ RingsMoved q q' := by
  unfold polygonEqual
  split
  · exact ⟨fun _ _ => ⟨_, rfl⟩, fun b p' q' h => by cases h; exact ⟨ringsMoved_refl p, ringsMoved_refl q⟩⟩
  · split
    · exact ⟨fun _ _ => ⟨_, rfl⟩, fun b p' q' h => by cases h; exact ⟨ringsMoved_refl p, ringsMoved_refl q⟩⟩
    · obtain ⟨a1, a2⟩ := sortRings_moved p
      obtain ⟨b1, b2⟩ := sortRings_moved q
      cases h1 : sortRings p with
      | none => exact ⟨fun h _ => absurd h (a1 h1), fun b p' q' h => by cases h⟩
      | some s =>
        cases h2 : sortRings q with
        | none => exact ⟨fun _ h => absurd h (b1 h2), fun b p' q' h => by cases h⟩
        | some t =>
          refine ⟨fun _ _ => ⟨_, rfl⟩, fun b p' q' h => ?_⟩
          cases h
          exact ⟨a2 _ h1, b2 _ h2⟩

theorem mainLess_none {a b : List (List (Pt F64))} (h : mainLess a b = none) :
    a.head? = some [] ∧ b.head? = some [] := by
  unfold mainLess at h
  split at h
  · cases h
  · cases h
  · rename_i r rs s ss
    have : ringLess r s = none := h
    obtain ⟨rfl, rfl⟩ := ringLess_none this
    exact ⟨rfl, rfl⟩

theorem insertPoly_perm (x : List (List (Pt F64))) : ∀ ys,
    (insertPoly x ys = none → x.head? = some [] ∧ ∃ y ∈ ys, y.head? = some []) ∧
    ∀ zs, insertPoly x ys = some zs → zs.Perm (x :: ys)
  | [] => ⟨fun h => (by cases h), fun zs h => by cases h; exact List.Perm.refl _⟩
  | y :: ys => by
    obtain ⟨i1, i2⟩ := insertPoly_perm x ys
    rw [insertPoly]
    cases hr : mainLess x y with
    | none =>
      obtain ⟨h1, h2⟩ := mainLess_none hr
      exact ⟨fun _ => ⟨h1, y, by simp, h2⟩, fun zs h => by cases h⟩
    | some b =>
      cases b with
      | false => exact ⟨fun h => (by cases h), fun zs h => by cases h; exact List.Perm.refl _⟩
      | true =>
        constructor
        · intro h
          obtain ⟨h1, z, h2, h3⟩ := i1 (by simpa using h)
          exact ⟨h1, z, by simp [h2], h3⟩
        · intro zs h
          obtain ⟨ws, h1, rfl⟩ := Option.map_eq_some_iff.1 h
          exact ((i2 ws h1).cons y).trans (List.Perm.swap x y ys)

theorem insertPolys_perm (xs : List (List (List (Pt F64)))) : ∀ acc,
    (insertPolys acc xs = none → 2 ≤ (acc ++ xs).countP (fun p => p.head? == some [])) ∧
    ∀ zs, insertPolys acc xs = some zs → zs.Perm (acc ++ xs) := by
  induction xs with
  | nil => intro acc; exact ⟨fun h => (by cases h), fun zs h => by cases h; simp⟩
  | cons x xs ih =>
    intro acc
    obtain ⟨i1, i2⟩ := insertPoly_perm x acc
    rw [insertPolys]
    cases h : insertPoly x acc with
    | none =>
      refine ⟨fun _ => ?_, fun zs h => by cases h⟩
      obtain ⟨h1, y, h2, h3⟩ := i1 h
      have : 0 < acc.countP (fun p => p.head? == some []) := List.countP_pos_iff.2 ⟨y, h2, by simp [h3]⟩
      simp only [List.countP_append, List.countP_cons, h1, beq_self_eq_true, if_true]
      omega
    | some acc' =>
      have hp := i2 acc' h
      have hq : (acc' ++ xs).Perm (acc ++ x :: xs) :=
        (hp.append_right xs).trans (by rw [List.cons_append]; exact List.perm_middle.symm)
      refine ⟨fun h => ?_, fun zs h => ((ih acc').2 zs h).trans hq⟩
      have := (ih acc').1 h
      rwa [hq.countP_eq] at this

theorem sortPolys_perm (p : List (List (List (Pt F64)))) :
    (sortPolys p = none → 2 ≤ p.countP (fun p => p.head? == some [])) ∧
    ∀ q, sortPolys p = some q → q.Perm p := by
  have := insertPolys_perm p []
  simpa [sortPolys] using this

theorem pairs_spec {α : Type} (eq : α → α → Outcome α) (M : α → α → Prop) (hm : ∀ a, M a a)
    (he : ∀ a b r a' b', eq a b = some (r, a', b') → M a a' ∧ M b b') : ∀ (as bs : List α),
    ∀ r as' bs', pairs eq as bs = some (r, as', bs') → as.length = bs.length →
      (r = true → List.Forall₂ (fun a b => ∃ a' b', eq a b = some (true, a', b')) as bs) ∧
      List.Forall₂ M as as' ∧ List.Forall₂ M bs bs' := by
  intro as
  induction as with
  | nil =>
    intro bs r as' bs' h hl
    cases bs with
    | nil => simp only [pairs, Option.some.injEq, Prod.mk.injEq] at h; obtain ⟨_, rfl, rfl⟩ := h; exact ⟨fun _ => .nil, .nil, .nil⟩
    | cons b bs => simp at hl
  | cons a as ih =>
    intro bs r as' bs' h hl
    cases bs with
    | nil => simp at hl
    | cons b bs =>
      rw [pairs] at h
      cases hab : eq a b with
      | none => rw [hab] at h; cases h
      | some v =>
        obtain ⟨v, a', b'⟩ := v
        have hM := he a b v a' b' hab
        rw [hab] at h
        cases v with
        | false =>
          simp only [Option.some.injEq, Prod.mk.injEq] at h
          obtain ⟨rfl, rfl, rfl⟩ := h
          exact ⟨fun h => (by cases h), .cons hM.1 (forall₂_refl_of _ fun x _ => hm x),
            .cons hM.2 (forall₂_refl_of _ fun x _ => hm x)⟩
        | true =>
          obtain ⟨⟨r1, as1, bs1⟩, h1, h2⟩ := Option.map_eq_some_iff.1 h
          simp only [Prod.mk.injEq] at h2
          obtain ⟨rfl, rfl, rfl⟩ := h2
          obtain ⟨k1, k2, k3⟩ := ih bs _ _ _ h1 (by simpa using hl)
          exact ⟨fun h => .cons ⟨a', b', hab⟩ (k1 h), .cons hM.1 k2, .cons hM.2 k3⟩

theorem pairs_some {α : Type} (eq : α → α → Outcome α) : ∀ (as bs : List α),
    (∀ a ∈ as, ∀ b ∈ bs, ∃ r, eq a b = some r) → ∃ r, pairs eq as bs = some r := by
  intro as
  induction as with
  | nil => intro bs _; exact ⟨_, by rw [pairs]; simp⟩
  | cons a as ih =>
    intro bs h
    cases bs with
    | nil => exact ⟨_, by rw [pairs]; simp⟩
    | cons b bs =>
      obtain ⟨⟨v, a', b'⟩, hv⟩ := h a (by simp) b (by simp)
      obtain ⟨r, hr⟩ := ih bs (fun x hx y hy => h x (by simp [hx]) y (by simp [hy]))
      rw [pairs, hv]
      cases v with
      | false => exact ⟨_, rfl⟩
      | true => exact ⟨_, by simp only [hr]; rfl⟩

/-- What `MultiPolygonerEqual` does on multipolygons that are not nil. -/
theorem multiPolygon_spec (dflt c : Compare) (p q : List (List (List (Pt F64)))) :
    (Harmless (.multiPolygon p) → Harmless (.multiPolygon q) → ∃ r, multiPolygonEqual dflt c p q = some r) ∧
    ∀ r p' q', multiPolygonEqual dflt c p q = some (r, p', q') →
      (r = true → ∃ m, m.Perm q ∧ List.Forall₂ (SamePoly dflt c) p m) ∧
      Moved (.multiPolygon p) (.multiPolygon p') ∧ Moved (.multiPolygon q) (.multiPolygon q') := by
  unfold multiPolygonEqual
  split
  · exact ⟨fun _ _ => ⟨_, rfl⟩, fun r p' q' h => by cases h; exact ⟨fun h => (by cases h), .same _, .same _⟩⟩
  · rename_i hl
    simp only [ne_eq, Decidable.not_not] at hl
    obtain ⟨a1, a2⟩ := sortPolys_perm p
    obtain ⟨b1, b2⟩ := sortPolys_perm q
    cases h1 : sortPolys p with
    | none => exact ⟨fun h _ => absurd h.2 (by have := a1 h1; omega), fun r p' q' h => by cases h⟩
    | some s =>
      cases h2 : sortPolys q with
      | none => exact ⟨fun _ h => absurd h.2 (by have := b1 h2; omega), fun r p' q' h => by cases h⟩
      | some t =>
        have hs := a2 s h1
        have ht := b2 t h2
        refine ⟨fun hp hq => pairs_some _ _ _ fun a ha b hb =>
          (polygonEqual_safe dflt c a b).1 (hp.1 a (hs.mem_iff.1 ha)) (hq.1 b (ht.mem_iff.1 hb)), ?_⟩
        intro r p' q' h
        obtain ⟨k1, k2, k3⟩ := pairs_spec _ RingsMoved ringsMoved_refl
          (fun a b r a' b' h => (polygonEqual_safe dflt c a b).2 r a' b' h) s t r p' q' h
          (by rw [hs.length_eq, ht.length_eq, hl])
        refine ⟨fun hr => ?_, .multiPolygon hs k2, .multiPolygon ht k3⟩
        have h3 := (k1 hr).flip
        obtain ⟨m, hm1, hm2⟩ := forall₂_perm hs t h3
        exact ⟨m, hm1.symm.trans ht, hm2.flip⟩

theorem at_iff {v : PointVal} {p : Pt F64} : At v p ↔ v.xy = some p := by
  constructor
  · rintro ⟨⟩ <;> rfl
  · intro h
    cases v <;> simp only [PointVal.xy, Option.some.injEq, reduceCtorEq] at h <;> subst h <;> constructor

theorem along_iff {v : LineVal} {l : List (Pt F64)} : Along v l ↔ v.vertices = some l := by
  constructor
  · rintro ⟨⟩ <;> rfl
  · intro h
    cases v with
    | extent e =>
      simp only [LineVal.vertices, Option.some.injEq] at h
      subst h
      cases e <;> constructor
    | _ => simp only [LineVal.vertices, Option.some.injEq, reduceCtorEq] at h <;> subst h <;> constructor

theorem around_iff {v : PolyVal} {l : List (List (Pt F64))} : Around v l ↔ v.rings = some l := by
  constructor
  · rintro ⟨⟩ <;> rfl
  · intro h
    cases v <;> simp only [PolyVal.rings, Option.some.injEq, reduceCtorEq] at h <;> subst h <;> constructor

/-- What `PolygonerEqual` does. -/
theorem polygoner_spec (dflt c : Compare) (a b : PolyVal) :
    (Harmless (.polygoner a) → Harmless (.polygoner b) → ∃ r, polygonerEqual dflt c a b = some r) ∧
    (∀ r a' b', polygonerEqual dflt c a b = some (r, a', b') →
      (r = true ↔ Agree dflt c id id (.polygoner a) (.polygoner b)) ∧
      Moved (.polygoner a) (.polygoner a') ∧ Moved (.polygoner b) (.polygoner b')) := by
  unfold polygonerEqual
  split
  · rename_i hn
    refine ⟨fun _ _ => ⟨_, rfl⟩, fun r a' b' h => ?_⟩
    cases h
    refine ⟨?_, .same _, .same _⟩
    rw [decide_eq_true_eq]
    constructor
    · rintro ⟨rfl, rfl⟩; exact .nilPolygon
    · intro h
      cases h with
      | polygons h1 h2 _ => rcases hn with rfl | rfl <;> simp [around_iff, PolyVal.rings] at h1 h2
      | nilPolygon => exact ⟨rfl, rfl⟩
  · rename_i hn
    rw [not_or] at hn
    cases h1 : a.rings with
    | none =>
      refine ⟨fun h _ => ?_, fun r a' b' h => by cases h⟩
      cases a <;> simp_all [PolyVal.rings, Harmless]
    | some p =>
      cases h2 : b.rings with
      | none =>
        refine ⟨fun _ h => ?_, fun r a' b' h => by cases h⟩
        cases b <;> simp_all [PolyVal.rings, Harmless]
      | some q =>
        obtain ⟨e1, e2⟩ := polygonEqual_safe dflt c p q
        have few : ∀ {v : PolyVal} {p}, v.rings = some p → Harmless (.polygoner v) → FewEmpty p := by
          intro v p hv h
          cases v <;> simp_all [PolyVal.rings, Harmless]
          subst hv; simp [FewEmpty]
        constructor
        · intro ha hb
          obtain ⟨r, hr⟩ := e1 (few h1 ha) (few h2 hb)
          exact ⟨_, by simp only [hr]; rfl⟩
        · intro r a' b' h
          obtain ⟨⟨r1, p', q'⟩, h3, h4⟩ := Option.map_eq_some_iff.1 h
          simp only [Prod.mk.injEq] at h4
          obtain ⟨rfl, rfl, rfl⟩ := h4
          obtain ⟨m1, m2⟩ := e2 _ _ _ h3
          refine ⟨⟨?_, ?_⟩, ?_, ?_⟩
          · rintro rfl; exact .polygons (around_iff.2 h1) (around_iff.2 h2) ⟨p', q', h3⟩
          · intro h
            cases h with
            | polygons k1 k2 k3 =>
              rw [around_iff, h1] at k1; rw [around_iff, h2] at k2
              cases k1; cases k2
              obtain ⟨_, _, k3⟩ := k3
              rw [h3] at k3; cases k3; rfl
            | nilPolygon => exact absurd rfl hn.1
          · cases a <;> simp only [PolyVal.rings, PolyVal.put, Option.some.injEq, reduceCtorEq] at h1 ⊢
            · subst h1; exact .polygon m1
            · exact .same _
          · cases b <;> simp only [PolyVal.rings, PolyVal.put, Option.some.injEq, reduceCtorEq] at h2 ⊢
            · subst h2; exact .polygon m2
            · exact .same _

/-- What `PointerEqual` does. -/
theorem pointer_spec (dflt c : Compare) (s1 s2 : List (Pt F64) → List (Pt F64)) (a b : PointVal) :
    (Harmless (.pointer a) → Harmless (.pointer b) → ∃ r, pointerEqual c a b = some r) ∧
    ∀ r, pointerEqual c a b = some r → (r = true ↔ Agree dflt c s1 s2 (.pointer a) (.pointer b)) := by
  unfold pointerEqual
  split
  · rename_i hn
    refine ⟨fun _ _ => ⟨_, rfl⟩, fun r h => ?_⟩
    cases h
    rw [decide_eq_true_eq]
    constructor
    · rintro ⟨rfl, rfl⟩; exact .nilPoint
    · intro h
      cases h with
      | points h1 h2 _ _ => rcases hn with rfl | rfl <;> simp [at_iff, PointVal.xy] at h1 h2
      | nilPoint => exact ⟨rfl, rfl⟩
  · rename_i hn
    rw [not_or] at hn
    cases h1 : a.xy with
    | none =>
      refine ⟨fun h _ => ?_, fun r h => by cases h⟩
      cases a <;> simp_all [PointVal.xy, Harmless]
    | some p =>
      cases h2 : b.xy with
      | none =>
        refine ⟨fun _ h => ?_, fun r h => by cases h⟩
        cases b <;> simp_all [PointVal.xy, Harmless]
      | some q =>
        refine ⟨fun _ _ => ⟨_, rfl⟩, fun r h => ?_⟩
        cases h
        rw [Compare.pointEqual, Bool.and_eq_true]
        constructor
        · rintro ⟨k1, k2⟩; exact .points (at_iff.2 h1) (at_iff.2 h2) k1 k2
        · intro h
          cases h with
          | points k1 k2 k3 k4 =>
            rw [at_iff, h1] at k1; rw [at_iff, h2] at k2
            cases k1; cases k2
            exact ⟨k3, k4⟩
          | nilPoint => exact absurd rfl hn.1

/-- What `LineStringerEqual` does. -/
theorem lineStringer_spec (dflt c : Compare) (s1 s2 : List (Pt F64) → List (Pt F64)) (a b : LineVal) :
    (Harmless (.lineStringer a) → Harmless (.lineStringer b) → ∃ r, lineStringerEqual c a b = some r) ∧
    ∀ r, lineStringerEqual c a b = some r → (r = true ↔ Agree dflt c s1 s2 (.lineStringer a) (.lineStringer b)) := by
  unfold lineStringerEqual
  split
  · rename_i hn
    refine ⟨fun _ _ => ⟨_, rfl⟩, fun r h => ?_⟩
    cases h
    rw [decide_eq_true_eq]
    constructor
    · rintro ⟨rfl, rfl⟩; exact .nilLineString
    · intro h
      cases h with
      | lines h1 h2 _ => rcases hn with rfl | rfl <;> simp [along_iff, LineVal.vertices] at h1 h2
      | nilLineString => exact ⟨rfl, rfl⟩
  · rename_i hn
    rw [not_or] at hn
    cases h1 : a.vertices with
    | none =>
      refine ⟨fun h _ => ?_, fun r h => by cases h⟩
      cases a <;> simp_all [LineVal.vertices, Harmless]
    | some p =>
      cases h2 : b.vertices with
      | none =>
        refine ⟨fun _ h => ?_, fun r h => by cases h⟩
        cases b <;> simp_all [LineVal.vertices, Harmless]
      | some q =>
        refine ⟨fun _ _ => ⟨_, rfl⟩, fun r h => ?_⟩
        cases h
        constructor
        · intro k; exact .lines (along_iff.2 h1) (along_iff.2 h2) k
        · intro h
          cases h with
          | lines k1 k2 k3 =>
            rw [along_iff, h1] at k1; rw [along_iff, h2] at k2
            cases k1; cases k2
            exact k3
          | nilLineString => exact absurd rfl hn.1

/-- Whether two polygons agree does not depend on how multipoints are sorted. -/
theorem agree_poly {dflt c : Compare} {s1 s2 t1 t2 : List (Pt F64) → List (Pt F64)} {a b : PolyVal}
    (h : Agree dflt c s1 s2 (.polygoner a) (.polygoner b)) : Agree dflt c t1 t2 (.polygoner a) (.polygoner b) := by
  cases h with
  | polygons h1 h2 h3 => exact .polygons h1 h2 h3
  | nilPolygon => exact .nilPolygon

theorem agreeAll_length {dflt c : Compare} {s1 s2 : List (Pt F64) → List (Pt F64)} : ∀ {a b : List Geo},
    AgreeAll dflt c s1 s2 a b → a.length = b.length
  | [], _, h => by cases h; rfl
  | _ :: _, _, h => by cases h with | cons _ h => simp [agreeAll_length h]

theorem movedAll_refl : ∀ (l : List Geo), MovedAll l l
  | [] => .nil
  | g :: l => .cons (.same g) (movedAll_refl l)


/-- What the theorems say about one comparison. -/
def Good (dflt c : Compare) (s1 s2 : List (Pt F64) → List (Pt F64)) (g : Geo) : Prop :=
  ∀ h, (Throughout Harmless g → Throughout Harmless h → ∃ r, geometryEqual dflt c s1 s2 g h = some r) ∧
    ∀ r g' h', geometryEqual dflt c s1 s2 g h = some (r, g', h') →
      (r = true → Agree dflt c s1 s2 g h) ∧ (Throughout NotMultiPolygon g → Agree dflt c s1 s2 g h → r = true) ∧
      Moved g g' ∧ Moved h h'

/-- The same for two lists of one length. -/
def GoodAll (dflt c : Compare) (s1 s2 : List (Pt F64) → List (Pt F64)) (l : List Geo) : Prop :=
  ∀ m, l.length = m.length →
    (ThroughoutAll Harmless l → ThroughoutAll Harmless m → ∃ r, geometriesEqual dflt c s1 s2 l m = some r) ∧
    ∀ r l' m', geometriesEqual dflt c s1 s2 l m = some (r, l', m') →
      (r = true → AgreeAll dflt c s1 s2 l m) ∧
      (ThroughoutAll NotMultiPolygon l → AgreeAll dflt c s1 s2 l m → r = true) ∧ MovedAll l l' ∧ MovedAll m m'

theorem throughout_self {P : Geo → Prop} {g : Geo} (h : Throughout P g) : P g := by
  cases h with
  | leaf _ h => exact h
  | collection h _ => exact h

theorem throughout_members {P : Geo → Prop} {l : List Geo} (h : Throughout P (.collection l)) : ThroughoutAll P l := by
  cases h with
  | leaf h _ => exact absurd rfl (h l)
  | collection _ h => exact h

theorem leaf_eq (dflt c : Compare) (s1 s2 : List (Pt F64) → List (Pt F64)) (g h : Geo)
    (hg : ∀ l, g ≠ .collection l) : geometryEqual dflt c s1 s2 g h = leafEqual dflt c s1 s2 g h := by
  cases g with
  | collection l => exact absurd rfl (hg l)
  | _ => rw [geometryEqual]; simp

theorem coll_eq (dflt c : Compare) (s1 s2 : List (Pt F64) → List (Pt F64)) (a : List Geo) (h : Geo)
    (hh : ∀ l, h ≠ .collection l) :
    geometryEqual dflt c s1 s2 (.collection a) h = some (false, .collection a, h) := by
  cases h with
  | collection l => exact absurd rfl (hh l)
  | _ => rw [geometryEqual]; · rfl
         · simp

theorem good_leaf (dflt c : Compare) (s1 s2 : List (Pt F64) → List (Pt F64)) (g : Geo)
    (hg : ∀ l, g ≠ .collection l) : Good dflt c s1 s2 g := by
  intro h
  rw [leaf_eq dflt c s1 s2 g h hg]
  have other : ∀ {g h : Geo}, leafEqual dflt c s1 s2 g h = some (false, g, h) → ¬ Agree dflt c s1 s2 g h →
      (Throughout Harmless g → Throughout Harmless h → ∃ r, leafEqual dflt c s1 s2 g h = some r) ∧
      ∀ r g' h', leafEqual dflt c s1 s2 g h = some (r, g', h') →
        (r = true → Agree dflt c s1 s2 g h) ∧ (Throughout NotMultiPolygon g → Agree dflt c s1 s2 g h → r = true) ∧
        Moved g g' ∧ Moved h h' := by
    intro g h h1 h2
    refine ⟨fun _ _ => ⟨_, h1⟩, fun r g' h' h3 => ?_⟩
    rw [h1] at h3
    cases h3
    exact ⟨fun h => (by cases h), fun _ h => absurd h h2, .same _, .same _⟩
  have yes : ∀ {g h : Geo}, leafEqual dflt c s1 s2 g h = some (true, g, h) → Agree dflt c s1 s2 g h →
      (Throughout Harmless g → Throughout Harmless h → ∃ r, leafEqual dflt c s1 s2 g h = some r) ∧
      ∀ r g' h', leafEqual dflt c s1 s2 g h = some (r, g', h') →
        (r = true → Agree dflt c s1 s2 g h) ∧ (Throughout NotMultiPolygon g → Agree dflt c s1 s2 g h → r = true) ∧
        Moved g g' ∧ Moved h h' := by
    intro g h h1 h2
    refine ⟨fun _ _ => ⟨_, h1⟩, fun r g' h' h3 => ?_⟩
    rw [h1] at h3
    cases h3
    exact ⟨fun _ => h2, fun _ _ => rfl, .same _, .same _⟩
  cases g with
  | pointer a =>
    cases h with
    | pointer b =>
      obtain ⟨k1, k2⟩ := pointer_spec dflt c s1 s2 a b
      constructor
      · intro h1 h2
        obtain ⟨r, hr⟩ := k1 (throughout_self h1) (throughout_self h2)
        exact ⟨_, by simp only [leafEqual, hr]; rfl⟩
      · intro r g' h' h3
        simp only [leafEqual] at h3
        obtain ⟨r1, h4, h5⟩ := Option.map_eq_some_iff.1 h3
        cases h5
        exact ⟨(k2 _ h4).1, fun _ => (k2 _ h4).2, .same _, .same _⟩
    | _ => exact other (by rfl) (by intro h; cases h)
  | multiPoint a =>
    cases h with
    | multiPoint b =>
      refine ⟨fun _ _ => ⟨_, rfl⟩, fun r g' h' h3 => ?_⟩
      simp only [leafEqual] at h3
      cases h3
      exact ⟨fun h => .multiPoints h, fun _ h => (by cases h with | multiPoints h => exact h), .same _, .same _⟩
    | _ => exact other (by rfl) (by intro h; cases h)
  | nilMultiPoint =>
    cases h with
    | nilMultiPoint => exact yes (by rfl) .nilMultiPoint
    | _ => exact other (by rfl) (by intro h; cases h)
  | lineStringer a =>
    cases h with
    | lineStringer b =>
      obtain ⟨k1, k2⟩ := lineStringer_spec dflt c s1 s2 a b
      constructor
      · intro h1 h2
        obtain ⟨r, hr⟩ := k1 (throughout_self h1) (throughout_self h2)
        exact ⟨_, by simp only [leafEqual, hr]; rfl⟩
      · intro r g' h' h3
        simp only [leafEqual] at h3
        obtain ⟨r1, h4, h5⟩ := Option.map_eq_some_iff.1 h3
        cases h5
        exact ⟨(k2 _ h4).1, fun _ => (k2 _ h4).2, .same _, .same _⟩
    | _ => exact other (by rfl) (by intro h; cases h)
  | multiLine a =>
    cases h with
    | multiLine b =>
      refine ⟨fun _ _ => ⟨_, rfl⟩, fun r g' h' h3 => ?_⟩
      simp only [leafEqual] at h3
      cases h3
      exact ⟨fun h => .multiLines h, fun _ h => (by cases h with | multiLines h => exact h), .same _, .same _⟩
    | _ => exact other (by rfl) (by intro h; cases h)
  | nilMultiLine =>
    cases h with
    | nilMultiLine => exact yes (by rfl) .nilMultiLine
    | _ => exact other (by rfl) (by intro h; cases h)
  | polygoner a =>
    cases h with
    | polygoner b =>
      obtain ⟨k1, k2⟩ := polygoner_spec dflt c a b
      constructor
      · intro h1 h2
        obtain ⟨r, hr⟩ := k1 (throughout_self h1) (throughout_self h2)
        exact ⟨_, by simp only [leafEqual, hr]; rfl⟩
      · intro r g' h' h3
        simp only [leafEqual] at h3
        obtain ⟨⟨r1, a', b'⟩, h4, h5⟩ := Option.map_eq_some_iff.1 h3
        cases h5
        obtain ⟨e1, e2, e3⟩ := k2 _ _ _ h4
        exact ⟨fun h => agree_poly (e1.1 h), fun _ h => e1.2 (agree_poly h), e2, e3⟩
    | _ => exact other (by rfl) (by intro h; cases h)
  | multiPolygon a =>
    cases h with
    | multiPolygon b =>
      obtain ⟨k1, k2⟩ := multiPolygon_spec dflt c a b
      constructor
      · intro h1 h2
        obtain ⟨r, hr⟩ := k1 (throughout_self h1) (throughout_self h2)
        exact ⟨_, by simp only [leafEqual, hr]; rfl⟩
      · intro r g' h' h3
        simp only [leafEqual] at h3
        obtain ⟨⟨r1, a', b'⟩, h4, h5⟩ := Option.map_eq_some_iff.1 h3
        cases h5
        obtain ⟨e1, e2, e3⟩ := k2 _ _ _ h4
        refine ⟨fun h => ?_, fun h => absurd rfl (throughout_self h a), e2, e3⟩
        obtain ⟨m, m1, m2⟩ := e1 h
        exact .multiPolygons m1 m2
    | _ => exact other (by rfl) (by intro h; cases h)
  | nilMultiPolygon =>
    cases h with
    | nilMultiPolygon => exact yes (by rfl) .nilMultiPolygon
    | _ => exact other (by rfl) (by intro h; cases h)
  | collection l => exact absurd rfl (hg l)
  | nilCollection =>
    cases h with
    | nilCollection => exact yes (by rfl) .nilCollection
    | _ => exact other (by rfl) (by intro h; cases h)
  | other => cases h <;> exact other (by rfl) (by intro h; cases h)

theorem good_all (dflt c : Compare) (s1 s2 : List (Pt F64) → List (Pt F64)) : ∀ g, Good dflt c s1 s2 g := by
  refine geo_ind (Q := GoodAll dflt c s1 s2) (good_leaf dflt c s1 s2) ?_ ?_ ?_
  · intro l hl h
    cases h with
    | collection m =>
      by_cases hlen : l.length = m.length
      · obtain ⟨k1, k2⟩ := hl m hlen
        constructor
        · intro h1 h2
          obtain ⟨r, hr⟩ := k1 (throughout_members h1) (throughout_members h2)
          exact ⟨_, by rw [geometryEqual, if_neg (by simp [hlen]), hr]; rfl⟩
        · intro r g' h' h3
          rw [geometryEqual, if_neg (by simp [hlen])] at h3
          obtain ⟨⟨r1, a', b'⟩, h4, h5⟩ := Option.map_eq_some_iff.1 h3
          cases h5
          obtain ⟨e1, e2, e3, e4⟩ := k2 _ _ _ h4
          exact ⟨fun h => .collections (e1 h), fun h h' => e2 (throughout_members h)
            (by cases h' with | collections h' => exact h'), .collection e3, .collection e4⟩
      · have he : geometryEqual dflt c s1 s2 (.collection l) (.collection m) = some (false, .collection l, .collection m) := by
          rw [geometryEqual, if_pos hlen]
        refine ⟨fun _ _ => ⟨_, he⟩, fun r g' h' h3 => ?_⟩
        rw [he] at h3
        cases h3
        refine ⟨fun h => (by cases h), fun _ h => ?_, .same _, .same _⟩
        cases h with
        | collections h => exact absurd (agreeAll_length h) hlen
    | _ =>
      refine ⟨fun _ _ => ⟨_, coll_eq _ _ _ _ _ _ (by simp)⟩, fun r g' h' h3 => ?_⟩
      rw [coll_eq _ _ _ _ _ _ (by simp)] at h3
      cases h3
      exact ⟨fun h => (by cases h), fun _ h => (by cases h), .same _, .same _⟩
  · intro m hlen
    cases m with
    | cons _ _ => simp at hlen
    | nil =>
      refine ⟨fun _ _ => ⟨_, by rw [geometriesEqual]; simp⟩, fun r l' m' h => ?_⟩
      rw [geometriesEqual] at h
      · cases h
        exact ⟨fun _ => .nil, fun _ _ => rfl, .nil, .nil⟩
      · simp
  · intro g l hg hl m hlen
    cases m with
    | nil => simp at hlen
    | cons h m =>
      obtain ⟨k1, k2⟩ := hl m (by simpa using hlen)
      obtain ⟨j1, j2⟩ := hg h
      constructor
      · intro h1 h2
        cases h1 with
        | cons a1 a2 =>
          cases h2 with
          | cons b1 b2 =>
            obtain ⟨⟨v, a', b'⟩, hv⟩ := j1 a1 b1
            obtain ⟨w, hw⟩ := k1 a2 b2
            rw [geometriesEqual, hv]
            cases v with
            | false => exact ⟨_, rfl⟩
            | true => exact ⟨_, by simp only [hw]; rfl⟩
      · intro r l' m' h3
        rw [geometriesEqual] at h3
        cases hv : geometryEqual dflt c s1 s2 g h with
        | none => rw [hv] at h3; cases h3
        | some v =>
          obtain ⟨v, a', b'⟩ := v
          obtain ⟨e1, e2, e3, e4⟩ := j2 _ _ _ hv
          rw [hv] at h3
          cases v with
          | false =>
            simp only [Option.some.injEq, Prod.mk.injEq] at h3
            obtain ⟨rfl, rfl, rfl⟩ := h3
            refine ⟨fun h => (by cases h), fun h h' => ?_, .cons e3 (movedAll_refl _), .cons e4 (movedAll_refl _)⟩
            cases h with
            | cons p1 _ =>
              cases h' with
              | cons p2 _ => exact e2 p1 p2
          | true =>
            obtain ⟨⟨r1, as1, bs1⟩, h1, h2⟩ := Option.map_eq_some_iff.1 h3
            simp only [Prod.mk.injEq] at h2
            obtain ⟨rfl, rfl, rfl⟩ := h2
            obtain ⟨f1, f2, f3, f4⟩ := k2 _ _ _ h1
            refine ⟨fun h => .cons (e1 rfl) (f1 h), fun h h' => ?_, .cons e3 f3, .cons e4 f4⟩
            cases h with
            | cons _ p1 =>
              cases h' with
              | cons _ p2 => exact f2 p1 p2

/-! ## A geometry compared with a copy of itself -/

theorem polygonEqual_self (dflt c : Compare) (hd : Positive dflt) (hc : Positive c) (p : List (List (Pt F64)))
    (h : FewEmpty p) : ∃ p', polygonEqual dflt c p p = some (true, p', p') := by
  have he : dflt.extent (Ext.extent (Ext.newExtent p.flatten)) (Ext.extent (Ext.newExtent p.flatten)) = true := by
    simp [Compare.extent, float_refl dflt _ hd.1 hd.2]
  unfold polygonEqual
  rw [if_neg (by simp), if_neg (by simp [he])]
  cases hs : sortRings p with
  | none => exact absurd h ((sortRings_moved p).1 hs)
  | some s =>
    refine ⟨s, ?_⟩
    have : allPairs c.lineStringEqual s s = true := by
      refine allPairs_refl _ _ (fun r _ => ?_)
      unfold Compare.lineStringEqual
      rw [if_neg (by simp)]
      exact allPairs_refl _ _ (fun q _ => pointEqual_refl c q hc.1 hc.2)
    simp [this]

theorem pairs_self {α : Type} (eq : α → α → Outcome α) (l : List α) (h : ∀ a ∈ l, ∃ a', eq a a = some (true, a', a')) :
    ∃ l', pairs eq l l = some (true, l', l') := by
  induction l with
  | nil => exact ⟨[], by rw [pairs]; simp⟩
  | cons a l ih =>
    obtain ⟨a', ha⟩ := h a (by simp)
    obtain ⟨l', hl⟩ := ih (fun x hx => h x (by simp [hx]))
    exact ⟨a' :: l', by rw [pairs, ha]; simp only [hl]; rfl⟩

theorem self_equal (dflt c : Compare) (s : List (Pt F64) → List (Pt F64)) (hd : Positive dflt)
    (hc : Positive c) : ∀ g, Throughout Harmless g → Throughout HasKind g →
    ∃ g', geometryEqual dflt c s s g g = some (true, g', g') := by
  have line : ∀ l : List (Pt F64), c.lineStringEqual l l = true := by
    intro l
    unfold Compare.lineStringEqual
    rw [if_neg (by simp)]
    exact allPairs_refl _ _ (fun q _ => pointEqual_refl c q hc.1 hc.2)
  refine geo_ind (Q := fun l => ThroughoutAll Harmless l → ThroughoutAll HasKind l →
    ∃ l', geometriesEqual dflt c s s l l = some (true, l', l')) ?_ ?_ ?_ ?_
  · intro g hg h1 h2
    rw [leaf_eq dflt c s s g g hg]
    have h1 := throughout_self h1
    have h2 := throughout_self h2
    cases g with
    | pointer a =>
      refine ⟨.pointer a, ?_⟩
      simp only [leafEqual]
      cases a <;> simp [pointerEqual, PointVal.xy, keep, pointEqual_refl c _ hc.1 hc.2, Harmless] at h1 ⊢
    | multiPoint a =>
      refine ⟨.multiPoint a, ?_⟩
      simp only [leafEqual]
      have : c.multiPointEqual s s a a = true := by
        unfold Compare.multiPointEqual
        rw [if_neg (by simp)]
        exact allPairs_refl _ _ (fun q _ => pointEqual_refl c q hc.1 hc.2)
      simp [keep, this]
    | nilMultiPoint => exact ⟨_, rfl⟩
    | lineStringer a =>
      refine ⟨.lineStringer a, ?_⟩
      simp only [leafEqual]
      cases a <;> simp [lineStringerEqual, LineVal.vertices, keep, line, Harmless] at h1 ⊢
    | multiLine a =>
      refine ⟨.multiLine a, ?_⟩
      simp only [leafEqual]
      have : c.multiLineEqual a a = true := by
        unfold Compare.multiLineEqual
        rw [if_neg (by simp), multiLineLoop_iff]
        exact fun l hl => ⟨l, hl, line l⟩
      simp [keep, this]
    | nilMultiLine => exact ⟨_, rfl⟩
    | polygoner a =>
      simp only [leafEqual]
      cases a with
      | polygon p =>
        obtain ⟨p', hp⟩ := polygonEqual_self dflt c hd hc p h1
        exact ⟨_, by simp [polygonerEqual, PolyVal.rings, hp, PolyVal.put]; rfl⟩
      | triangle x y z =>
        obtain ⟨p', hp⟩ := polygonEqual_self dflt c hd hc [[x, y, z]] (by simp [FewEmpty])
        exact ⟨_, by simp [polygonerEqual, PolyVal.rings, hp, PolyVal.put]; rfl⟩
      | nilPolygon => exact ⟨_, by simp [polygonerEqual]; rfl⟩
      | nilTriangle => exact absurd h1 (by simp [Harmless])
    | multiPolygon a =>
      simp only [leafEqual]
      unfold multiPolygonEqual
      rw [if_neg (by simp)]
      cases hs : sortPolys a with
      | none => exact absurd h1.2 (by have := (sortPolys_perm a).1 hs; omega)
      | some t =>
        obtain ⟨l', hl⟩ := pairs_self (polygonEqual dflt c) t (fun p hp =>
          polygonEqual_self dflt c hd hc p (h1.1 p (((sortPolys_perm a).2 t hs).mem_iff.1 hp)))
        exact ⟨_, by simp only [hl]; rfl⟩
    | nilMultiPolygon => exact ⟨_, rfl⟩
    | collection l => exact absurd rfl (hg l)
    | nilCollection => exact ⟨_, rfl⟩
    | other => exact absurd rfl h2
  · intro l hl h1 h2
    obtain ⟨l', h⟩ := hl (throughout_members h1) (throughout_members h2)
    exact ⟨.collection l', by rw [geometryEqual, if_neg (by simp), h]; rfl⟩
  · intro _ _
    exact ⟨[], by rw [geometriesEqual]; simp⟩
  · intro g l hg hl h1 h2
    cases h1 with
    | cons a1 a2 =>
      cases h2 with
      | cons b1 b2 =>
        obtain ⟨g', h3⟩ := hg a1 b1
        obtain ⟨l', h4⟩ := hl a2 b2
        exact ⟨g' :: l', by rw [geometriesEqual, h3]; simp only [h4]; rfl⟩

/-! ## The polygons of a multipolygon in another order -/

/-- The key by which multipolygons are sorted. -/
def polyKey : List (List (Pt F64)) → Int
  | [] => 0
  | r :: _ => ringKey r

def goodPoly (p : List (List (Pt F64))) : Prop := ∀ r rs, p = r :: rs → goodRing r

theorem ringKey_pos {r : List (Pt F64)} (h : goodRing r) : 0 < ringKey r := by
  obtain ⟨v, v1, _⟩ := findMin_spec r h.1 h.2
  have b := ptKey_bounds v (h.2 v (List.mem_of_getElem? v1))
  have hl : 1 ≤ r.length := by
    have := List.length_pos_iff.2 h.1
    omega
  simp only [ringKey, v1]
  omega

theorem mainLess_eq {a b : List (List (Pt F64))} (ha : goodPoly a) (hb : goodPoly b) :
    ∃ r, mainLess a b = some r ∧ (r = true → polyKey a ≤ polyKey b) ∧ (r = false → polyKey b ≤ polyKey a) := by
  cases a with
  | nil =>
    refine ⟨true, by rw [mainLess], fun _ => ?_, by simp⟩
    cases b with
    | nil => exact Int.le_refl _
    | cons s ss => exact Int.le_of_lt (ringKey_pos (hb s ss rfl))
  | cons r rs =>
    cases b with
    | nil => exact ⟨false, rfl, by simp, fun _ => Int.le_of_lt (ringKey_pos (ha r rs rfl))⟩
    | cons s ss =>
      have hr := ha r rs rfl
      have hs := hb s ss rfl
      refine ⟨_, ringLess_eq r s hr.1 hs.1 hr.2 hs.2, ?_, ?_⟩
      · intro h; rw [decide_eq_true_eq] at h; exact Int.le_of_lt h
      · intro h; rw [decide_eq_false_iff_not] at h; exact Int.not_lt.1 h

theorem insertPoly_sorted (x : List (List (Pt F64))) (hx : goodPoly x) : ∀ (ys : List (List (List (Pt F64)))),
    (∀ y ∈ ys, goodPoly y) → ys.Pairwise (fun a b => polyKey b ≤ polyKey a) →
    ∃ zs, insertPoly x ys = some zs ∧ zs.Perm (x :: ys) ∧ zs.Pairwise (fun a b => polyKey b ≤ polyKey a)
  | [], _, _ => ⟨[x], rfl, List.Perm.refl _, by simp⟩
  | y :: ys, hg, hs => by
    rw [List.pairwise_cons] at hs
    have hy := hg y (by simp)
    obtain ⟨r, e, t1, t2⟩ := mainLess_eq hx hy
    rw [insertPoly, e]
    cases r with
    | true =>
      have h := t1 rfl
      obtain ⟨zs, h1, h2, h3⟩ := insertPoly_sorted x hx ys (fun z hz => hg z (by simp [hz])) hs.2
      refine ⟨y :: zs, by simp only [h1]; rfl, ?_, ?_⟩
      · exact (List.Perm.cons y h2).trans (List.Perm.swap x y ys)
      · rw [List.pairwise_cons]
        refine ⟨?_, h3⟩
        intro z hz
        rcases List.mem_cons.1 (h2.mem_iff.1 hz) with rfl | hz
        · exact h
        · exact hs.1 z hz
    | false =>
      have h := t2 rfl
      refine ⟨x :: y :: ys, rfl, List.Perm.refl _, ?_⟩
      rw [List.pairwise_cons, List.pairwise_cons]
      refine ⟨?_, hs.1, hs.2⟩
      intro z hz
      rcases List.mem_cons.1 hz with rfl | hz
      · exact h
      · have := hs.1 z hz; omega

theorem insertPolys_sorted (xs : List (List (List (Pt F64)))) : ∀ (acc : List (List (List (Pt F64)))),
    (∀ x ∈ acc, goodPoly x) → (∀ x ∈ xs, goodPoly x) → acc.Pairwise (fun a b => polyKey b ≤ polyKey a) →
    ∃ zs, insertPolys acc xs = some zs ∧ zs.Perm (acc ++ xs) ∧ zs.Pairwise (fun a b => polyKey a ≤ polyKey b) := by
  induction xs with
  | nil =>
    intro acc _ _ hs
    refine ⟨acc.reverse, rfl, by simp, ?_⟩
    rw [List.pairwise_reverse]; exact hs
  | cons x xs ih =>
    intro acc ha hx hs
    obtain ⟨ys, h1, h2, h3⟩ := insertPoly_sorted x (hx x (by simp)) acc ha hs
    obtain ⟨zs, k1, k2, k3⟩ := ih ys (by
      intro z hz
      rcases List.mem_cons.1 (h2.mem_iff.1 hz) with rfl | hz
      · exact hx z (by simp)
      · exact ha z hz) (fun z hz => hx z (by simp [hz])) h3
    refine ⟨zs, by rw [insertPolys, h1]; exact k1, ?_, k3⟩
    refine k2.trans ?_
    refine (h2.append_right xs).trans ?_
    rw [List.cons_append]
    exact List.perm_middle.symm

theorem apart_key {p q : List (List (Pt F64))} (hp : goodPoly p) (hq : goodPoly q) (h : Apart p q)
    (hk : polyKey p = polyKey q) : p = q := by
  cases p with
  | nil =>
    cases q with
    | nil => rfl
    | cons s ss => have := ringKey_pos (hq s ss rfl); simp only [polyKey] at hk; omega
  | cons r rs =>
    have hr := hp r rs rfl
    cases q with
    | nil => have := ringKey_pos hr; simp only [polyKey] at hk; omega
    | cons s ss =>
      have hs := hq s ss rfl
      exfalso
      obtain ⟨v, v1, v2⟩ := findMin_spec r hr.1 hr.2
      obtain ⟨w, w1, w2⟩ := findMin_spec s hs.1 hs.2
      have mv := List.mem_of_getElem? v1
      have mw := List.mem_of_getElem? w1
      have nv := hr.2 v mv
      have nw := hs.2 w mw
      have b1 := ptKey_bounds v nv
      have b2 := ptKey_bounds w nw
      simp only [polyKey, ringKey, v1, w1] at hk
      have hl : r.length = s.length := by omega
      refine h r rs s ss rfl rfl hl v w ⟨mv, fun x hx hb => ?_⟩ ⟨mw, fun x hx hb => ?_⟩ ?_
      · rw [before_iff _ _ (hr.2 x hx) nv] at hb; have := v2 x hx; omega
      · rw [before_iff _ _ (hs.2 x hx) nw] at hb; have := w2 x hx; omega
      · rw [samePt_iff _ _ nv nw]
        rw [hl] at hk
        omega

theorem sortPolys_order {l l' : List (List (List (Pt F64)))} (hl : Solid l) (ha : l.Pairwise Apart)
    (hp : l.Perm l') : sortPolys l = sortPolys l' := by
  have good : ∀ p ∈ l, goodPoly p := fun p h r rs e => hl p h r rs e
  obtain ⟨zs, a1, a2, a3⟩ := insertPolys_sorted l [] (by simp) good (by simp)
  obtain ⟨ws, b1, b2, b3⟩ := insertPolys_sorted l' [] (by simp) (fun p h => good p (hp.mem_iff.2 h)) (by simp)
  rw [List.nil_append] at a2 b2
  have hk : l.Pairwise (fun a b => polyKey a = polyKey b → a = b) :=
    List.Pairwise.imp_of_mem (fun {a b} ha hb h => apart_key (good a ha) (good b hb) h) ha
  have hk' : ∀ a ∈ l, ∀ b ∈ l, polyKey a = polyKey b → a = b := by
    clear ha hl good a1 a2 hp a3
    induction l with
    | nil => simp
    | cons x l ih =>
      rw [List.pairwise_cons] at hk
      intro a ha b hb e
      rcases List.mem_cons.1 ha with ha' | ha' <;> rcases List.mem_cons.1 hb with hb' | hb'
      · rw [ha', hb']
      · subst ha'; exact hk.1 b hb' e
      · subst hb'; exact (hk.1 a ha' e.symm).symm
      · exact ih hk.2 a ha' b hb' e
  have he : zs = ws := by
    refine List.Perm.eq_of_pairwise (le := fun a b => polyKey a ≤ polyKey b) ?_ a3 b3 (a2.trans (hp.trans b2.symm))
    intro a b ha hb h1 h2
    exact hk' a (a2.mem_iff.1 ha) b (hp.mem_iff.2 (b2.mem_iff.1 hb)) (by omega)
  rw [sortPolys, sortPolys, a1, b1, he]

end Verif.Lemmas.GeoEqual
