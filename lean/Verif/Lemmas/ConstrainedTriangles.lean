import Mathlib.Data.Rat.Floor
import Verif.Lemmas.TriCover
import Verif.Model.ConstrainedTriangles
import Verif.Props.DelaunayPoints
import Verif.Props.InsertConstraint

/-!
# Helper lemmas: triangulations with constraints
-/

namespace Verif.Lemmas.ConstrainedTriangles
open Verif.Quad Verif.Spec.Quad Verif.Subdivision Verif.Spec.Subdivision Verif.Spec.Planar
open Verif.Constrained Verif.Spec.Constrained Verif.Spec.ConstrainedTriangles Verif.Props Verif.Delaunay
open Verif.ConstrainedTriangles

set_option linter.unusedSectionVars false

variable {K : Type} [Field K] [LinearOrder K] [IsStrictOrderedRing K] [FloorRing K]

theorem roundAway_int (i : Int) : roundAway (i : K) = i := by
  have h : ∀ j : Int, ⌊(j : K) + 1 / 2⌋ = j := by
    intro j
    rw [Int.floor_eq_iff]
    constructor <;> linarith
  unfold roundAway
  split_ifs
  · rw [h]
  · have := h (-i)
    rw [Int.cast_neg] at this
    rw [this]; simp

/-- Rounding twice is rounding once. -/
theorem roundPt_idem (p : Pt K) : roundPt (roundPt p) = roundPt p := by
  obtain ⟨_, _, i, j, h⟩ := C138_rounds p
  rw [h]
  have k : ∀ x : K, x / 1000 * 1000 = x := fun x => by field_simp
  unfold roundPt
  simp only [k, roundAway_int]

/-- Crossing depends on the ends only. -/
theorem crossesAt_iff {s : Store (Pt K)} {p q u w : Pt K} {y : E} (ho : orig s y = some u) (hd : dest s y = some w) :
    (∃ t, CrossesAt s p q y t) ↔ Cross p q u w := by
  constructor
  · rintro ⟨t, u', w', x, v, h1, h2, h3, t0, t1, v0, v1, h4, h5⟩
    obtain rfl := Option.some.inj (ho.symm.trans h1)
    obtain rfl := Option.some.inj (hd.symm.trans h2)
    exact ⟨h3, x, t, v, t0, t1, v0, v1, h4, h5⟩
  · rintro ⟨h3, x, t, v, t0, t1, v0, v1, h4, h5⟩
    exact ⟨t, u, w, x, v, ho, hd, h3, t0, t1, v0, v1, h4, h5⟩

theorem crossesAt_turn {s : Store (Pt K)} {p q u w : Pt K} {y y' : E} {t : K} (ho : orig s y = some u)
    (hd : dest s y = some w) (ho' : orig s y' = some w) (hd' : dest s y' = some u) (h : CrossesAt s p q y t) :
    CrossesAt s p q y' t := by
  obtain ⟨u', w', x, v, h1, h2, h3, t0, t1, v0, v1, h4, h5⟩ := h
  obtain rfl := Option.some.inj (ho.symm.trans h1)
  obtain rfl := Option.some.inj (hd.symm.trans h2)
  refine ⟨w, u, x, 1 - v, ho', hd', ?_, t0, t1, by linarith, by linarith, h4, ?_⟩
  · intro h
    apply h3
    unfold Spec.Planar.Parallel at *
    linarith
  · unfold Spec.Resolve.AtParam at *
    rw [h5]
    ext <;> simp only <;> ring

/-- If only one side is crossed, the list of the edges crossed has one edge. -/
theorem one_crossed {yd : Bool} {s : Store (Pt K)} {z : E} {p q u w : Pt K} {l : List E}
    (hl : CrossedInOrder yd s z p q l) (hne : l ≠ [])
    (h : ∀ u' w', Joined s z u' w' → Cross p q u' w' → (u', w') = (u, w) ∨ (u', w') = (w, u)) :
    ∃ y, l = [y] ∧ ((orig s y = some u ∧ dest s y = some w) ∨ (orig s y = some w ∧ dest s y = some u)) := by
  have ends : ∀ y ∈ l, (∃ t, CrossesAt s p q y t) ∧
      ((orig s y = some u ∧ dest s y = some w) ∨ (orig s y = some w ∧ dest s y = some u)) := by
    intro y hy
    obtain ⟨hc, ⟨t, ht⟩, _⟩ := hl.sound y hy
    obtain ⟨u', w', _, _, h1, h2, _⟩ := id ht
    refine ⟨⟨t, ht⟩, ?_⟩
    rcases h u' w' ⟨y, hc, h1, h2⟩ ((crossesAt_iff h1 h2).1 ⟨t, ht⟩) with e | e <;>
      obtain ⟨rfl, rfl⟩ := Prod.mk.inj e
    · exact Or.inl ⟨h1, h2⟩
    · exact Or.inr ⟨h1, h2⟩
  match l, hne, hl.order, ends with
  | [y], _, _, ends => exact ⟨y, rfl, (ends y (by simp)).2⟩
  | y :: y' :: l, _, ord, ends =>
    exfalso
    obtain ⟨⟨t, ht⟩, e⟩ := ends y (by simp)
    obtain ⟨⟨t', ht'⟩, e'⟩ := ends y' (by simp)
    have ho := (List.pairwise_cons.1 ord).1 y' (by simp)
    have : CrossesAt s p q y' t := by
      have same : ∀ {a b : Pt K}, orig s y = some a → dest s y = some b → orig s y' = some a → dest s y' = some b →
          CrossesAt s p q y' t := by
        intro a b h1 h2 h3 h4
        obtain ⟨u', w', x, v, g1, g2, g⟩ := ht
        exact ⟨u', w', x, v, by rw [h3, ← h1, g1], by rw [h4, ← h2, g2], g⟩
      rcases e with ⟨e1, e2⟩ | ⟨e1, e2⟩ <;> rcases e' with ⟨e3, e4⟩ | ⟨e3, e4⟩
      · exact same e1 e2 e3 e4
      · exact crossesAt_turn e1 e2 e3 e4 ht
      · exact crossesAt_turn e1 e2 e3 e4 ht
      · exact same e1 e2 e3 e4
    exact absurd (ho t t ht this) (lt_irrefl t)

/-- Crossing, by the sides. -/
theorem cross_iff (yd : Bool) (p q u w : Pt K) :
    Cross p q u w ↔ SubCover.area yd p q u * SubCover.area yd p q w < 0 ∧
      SubCover.area yd u w p * SubCover.area yd u w q < 0 := by
  obtain ⟨s, hs⟩ : ∃ s : Store (Pt K), s = ⟨1, initNext, fun e => if e = ⟨0, 0⟩ then some u else some w⟩ := ⟨_, rfl⟩
  have ho : orig s ⟨0, 0⟩ = some u := by rw [hs]; rfl
  have hd : dest s ⟨0, 0⟩ = some w := by rw [hs]; rfl
  rw [← crossesAt_iff ho hd]
  simp only [CrossGeom.crossesAt_iff yd ho hd]
  constructor
  · rintro ⟨t, h1, h2, _⟩; exact ⟨h1, h2⟩
  · rintro ⟨h1, h2⟩
    refine ⟨SubCover.area yd u w p / (SubCover.area yd u w p - SubCover.area yd u w q), h1, h2, ?_⟩
    have : SubCover.area yd u w p - SubCover.area yd u w q ≠ 0 := by
      intro h
      rw [sub_eq_zero.1 h] at h2
      exact absurd h2 (mul_self_nonneg _).not_gt
    exact div_mul_cancel₀ _ this

/-- The state between constraints. -/
structure Between (yd : Bool) (a b c : Pt K) (vs : Pt K → Prop) (sides : Pt K → Pt K → Prop) (sd : Subdiv K)
    (vx : VertexIndex K) : Prop where
  tri : Triangulates yd a b c sd
  frame : sd.frame = (a, b, c)
  verts : ∀ v, Vertex sd.store sd.start v ↔ vs v
  finds : Finds roundPt sd.store (Connected sd.store sd.start) (viGet roundPt vx)
  joined : ∀ u w, Joined sd.store sd.start u w ↔ sides u w

/-- Constraints that are sides, or take the place of one. -/
theorem flips_run {yd : Bool} {a b c : Pt K} {vs : Pt K → Prop} (hr : ∀ v, vs v → roundPt v = v)
    {sides sides' : Pt K → Pt K → Prop} {cs : List (Pt K × Pt K)} (hf : Flips vs sides cs sides') :
    ∀ (sd : Subdiv K) (vx : VertexIndex K), Between yd a b c vs sides sd vx →
    ∃ sd' vx', Between yd a b c vs sides' sd' vx' ∧ ∀ rest,
      insertUntil yd (cs ++ rest) sd vx = insertUntil yd rest sd' vx' ∧
      insertLogged yd (cs ++ rest) sd vx = insertLogged yd rest sd' vx' := by
  have insert : ∀ (sd : Subdiv K) (vx : VertexIndex K) (sides), Between yd a b c vs sides sd vx → ∀ p q, vs p → vs q →
      _ := fun sd vx sides hB p q hp hq =>
    C161_insert_partial roundPt yd a b c sd hB.tri hB.frame (fun v hv => hr v ((hB.verts v).1 hv)) vx hB.finds p q
      (hr p hp) (hr q hq)
  induction hf with
  | done sides => exact fun sd vx hB => ⟨sd, vx, hB, fun _ => ⟨rfl, rfl⟩⟩
  | @there sides sides' p q cs hpq _ ih =>
    intro sd vx hB
    have hj := (hB.joined p q).2 hpq
    obtain ⟨y, hy, ho, hd⟩ := id hj
    have h := (insert sd vx sides hB p q ((hB.verts p).1 ⟨y, hy, ho⟩) ((hB.verts q).1 ⟨_, hy.sym, hd⟩)).2.2.1 hj
    obtain ⟨sd', vx', h1, h2⟩ := ih sd vx hB
    refine ⟨sd', vx', h1, fun rest => ?_⟩
    rw [List.cons_append, insertUntil, insertLogged]
    simp only [h]
    exact h2 rest
  | @flip sides sides' p q u w cs hne hp hq hfree hnot _ _ honly _ ih =>
    intro sd vx hB
    have hno : ¬ Joined sd.store sd.start p q := fun hj => hnot ((hB.joined p q).1 hj)
    obtain ⟨l, k1, k2, _, k4⟩ := (insert sd vx sides hB p q hp hq).2.2.2 ((hB.verts p).2 hp) ((hB.verts q).2 hq) hne
      (fun v hv => hfree v ((hB.verts v).1 hv)) hno
    obtain ⟨y, rfl, hy⟩ := one_crossed k1 k2 (fun u' w' hj hc => honly u' w' ((hB.joined u' w').1 hj) hc)
    obtain ⟨sd1, vx1, m1, m2, m3, m4, m5, m6⟩ := k4 y rfl
    obtain ⟨sd', vx', h1, h2⟩ := ih sd1 vx1 ⟨m3, m2, fun v => (m5 v).trans (hB.verts v), m4, fun a' b' => by
      rw [m6, hB.joined]
      have : (¬ (orig sd.store y = some a' ∧ dest sd.store y = some b') ∧
          ¬ (orig sd.store y = some b' ∧ dest sd.store y = some a')) ↔ (a', b') ≠ (u, w) ∧ (a', b') ≠ (w, u) := by
        rcases hy with ⟨e1, e2⟩ | ⟨e1, e2⟩ <;> rw [e1, e2] <;>
          simp only [Option.some.injEq, ne_eq, Prod.mk.injEq, not_and] <;> constructor <;> rintro ⟨x1, x2⟩ <;>
          constructor <;> intro i1 i2
        all_goals first
          | exact x1 i1.symm i2.symm
          | exact x2 i2.symm i1.symm
          | exact x1 i2.symm i1.symm
          | exact x2 i1.symm i2.symm
      rw [this]⟩
    refine ⟨sd', vx', h1, fun rest => ?_⟩
    rw [List.cons_append, insertUntil, insertLogged]
    simp only [m1]
    exact h2 rest

/-- A constraint that crosses too many sides. -/
theorem too_many {yd : Bool} {a b c : Pt K} {vs : Pt K → Prop} (hr : ∀ v, vs v → roundPt v = v)
    {sides : Pt K → Pt K → Prop} {sd : Subdiv K} {vx : VertexIndex K} (hB : Between yd a b c vs sides sd vx)
    {p q : Pt K} (hne : p ≠ q) (hp : vs p) (hq : vs q) (hfree : Free vs p q) (hnot : ¬ sides p q)
    {es : List (Pt K × Pt K)} (hes : es.Nodup) (hlen : 21 < es.length)
    (hcr : ∀ e ∈ es, sides e.1 e.2 ∧ Cross p q e.1 e.2 ∧ Turns yd p q e.1) :
    insertConstraint roundPt yd sd vx p q = some (some .loop, sd, vx) := by
  obtain ⟨l, k1, _, k3, _⟩ := (C161_insert_partial roundPt yd a b c sd hB.tri hB.frame
    (fun v hv => hr v ((hB.verts v).1 hv)) vx hB.finds p q (hr p hp) (hr q hq)).2.2.2 ((hB.verts p).2 hp)
    ((hB.verts q).2 hq) hne (fun v hv => hfree v ((hB.verts v).1 hv)) (fun hj => hnot ((hB.joined p q).1 hj))
  apply k3
  have sub : (es.map fun e => (some e.1, some e.2)) ⊆ l.map fun y => (orig sd.store y, dest sd.store y) := by
    intro x hx
    obtain ⟨e, he, rfl⟩ := List.mem_map.1 hx
    obtain ⟨h1, h2, h3⟩ := hcr e he
    obtain ⟨y, hy, ho, hd⟩ := (hB.joined e.1 e.2).2 h1
    rcases k1.complete y hy ((crossesAt_iff ho hd).2 h2) with h | h
    · exact List.mem_map.2 ⟨y, h, by rw [ho, hd]⟩
    · exfalso
      obtain ⟨_, _, p', hp', ht⟩ := k1.sound _ h
      obtain rfl := Option.some.inj (hd.symm.trans hp')
      exact absurd ((cross_iff yd p q e.1 e.2).1 h2).1 (mul_pos h3 ht).not_gt
  have nd : (es.map fun e => (some e.1, some e.2)).Nodup := hes.map (fun x y h => by
    simp only [Prod.mk.injEq, Option.some.injEq] at h
    exact Prod.ext h.1 h.2)
  have := (nd.subperm sub).length_le
  simp only [List.length_map] at this
  omega

/-- A new subdivision for points, before the constraints. -/
theorem base (yd : Bool) (pts : List (Pt K)) (hne : pts ≠ []) :
    ∃ a b c sd vx, triangleContaining (pts.map roundPt) = some (a, b, c) ∧
      (newForPoints yd (fun _ => false) pts).1 = .ok sd ∧
      newVertexIndex roundPt sd.store sd.start = some vx ∧
      Between yd a b c (fun p => p = a ∨ p = b ∨ p = c ∨ p ∈ pts.map roundPt) (Joined sd.store sd.start) sd vx := by
  obtain ⟨a, b, c, sd, h1, _, h3, h4, _, h6, _, h8⟩ := C138_newForPoints yd (fun _ => false) pts hne
  have hI : ∃ vx, newVertexIndex roundPt sd.store sd.start = some vx ∧
      Finds roundPt sd.store (Connected sd.store sd.start) (viGet roundPt vx) := by
    rcases h4 with hT | hT <;>
    exact C131_new_index roundPt sd.store hT.reached sd.start hT.primal hT.alloc (Lemmas.CrossInsert.net_of hT).orig
  obtain ⟨vx, g1, g2⟩ := hI
  exact ⟨a, b, c, sd, vx, h1, h8 (fun _ _ => rfl), g1, h4, h3, h6, g2, fun _ _ => Iff.rfl⟩

/-- Sides that are not crossed stay. -/
theorem flips_stay {vs : Pt K → Prop} {sides sides' : Pt K → Pt K → Prop} {cs : List (Pt K × Pt K)}
    (hf : Flips vs sides cs sides') {p q : Pt K} (h : sides p q) (hn : ∀ d ∈ cs, ¬ Cross d.1 d.2 p q) :
    sides' p q := by
  induction hf with
  | done _ => exact h
  | there _ _ ih => exact ih h (fun d hd => hn d (List.mem_cons_of_mem _ hd))
  | @flip sides sides' p' q' u w cs _ _ _ _ _ _ hcr _ _ ih =>
    refine ih (Or.inl ⟨h, ?_, ?_⟩) (fun d hd => hn d (List.mem_cons_of_mem _ hd))
    · rintro e
      obtain ⟨rfl, rfl⟩ := Prod.mk.inj e
      exact hn _ List.mem_cons_self hcr
    · rintro e
      obtain ⟨rfl, rfl⟩ := Prod.mk.inj e
      refine hn _ List.mem_cons_self ?_
      rw [cross_iff false] at hcr ⊢
      simp only at hcr ⊢
      rw [SubCover.area_rev false q p p', SubCover.area_rev false q p q', neg_mul_neg]
      exact ⟨by linarith [mul_comm (SubCover.area false p' q' p) (SubCover.area false p' q' q), hcr.1], hcr.2⟩

/-- A constraint that no later one crosses is a side at the end. -/
theorem flips_kept {vs : Pt K → Prop} {sides sides' : Pt K → Pt K → Prop} {xs ys : List (Pt K × Pt K)} {p q : Pt K}
    (hf : Flips vs sides (xs ++ (p, q) :: ys) sides') (hn : ∀ d ∈ ys, ¬ Cross d.1 d.2 p q) : sides' p q := by
  induction xs generalizing sides with
  | nil =>
    cases hf with
    | there h hf => exact flips_stay hf h hn
    | flip _ _ _ _ _ _ _ _ hf => exact flips_stay hf (Or.inr (Or.inl rfl)) hn
  | cons x xs ih =>
    cases hf with
    | there _ hf => exact ih hf
    | flip _ _ _ _ _ _ _ _ hf => exact ih hf

/-- Both kinds: `vs` are the points triangulated, `ts` the triangles without the constraints. -/
theorem listed_flips (yd : Bool) (vs : List (Pt K)) (hne : vs ≠ []) (a b c : Pt K)
    (hfr : triangleContaining (vs.map roundPt) = some (a, b, c)) (hr : ∀ v ∈ [a, b, c], roundPt v = v)
    (ts : List (Pt K × Pt K × Pt K)) (hts : trianglesOf true (newForPoints yd (fun _ => false) vs).1 = .ok ts)
    (cs : List (Pt K × Pt K)) (sides : Pt K → Pt K → Prop)
    (hf : Flips (fun p => p = a ∨ p = b ∨ p = c ∨ p ∈ vs.map roundPt) (Side ts) cs sides) :
    ∃ all some, Listed yd a b c (vs.map roundPt) sides all some ∧ ∀ includeFrame,
      trianglesWith (insertUntil yd cs) includeFrame (newForPoints yd (fun _ => false) vs).1 =
        .ok (if includeFrame then all else some) ∧
      trianglesWith (insertLogged yd cs) includeFrame (newForPoints yd (fun _ => false) vs).1 =
        .ok (if includeFrame then all else some) := by
  obtain ⟨a', b', c', sd, vx, h1, h2, h3, hB⟩ := base yd vs hne
  rw [hfr] at h1
  simp only [Option.some.injEq, Prod.mk.injEq] at h1
  obtain ⟨rfl, rfl, rfl⟩ := h1
  have hr' : ∀ v, v = a ∨ v = b ∨ v = c ∨ v ∈ vs.map roundPt → roundPt v = v := by
    rintro v (rfl | rfl | rfl | h)
    · exact hr _ (by simp)
    · exact hr _ (by simp)
    · exact hr _ (by simp)
    · obtain ⟨u, _, rfl⟩ := List.mem_map.1 h
      exact roundPt_idem u
  rw [h2] at hts
  obtain ⟨l1, T, l2, g1, _, _, _, _, g6, _⟩ := TriCover.triangles_good hB.tri hB.frame
  have hts' : ts = l1 ++ T :: l2 := by
    unfold trianglesOf at hts
    simp only [g1] at hts
    exact (Delaunay.Res.ok.inj hts).symm
  have hS : Side ts = Joined sd.store sd.start := by
    rw [hts']
    funext p q
    exact propext (g6 p q)
  rw [hS] at hf
  obtain ⟨sd', vx', hB', hrun⟩ := flips_run hr' hf sd vx hB
  obtain ⟨m1, T', m2, k1, k2, k3, k4, k5, _, k7⟩ := TriCover.triangles_good hB'.tri hB'.frame
  have hv : Vertex sd'.store sd'.start = fun p => p = a ∨ p = b ∨ p = c ∨ p ∈ vs.map roundPt :=
    funext fun p => propext (hB'.verts p)
  have hu := (hrun []).1
  have hl := (hrun []).2
  rw [List.append_nil, insertUntil] at hu
  rw [List.append_nil, insertLogged] at hl
  rw [hv] at k4
  refine ⟨_, _, ⟨m1, T', m2, rfl, k2, k3, k4, fun p q => (k5 p q).trans (hB'.joined p q), rfl⟩, fun f => ?_⟩
  rw [h2]
  unfold trianglesWith
  cases f
  · simp only [h3, hu, hl, k7, Bool.false_eq_true, if_false, and_self]
  · simp only [h3, hu, hl, k1, if_true, and_self]

/-- Both kinds, with a constraint that crosses too many sides. -/
theorem too_many_run (yd : Bool) (vs : List (Pt K)) (hne : vs ≠ []) (a b c : Pt K)
    (hfr : triangleContaining (vs.map roundPt) = some (a, b, c)) (hr : ∀ v ∈ [a, b, c], roundPt v = v)
    (ts : List (Pt K × Pt K × Pt K)) (hts : trianglesOf true (newForPoints yd (fun _ => false) vs).1 = .ok ts)
    (xs ys : List (Pt K × Pt K)) (sides : Pt K → Pt K → Prop)
    (hf : Flips (fun p => p = a ∨ p = b ∨ p = c ∨ p ∈ vs.map roundPt) (Side ts) xs sides)
    {p q : Pt K} (hpq : p ≠ q) (hp : p ∈ vs.map roundPt) (hq : q ∈ vs.map roundPt)
    (hfree : Free (fun p => p = a ∨ p = b ∨ p = c ∨ p ∈ vs.map roundPt) p q) (hnot : ¬ sides p q)
    {es : List (Pt K × Pt K)} (hes : es.Nodup) (hlen : 21 < es.length)
    (hcr : ∀ e ∈ es, sides e.1 e.2 ∧ Cross p q e.1 e.2 ∧ Turns yd p q e.1) (includeFrame : Bool) :
    trianglesWith (insertUntil yd (xs ++ (p, q) :: ys)) includeFrame (newForPoints yd (fun _ => false) vs).1 =
        .constraint .loop ∧
      trianglesWith (insertLogged yd (xs ++ (p, q) :: ys)) includeFrame (newForPoints yd (fun _ => false) vs).1 =
        trianglesWith (insertLogged yd (xs ++ ys)) includeFrame (newForPoints yd (fun _ => false) vs).1 := by
  obtain ⟨a', b', c', sd, vx, h1, h2, h3, hB⟩ := base yd vs hne
  rw [hfr] at h1
  simp only [Option.some.injEq, Prod.mk.injEq] at h1
  obtain ⟨rfl, rfl, rfl⟩ := h1
  have hr' : ∀ v, v = a ∨ v = b ∨ v = c ∨ v ∈ vs.map roundPt → roundPt v = v := by
    rintro v (rfl | rfl | rfl | h)
    · exact hr _ (by simp)
    · exact hr _ (by simp)
    · exact hr _ (by simp)
    · obtain ⟨u, _, rfl⟩ := List.mem_map.1 h
      exact roundPt_idem u
  rw [h2] at hts
  obtain ⟨l1, T, l2, g1, _, _, _, _, g6, _⟩ := TriCover.triangles_good hB.tri hB.frame
  have hts' : ts = l1 ++ T :: l2 := by
    unfold trianglesOf at hts
    simp only [g1] at hts
    exact (Delaunay.Res.ok.inj hts).symm
  have hS : Side ts = Joined sd.store sd.start := by
    rw [hts']
    funext p q
    exact propext (g6 p q)
  rw [hS] at hf
  obtain ⟨sd', vx', hB', hrun⟩ := flips_run hr' hf sd vx hB
  have hi := too_many hr' hB' hpq (Or.inr (Or.inr (Or.inr hp))) (Or.inr (Or.inr (Or.inr hq))) hfree hnot hes hlen hcr
  have hu := (hrun ((p, q) :: ys)).1
  have hl := (hrun ((p, q) :: ys)).2
  rw [insertUntil] at hu
  rw [insertLogged] at hl
  simp only [hi] at hu hl
  rw [← (hrun ys).2] at hl
  rw [h2]
  unfold trianglesWith
  simp only [h3, hu, hl, and_self]

end Verif.Lemmas.ConstrainedTriangles
