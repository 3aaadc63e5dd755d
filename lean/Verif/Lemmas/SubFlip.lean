import Verif.Lemmas.SubDelaunay
import Verif.Lemmas.SubInsert

/-!
# Helper lemmas: the loop over the suspect edges makes all edges locally Delaunay
-/

namespace Verif.Lemmas.SubFlip
open Verif.Quad Verif.Spec.Quad Verif.Lemmas.Quad Verif.Spec.Subdivision Verif.Subdivision
open Verif.Resolve Verif.Spec.Resolve Verif.Lemmas.Resolve Verif.Lemmas.SubLocate Verif.Lemmas.SubTables
open Verif.Lemmas.SubFan Verif.Lemmas.SubWalk Verif.Lemmas.SubMesh Verif.Lemmas.SubCover Verif.Lemmas.Circle
open Verif.Lemmas.SubSuspect Verif.Lemmas.SubInsert Verif.Lemmas.SubDelaunay

set_option linter.unusedSectionVars false

attribute [local irreducible] splice delete swap connectTo

variable {K : Type} [Field K] [LinearOrder K] [IsStrictOrderedRing K]

/-! ## The circle test -/

theorem inc_contains {yd : Bool} {x o d td : Pt K} (h2 : Turns yd d o td)
    (h : containsPoint yd x o d td = true) : 0 ≤ inc yd d o td x := by
  obtain ⟨c, e1, e2, e3⟩ := contains_circle h
  have key : ∀ p q : Pt K, PseudoPolygon.dist2 p q = Spec.Planar.dist2 p q := by
    intro p q; unfold PseudoPolygon.dist2 Spec.Planar.dist2; ring
  simp only [key] at e1 e2 e3
  rw [inc_of_centre e1.symm (e1.symm.trans e2)]
  exact mul_nonneg (by linarith) (le_of_lt h2)

theorem inc_not_contains {yd : Bool} {x o d td : Pt K} (h1 : Turns yd o d x) (h2 : Turns yd d o td)
    (h : containsPoint yd x o d td = false) : inc yd d o td x < 0 := by
  have h1' : 0 < area yd o d x := h1
  have h2' : 0 < area yd d o td := h2
  obtain ⟨_, otd, dtd⟩ := turns_ne h2
  have key : ∀ p q : Pt K, PseudoPolygon.dist2 p q = Spec.Planar.dist2 p q := by
    intro p q; unfold PseudoPolygon.dist2 Spec.Planar.dist2; ring
  -- one of `x o td`, `x d td` on a line
  have lineO : area yd x o td = 0 → inc yd d o td x < 0 := by
    intro h0
    have e : inc yd d o td x = inc yd d td x o := by
      unfold inc area wedge arrow Spec.Planar.dist2; cases yd <;> simp <;> ring
    have e1 : area yd o td x = 0 := by rw [← h0]; exact wedge_cycle yd x o td
    have e2 : area yd o x d = - area yd o d x := by unfold area wedge arrow; cases yd <;> simp <;> ring
    have e3 : area yd o d td = - area yd d o td := area_rev _ _ _ _
    rw [e, inc_about, e1, e2, e3]
    have := mul_pos (dist2_pos otd.symm) h1'
    have := mul_nonneg (dist2_nonneg x o) h2'.le
    linarith
  have lineD : area yd x d td = 0 → inc yd d o td x < 0 := by
    intro h0
    have e : inc yd d o td x = - inc yd o td x d := by
      unfold inc area wedge arrow Spec.Planar.dist2; cases yd <;> simp <;> ring
    have e1 : area yd d td x = 0 := by rw [← h0]; exact wedge_cycle yd x d td
    have e2 : area yd d x o = area yd o d x := wedge_cycle yd o d x
    rw [e, inc_about, e1, e2]
    have := mul_pos (dist2_pos dtd.symm) h1'
    have := mul_nonneg (dist2_nonneg x d) h2'.le
    linarith
  unfold containsPoint at h
  split_ifs at h with hs
  · unfold setOfThreeAreColinear at hs
    simp only [Bool.or_eq_true, beq_iff_eq] at hs
    rw [orientation_wedge3, orientation_wedge3, orientation_wedge3, orientation_wedge3] at hs
    have z : ∀ {w : K}, sgn w = Winding.colinear → w = 0 := by
      intro w hw
      rcases sgn_cases w with ⟨_, g⟩ | ⟨_, g⟩ | ⟨g, _⟩
      · rw [g] at hw; exact absurd hw (by decide)
      · rw [g] at hw; exact absurd hw (by decide)
      · exact g
    rcases hs with ((hs | hs) | hs) | hs
    · have e : area yd x o d = area yd o d x := (wedge_cycle yd x o d).symm
      have : area yd x o d = 0 := z hs
      linarith
    · exact lineO (z hs)
    · exact lineD (z hs)
    · have e : area yd o d td = - area yd d o td := area_rev _ _ _ _
      have : area yd o d td = 0 := z hs
      linarith
  · have hn : ¬ Spec.Planar.Colinear o td d := by
      intro hl
      unfold Spec.Planar.Colinear at hl
      have : area yd d o td = 0 := by
        unfold area wedge arrow
        cases yd <;> simp <;> first | linear_combination hl | linear_combination -hl
      linarith
    obtain ⟨c', f', e, g1, g2, g3⟩ := (Shapes.circleFromPoints_spec o td d).2 hn
    rw [e] at h
    simp only [decide_eq_false_iff_not, not_le, key] at h
    rw [inc_of_centre (g3.trans g1.symm) (g3.trans g2.symm)]
    refine mul_neg_of_neg_of_pos ?_ h2'
    rw [g3]; linarith

/-! ## What the loop keeps -/

variable {yd : Bool} {f0 f1 f2 : Pt K} {z : E} {x : Pt K} {base : E} {V : Pt K → Prop} {st : Store (Pt K)} {N : Nat}

/-- The circles of the triangles that do not touch `x` are empty; the link edges have an empty circle that `x`
is in; those that have been looked at are legal.  Triangles that do not touch `x` were there at first. -/
structure Tidy (yd : Bool) (z : E) (x : Pt K) (base : E) (V : Pt K → Prop) (st : Store (Pt K)) (N : Nat)
    (s : Store (Pt K)) (m : Nat) : Prop where
  vert : ∀ p, Vertex s z p ↔ V p ∨ p = x
  free : ∀ y o d t, Connected s z y → FaceOf s y o d t → Turns yd o d t → o ≠ x → d ≠ x → t ≠ x →
    ∀ p, V p → inc yd o d t p ≤ 0
  link : ∀ y o d, Connected s z y → FaceOf s y o d x → ∃ w, Turns yd o d w ∧ 0 ≤ inc yd o d w x ∧
    ∀ p, V p → inc yd o d w p ≤ 0
  legal : ∀ y o d td, Connected s z y → FaceOf s y o d x →
    (∀ i ≤ m, s.next^[i] (sym base) ≠ lnext s (lnext s y)) → FaceOf s (sym y) d o td → Turns yd d o td →
    inc yd d o td x < 0
  old : ∀ y o d t, Connected s z y → FaceOf s y o d t → o ≠ x → d ≠ x → t ≠ x →
    Connected st z y ∧ FaceOf st y o d t
  card : (edges s z).card ≤ N

/-- What the loop makes of it. -/
structure Settled (yd : Bool) (z : E) (x : Pt K) (st : Store (Pt K)) (N : Nat) (s : Store (Pt K)) : Prop where
  loc : Local yd s z
  legal : ∀ y o d td, Connected s z y → FaceOf s y o d x → FaceOf s (sym y) d o td → Turns yd d o td →
    inc yd d o td x < 0
  old : ∀ y o d t, Connected s z y → FaceOf s y o d t → o ≠ x → d ≠ x → t ≠ x →
    Connected st z y ∧ FaceOf st y o d t
  card : (edges s z).card ≤ N

theorem tidy_next {s : Store (Pt K)} {e : E} {m : Nat} {o d td : Pt K}
    (h : Susp yd f0 f1 f2 z x base s e (m + 1) o d) (hJ : Tidy yd z x base V st N s (m + 1))
    (hg : FaceOf s (sym e) d o td) (ht : ¬ (Turns yd d o td ∧ containsPoint yd x o d td = true)) :
    Tidy yd z x base V st N s m := by
  have hi := Reached.inv h.tri.reached
  refine ⟨hJ.vert, hJ.free, hJ.link, ?_, hJ.old, hJ.card⟩
  intro y o' d' td' hc hf hp hg' ht'
  by_cases hlast : s.next^[m + 1] (sym base) = lnext s (lnext s y)
  · rw [h.star] at hlast
    obtain rfl := lnext_inj hi (lnext_inj hi hlast)
    obtain ⟨rfl, rfl, _⟩ := face_unique hf h.face
    obtain ⟨_, _, rfl⟩ := face_unique hg hg'
    refine inc_not_contains h.turn ht' ?_
    by_contra hc
    exact ht ⟨ht', by simpa using hc⟩
  · refine hJ.legal y o' d' td' hc hf (fun i him => ?_) hg' ht'
    rcases Nat.lt_or_ge i (m + 1) with h' | h'
    · exact hp i (by omega)
    · obtain rfl : i = m + 1 := by omega
      exact hlast

/-- The faces of the six edges about the new edge. -/
theorem six_faces {s' s : Store (Pt K)} {e l1 l2 r1 r2 : E} {o d td : Pt K}
    (S : Swapped s s' e l1 l2 r1 r2 o d x td) :
    FaceOf s' e td x o ∧ FaceOf s' l2 x o td ∧ FaceOf s' r1 o td x ∧
    FaceOf s' (sym e) x td d ∧ FaceOf s' r2 td d x ∧ FaceOf s' l1 d x td := by
  have hi := Reached.inv S.reached
  have a2 := face_rot hi S.f1
  rw [S.n1] at a2
  have a3 := face_rot hi a2
  rw [S.n2] at a3
  have b2 := face_rot hi S.f2
  rw [S.n4] at b2
  have b3 := face_rot hi b2
  rw [S.n5] at b3
  exact ⟨S.f1, a2, a3, S.f2, b2, b3⟩

theorem tidy_swap (hx : x ≠ f0 ∧ x ≠ f1 ∧ x ≠ f2) {s : Store (Pt K)} {e : E} {m : Nat} {o d td : Pt K}
    (h : Susp yd f0 f1 f2 z x base s e m o d) (hJ : Tidy yd z x base V st N s m)
    (hg : FaceOf s (sym e) d o td) (h2 : Turns yd d o td) (hc : containsPoint yd x o d td = true) :
    Tidy yd z x base V st N (swap s e) (m + 1) := by
  have hi := Reached.inv h.tri.reached
  have ke := (connected_primal hi h.conn).2 h.tri.primal
  have he := connected_alloc hi h.conn h.tri.alloc
  obtain ⟨t3, t4⟩ := convex_of_circle h.turn h2 (contains_circle hc)
  obtain ⟨_, p2, p3, _, p5, p6⟩ := h.swap hg h2 t3 t4
  have hq := quad4 hi h.tri.agree ke h.face hg h.turn h2
  have S := swapped h.tri.reached h.tri.agree he ke hq
  have hi' := Reached.inv S.reached
  obtain ⟨od, dx, ox⟩ := turns_ne h.turn
  obtain ⟨xtd, _, _⟩ := turns_ne t4
  have hT' := p2.tri
  have F := six_faces S
  have old : ∀ {y a b c}, Connected s z y → ¬ Six e (lnext s e) (lnext s (lnext s e)) (lnext s (sym e))
      (lnext s (lnext s (sym e))) y → FaceOf (swap s e) y a b c → FaceOf s y a b c := by
    intro y a b c hy h6 hf
    obtain ⟨a', b', c', hf', _⟩ := h.tri.face y hy
    have := S.keep hi ke hq ((connected_primal hi hy).2 h.tri.primal) h6 hf'
    obtain ⟨rfl, rfl, rfl⟩ := face_unique hf this
    exact hf'
  have far : ∀ p, V p → inc yd d o td p ≤ 0 := hJ.free _ _ _ _ h.conn.sym hg h2 dx ox xtd.symm
  have into := inc_contains h2 hc
  have e1 : ∀ p, inc yd o td d p = inc yd d o td p := fun p => inc_cycle yd d o td p
  have e2 : ∀ p, inc yd td d o p = inc yd d o td p := fun p => by
    rw [← e1]; exact inc_cycle yd o td d p
  have six : ∀ {y a b c}, FaceOf (swap s e) y a b c → a ≠ x → b ≠ x → c ≠ x →
      ¬ Six e (lnext s e) (lnext s (lnext s e)) (lnext s (sym e)) (lnext s (lnext s (sym e))) y := by
    intro y a b c hf ax bx cx h6
    rcases h6 with rfl | rfl | rfl | rfl | rfl | rfl
    · exact bx (face_unique hf F.1).2.1
    · exact bx (face_unique hf F.2.2.2.2.2).2.1
    · exact ax (face_unique hf F.2.1).1
    · exact ax (face_unique hf F.2.2.2.1).1
    · exact cx (face_unique hf F.2.2.1).2.2
    · exact cx (face_unique hf F.2.2.2.2.1).2.2
  refine ⟨fun p => (p3 p).trans (hJ.vert p), ?_, ?_, ?_, ?_, ?_⟩
  · intro y a b c hy hf ht ax bx cx
    rw [p5] at hy
    exact hJ.free y a b c hy (old hy (six hf ax bx cx) hf) ht ax bx cx
  · intro y a b hy hf
    rw [p5] at hy
    by_cases h6 : Six e (lnext s e) (lnext s (lnext s e)) (lnext s (sym e)) (lnext s (lnext s (sym e))) y
    · rcases h6 with rfl | rfl | rfl | rfl | rfl | rfl
      · exact absurd (face_unique hf F.1).2.2.symm ox
      · exact absurd (face_unique hf F.2.2.2.2.2).2.2 xtd
      · exact absurd (face_unique hf F.2.1).2.2 xtd
      · exact absurd (face_unique hf F.2.2.2.1).2.2.symm dx
      · obtain ⟨rfl, rfl, _⟩ := face_unique hf F.2.2.1
        refine ⟨d, turns_cycle h2, ?_, fun p hp => ?_⟩
        · rw [e1]; exact into
        · rw [e1]; exact far p hp
      · obtain ⟨rfl, rfl, _⟩ := face_unique hf F.2.2.2.2.1
        refine ⟨o, turns_cycle (turns_cycle h2), ?_, fun p hp => ?_⟩
        · rw [e2]; exact into
        · rw [e2]; exact far p hp
    · exact hJ.link y a b hy (old hy h6 hf)
  · intro y a b c hy hf hpos hf2 ht2
    have hyT := turns_of_face hT' hy hf hx (Or.inr (Or.inr rfl))
    obtain ⟨ab, bx, ax⟩ := turns_ne hyT
    have hy' := hy
    rw [p5] at hy'
    have starm : (swap s e).next^[m + 1] (sym base) = sym e := by rw [p2.star, S.n5, S.n6]
    by_cases h6 : Six e (lnext s e) (lnext s (lnext s e)) (lnext s (sym e)) (lnext s (lnext s (sym e))) y
    · exfalso
      rcases h6 with rfl | rfl | rfl | rfl | rfl | rfl
      · exact absurd (face_unique hf F.1).2.2.symm ox
      · exact absurd (face_unique hf F.2.2.2.2.2).2.2 xtd
      · exact absurd (face_unique hf F.2.1).2.2 xtd
      · exact absurd (face_unique hf F.2.2.2.1).2.2.symm dx
      · apply hpos m (by omega)
        apply hi'.inj
        rw [← Function.iterate_succ_apply' (f := (swap s e).next), starm, S.n3, S.n1]
        have := next_lnext hi' e
        rw [S.n1] at this
        exact this.symm
      · apply hpos (m + 1) le_rfl
        rw [starm, S.n5, S.n6]
    · have h6' : ¬ Six e (lnext s e) (lnext s (lnext s e)) (lnext s (sym e)) (lnext s (lnext s (sym e))) (sym y) := by
        intro h'
        rcases h' with h' | h' | h' | h' | h' | h'
        · apply h6; rw [← sym_sym y, h']; simp [Six]
        · rw [h'] at hf2; exact ax (face_unique hf2 F.2.2.2.2.2).2.1
        · rw [h'] at hf2; exact bx (face_unique hf2 F.2.1).1
        · apply h6; rw [sym_inj h']; simp [Six]
        · rw [h'] at hf2
          obtain ⟨rfl, rfl, rfl⟩ := face_unique hf2 F.2.2.1
          exact turns_not hyT ht2
        · rw [h'] at hf2
          obtain ⟨rfl, rfl, rfl⟩ := face_unique hf2 F.2.2.2.2.1
          exact turns_not hyT ht2
      have pr : ∀ {y}, Connected s z y → Primal y := fun h' => (connected_primal hi h').2 h.tri.primal
      refine hJ.legal y a b c hy' (old hy' h6 hf) (fun i him => ?_) (old hy'.sym h6' hf2) ht2
      have := hpos i (by omega)
      rw [p6 i him, S.other y (pr hy') h6,
        S.other _ (pr (lnext_connected hi hy')) (fun h' => h6 (six_out hi hq h'))] at this
      exact this
  · intro y a b c hy hf ax bx cx
    rw [p5] at hy
    exact hJ.old y a b c hy (old hy (six hf ax bx cx) hf) ax bx cx
  · refine le_trans (le_of_eq (congrArg Finset.card ?_)) hJ.card
    ext y
    rw [mem_edges hT', mem_edges h.tri, p5]

/-! ## The end -/

/-- When the star of `x` has been gone round all edges are legal. -/
theorem local_star (hx : x ≠ f0 ∧ x ≠ f1 ∧ x ≠ f2) {s : Store (Pt K)} (hT : Triangulated yd f0 f1 f2 s z)
    (vert : ∀ p, Vertex s z p ↔ V p ∨ p = x)
    (free : ∀ y o d t, Connected s z y → FaceOf s y o d t → Turns yd o d t → o ≠ x → d ≠ x → t ≠ x →
      ∀ p, V p → inc yd o d t p ≤ 0)
    (link : ∀ y o d, Connected s z y → FaceOf s y o d x → ∃ w, Turns yd o d w ∧ 0 ≤ inc yd o d w x ∧
      ∀ p, V p → inc yd o d w p ≤ 0)
    (legal : ∀ y o d td, Connected s z y → FaceOf s y o d x → FaceOf s (sym y) d o td → Turns yd d o td →
      inc yd d o td x ≤ 0)
    {y : E} (hy : Connected s z y) {d t td : Pt K} (hf : FaceOf s y x d t) (hg : FaceOf s (sym y) d x td)
    (h1 : Turns yd x d t) (h2 : Turns yd d x td) : inc yd d x td t ≤ 0 := by
  have hi := Reached.inv hT.reached
  have c2 := lnext_connected hi (lnext_connected hi hy.sym)
  have g2 := face_rot hi (face_rot hi hg)
  have c3 := lnext_connected hi (lnext_connected hi hy)
  obtain ⟨w, w1, w2, w3⟩ := link _ _ _ c2 g2
  have tx : t ≠ x := (turns_ne h1).2.2.symm
  have tV : V t := by
    have := (vert t).1 ⟨_, c3, hf.2.2.2⟩
    exact this.resolve_right tx
  have e : inc yd d x td t = inc yd td d x t := by
    rw [← inc_cycle yd d x td, ← inc_cycle yd x td d]
  rw [e]
  have Ax : 0 < area yd td d x := turns_cycle (turns_cycle h2)
  have Aw : 0 < area yd td d w := w1
  have k := plucker yd td d w x t
  have kt := w3 t tV
  have a1 : inc yd td d t w = - inc yd td d w t := inc_anti _ _ _ _ _
  by_contra hpos
  rw [not_le] at hpos
  rcases le_or_gt 0 (area yd td d t) with hA | hA
  · have := mul_nonneg w2 hA
    have := mul_pos hpos Aw
    have : 0 ≤ inc yd td d t w * area yd td d x := mul_nonneg (by linarith) Ax.le
    linarith
  · obtain ⟨u, hu⟩ := across hT c2 g2
    by_cases hO : Outside s z (sym (lnext s (lnext s (sym y))))
    · have := outside_side hT hO hu (vertex_inFrame hT ((vert t).2 (Or.inl tV)))
      linarith
    · have hu' := inner_turns hT ⟨c2.sym, hO⟩ hu
      have Au : 0 < area yd d td u := hu'
      rw [area_rev] at Au
      have l := legal _ _ _ _ c2 g2 hu hu'
      have ux : u ≠ x := by rintro rfl; linarith
      obtain ⟨n1, n2, n3⟩ := turns_ne h2
      have fr := free _ _ _ _ c2.sym hu hu' n1 n2.symm ux t tV
      have b1 : inc yd d td u x = - inc yd td d u x := inc_rev _ _ _ _ _
      have b2 : inc yd d td u t = - inc yd td d u t := inc_rev _ _ _ _ _
      have b3 : inc yd td d t u = - inc yd td d u t := inc_anti _ _ _ _ _
      have k := plucker yd td d u x t
      rw [b1] at l
      rw [b2] at fr
      have q1 : 0 ≤ inc yd td d u x * (- area yd td d t) := mul_nonneg (by linarith) (by linarith)
      have q2 : 0 < inc yd td d x t * (- area yd td d u) := mul_pos hpos (by linarith)
      have q3 : 0 ≤ - inc yd td d t u * area yd td d x := mul_nonneg (by linarith) Ax.le
      linarith

theorem local_end (hx : x ≠ f0 ∧ x ≠ f1 ∧ x ≠ f2) {s : Store (Pt K)} (hT : Triangulated yd f0 f1 f2 s z)
    (vert : ∀ p, Vertex s z p ↔ V p ∨ p = x)
    (free : ∀ y o d t, Connected s z y → FaceOf s y o d t → Turns yd o d t → o ≠ x → d ≠ x → t ≠ x →
      ∀ p, V p → inc yd o d t p ≤ 0)
    (link : ∀ y o d, Connected s z y → FaceOf s y o d x → ∃ w, Turns yd o d w ∧ 0 ≤ inc yd o d w x ∧
      ∀ p, V p → inc yd o d w p ≤ 0)
    (legal : ∀ y o d td, Connected s z y → FaceOf s y o d x → FaceOf s (sym y) d o td → Turns yd d o td →
      inc yd d o td x ≤ 0) : Local yd s z := by
  have hi := Reached.inv hT.reached
  have turn2 : ∀ o d t td : Pt K, inc yd d o td t = inc yd o d t td := by
    intro o d t td
    rw [inc_rev yd o d td t, inc_anti yd o d t td]; ring
  intro y o d t td hc hf hg h1 h2
  by_cases ho : o = x
  · subst ho
    exact local_star hx hT vert free link legal hc hf hg h1 h2
  by_cases hd : d = x
  · subst hd
    rw [turn2]
    exact local_star hx hT vert free link legal hc.sym hg (by rw [sym_sym]; exact hf) h2 h1
  by_cases ht : t = x
  · subst ht
    exact legal y o d td hc hf hg h2
  by_cases htd : td = x
  · subst htd
    rw [turn2]
    exact legal (sym y) d o t hc.sym hg (by rw [sym_sym]; exact hf) h1
  · refine free _ _ _ _ hc.sym hg h2 hd ho htd t ?_
    exact ((vert t).1 ⟨_, lnext_connected hi (lnext_connected hi hc), hf.2.2.2⟩).resolve_right ht

theorem tidy_done (hx : x ≠ f0 ∧ x ≠ f1 ∧ x ≠ f2) {s : Store (Pt K)} {e : E} {o d td : Pt K}
    (h : Susp yd f0 f1 f2 z x base s e 0 o d) (hJ : Tidy yd z x base V st N s 0) (hg : FaceOf s (sym e) d o td)
    (ht : ¬ (Turns yd d o td ∧ containsPoint yd x o d td = true)) : Settled yd z x st N s := by
  have hi := Reached.inv h.tri.reached
  have legal : ∀ y o d td, Connected s z y → FaceOf s y o d x → FaceOf s (sym y) d o td → Turns yd d o td →
      inc yd d o td x < 0 := ?_
  · exact ⟨local_end hx h.tri hJ.vert hJ.free hJ.link (fun y o d td h1 h2 h3 h4 => (legal y o d td h1 h2 h3 h4).le),
      legal, hJ.old, hJ.card⟩
  intro y o' d' td' hc hf hg' ht'
  by_cases hlast : sym base = lnext s (lnext s y)
  · have hs : sym base = _ := h.star
    rw [hs] at hlast
    obtain rfl := lnext_inj hi (lnext_inj hi hlast)
    obtain ⟨rfl, rfl, _⟩ := face_unique hf h.face
    obtain ⟨_, _, rfl⟩ := face_unique hg hg'
    refine inc_not_contains h.turn ht' ?_
    by_contra hc
    exact ht ⟨ht', by simpa using hc⟩
  · refine hJ.legal y o' d' td' hc hf (fun i him => ?_) hg' ht'
    obtain rfl : i = 0 := by omega
    exact hlast

theorem tidy_keeps (hx : x ≠ f0 ∧ x ≠ f1 ∧ x ≠ f2) :
    Keeps yd f0 f1 f2 z x base (fun s _ m => Tidy yd z x base V st N s m) (fun s => Settled yd z x st N s) :=
  ⟨fun _ _ _ _ _ h hJ hg ht => tidy_done hx h hJ hg ht, fun _ _ _ _ _ _ h hJ hg ht => tidy_next h hJ hg ht,
    fun _ _ _ _ _ _ h hJ hg h2 hc => tidy_swap hx h hJ hg h2 hc⟩

/-! ## The beginning -/

theorem tidy_first {s0 s : Store (Pt K)} {e : Nat → E} {c : Nat → Pt K} {m : Nat}
    (h : Ready yd f0 f1 f2 z x s0 e c m) (hf : Fan s0 s e c x m m)
    (hxV : ¬ V x) (vert : ∀ p, Vertex s0 z p ↔ V p)
    (old : ∀ y o d t, Connected s0 z y → ¬ (∃ i ≤ m, y = e i) → FaceOf s0 y o d t →
      Connected st z y ∧ FaceOf st y o d t)
    (card : (edges s0 z).card + 2 * (m + 1) ≤ N)
    (free : ∀ y o d t, Connected s0 z y → ¬ (∃ i ≤ m, y = e i) → FaceOf s0 y o d t → Turns yd o d t →
      ∀ p, V p → inc yd o d t p ≤ 0)
    (link : ∀ i < m, ∃ w, Turns yd (c i) (c (i + 1)) w ∧ 0 ≤ inc yd (c i) (c (i + 1)) w x ∧
      ∀ p, V p → inc yd (c i) (c (i + 1)) w p ≤ 0)
    (last : ∃ w, Turns yd (c m) (c 0) w ∧ 0 ≤ inc yd (c m) (c 0) w x ∧ ∀ p, V p → inc yd (c m) (c 0) w p ≤ 0) :
    Tidy yd z x (spoke s0 0) V st N s m := by
  obtain ⟨hT, _, hV, hC⟩ := mesh_fan h.mesh h.poly h.conn hf h.turn h.last
  have hi := Reached.inv hf.reached
  obtain ⟨ff, fl⟩ := fan_face h.poly hf h.turn h.last
  have st := fan_star hf
  have spk : ∀ i ≤ m, ∀ {a b c'}, FaceOf s (spoke s0 i) a b c' → b = x := by
    intro i him a b c' hfa
    have hb := hfa.2.2.1
    unfold orig at hb
    cases i with
    | zero => rw [hf.first, (hf.v_new m le_rfl).2] at hb; exact (Option.some.inj hb).symm
    | succ i => rw [hf.back i him, (hf.v_new i (by omega)).2] at hb; exact (Option.some.inj hb).symm
  have sps : ∀ i ≤ m, ∀ {a b c'}, FaceOf s (sym (spoke s0 i)) a b c' → a = x := by
    intro i him a b c' hfa
    have hb := hfa.2.1
    unfold orig at hb
    rw [(hf.v_new i him).2] at hb; exact (Option.some.inj hb).symm
  have rim : ∀ i ≤ m, ∀ {a b c'}, FaceOf s (e i) a b c' → c' = x := by
    intro i him a b c' hfa
    by_cases hm : i = m
    · subst hm; exact (face_unique hfa fl).2.2
    · exact (face_unique hfa (ff i (by omega))).2.2
  have isRim : ∀ {y a b}, Connected s z y → FaceOf s y a b x → ∃ i ≤ m, y = e i := by
    intro y a b hy hfa
    have ht := turns_of_face hT hy hfa h.ne (Or.inr (Or.inr rfl))
    obtain ⟨_, n2, n3⟩ := turns_ne ht
    rcases hC y hy with ⟨h1, hn, a', b', c', g1, g2⟩ | h' | ⟨i, hi', rfl | rfl⟩
    · exfalso
      obtain ⟨rfl, rfl, rfl⟩ := face_unique hfa g2
      have hi0 := Reached.inv h.mesh.reached
      exact hxV ((vert _).1 ⟨_, lnext_connected hi0 (lnext_connected hi0 h1), g1.2.2.2⟩)
    · exact h'
    · exact absurd (spk i hi' hfa) n2
    · exact absurd (sps i hi' hfa) n3
  refine ⟨fun p => (hV p).trans (or_congr (vert p) Iff.rfl), ?_, ?_, ?_, ?_, ?_⟩
  · intro y a b c' hy hfa ht ax bx cx
    rcases hC y hy with ⟨h1, hn, a', b', c'', g1, g2⟩ | ⟨i, hi', rfl⟩ | ⟨i, hi', rfl | rfl⟩
    · obtain ⟨rfl, rfl, rfl⟩ := face_unique hfa g2
      exact free y a b c' h1 hn g1 ht
    · exact absurd (rim i hi' hfa) cx
    · exact absurd (spk i hi' hfa) bx
    · exact absurd (sps i hi' hfa) ax
  · intro y a b hy hfa
    obtain ⟨i, hi', rfl⟩ := isRim hy hfa
    by_cases hm : i = m
    · subst hm
      obtain ⟨rfl, rfl, _⟩ := face_unique hfa fl
      exact last
    · obtain ⟨rfl, rfl, _⟩ := face_unique hfa (ff i (by omega))
      exact link i (by omega)
  · intro y a b c' hy hfa hp
    exfalso
    obtain ⟨i, hi', rfl⟩ := isRim hy hfa
    apply hp i hi'
    rw [st i hi']
    by_cases hm : i = m
    · subst hm; rw [hf.close, hf.first]
    · rw [hf.cut i (by omega), hf.back i (by omega)]
  · intro y a b c' hy hfa ax bx cx
    rcases hC y hy with ⟨h1, hn, a', b', c'', g1, g2⟩ | ⟨i, hi', rfl⟩ | ⟨i, hi', rfl | rfl⟩
    · obtain ⟨rfl, rfl, rfl⟩ := face_unique hfa g2
      exact old y a b c' h1 hn g1
    · exact absurd (rim i hi' hfa) cx
    · exact absurd (spk i hi' hfa) bx
    · exact absurd (sps i hi' hfa) ax
  · classical
    refine le_trans ?_ card
    have ce : ∀ i ≤ m, Connected s0 z (e i) := by
      intro i
      induction i with
      | zero => exact fun _ => h.conn
      | succ i ih =>
        intro h'
        rw [← h.poly.next i h']
        exact lnext_connected (Reached.inv h.mesh.reached) (ih (by omega))
    have hsub : edges s z ⊆ edges s0 z ∪ ((Finset.range (m + 1)).image (spoke s0) ∪
        (Finset.range (m + 1)).image (fun i => sym (spoke s0 i))) := by
      intro y hy
      rw [mem_edges hT] at hy
      rw [Finset.mem_union, Finset.mem_union, Finset.mem_image, Finset.mem_image,
        mem_edges' (Reached.inv h.mesh.reached) h.mesh.alloc]
      rcases hC y hy with ⟨h1, _⟩ | ⟨i, hi', rfl⟩ | ⟨i, hi', rfl | rfl⟩
      · exact Or.inl h1
      · exact Or.inl (ce i hi')
      · exact Or.inr (Or.inl ⟨i, Finset.mem_range.2 (by omega), rfl⟩)
      · exact Or.inr (Or.inr ⟨i, Finset.mem_range.2 (by omega), rfl⟩)
    refine le_trans (Finset.card_le_card hsub) (le_trans (Finset.card_union_le _ _) ?_)
    have c1 : ((Finset.range (m + 1)).image (spoke s0)).card ≤ m + 1 :=
      le_trans Finset.card_image_le (Finset.card_range _).le
    have c2 : ((Finset.range (m + 1)).image (fun i => sym (spoke s0 i))).card ≤ m + 1 :=
      le_trans Finset.card_image_le (Finset.card_range _).le
    have := Finset.card_union_le ((Finset.range (m + 1)).image (spoke s0))
      ((Finset.range (m + 1)).image (fun i => sym (spoke s0 i)))
    omega

theorem inc_nonneg {yd : Bool} {o d t x : Pt K} (h1 : 0 ≤ area yd o d x) (h2 : 0 ≤ area yd d t x)
    (h3 : 0 ≤ area yd t o x) : 0 ≤ inc yd o d t x := by
  unfold inc
  have := mul_nonneg (dist2_nonneg o x) h2
  have := mul_nonneg (dist2_nonneg d x) h3
  have := mul_nonneg (dist2_nonneg t x) h1
  linarith

/-- Putting in a point keeps the triangulation Delaunay. -/
theorem insert_settled {sd : Subdiv K} (hT : Triangulated yd f0 f1 f2 sd.store sd.start)
    (h01 : ¬ Spec.Planar.OnSegment x f0 f1) (h12 : ¬ Spec.Planar.OnSegment x f1 f2)
    (h20 : ¬ Spec.Planar.OnSegment x f2 f0) (hD : Delaunay sd.store sd.start) :
    ∃ r s2, insertSite yd sd x = some (r, { sd with ptcount := sd.ptcount + 1, store := s2 }) ∧
      ((r = false ∨ Vertex sd.store sd.start x) ∧ s2 = sd.store ∨ r = true ∧ ¬ Vertex sd.store sd.start x ∧
        Settled yd sd.start x sd.store ((edges sd.store sd.start).card + 6) s2) := by
  have hi := Reached.inv hT.reached
  have hx : x ≠ f0 ∧ x ≠ f1 ∧ x ≠ f2 := by
    refine ⟨?_, ?_, ?_⟩ <;> rintro rfl
    · exact h01 ⟨0, le_rfl, zero_le_one, by simp⟩
    · exact h12 ⟨0, le_rfl, zero_le_one, by simp⟩
    · exact h20 ⟨0, le_rfl, zero_le_one, by simp⟩
  have inner : ∀ {y o d t}, Connected sd.store sd.start y → FaceOf sd.store y o d t → Turns yd o d t →
      Inner sd.store sd.start y := by
    intro y o d t hc hf ht
    refine ⟨hc, fun hO => ?_⟩
    rcases outside_backwards hi hT.outer hO hf with ⟨rfl, rfl, rfl⟩ | ⟨rfl, rfl, rfl⟩ | ⟨rfl, rfl, rfl⟩
    · exact turns_not hT.frame ht
    · exact turns_not (turns_cycle (turns_cycle hT.frame)) ht
    · exact turns_not (turns_cycle hT.frame) ht
  have empty : ∀ {y o d t}, Connected sd.store sd.start y → FaceOf sd.store y o d t → Turns yd o d t →
      ∀ p, Vertex sd.store sd.start p → inc yd o d t p ≤ 0 := by
    intro y o d t hc hf ht p hp
    by_contra hn
    exact hD y o d t hc (inner hc hf ht).2 hf p hp ((inside_inc ht).2 (not_le.1 hn))
  rcases insert_cases hT h01 h12 h20 with ⟨h1, h2⟩ | ⟨h1, h2⟩ | ⟨e, o, d, t, he, hf, ht, t1, t2, t3, h2⟩ |
    ⟨e, o, d, t, td, he, hf, hg, ht, hgt, h0, t1, t2, t3, t4, h2⟩
  · exact ⟨false, sd.store, h2, Or.inl ⟨Or.inl rfl, rfl⟩⟩
  · exact ⟨true, sd.store, h2, Or.inl ⟨Or.inr h1, rfl⟩⟩
  · have hR := ready_inside hT he hf ht hx t1 t2 t3
    have hxV : ¬ Vertex sd.store sd.start x := by
      intro hv
      rcases vertex_corner hT hv (inner he hf ht) hf t1.le t2.le t3.le with h | h | h
      · exact (turns_ne t1).2.2 h.symm
      · exact (turns_ne t1).2.1 h.symm
      · exact (turns_ne t2).2.1 h.symm
    have e1 : ∀ p, inc yd d t o p = inc yd o d t p := fun p => inc_cycle yd o d t p
    have e2 : ∀ p, inc yd t o d p = inc yd o d t p := fun p => by rw [← e1]; exact inc_cycle yd d t o p
    have em := empty he hf ht
    have pos : 0 ≤ inc yd o d t x := inc_nonneg t1.le t2.le t3.le
    obtain ⟨s2, g1, g2, _, g4⟩ := insert_at hR _ _ (tidy_keeps (V := Vertex sd.store sd.start) hx)
      (fun s hF _ _ => tidy_first hR hF hxV (fun _ => Iff.rfl) (fun _ _ _ _ h1 _ h3 => ⟨h1, h3⟩) le_rfl
        (fun y a b c hy _ hfa hta => empty hy hfa hta) (by
        intro i him
        match i, him with
        | 0, _ => exact ⟨t, ht, pos, em⟩
        | 1, _ => exact ⟨o, turns_cycle ht, by rw [show corner3 o d t 1 = d from rfl,
            show corner3 o d t (1 + 1) = t from rfl, e1]; exact pos, fun p hp => by
            rw [show corner3 o d t 1 = d from rfl, show corner3 o d t (1 + 1) = t from rfl, e1]; exact em p hp⟩)
        ⟨d, turns_cycle (turns_cycle ht), by rw [show corner3 o d t 2 = t from rfl,
            show corner3 o d t 0 = o from rfl, e2]; exact pos, fun p hp => by
            rw [show corner3 o d t 2 = t from rfl, show corner3 o d t 0 = o from rfl, e2]; exact em p hp⟩)
      { sd with ptcount := sd.ptcount + 1 }
    exact ⟨true, s2, h2.trans g1, Or.inr ⟨rfl, hxV, g4⟩⟩
  · obtain ⟨r2, l1, l2, m1, m2, m3, m4, m5, m6, m7⟩ := mesh_delete hT he hf hg ht hgt
    have ke := (connected_primal hi he).2 hT.primal
    have hq : (oprev sd.store e).q ≠ e.q := by
      intro h
      have hn := m3.nodup
      simp only [List.nodup_cons, List.mem_cons, List.not_mem_nil, or_false, not_or] at hn
      rcases same_quad h (iff_of_true ((hi.kind_oprev e).2 ke) ke) with h' | h'
      · exact hn.1.2.2.2.1 h'.symm
      · exact hn.2.2.2.1.1 h'.symm
    have hR := ready_edge (x := x) m1 m2 (m5 _ (oprev_connected hi he) hq) hx h0 t1 t2 t3 t4
    have h0' : area yd o d x = 0 := h0
    have h0'' : area yd d o x = 0 := by rw [area_rev, h0']; ring
    have hxV : ¬ Vertex sd.store sd.start x := by
      intro hv
      rcases vertex_corner hT hv (inner he hf ht) hf h0'.ge t3.le t4.le with h | h | h
      · exact (turns_ne t4).2.1 h.symm
      · exact (turns_ne t3).2.2 h.symm
      · exact (turns_ne t3).2.1 h.symm
    have emL := empty he hf ht
    have emR := empty he.sym hg hgt
    have posL : 0 ≤ inc yd o d t x := inc_nonneg h0'.ge t3.le t4.le
    have posR : 0 ≤ inc yd d o td x := inc_nonneg h0''.ge t1.le t2.le
    have e1 : ∀ p, inc yd d t o p = inc yd o d t p := fun p => inc_cycle yd o d t p
    have e2 : ∀ p, inc yd t o d p = inc yd o d t p := fun p => by rw [← e1]; exact inc_cycle yd d t o p
    have e3 : ∀ p, inc yd o td d p = inc yd d o td p := fun p => inc_cycle yd d o td p
    have e4 : ∀ p, inc yd td d o p = inc yd d o td p := fun p => by rw [← e3]; exact inc_cycle yd o td d p
    have w0 : ∃ w, Turns yd o td w ∧ 0 ≤ inc yd o td w x ∧
        ∀ p, Vertex sd.store sd.start p → inc yd o td w p ≤ 0 :=
      ⟨d, turns_cycle hgt, by rw [e3]; exact posR, fun p hp => by rw [e3]; exact emR p hp⟩
    have w1 : ∃ w, Turns yd td d w ∧ 0 ≤ inc yd td d w x ∧
        ∀ p, Vertex sd.store sd.start p → inc yd td d w p ≤ 0 :=
      ⟨o, turns_cycle (turns_cycle hgt), by rw [e4]; exact posR, fun p hp => by rw [e4]; exact emR p hp⟩
    have w2 : ∃ w, Turns yd d t w ∧ 0 ≤ inc yd d t w x ∧
        ∀ p, Vertex sd.store sd.start p → inc yd d t w p ≤ 0 :=
      ⟨o, turns_cycle ht, by rw [e1]; exact posL, fun p hp => by rw [e1]; exact emL p hp⟩
    have w3 : ∃ w, Turns yd t o w ∧ 0 ≤ inc yd t o w x ∧
        ∀ p, Vertex sd.store sd.start p → inc yd t o w p ≤ 0 :=
      ⟨d, turns_cycle (turns_cycle ht), by rw [e2]; exact posL, fun p hp => by rw [e2]; exact emL p hp⟩
    have old : ∀ y a b c, Connected (delete sd.store e) sd.start y →
        ¬ (∃ i ≤ 3, y = ring4 (oprev sd.store e) r2 l1 l2 i) → FaceOf (delete sd.store e) y a b c →
        Connected sd.store sd.start y ∧ FaceOf sd.store y a b c := by
      intro y a b c hy hn hfa
      obtain ⟨hy', hyq⟩ := m4 y hy
      obtain ⟨a', b', c', hfo, _⟩ := hT.face y hy'
      have h6 : ¬ Six e l1 l2 (oprev sd.store e) r2 y := by
        rintro (rfl | rfl | rfl | rfl | rfl | rfl)
        · exact hyq rfl
        · exact hn ⟨2, by omega, rfl⟩
        · exact hn ⟨3, by omega, rfl⟩
        · exact hyq (sym_q _)
        · exact hn ⟨0, by omega, rfl⟩
        · exact hn ⟨1, by omega, rfl⟩
      obtain ⟨rfl, rfl, rfl⟩ := face_unique hfa (m6 y a' b' c' hy' h6 hfo)
      exact ⟨hy', hfo⟩
    have free : ∀ y a b c, Connected (delete sd.store e) sd.start y →
        ¬ (∃ i ≤ 3, y = ring4 (oprev sd.store e) r2 l1 l2 i) → FaceOf (delete sd.store e) y a b c → Turns yd a b c →
        ∀ p, Vertex sd.store sd.start p → inc yd a b c p ≤ 0 := by
      intro y a b c hy hn hfa hta
      obtain ⟨hy', hfo⟩ := old y a b c hy hn hfa
      exact empty hy' hfo hta
    have card : (edges (delete sd.store e) sd.start).card + 2 * (3 + 1) ≤ (edges sd.store sd.start).card + 6 := by
      classical
      have hsub : edges (delete sd.store e) sd.start ⊆ ((edges sd.store sd.start).erase e).erase (sym e) := by
        intro y hy
        rw [mem_edges' (Reached.inv m1.reached) m1.alloc] at hy
        obtain ⟨hy', hyq⟩ := m4 y hy
        rw [Finset.mem_erase, Finset.mem_erase, mem_edges hT]
        refine ⟨?_, ?_, hy'⟩
        · rintro rfl; exact hyq (sym_q _)
        · rintro rfl; exact hyq rfl
      have c0 := Finset.card_le_card hsub
      have i1 : e ∈ edges sd.store sd.start := (mem_edges hT).2 he
      have i2 : sym e ∈ (edges sd.store sd.start).erase e :=
        Finset.mem_erase.2 ⟨sym_ne e, (mem_edges hT).2 he.sym⟩
      rw [Finset.card_erase_of_mem i2, Finset.card_erase_of_mem i1] at c0
      have p1 := Finset.card_pos.2 ⟨_, i2⟩
      rw [Finset.card_erase_of_mem i1] at p1
      omega
    obtain ⟨s2, g1, g2, _, g4⟩ := insert_at hR _ _ (tidy_keeps (V := Vertex sd.store sd.start) hx)
      (fun s hF _ _ => tidy_first hR hF hxV m7 old card free (by
        intro i him
        match i, him with
        | 0, _ => exact w0
        | 1, _ => exact w1
        | 2, _ => exact w2) w3)
      { sd with ptcount := sd.ptcount + 1 }
    exact ⟨true, s2, h2.trans g1, Or.inr ⟨rfl, hxV, g4⟩⟩

theorem insert_delaunay {sd : Subdiv K} (hT : Triangulated yd f0 f1 f2 sd.store sd.start)
    (h01 : ¬ Spec.Planar.OnSegment x f0 f1) (h12 : ¬ Spec.Planar.OnSegment x f1 f2)
    (h20 : ¬ Spec.Planar.OnSegment x f2 f0) (hD : Delaunay sd.store sd.start) :
    ∃ r s2, insertSite yd sd x = some (r, { sd with ptcount := sd.ptcount + 1, store := s2 }) ∧
      Delaunay s2 sd.start := by
  obtain ⟨r, s2, h1, h2⟩ := insert_settled hT h01 h12 h20 hD
  obtain ⟨r', s3, g1, g2, _⟩ := insert_site hT h01 h12 h20
  rw [h1] at g1
  obtain ⟨_, g3⟩ := Prod.mk.inj (Option.some.inj g1)
  obtain rfl : s2 = s3 := congrArg Subdiv.store g3
  refine ⟨r, s2, h1, ?_⟩
  rcases h2 with ⟨_, rfl⟩ | ⟨_, _, h2⟩
  · exact hD
  · exact delaunay_of_local g2 h2.loc

end Verif.Lemmas.SubFlip
