import Verif.Lemmas.SubMesh
import Verif.Lemmas.Shapes
import Mathlib.Data.Finset.Card
import Mathlib.Data.Finset.Range

/-!
# Helper lemmas: the loop over the suspect edges
-/

namespace Verif.Lemmas.SubSuspect
open Verif.Quad Verif.Spec.Quad Verif.Lemmas.Quad Verif.Spec.Subdivision Verif.Subdivision
open Verif.Resolve Verif.Spec.Resolve Verif.Lemmas.Resolve Verif.Lemmas.SubLocate Verif.Lemmas.SubTables
open Verif.Lemmas.SubFan Verif.Lemmas.SubWalk Verif.Lemmas.SubMesh

set_option linter.unusedSectionVars false

variable {K : Type} [Field K] [LinearOrder K] [IsStrictOrderedRing K] {s : Store (Pt K)}

attribute [local irreducible] splice delete swap connectTo

/-! ## Which edge `Connect` finds -/

theorem sgn_neg {x : K} (h : x < 0) : sgn x = -1 := by
  rcases sgn_cases x with ⟨h1, h2⟩ | ⟨h1, h2⟩ | ⟨h1, h2⟩
  · linarith
  · exact h2
  · linarith

theorem sgn_pos {x : K} (h : 0 < x) : sgn x = 1 := by
  rcases sgn_cases x with ⟨h1, h2⟩ | ⟨h1, h2⟩ | ⟨h1, h2⟩
  · exact h2
  · linarith
  · linarith

theorem sgn_zero : sgn (0 : K) = 0 := by
  rcases sgn_cases (0 : K) with ⟨h1, h2⟩ | ⟨h1, h2⟩ | ⟨h1, h2⟩
  · exact absurd h1 (lt_irrefl _)
  · exact absurd h1 (lt_irrefl _)
  · exact h2

theorem turns_spokes {yd : Bool} {a b x : Pt K} (h : Turns yd a b x) :
    wedge yd (arrow x b) (arrow x a) < 0 := by
  have := turns_cycle (turns_cycle h)
  unfold Turns at this
  rw [wedge_swap]; linarith

theorem step_same {yd : Bool} {x a d : Pt K} (h : Turns yd a d x) : resolveStep yd x a a d = .a := by
  rw [resolveStep_eq, wedge_self, sgn_zero, sgn_neg (turns_spokes h)]
  cases yd <;> rfl

theorem step_cw {yd : Bool} {x a b d : Pt K} (h1 : Turns yd b a x) (h2 : Turns yd a d x) :
    resolveStep yd x a b d = .a := by
  rw [resolveStep_eq, sgn_neg (turns_spokes h1), sgn_neg (turns_spokes h2)]
  rcases sgn_cases (wedge yd (arrow x d) (arrow x b)) with ⟨_, h⟩ | ⟨_, h⟩ | ⟨_, h⟩ <;> rw [h] <;> cases yd <;>
    rfl

theorem step_line {yd : Bool} {x a b d : Pt K} (h0 : wedge yd (arrow x a) (arrow x b) = 0)
    (h1 : Turns yd a d x) (h2 : Turns yd d b x) : resolveStep yd x a b d = .a := by
  rw [resolveStep_eq, h0, sgn_zero, sgn_neg (turns_spokes h1), sgn_pos]
  · cases yd <;> rfl
  · have := turns_spokes h2
    rw [wedge_swap] at this; linarith

/-! ## The circle test -/

/-- `x` lies on or in the circle through the three points. -/
def InCircle (o d t x : Pt K) : Prop :=
  ∃ c : Pt K, PseudoPolygon.dist2 c o = PseudoPolygon.dist2 c d ∧
    PseudoPolygon.dist2 c o = PseudoPolygon.dist2 c t ∧ PseudoPolygon.dist2 c x ≤ PseudoPolygon.dist2 c o

theorem contains_circle {yd : Bool} {x o d td : Pt K} (h : containsPoint yd x o d td = true) :
    InCircle o d td x := by
  unfold containsPoint at h
  split_ifs at h with h1
  cases hc : Shapes.circleFromPoints o td d with
  | circle c first =>
    rw [hc] at h
    simp only [decide_eq_true_eq] at h
    have hn : ¬ Spec.Planar.Colinear o td d := by
      intro hl
      rw [(Shapes.circleFromPoints_spec o td d).1 hl] at hc
      cases hc
    obtain ⟨c', f', e, g1, g2, g3⟩ := (Shapes.circleFromPoints_spec o td d).2 hn
    rw [hc] at e
    cases e
    have key : ∀ p q : Pt K, PseudoPolygon.dist2 p q = Spec.Planar.dist2 p q := by
      intro p q; unfold PseudoPolygon.dist2 Spec.Planar.dist2; ring
    refine ⟨c, ?_, ?_, ?_⟩
    · rw [key, key, g1, g3]
    · rw [key, key, g1, g2]
    · rw [key c o, g1, ← key]; exact h
  | colinear => rw [hc] at h; cases h
  | loops => rw [hc] at h; cases h

theorem convex_of_circle {yd : Bool} {x o d td : Pt K} (h1 : Turns yd o d x) (h2 : Turns yd d o td)
    (hc : InCircle o d td x) : Turns yd td x o ∧ Turns yd x td d := by
  obtain ⟨c, e1, e2, e3⟩ := hc
  unfold Turns at *
  have hB : wedge yd (arrow d o) (arrow d td) = - wedge yd (arrow o d) (arrow o td) := by
    unfold wedge arrow; cases yd <;> simp <;> ring
  rw [hB] at h2
  set A := wedge yd (arrow o d) (arrow o x) with hA
  set B := - wedge yd (arrow o d) (arrow o td) with hB'
  set P := wedge yd (arrow td x) (arrow td o) with hP
  set Q := wedge yd (arrow x td) (arrow x d) with hQ
  have sum : P + Q = A + B := by
    rw [hA, hB', hP, hQ]; unfold wedge arrow; cases yd <;> simp <;> ring
  have xne : 0 < (x.1 - td.1) ^ 2 + (x.2 - td.2) ^ 2 := by
    by_contra hn
    have z1 : (x.1 - td.1) ^ 2 = 0 := le_antisymm (by nlinarith [sq_nonneg (x.2 - td.2)]) (sq_nonneg _)
    have z2 : (x.2 - td.2) ^ 2 = 0 := le_antisymm (by nlinarith [sq_nonneg (x.1 - td.1)]) (sq_nonneg _)
    have y1 := sub_eq_zero.1 (pow_eq_zero_iff (two_ne_zero) |>.1 z1)
    have y2 := sub_eq_zero.1 (pow_eq_zero_iff (two_ne_zero) |>.1 z2)
    have : x = td := Prod.ext y1 y2
    rw [hA, this] at h1
    linarith
  have ode : 0 ≤ (o.1 - d.1) ^ 2 + (o.2 - d.2) ^ 2 := add_nonneg (sq_nonneg _) (sq_nonneg _)
  have id : P * Q * ((o.1 - d.1) ^ 2 + (o.2 - d.2) ^ 2) = A * B * ((x.1 - td.1) ^ 2 + (x.2 - td.2) ^ 2) -
      B * (A + B) * (PseudoPolygon.dist2 c x - PseudoPolygon.dist2 c o) := by
    unfold PseudoPolygon.dist2 at *
    have f1 : (o.1 - c.1) ^ 2 + (o.2 - c.2) ^ 2 - ((d.1 - c.1) ^ 2 + (d.2 - c.2) ^ 2) = 0 := by linarith
    have f2 : (o.1 - c.1) ^ 2 + (o.2 - c.2) ^ 2 - ((td.1 - c.1) ^ 2 + (td.2 - c.2) ^ 2) = 0 := by linarith
    rw [hA, hB', hP, hQ]
    unfold wedge arrow
    cases yd <;> simp only [Bool.false_eq_true, if_true, if_false] <;>
    linear_combination (((d.1 - o.1) * (x.2 - o.2) - (d.2 - o.2) * (x.1 - o.1)) +
      (-((d.1 - o.1) * (td.2 - o.2) - (d.2 - o.2) * (td.1 - o.1)))) * (-((x.1 - td.1) * (o.2 - td.2) - (x.2 - td.2) * (o.1 - td.1)) * f1 +
      ((d.1 - o.1) * (x.2 - o.2) - (d.2 - o.2) * (x.1 - o.1)) * f2)
  have pos : 0 < P * Q * ((o.1 - d.1) ^ 2 + (o.2 - d.2) ^ 2) := by
    rw [id]
    have := mul_pos (mul_pos h1 h2) xne
    have := mul_nonneg (mul_nonneg h2.le (add_pos h1 h2).le) (sub_nonneg.2 e3)
    nlinarith
  have pq : 0 < P * Q := by
    by_contra hn
    have := mul_nonpos_of_nonpos_of_nonneg (not_lt.1 hn) ode
    linarith
  rcases pos_and_pos_or_neg_and_neg_of_mul_pos pq with h | h
  · exact h
  · linarith [h.1, h.2]

/-! ## The loop -/

/-- The state of the loop: `e` faces the new point `x`, and is `m` steps round `x` from the edge `base`. -/
structure Susp (yd : Bool) (f0 f1 f2 : Pt K) (z : E) (x : Pt K) (base : E) (s : Store (Pt K)) (e : E) (m : Nat)
    (o d : Pt K) : Prop where
  tri : Triangulated yd f0 f1 f2 s z
  conn : Connected s z e
  face : FaceOf s e o d x
  turn : Turns yd o d x
  kb : Primal base
  bx : s.v (sym base) = some x
  star : s.next^[m] (sym base) = lnext s (lnext s e)
  least : ∀ i < m, s.next^[i] (sym base) ≠ lnext s (lnext s e)

/-- An edge that ends in `x`, which is not a corner of the frame, has counterclockwise triangles. -/
theorem turns_of_face {yd : Bool} {f0 f1 f2 : Pt K} {z : E} (hT : Triangulated yd f0 f1 f2 s z) {y : E}
    (hy : Connected s z y) {a b c x : Pt K} (hf : FaceOf s y a b c) (hx : x ≠ f0 ∧ x ≠ f1 ∧ x ≠ f2)
    (h : a = x ∨ b = x ∨ c = x) : Turns yd a b c := by
  obtain ⟨a', b', c', g1, g2⟩ := hT.face y hy
  obtain ⟨rfl, rfl, rfl⟩ := face_unique hf g1
  refine g2.resolve_right fun h' => ?_
  obtain ⟨x0, x1, x2⟩ := hx
  rcases outside_backwards (Reached.inv hT.reached) hT.outer h' hf with (⟨rfl, rfl, rfl⟩ | ⟨rfl, rfl, rfl⟩ | ⟨rfl, rfl, rfl⟩) <;> rcases h with rfl | rfl | rfl <;>
    contradiction

theorem star_orig (hi : Inv s) (ha : OriginsAgree s) {b : E} (kb : Primal b) {x : Pt K} (hb : s.v b = some x)
    (i : Nat) : s.v (s.next^[i] b) = some x ∧ Primal (s.next^[i] b) := by
  induction i with
  | zero => exact ⟨hb, kb⟩
  | succ i ih =>
    rw [Function.iterate_succ_apply']
    refine ⟨?_, (hi.kind _).2 ih.2⟩
    rw [(origins_iff hi).1 ha _ ih.2]; exact ih.1

section
variable {yd : Bool} {f0 f1 f2 : Pt K} {z : E} {x : Pt K} {base e : E} {m : Nat} {o d : Pt K}

/-- The triangle on the other side of the edge. -/
theorem Susp.far (h : Susp yd f0 f1 f2 z x base s e m o d) : ∃ td, FaceOf s (sym e) d o td := by
  have hi := Reached.inv h.tri.reached
  have ke := (connected_primal hi h.conn).2 h.tri.primal
  obtain ⟨a, b, c, hf, _⟩ := h.tri.face _ h.conn.sym
  have h1 : dest s e = some d := face_dest hi h.tri.agree ke h.face
  have h2 : dest s (sym e) = some b := face_dest hi h.tri.agree ((primal_sym e).2 ke) hf
  have h3 : dest s e = some a := hf.2.1
  have h4 : dest s (sym e) = some o := by unfold dest; rw [sym_sym]; exact h.face.2.1
  rw [h3] at h1; rw [h4] at h2
  obtain rfl := Option.some.inj h1
  obtain rfl := Option.some.inj h2
  exact ⟨c, hf⟩

/-- The next edge that faces `x`. -/
def nextLink (s : Store (Pt K)) (e : E) : E := lnext s (lnext s (sym (lnext s (lnext s e))))

theorem Susp.next (hx : x ≠ f0 ∧ x ≠ f1 ∧ x ≠ f2) (h : Susp yd f0 f1 f2 z x base s e m o d) :
    (m = 0 ∧ onext s e = base) ∨
    (onext s e ≠ base ∧ lprev s (onext s e) = nextLink s e ∧ ∃ n w, m = n + 1 ∧
      Susp yd f0 f1 f2 z x base s (nextLink s e) n w o) := by
  have hi := Reached.inv h.tri.reached
  have ke := (connected_primal hi h.conn).2 h.tri.primal
  have on := onext_of_three hi h.face.1
  cases m with
  | zero =>
    left
    refine ⟨rfl, ?_⟩
    have := h.star
    rw [on, ← this]
    exact sym_sym base
  | succ n =>
    right
    have hne : onext s e ≠ base := by
      intro hb
      apply h.least 0 (Nat.succ_pos _)
      show sym base = _
      rw [← hb, on, sym_sym]
    have cf : Connected s z (lnext s (lnext s e)) := lnext_connected hi (lnext_connected hi h.conn)
    have kf := (connected_primal hi cf).2 h.tri.primal
    have ff := face_rot hi (face_rot hi h.face)
    obtain ⟨a, b, w, hf, _⟩ := h.tri.face _ cf.sym
    have h1 : dest s (lnext s (lnext s e)) = some o := face_dest hi h.tri.agree kf ff
    have h2 : dest s (lnext s (lnext s e)) = some a := hf.2.1
    have h3 : dest s (sym (lnext s (lnext s e))) = some b := face_dest hi h.tri.agree ((primal_sym _).2 kf) hf
    have h4 : dest s (sym (lnext s (lnext s e))) = some x := by
      unfold dest; rw [sym_sym]; exact h.face.2.2.2
    rw [h1] at h2; rw [h4] at h3
    obtain rfl := Option.some.inj h2
    obtain rfl := Option.some.inj h3
    have ht := turns_of_face h.tri cf.sym hf hx (Or.inr (Or.inl rfl))
    have f2' := face_rot hi (face_rot hi hf)
    have e4 : lnext s (lnext s (nextLink s e)) = lnext s (sym (lnext s (lnext s e))) := by
      unfold nextLink
      rw [hf.1.1]
    have pn : s.next (lnext s (sym (lnext s (lnext s e)))) = lnext s (lnext s e) := by
      rw [next_lnext hi, sym_sym]
    refine ⟨hne, ?_, n, w, rfl, h.tri, lnext_connected hi (lnext_connected hi cf.sym), f2',
      turns_cycle (turns_cycle ht), h.kb, h.bx, ?_, ?_⟩
    · rw [on]
      unfold lprev
      rw [onext_of_three hi hf.1, sym_sym]; rfl
    · apply hi.inj
      rw [e4, pn, ← h.star, Function.iterate_succ_apply']
    · intro i hin he
      apply h.least (i + 1) (by omega)
      rw [Function.iterate_succ_apply', he, e4, pn]

theorem Susp.swap (h : Susp yd f0 f1 f2 z x base s e m o d) {td : Pt K}
    (hg : FaceOf s (sym e) d o td) (h2 : Turns yd d o td) (h3 : Turns yd td x o) (h4 : Turns yd x td d) :
    oprev (Quad.swap s e) e = lnext s (lnext s (sym e)) ∧
    Susp yd f0 f1 f2 z x base (Quad.swap s e) (lnext s (lnext s (sym e))) (m + 1) td d ∧
    (∀ p, Vertex (Quad.swap s e) z p ↔ Vertex s z p) ∧ (Quad.swap s e).size = s.size ∧
    (∀ y, Connected (Quad.swap s e) z y ↔ Connected s z y) ∧
    ∀ i ≤ m, (Quad.swap s e).next^[i] (sym base) = s.next^[i] (sym base) := by
  have hi := Reached.inv h.tri.reached
  have ke := (connected_primal hi h.conn).2 h.tri.primal
  have he := connected_alloc hi h.conn h.tri.alloc
  obtain ⟨hT, hC, hV⟩ := mesh_swap h.tri h.conn h.face hg h.turn h2 h3 h4
  have hq := quad4 hi h.tri.agree ke h.face hg h.turn h2
  have S := swapped h.tri.reached h.tri.agree he ke hq
  have hi' := Reached.inv S.reached
  obtain ⟨od, dx, ox⟩ := turns_ne h.turn
  obtain ⟨xtd, _, _⟩ := turns_ne h4
  have bq : base.q ≠ e.q := by
    intro hb
    rcases same_quad hb (iff_of_true h.kb ke) with h' | h'
    · have := h.bx
      rw [h', hq.vs] at this
      exact dx (Option.some.inj this)
    · have := h.bx
      rw [h', sym_sym, hq.ve] at this
      exact ox (Option.some.inj this)
  have kb' := (primal_sym base).2 h.kb
  have st := star_orig hi h.tri.agree kb' h.bx
  have same : ∀ i ≤ m, (Quad.swap s e).next^[i] (sym base) = s.next^[i] (sym base) := by
    intro i
    induction i with
    | zero => intro _; rfl
    | succ i ih =>
      intro him
      rw [Function.iterate_succ_apply', Function.iterate_succ_apply', ih (by omega)]
      have hw := st i
      have hl2 := h.least i (by omega)
      generalize s.next^[i] (sym base) = w at hw hl2 ⊢
      have h1 : lnext s (sym (s.next w)) = w := lnext_of_next hi (by rw [sym_sym])
      have h6 : ¬ Six e (lnext s e) (lnext s (lnext s e)) (lnext s (sym e)) (lnext s (lnext s (sym e))) w := by
        have ne : ∀ {b : E} {q : Pt K}, s.v b = some q → q ≠ x → w ≠ b := by
          intro b q hb hn hab
          rw [← hab, hw.1] at hb
          exact hn (Option.some.inj hb).symm
        rintro (h' | h' | h' | h' | h' | h')
        · exact ne hq.ve ox h'
        · exact ne hq.vl1 dx h'
        · exact hl2 h'
        · exact ne hq.vs dx h'
        · exact ne hq.vr1 ox h'
        · exact ne hq.vr2 xtd.symm h'
      have h6' : ¬ Six e (lnext s e) (lnext s (lnext s e)) (lnext s (sym e)) (lnext s (lnext s (sym e)))
          (sym (s.next w)) := by
        intro h'
        apply h6
        rw [← h1]
        rcases h' with h' | h' | h' | h' | h' | h' <;> rw [h']
        · exact Or.inr (Or.inl rfl)
        · exact Or.inr (Or.inr (Or.inl rfl))
        · rw [hq.a3]; exact Or.inl rfl
        · exact Or.inr (Or.inr (Or.inr (Or.inr (Or.inl rfl))))
        · exact Or.inr (Or.inr (Or.inr (Or.inr (Or.inr rfl))))
        · rw [hq.b3]; exact Or.inr (Or.inr (Or.inr (Or.inl rfl)))
      have h2 := S.other _ ((primal_sym _).2 ((hi.kind _).2 hw.2)) h6'
      rw [h1] at h2
      have := next_lnext hi' (sym (s.next w))
      rw [h2, sym_sym] at this
      exact this
  have ee : lnext (Quad.swap s e) (lnext (Quad.swap s e) (lnext s (lnext s (sym e)))) = sym e := by
    rw [S.n5, S.n6]
  have fr := face_rot hi' S.f2
  rw [S.n4] at fr
  refine ⟨?_, ⟨hT, ?_, fr, turns_cycle h4, h.kb, ?_, ?_, ?_⟩, hV, S.size, hC, same⟩
  · rw [← S.n4, Inv.lnext_eq, sym_sym]
  · rw [hC]; exact lnext_connected hi (lnext_connected hi h.conn.sym)
  · rw [S.v _ (by rw [sym_q]; exact bq)]; exact h.bx
  · rw [ee, Function.iterate_succ_apply', same m le_rfl, h.star]
    have := next_lnext hi' e
    rwa [S.n1] at this
  · intro i him hh
    rw [ee, same i (by omega)] at hh
    have := (st i).1
    rw [hh, hq.vs] at this
    exact dx (Option.some.inj this)

/-- How many edges end in `x`. -/
def deg (s : Store (Pt K)) (x : Pt K) : Nat :=
  ((Finset.range s.size).filter (fun q => s.v ⟨q, 0⟩ = some x ∨ s.v ⟨q, 2⟩ = some x)).card

theorem deg_le (s : Store (Pt K)) (x : Pt K) : deg s x ≤ s.size := by
  unfold deg
  exact (Finset.card_filter_le _ _).trans (by rw [Finset.card_range])

theorem touch_iff {e : E} (ke : Primal e) : (s.v ⟨e.q, 0⟩ = some x ∨ s.v ⟨e.q, 2⟩ = some x) ↔
    (s.v e = some x ∨ s.v (sym e) = some x) := by
  obtain ⟨q, n⟩ := e
  rcases ke with h | h <;> simp only at h <;> subst h
  · exact Iff.rfl
  · show _ ↔ (s.v ⟨q, 2⟩ = some x ∨ s.v ⟨q, 0⟩ = some x)
    exact or_comm

theorem deg_swap {s' : Store (Pt K)} {l1 l2 r1 r2 : E} {td : Pt K} (ke : Primal e) (he : e.q < s.size)
    (hq : Quad4 s e l1 l2 r1 r2 o d x td) (S : Swapped s s' e l1 l2 r1 r2 o d x td) (ox : o ≠ x) (dx : d ≠ x) :
    deg s' x = deg s x + 1 := by
  unfold deg
  have h0 : e.q ∉ (Finset.range s.size).filter (fun q => s.v ⟨q, 0⟩ = some x ∨ s.v ⟨q, 2⟩ = some x) := by
    rw [Finset.mem_filter, touch_iff ke, hq.ve, hq.vs]
    rintro ⟨_, h | h⟩
    · exact ox (Option.some.inj h)
    · exact dx (Option.some.inj h)
  rw [← Finset.card_insert_of_notMem h0]
  congr 1
  ext q
  rw [Finset.mem_insert, Finset.mem_filter, Finset.mem_filter, S.size]
  by_cases h : q = e.q
  · subst h
    rw [touch_iff ke, S.vs]
    simp [he]
  · rw [S.v ⟨q, 0⟩ h, S.v ⟨q, 2⟩ h]
    simp [h]

theorem rightOf_turns (h : Susp yd f0 f1 f2 z x base s e m o d) (td : Pt K) :
    rightOf yd s td e = true ↔ Turns yd d o td := by
  have hi := Reached.inv h.tri.reached
  have ke := (connected_primal hi h.conn).2 h.tri.primal
  rw [rightOf_iff h.face.2.1 (face_dest hi h.tri.agree ke h.face)]
  unfold Turns
  have : wedge yd (arrow d o) (arrow d td) = - wedge yd (arrow o d) (arrow o td) := by
    unfold wedge arrow; cases yd <;> simp <;> ring
  rw [this]
  constructor <;> intro h <;> linarith

theorem contains_not_colinear {td : Pt K} (h : containsPoint yd x o d td = true) :
    td ≠ x ∧ threePointsAreColinear d td x = false := by
  unfold containsPoint at h
  split_ifs at h with h1
  unfold setOfThreeAreColinear at h1
  simp only [Bool.or_eq_true, beq_iff_eq, not_or] at h1
  obtain ⟨⟨⟨h2, h3⟩, h4⟩, h5⟩ := h1
  rw [orientation_wedge3] at h2 h3 h4 h5
  have key : wedge yd (arrow x d) (arrow x td) ≠ 0 := by
    intro h
    rw [h, sgn_zero] at h4
    exact h4 rfl
  constructor
  · rintro rfl
    apply key
    unfold wedge arrow; cases yd <;> simp
  · unfold threePointsAreColinear
    rw [decide_eq_false_iff_not]
    intro hn
    apply key
    have h0 : (d.1 - td.1) * (td.2 - x.2) - (td.1 - x.1) * (d.2 - td.2) = 0 := by
      have h2 : (1 : K) / 2 ≠ 0 := by norm_num
      exact (mul_eq_zero.1 hn).resolve_left h2
    unfold wedge arrow
    cases yd <;> simp <;> first | linear_combination h0 | linear_combination -h0

/-- The loop ends.  `J` is kept in each step, and gives `Fin` at the end. -/
theorem suspect_loop (hx : x ≠ f0 ∧ x ≠ f1 ∧ x ≠ f2) (J : Store (Pt K) → E → Nat → Prop) (Fin : Store (Pt K) → Prop)
    (hend : ∀ s e o d td, Susp yd f0 f1 f2 z x base s e 0 o d → J s e 0 → FaceOf s (sym e) d o td →
      ¬ (Turns yd d o td ∧ containsPoint yd x o d td = true) → Fin s)
    (hnext : ∀ s e m o d td, Susp yd f0 f1 f2 z x base s e (m + 1) o d → J s e (m + 1) →
      FaceOf s (sym e) d o td →
      ¬ (Turns yd d o td ∧ containsPoint yd x o d td = true) → J s (nextLink s e) m)
    (hswap : ∀ s e m o d td, Susp yd f0 f1 f2 z x base s e m o d → J s e m → FaceOf s (sym e) d o td →
      Turns yd d o td → containsPoint yd x o d td = true →
      J (swap s e) (lnext s (lnext s (sym e))) (m + 1)) :
    ∀ (fuel : Nat) (s : Store (Pt K)) (e : E) (m : Nat) (o d : Pt K), Susp yd f0 f1 f2 z x base s e m o d →
      J s e m → 2 * (s.size - deg s x) + m < fuel →
      ∃ s', suspectLoop yd x base fuel s e = some s' ∧ Triangulated yd f0 f1 f2 s' z ∧
        (∀ p, Vertex s' z p ↔ Vertex s z p) ∧ Fin s' := by
  intro fuel
  induction fuel with
  | zero => intro s e m o d _ _ h; exact absurd h (Nat.not_lt_zero _)
  | succ fuel ih =>
    intro s e m o d h hJ hfu
    have hi := Reached.inv h.tri.reached
    have ke := (connected_primal hi h.conn).2 h.tri.primal
    have he := connected_alloc hi h.conn h.tri.alloc
    obtain ⟨td, hg⟩ := h.far
    have o1 : oprev s e = lnext s (sym e) := by rw [Inv.lnext_eq, sym_sym]
    have o2 : oprev s (sym e) = lnext s e := by rw [Inv.lnext_eq]
    have v1 : orig s e = some o := h.face.2.1
    have v2 : dest s e = some d := face_dest hi h.tri.agree ke h.face
    have v3 : dest s (oprev s e) = some td := by
      rw [o1]
      exact face_dest hi h.tri.agree ((inv_lnext_kind hi _).2 ((primal_sym e).2 ke)) (face_rot hi hg)
    have v4 : dest s (oprev s (sym e)) = some x := by
      rw [o2]
      exact face_dest hi h.tri.agree ((inv_lnext_kind hi _).2 ke) (face_rot hi h.face)
    rw [suspectLoop]
    simp only [v1, v2, v3, v4]
    by_cases ht : Turns yd d o td ∧ containsPoint yd x o d td = true
    · rw [if_pos (by rw [(rightOf_turns h td).2 ht.1, ht.2]; rfl)]
      obtain ⟨c1, c2⟩ := contains_not_colinear ht.2
      rw [if_neg c1, c2]
      simp only [Bool.false_eq_true, if_false]
      obtain ⟨t3, t4⟩ := convex_of_circle h.turn ht.1 (contains_circle ht.2)
      obtain ⟨p1, p2, p3, p4, _, _⟩ := h.swap hg ht.1 t3 t4
      have hq := quad4 hi h.tri.agree ke h.face hg h.turn ht.1
      have S := swapped h.tri.reached h.tri.agree he ke hq
      obtain ⟨od, dx, ox⟩ := turns_ne h.turn
      have hdeg := deg_swap ke he hq S ox dx
      have hle := deg_le (swap s e) x
      rw [p1]
      obtain ⟨s', g1, g2, g3, g4⟩ := ih _ _ _ _ _ p2 (hswap s e m o d td h hJ hg ht.1 ht.2) (by
        rw [p4, hdeg]; rw [hdeg, p4] at hle; omega)
      exact ⟨s', g1, g2, fun p => (g3 p).trans (p3 p), g4⟩
    · have hfal : (rightOf yd s td e && containsPoint yd x o d td) = false := by
        rw [Bool.and_eq_false_iff]
        by_contra hn
        push Not at hn
        exact ht ⟨(rightOf_turns h td).1 (by simpa using hn.1), by simpa using hn.2⟩
      rw [hfal]
      simp only [Bool.false_eq_true, if_false]
      unfold suspectNext
      rcases h.next hx with ⟨rfl, hb⟩ | ⟨hb, hl, n, w, rfl, hS⟩
      · rw [if_pos hb]
        exact ⟨s, rfl, h.tri, fun p => Iff.rfl, hend s e o d td h hJ hg ht⟩
      · rw [if_neg hb, hl]
        exact ih _ _ _ _ _ hS (hnext s e n o d td h hJ hg ht) (by omega)

end

end Verif.Lemmas.SubSuspect
