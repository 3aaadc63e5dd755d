import Verif.Lemmas.SubFan

/-!
# Helper lemmas: triangulations, and what the operations do to them
-/

namespace Verif.Lemmas.SubMesh
open Verif.Quad Verif.Spec.Quad Verif.Lemmas.Quad Verif.Spec.Subdivision Verif.Subdivision
open Verif.Resolve Verif.Spec.Resolve Verif.Lemmas.Resolve Verif.Lemmas.SubLocate Verif.Lemmas.SubTables
open Verif.Lemmas.SubFan Verif.Lemmas.SubWalk

set_option linter.unusedSectionVars false

variable {K : Type} [Field K] [LinearOrder K] {s s0 : Store (Pt K)}

attribute [local irreducible] splice delete swap connectTo

/-- A triangulation, but for the edges `Q`. -/
structure Mesh (yd : Bool) (f0 f1 f2 : Pt K) (s : Store (Pt K)) (z : E) (Q : E → Prop) : Prop where
  reached : Reached s
  agree : OriginsAgree s
  alloc : Allocated s z
  primal : Primal z
  frame : Turns yd f0 f1 f2
  outer : FaceOf s (sym z) f1 f0 f2
  nq : ¬ Q (sym z)
  face : ∀ y, Connected s z y → Q y ∨
    ∃ o d t, FaceOf s y o d t ∧ (Turns yd o d t ∨ Outside s z y)

theorem face_rot (hi : Inv s) {e : E} {o d t : Pt K} (h : FaceOf s e o d t) : FaceOf s (lnext s e) d t o := by
  obtain ⟨⟨h1, h2⟩, h3, h4, h5⟩ := h
  refine ⟨⟨by rw [h1], fun h => h2 (lnext_inj hi h)⟩, h4, h5, ?_⟩
  rw [h1]; exact h3

theorem face_dest (hi : Inv s) (ha : OriginsAgree s) {e : E} (k : Primal e) {o d t : Pt K}
    (h : FaceOf s e o d t) : dest s e = some d := by
  rw [dest_lnext hi ha k]; exact h.2.2.1

theorem face_unique {e : E} {o d t o' d' t' : Pt K} (h : FaceOf s e o d t) (h' : FaceOf s e o' d' t') :
    o = o' ∧ d = d' ∧ t = t' := by
  obtain ⟨_, h1, h2, h3⟩ := h
  obtain ⟨_, g1, g2, g3⟩ := h'
  rw [h1] at g1; rw [h2] at g2; rw [h3] at g3
  exact ⟨Option.some.inj g1, Option.some.inj g2, Option.some.inj g3⟩

/-- `o`, `d`, `t` are the corners of the triangle `f0 f1 f2`, taken the other way round. -/
def Backwards (f0 f1 f2 o d t : Pt K) : Prop :=
  (o = f1 ∧ d = f0 ∧ t = f2) ∨ (o = f0 ∧ d = f2 ∧ t = f1) ∨ (o = f2 ∧ d = f1 ∧ t = f0)

theorem outside_backwards (hi : Inv s) {z y : E} {f0 f1 f2 o d t : Pt K} (h : FaceOf s (sym z) f1 f0 f2)
    (hy : Outside s z y) (hf : FaceOf s y o d t) : Backwards f0 f1 f2 o d t := by
  rcases hy with rfl | rfl | rfl
  · exact Or.inl (face_unique hf h)
  · exact Or.inr (Or.inl (face_unique hf (face_rot hi h)))
  · exact Or.inr (Or.inr (face_unique hf (face_rot hi (face_rot hi h))))

theorem outside_same {s' : Store (Pt K)} {z y : E} (h1 : lnext s' (sym z) = lnext s (sym z))
    (h2 : lnext s' (lnext s (sym z)) = lnext s (lnext s (sym z))) (h : Outside s z y) : Outside s' z y := by
  unfold Outside at *
  rw [h1, h2]; exact h

/-- A face that is left alone. -/
theorem face_same {s s' : Store (Pt K)} {e : E} {o d t : Pt K} (h : FaceOf s e o d t)
    (h1 : lnext s' e = lnext s e) (h2 : lnext s' (lnext s e) = lnext s (lnext s e))
    (h3 : lnext s' (lnext s (lnext s e)) = lnext s (lnext s (lnext s e))) (v1 : s'.v e = s.v e)
    (v2 : s'.v (lnext s e) = s.v (lnext s e)) (v3 : s'.v (lnext s (lnext s e)) = s.v (lnext s (lnext s e))) :
    FaceOf s' e o d t := by
  obtain ⟨⟨a1, a2⟩, a3, a4, a5⟩ := h
  refine ⟨⟨by rw [h1, h2, h3, a1], by rw [h1]; exact a2⟩, ?_, ?_, ?_⟩
  · show s'.v _ = _; rw [v1]; exact a3
  · show s'.v _ = _; rw [h1, v2]; exact a4
  · show s'.v _ = _; rw [h1, h2, v3]; exact a5

theorem turns_cycle [IsStrictOrderedRing K] {yd : Bool} {a b c : Pt K} (h : Turns yd a b c) : Turns yd b c a := by
  unfold Turns; rw [wedge_cycle]; exact h

theorem turns_not [IsStrictOrderedRing K] {yd : Bool} {a b c : Pt K} (h : Turns yd a b c) : ¬ Turns yd b a c := by
  unfold Turns at *
  have : wedge yd (arrow b a) (arrow b c) = - wedge yd (arrow a b) (arrow a c) := by
    unfold wedge arrow; cases yd <;> simp <;> ring
  rw [this]; intro h'; linarith

theorem turns_ne [IsStrictOrderedRing K] {yd : Bool} {a b c : Pt K} (h : Turns yd a b c) :
    a ≠ b ∧ b ≠ c ∧ a ≠ c := by
  unfold Turns at h
  refine ⟨?_, ?_, ?_⟩ <;> rintro rfl <;> revert h <;> unfold wedge arrow <;> cases yd <;> simp <;> 
    apply le_of_eq <;> ring

section
variable [IsStrictOrderedRing K]

/-- The face of the new edges. -/
theorem fan_face {yd : Bool} {e : Nat → E} {c : Nat → Pt K} {m : Nat} {x : Pt K} (hp : Poly s0 e c m)
    (hf : Fan s0 s e c x m m) (_ht : ∀ i < m, Turns yd (c i) (c (i + 1)) x) (_hl : Turns yd (c m) (c 0) x) :
    (∀ i < m, FaceOf s (e i) (c i) (c (i + 1)) x) ∧ FaceOf s (e m) (c m) (c 0) x := by
  constructor
  · intro i hi
    refine ⟨⟨?_, ?_⟩, ?_, ?_, ?_⟩
    · rw [hf.cut i hi, hf.back i hi, hf.out i hi.le]
    · rw [hf.cut i hi]; exact (ne_spoke (hp.alloc i hi.le)).symm
    · show s.v _ = _; rw [hf.v_old _ (hp.alloc i hi.le)]; exact hp.orig i hi.le
    · rw [hf.cut i hi]; exact (hf.v_new (i + 1) hi).1
    · rw [hf.cut i hi, hf.back i hi]; exact (hf.v_new i hi.le).2
  · refine ⟨⟨?_, ?_⟩, ?_, ?_, ?_⟩
    · rw [hf.close, hf.first, hf.out m le_rfl]
    · rw [hf.close]; exact (ne_spoke (hp.alloc m le_rfl)).symm
    · show s.v _ = _; rw [hf.v_old _ (hp.alloc m le_rfl)]; exact hp.orig m le_rfl
    · rw [hf.close]; exact (hf.v_new 0 (Nat.zero_le _)).1
    · rw [hf.close, hf.first]; exact (hf.v_new m le_rfl).2

theorem mesh_fan {yd : Bool} {f0 f1 f2 : Pt K} {z : E} {e : Nat → E} {c : Nat → Pt K} {m : Nat} {x : Pt K}
    (hM : Mesh yd f0 f1 f2 s0 z (fun y => ∃ i ≤ m, y = e i)) (hp : Poly s0 e c m)
    (he : Connected s0 z (e 0)) (hf : Fan s0 s e c x m m)
    (ht : ∀ i < m, Turns yd (c i) (c (i + 1)) x) (hl : Turns yd (c m) (c 0) x) :
    Triangulated yd f0 f1 f2 s z ∧ (∀ y, Connected s0 z y → Connected s z y) ∧
      (∀ p, Vertex s z p ↔ Vertex s0 z p ∨ p = x) ∧
      ∀ y, Connected s z y →
        (Connected s0 z y ∧ ¬ (∃ i ≤ m, y = e i) ∧ ∃ o d t, FaceOf s0 y o d t ∧ FaceOf s y o d t) ∨
        (∃ i ≤ m, y = e i) ∨ ∃ i ≤ m, y = spoke s0 i ∨ y = sym (spoke s0 i) := by
  have hi0 := Reached.inv hM.reached
  have hi := Reached.inv hf.reached
  have pr : ∀ {y}, Connected s0 z y → Primal y := fun h => (connected_primal hi0 h).2 hM.primal
  have al : ∀ {y}, Connected s0 z y → y.q < s0.size := fun h => connected_alloc hi0 h hM.alloc
  have ce : ∀ i ≤ m, Connected s0 z (e i) := by
    intro i
    induction i with
    | zero => exact fun _ => he
    | succ i ih =>
      intro h
      rw [← hp.next i h]
      exact lnext_connected hi0 (ih (by omega))
  have out : ∀ y, (∃ i ≤ m, lnext s0 y = e i) → ∃ i ≤ m, y = e i := by
    rintro y ⟨i, hi', h⟩
    cases i with
    | zero => exact ⟨m, le_rfl, lnext_inj hi0 (h.trans hp.last.symm)⟩
    | succ i => exact ⟨i, by omega, lnext_inj hi0 (h.trans (hp.next i hi').symm)⟩
  have same : ∀ y, Connected s0 z y → ¬ (∃ i ≤ m, y = e i) → lnext s y = lnext s0 y := fun y hy hn =>
    hf.old y (pr hy) (al hy) (fun i hi h => hn ⟨i, hi, h⟩)
  have keep : ∀ y o d t, Connected s0 z y → ¬ (∃ i ≤ m, y = e i) → FaceOf s0 y o d t → FaceOf s y o d t := by
    intro y o d t hy hn hfa
    have c1 := lnext_connected hi0 hy
    have c2 := lnext_connected hi0 c1
    have n1 := fun h => hn (out y h)
    have n2 := fun h => n1 (out _ h)
    exact face_same hfa (same y hy hn) (same _ c1 n1) (same _ c2 n2) (hf.v_old _ (al hy))
      (hf.v_old _ (al c1)) (hf.v_old _ (al c2))
  have fwd : ∀ {y}, Connected s z y → Connected s0 z y ∨ ∃ i ≤ m, y = spoke s0 i ∨ y = sym (spoke s0 i) := by
    intro y hy
    refine connected_ind hi
      (p := fun y => Connected s0 z y ∨ ∃ i ≤ m, y = spoke s0 i ∨ y = sym (spoke s0 i)) ?_ ?_ ?_ hy
    · exact Or.inl .refl
    · rintro y (h | ⟨i, hi', rfl | rfl⟩)
      · exact Or.inl h.sym
      · exact Or.inr ⟨i, hi', Or.inr rfl⟩
      · exact Or.inr ⟨i, hi', Or.inl (sym_sym _)⟩
    · rintro y (h | ⟨i, hi', rfl | rfl⟩)
      · by_cases hq : ∃ i ≤ m, y = e i
        · obtain ⟨i, hi', rfl⟩ := hq
          by_cases him : i = m
          · rw [him, hf.close]; exact Or.inr ⟨0, Nat.zero_le _, Or.inl rfl⟩
          · rw [hf.cut i (by omega)]; exact Or.inr ⟨i + 1, by omega, Or.inl rfl⟩
        · rw [same y h hq]; exact Or.inl (lnext_connected hi0 h)
      · cases i with
        | zero => rw [hf.first]; exact Or.inr ⟨m, le_rfl, Or.inr rfl⟩
        | succ i => rw [hf.back i hi']; exact Or.inr ⟨i, by omega, Or.inr rfl⟩
      · rw [hf.out i hi']; exact Or.inl (ce i hi')
  have bwd : ∀ {y}, Connected s0 z y → Connected s0 z y ∧ Connected s z y := by
    intro y hy
    refine connected_ind hi0 (p := fun y => Connected s0 z y ∧ Connected s z y) ?_ ?_ ?_ hy
    · exact ⟨.refl, .refl⟩
    · exact fun y h => ⟨h.1.sym, h.2.sym⟩
    · rintro y ⟨h0, h⟩
      refine ⟨lnext_connected hi0 h0, ?_⟩
      by_cases hq : ∃ i ≤ m, y = e i
      · obtain ⟨i, hi', rfl⟩ := hq
        have h1 := lnext_connected hi (lnext_connected hi h).sym
        by_cases him : i = m
        · subst him
          rw [hf.close, hf.out 0 (Nat.zero_le _)] at h1
          rw [hp.last]; exact h1
        · rw [hf.cut i (by omega), hf.out _ (by omega)] at h1
          rw [hp.next i (by omega)]; exact h1
      · rw [← same y h0 hq]; exact lnext_connected hi h
  obtain ⟨ff, fl⟩ := fan_face hp hf ht hl
  have face_e : ∀ i ≤ m, ∃ o d, FaceOf s (e i) o d x ∧ Turns yd o d x := by
    intro i hi'
    by_cases him : i = m
    · subst him; exact ⟨_, _, fl, hl⟩
    · exact ⟨_, _, ff i (by omega), ht i (by omega)⟩
  refine ⟨⟨hf.reached, hf.agree, ?_, hM.primal, hM.frame, ?_, ?_⟩, fun y h => (bwd h).2, ?_, ?_⟩
  · show z.q < s.size
    have := hM.alloc
    rw [hf.size]
    unfold Allocated at this; omega
  · exact keep _ _ _ _ (Connected.refl.sym) hM.nq hM.outer
  · intro y hy
    rcases fwd hy with h | ⟨i, hi', rfl | rfl⟩
    · by_cases hq : ∃ i ≤ m, y = e i
      · obtain ⟨i, hi', rfl⟩ := hq
        obtain ⟨o, d, h1, h2⟩ := face_e i hi'
        exact ⟨o, d, x, h1, Or.inl h2⟩
      · obtain ⟨o, d, t, h1, h2⟩ := (hM.face y h).resolve_left hq
        exact ⟨o, d, t, keep y o d t h hq h1, h2.imp_right (outside_same (same _ Connected.refl.sym hM.nq)
          (same _ (lnext_connected hi0 Connected.refl.sym) (fun h => hM.nq (out _ h))))⟩
    · cases i with
      | zero =>
        have := face_rot hi fl
        rw [hf.close] at this
        exact ⟨_, _, _, this, Or.inl (turns_cycle hl)⟩
      | succ i =>
        have := face_rot hi (ff i hi')
        rw [hf.cut i hi'] at this
        exact ⟨_, _, _, this, Or.inl (turns_cycle (ht i hi'))⟩
    · by_cases him : i = m
      · subst him
        have := face_rot hi (face_rot hi fl)
        rw [hf.close, hf.first] at this
        exact ⟨_, _, _, this, Or.inl (turns_cycle (turns_cycle hl))⟩
      · have := face_rot hi (face_rot hi (ff i (by omega)))
        rw [hf.cut i (by omega), hf.back i (by omega)] at this
        exact ⟨_, _, _, this, Or.inl (turns_cycle (turns_cycle (ht i (by omega))))⟩
  · intro p
    constructor
    · rintro ⟨y, hy, ho⟩
      rcases fwd hy with h | ⟨i, hi', rfl | rfl⟩
      · left
        refine ⟨y, h, ?_⟩
        rw [← ho]
        exact (hf.v_old y (al h)).symm
      · left
        refine ⟨e i, ce i hi', ?_⟩
        rw [← ho]
        exact (hp.orig i hi').trans (hf.v_new i hi').1.symm
      · right
        have := (hf.v_new i hi').2
        unfold orig at ho
        rw [this] at ho
        exact (Option.some.inj ho).symm
    · rintro (⟨y, hy, ho⟩ | rfl)
      · refine ⟨y, (bwd hy).2, ?_⟩
        rw [← ho]
        exact hf.v_old y (al hy)
      · refine ⟨sym (spoke s0 0), ?_, (hf.v_new 0 (Nat.zero_le _)).2⟩
        have := lnext_connected hi (bwd (ce m le_rfl)).2
        rw [hf.close] at this
        exact this.sym
  · intro y hy
    rcases fwd hy with h | h
    · by_cases hq : ∃ i ≤ m, y = e i
      · exact Or.inr (Or.inl hq)
      · obtain ⟨o, d, t, h1, _⟩ := (hM.face y h).resolve_left hq
        exact Or.inl ⟨h, hq, o, d, t, h1, keep y o d t h hq h1⟩
    · exact Or.inr (Or.inr h)

/-! ## Swap -/

/-- The two triangles at an edge: the edges and the corners. -/
structure Quad4 (s : Store (Pt K)) (e l1 l2 r1 r2 : E) (o d t td : Pt K) : Prop where
  a1 : lnext s e = l1
  a2 : lnext s l1 = l2
  a3 : lnext s l2 = e
  b1 : lnext s (sym e) = r1
  b2 : lnext s r1 = r2
  b3 : lnext s r2 = sym e
  ve : s.v e = some o
  vs : s.v (sym e) = some d
  vl1 : s.v l1 = some d
  vl2 : s.v l2 = some t
  vr1 : s.v r1 = some o
  vr2 : s.v r2 = some td
  kl1 : Primal l1
  kl2 : Primal l2
  kr1 : Primal r1
  kr2 : Primal r2
  nodup : [e, l1, l2, sym e, r1, r2].Nodup

theorem quad4 (hi : Inv s) (ha : OriginsAgree s) {yd : Bool} {e : E} (ke : Primal e) {o d t td : Pt K}
    (hf : FaceOf s e o d t) (hg : FaceOf s (sym e) d o td) (h1 : Turns yd o d t) (h2 : Turns yd d o td) :
    Quad4 s e (lnext s e) (lnext s (lnext s e)) (lnext s (sym e)) (lnext s (lnext s (sym e))) o d t td := by
  have kse := (primal_sym e).2 ke
  have kl1 := (inv_lnext_kind hi e).2 ke
  have kl2 := (inv_lnext_kind hi _).2 kl1
  have kr1 := (inv_lnext_kind hi _).2 kse
  have kr2 := (inv_lnext_kind hi _).2 kr1
  have de := face_dest hi ha ke hf
  have dl1 := face_dest hi ha kl1 (face_rot hi hf)
  have dse := face_dest hi ha kse hg
  have dr1 := face_dest hi ha kr1 (face_rot hi hg)
  obtain ⟨⟨a3, _⟩, ve, vl1, vl2⟩ := hf
  obtain ⟨⟨b3, _⟩, vs, vr1, vr2⟩ := hg
  obtain ⟨od, dt, ot⟩ := turns_ne h1
  obtain ⟨_, otd, dtd⟩ := turns_ne h2
  have ttd : t ≠ td := by
    rintro rfl
    exact turns_not h1 h2
  refine ⟨rfl, rfl, a3, rfl, rfl, b3, ve, vs, vl1, vl2, vr1, vr2, kl1, kl2, kr1, kr2, ?_⟩
  have ne : ∀ {a b : E} {p q : Pt K}, s.v a = some p → s.v b = some q → p ≠ q → a ≠ b := by
    intro a b p q ha hb hn hab
    rw [hab, hb] at ha
    exact hn (Option.some.inj ha).symm
  have ned : ∀ {a b : E} {p q : Pt K}, dest s a = some p → dest s b = some q → p ≠ q → a ≠ b := by
    intro a b p q ha hb hn hab
    rw [hab, hb] at ha
    exact hn (Option.some.inj ha).symm
  simp only [List.nodup_cons, List.mem_cons, List.not_mem_nil, or_false, not_or, not_false_eq_true,
    List.nodup_nil, and_true]
  exact ⟨⟨ne ve vl1 od, ne ve vl2 ot, (sym_ne e).symm, ned de dr1 dtd, ne ve vr2 otd⟩,
    ⟨ne vl1 vl2 dt, ned dl1 dse ot.symm, ne vl1 vr1 od.symm, ne vl1 vr2 dtd⟩,
    ⟨ne vl2 vs dt.symm, ne vl2 vr1 ot.symm, ne vl2 vr2 ttd⟩, ⟨ne vs vr1 od.symm, ne vs vr2 dtd⟩, ne vr1 vr2 otd⟩

/-- The six edges of two triangles with a common side. -/
def Six (e l1 l2 r1 r2 y : E) : Prop := y = e ∨ y = l1 ∨ y = l2 ∨ y = sym e ∨ y = r1 ∨ y = r2

theorem six_out (hi : Inv s) {e l1 l2 r1 r2 : E} {o d t td : Pt K} (h : Quad4 s e l1 l2 r1 r2 o d t td) {y : E}
    (hy : Six e l1 l2 r1 r2 (lnext s y)) : Six e l1 l2 r1 r2 y := by
  unfold Six at *
  rcases hy with h' | h' | h' | h' | h' | h'
  · exact Or.inr (Or.inr (Or.inl (lnext_inj hi (h'.trans h.a3.symm))))
  · exact Or.inl (lnext_inj hi (h'.trans h.a1.symm))
  · exact Or.inr (Or.inl (lnext_inj hi (h'.trans h.a2.symm)))
  · exact Or.inr (Or.inr (Or.inr (Or.inr (Or.inr (lnext_inj hi (h'.trans h.b3.symm))))))
  · exact Or.inr (Or.inr (Or.inr (Or.inl (lnext_inj hi (h'.trans h.b1.symm)))))
  · exact Or.inr (Or.inr (Or.inr (Or.inr (Or.inl (lnext_inj hi (h'.trans h.b2.symm))))))

/-- The six edges have counterclockwise triangles. -/
theorem six_turns (hi : Inv s) {yd : Bool} {e : E} {o d t td : Pt K}
    (hf : FaceOf s e o d t) (hg : FaceOf s (sym e) d o td) (h1 : Turns yd o d t) (h2 : Turns yd d o td) {y : E}
    (hy : Six e (lnext s e) (lnext s (lnext s e)) (lnext s (sym e)) (lnext s (lnext s (sym e))) y) :
    ∃ o' d' t', FaceOf s y o' d' t' ∧ Turns yd o' d' t' := by
  rcases hy with rfl | rfl | rfl | rfl | rfl | rfl
  · exact ⟨_, _, _, hf, h1⟩
  · exact ⟨_, _, _, face_rot hi hf, turns_cycle h1⟩
  · exact ⟨_, _, _, face_rot hi (face_rot hi hf), turns_cycle (turns_cycle h1)⟩
  · exact ⟨_, _, _, hg, h2⟩
  · exact ⟨_, _, _, face_rot hi hg, turns_cycle h2⟩
  · exact ⟨_, _, _, face_rot hi (face_rot hi hg), turns_cycle (turns_cycle h2)⟩

/-- What `Swap` leaves alone, and the new faces. -/
structure Swapped (s s' : Store (Pt K)) (e l1 l2 r1 r2 : E) (o d t td : Pt K) : Prop where
  reached : Reached s'
  agree : OriginsAgree s'
  size : s'.size = s.size
  n1 : lnext s' e = l2
  n2 : lnext s' l2 = r1
  n3 : lnext s' r1 = e
  n4 : lnext s' (sym e) = r2
  n5 : lnext s' r2 = l1
  n6 : lnext s' l1 = sym e
  other : ∀ y, Primal y → ¬ Six e l1 l2 r1 r2 y → lnext s' y = lnext s y
  ve : s'.v e = some td
  vs : s'.v (sym e) = some t
  v : ∀ y, y.q ≠ e.q → s'.v y = s.v y
  f1 : FaceOf s' e td t o
  f2 : FaceOf s' (sym e) t td d

theorem swapped (hr : Reached s) (ha : OriginsAgree s) {e l1 l2 r1 r2 : E} (he : e.q < s.size) (ke : Primal e)
    {o d t td : Pt K} (h : Quad4 s e l1 l2 r1 r2 o d t td) :
    Swapped s (swap s e) e l1 l2 r1 r2 o d t td := by
  have hi := Reached.inv hr
  have T := fun {y : E} (ky : Primal y) =>
    swap_table hi he ke h.a1 h.a2 h.a3 h.b1 h.b2 h.b3 h.nodup ky
  have hT := (T ke).1
  have T := fun {y : E} (ky : Primal y) => (T ky).2
  have hd := h.nodup
  simp only [List.nodup_cons, List.mem_cons, List.not_mem_nil, or_false, not_or, not_false_eq_true,
    List.nodup_nil, and_true] at hd
  obtain ⟨⟨d1, d2, d3, d4, d5⟩, ⟨d6, d7, d8, d9⟩, ⟨d10, d11, d12⟩, ⟨d13, d14⟩, d15⟩ := hd
  have kse := (primal_sym e).2 ke
  have hO := ((h.a1 ▸ Inv.lnext_eq e : l1 = oprev s (sym e))).symm
  have hP : oprev s e = r1 := by rw [← h.b1, Inv.lnext_eq, sym_sym]
  have out : ∀ {y}, Primal y → ¬ Six e l1 l2 r1 r2 y ∨ y = l1 ∨ y = l2 ∨ y = r1 ∨ y = r2 → y.q ≠ e.q := by
    intro y ky hy hq
    rcases same_quad hq (iff_of_true ky ke) with h' | h'
    · rw [h'] at hy
      unfold Six at hy
      tauto
    · rw [h'] at hy
      unfold Six at hy
      rcases hy with hy | hy | hy | hy | hy
      · tauto
      · exact d7 hy.symm
      · exact d10 hy.symm
      · exact d13 hy
      · exact d14 hy
  have vo : ∀ y, y.q ≠ e.q → (swap s e).v y = s.v y := fun y hy => swap_v_other e hy
  have n1 : lnext (swap s e) e = l2 := by rw [T ke, if_pos rfl]
  have n2 : lnext (swap s e) l2 = r1 := by rw [T h.kl2, if_neg (Ne.symm d2), if_pos rfl]
  have n3 : lnext (swap s e) r1 = e := by
    rw [T h.kr1, if_neg (Ne.symm d4), if_neg (Ne.symm d11), if_pos rfl]
  have n4 : lnext (swap s e) (sym e) = r2 := by
    rw [T kse, if_neg (Ne.symm d3), if_neg (Ne.symm d10), if_neg d13, if_pos rfl]
  have n5 : lnext (swap s e) r2 = l1 := by
    rw [T h.kr2, if_neg (Ne.symm d5), if_neg (Ne.symm d12), if_neg (Ne.symm d15), if_neg (Ne.symm d14), if_pos rfl]
  have n6 : lnext (swap s e) l1 = sym e := by
    rw [T h.kl1, if_neg (Ne.symm d1), if_neg d6, if_neg d8, if_neg d7, if_neg d9, if_pos rfl]
  have ag := origins_swap hi ha he ke hT
  have rc : Reached (swap s e) := .swap e hr he
  have hi' := Reached.inv rc
  have dr1 : dest s r1 = some td := by
    rw [dest_lnext hi ha h.kr1, h.b2]; exact h.vr2
  have dl1 : dest s l1 = some t := by
    rw [dest_lnext hi ha h.kl1, h.a2]; exact h.vl2
  have ve : (swap s e).v e = some td := by
    have := swap_orig (s := s) e
    rw [hP, dr1] at this; exact this
  have vs : (swap s e).v (sym e) = some t := by
    have := swap_dest (s := s) e
    rw [hO, dl1] at this; exact this
  refine ⟨rc, ag, swap_size s e, n1, n2, n3, n4, n5, n6, ?_, ve, vs, vo, ?_, ?_⟩
  · intro y ky hy
    unfold Six at hy
    simp only [not_or] at hy
    obtain ⟨y1, y2, y3, y4, y5, y6⟩ := hy
    rw [T ky, if_neg y1, if_neg y3, if_neg y5, if_neg y4, if_neg y6, if_neg y2]
  · refine ⟨⟨by rw [n1, n2, n3], by rw [n1]; exact Ne.symm d2⟩, ve, ?_, ?_⟩
    · rw [n1]; show Store.v _ _ = _
      rw [vo _ (out h.kl2 (by tauto))]; exact h.vl2
    · rw [n1, n2]; show Store.v _ _ = _
      rw [vo _ (out h.kr1 (by tauto))]; exact h.vr1
  · refine ⟨⟨by rw [n4, n5, n6], by rw [n4]; exact Ne.symm d14⟩, vs, ?_, ?_⟩
    · rw [n4]; show Store.v _ _ = _
      rw [vo _ (out h.kr2 (by tauto))]; exact h.vr2
    · rw [n4, n5]; show Store.v _ _ = _
      rw [vo _ (out h.kl1 (by tauto))]; exact h.vl1

/-- Faces away from the six edges are left alone. -/
theorem Swapped.keep (hi : Inv s) {s' : Store (Pt K)} {e l1 l2 r1 r2 : E} (ke : Primal e) {o d t td : Pt K}
    (h : Quad4 s e l1 l2 r1 r2 o d t td) (hs : Swapped s s' e l1 l2 r1 r2 o d t td) {y : E} (ky : Primal y)
    (hy : ¬ Six e l1 l2 r1 r2 y) {a b c : Pt K} (hf : FaceOf s y a b c) : FaceOf s' y a b c := by
  have n1 := fun h' => hy (six_out hi h h')
  have n2 := fun h' => n1 (six_out hi h h')
  have k1 := (inv_lnext_kind hi y).2 ky
  have k2 := (inv_lnext_kind hi _).2 k1
  have out : ∀ {y}, Primal y → ¬ Six e l1 l2 r1 r2 y → s'.v y = s.v y := by
    intro y ky hy
    refine hs.v y fun hq => hy ?_
    rcases same_quad hq (iff_of_true ky ke) with h' | h'
    · exact Or.inl h'
    · exact Or.inr (Or.inr (Or.inr (Or.inl h')))
  exact face_same hf (hs.other _ ky hy) (hs.other _ k1 n1) (hs.other _ k2 n2) (out ky hy) (out k1 n1) (out k2 n2)

theorem mesh_swap {yd : Bool} {f0 f1 f2 : Pt K} {z : E} (hM : Triangulated yd f0 f1 f2 s z) {e : E}
    (he : Connected s z e) {o d t td : Pt K} (hf : FaceOf s e o d t) (hg : FaceOf s (sym e) d o td)
    (h1 : Turns yd o d t) (h2 : Turns yd d o td) (h3 : Turns yd td t o) (h4 : Turns yd t td d) :
    Triangulated yd f0 f1 f2 (swap s e) z ∧ (∀ y, Connected (swap s e) z y ↔ Connected s z y) ∧
      ∀ p, Vertex (swap s e) z p ↔ Vertex s z p := by
  have hi := Reached.inv hM.reached
  have pr : ∀ {y}, Connected s z y → Primal y := fun h => (connected_primal hi h).2 hM.primal
  have al : ∀ {y}, Connected s z y → y.q < s.size := fun h => connected_alloc hi h hM.alloc
  have ke := pr he
  have hq := quad4 hi hM.agree ke hf hg h1 h2
  have cl1 := lnext_connected hi he
  have cl2 := lnext_connected hi cl1
  have cr1 := lnext_connected hi he.sym
  have cr2 := lnext_connected hi cr1
  have six : ∀ {y}, Six e _ _ _ _ y → ∃ o' d' t', FaceOf s y o' d' t' ∧ Turns yd o' d' t' :=
    fun h => six_turns hi hf hg h1 h2 h
  have S := swapped hM.reached hM.agree (al he) ke hq
  generalize lnext s e = l1 at *
  generalize lnext s l1 = l2 at *
  generalize lnext s (sym e) = r1 at *
  generalize lnext s r1 = r2 at *
  have hi' := Reached.inv S.reached
  have c6 : ∀ {y}, Six e l1 l2 r1 r2 y → Connected s z y := by
    rintro y (rfl | rfl | rfl | rfl | rfl | rfl) <;> first | assumption | exact he.sym
  have nz : ¬ Six e l1 l2 r1 r2 (sym z) := by
    intro h
    obtain ⟨o', d', t', g1, g2⟩ := six h
    obtain ⟨rfl, rfl, rfl⟩ := face_unique hM.outer g1
    exact turns_not hM.frame g2
  have fwd : ∀ y, Connected (swap s e) z y → Connected s z y := by
    intro y hy
    refine connected_ind hi' .refl (fun y h => h.sym) ?_ hy
    intro y hy
    by_cases h6 : Six e l1 l2 r1 r2 y
    · apply c6
      rcases h6 with rfl | rfl | rfl | rfl | rfl | rfl
      · rw [S.n1]; simp [Six]
      · rw [S.n6]; simp [Six]
      · rw [S.n2]; simp [Six]
      · rw [S.n4]; simp [Six]
      · rw [S.n3]; simp [Six]
      · rw [S.n5]; simp [Six]
    · rw [S.other y (pr hy) h6]; exact lnext_connected hi hy
  have bwd : ∀ y, Connected s z y → Connected s z y ∧ Connected (swap s e) z y := by
    intro y hy
    refine connected_ind hi (p := fun y => Connected s z y ∧ Connected (swap s e) z y) ⟨.refl, .refl⟩
      (fun y h => ⟨h.1.sym, h.2.sym⟩) ?_ hy
    rintro y ⟨hy, hy'⟩
    refine ⟨lnext_connected hi hy, ?_⟩
    by_cases h6 : Six e l1 l2 r1 r2 y
    · have L := fun {y : E} (h : Connected (swap s e) z y) => lnext_connected hi' h
      rcases h6 with rfl | rfl | rfl | rfl | rfl | rfl
      · have := L (L hy'.sym); rwa [S.n4, S.n5, ← hq.a1] at this
      · have := L (L hy').sym; rwa [S.n6, sym_sym, S.n1, ← hq.a2] at this
      · have := L (L hy'); rw [S.n2, S.n3] at this; rw [hq.a3]; exact this
      · have := L (L hy'.sym); rwa [sym_sym, S.n1, S.n2, ← hq.b1] at this
      · have := L (L hy').sym; rwa [S.n3, S.n4, ← hq.b2] at this
      · have := L (L hy'); rwa [S.n5, S.n6, ← hq.b3] at this
    · rw [← S.other y (pr hy) h6]; exact lnext_connected hi' hy'
  refine ⟨⟨S.reached, S.agree, ?_, hM.primal, hM.frame, ?_, ?_⟩, fun y => ⟨fwd y, fun h => (bwd y h).2⟩, ?_⟩
  · have := hM.alloc
    unfold Allocated at *
    rw [S.size]; exact this
  · exact S.keep hi ke hq ((primal_sym z).2 hM.primal) nz hM.outer
  · intro y hy'
    have hy := fwd y hy'
    by_cases h6 : Six e l1 l2 r1 r2 y
    · rcases h6 with rfl | rfl | rfl | rfl | rfl | rfl
      · exact ⟨_, _, _, S.f1, Or.inl h3⟩
      · have := face_rot hi' (face_rot hi' S.f2)
        rw [S.n4, S.n5] at this
        exact ⟨_, _, _, this, Or.inl (turns_cycle (turns_cycle h4))⟩
      · have := face_rot hi' S.f1
        rw [S.n1] at this
        exact ⟨_, _, _, this, Or.inl (turns_cycle h3)⟩
      · exact ⟨_, _, _, S.f2, Or.inl h4⟩
      · have := face_rot hi' (face_rot hi' S.f1)
        rw [S.n1, S.n2] at this
        exact ⟨_, _, _, this, Or.inl (turns_cycle (turns_cycle h3))⟩
      · have := face_rot hi' S.f2
        rw [S.n4] at this
        exact ⟨_, _, _, this, Or.inl (turns_cycle h4)⟩
    · obtain ⟨a, b, c, g1, g2⟩ := hM.face y hy
      have kz := (primal_sym z).2 hM.primal
      exact ⟨a, b, c, S.keep hi ke hq (pr hy) h6 g1, g2.imp_right (outside_same (S.other _ kz nz)
        (S.other _ ((inv_lnext_kind hi _).2 kz) (fun h' => nz (six_out hi hq h'))))⟩
  · have hd := hq.nodup
    simp only [List.nodup_cons, List.mem_cons, List.not_mem_nil, or_false, not_or, not_false_eq_true,
      List.nodup_nil, and_true] at hd
    obtain ⟨⟨d1, d2, d3, d4, d5⟩, ⟨d6, d7, d8, d9⟩, ⟨d10, d11, d12⟩, ⟨d13, d14⟩, d15⟩ := hd
    have vr1 : (swap s e).v r1 = some o := by
      have : FaceOf (swap s e) r1 o td t := by
        have := face_rot hi' (face_rot hi' S.f1)
        rwa [S.n1, S.n2] at this
      exact this.2.1
    have vl1 : (swap s e).v l1 = some d := by
      have : FaceOf (swap s e) l1 d t td := by
        have := face_rot hi' (face_rot hi' S.f2)
        rwa [S.n4, S.n5] at this
      exact this.2.1
    have dec : ∀ y, Primal y → y = e ∨ y = sym e ∨ y.q ≠ e.q := by
      intro y ky
      by_cases h : y.q = e.q
      · have := same_quad h (iff_of_true ky ke); tauto
      · tauto
    intro p
    constructor
    · rintro ⟨y, hy', ho⟩
      have hy := fwd y hy'
      rcases dec y (pr hy) with rfl | rfl | hne
      · refine ⟨r2, cr2, ?_⟩
        rw [← ho]; exact hq.vr2.trans S.ve.symm
      · refine ⟨l2, cl2, ?_⟩
        rw [← ho]; exact hq.vl2.trans S.vs.symm
      · refine ⟨y, hy, ?_⟩
        rw [← ho]; exact (S.v y hne).symm
    · rintro ⟨y, hy, ho⟩
      rcases dec y (pr hy) with rfl | rfl | hne
      · refine ⟨r1, (bwd _ cr1).2, ?_⟩
        rw [← ho]; exact vr1.trans hq.ve.symm
      · refine ⟨l1, (bwd _ cl1).2, ?_⟩
        rw [← ho]; exact vl1.trans hq.vs.symm
      · refine ⟨y, (bwd _ hy).2, ?_⟩
        rw [← ho]; exact S.v y hne

/-! ## Delete -/

/-- The quadrilateral that is left when the common side of two triangles is taken away. -/
def ring4 (r1 r2 l1 l2 : E) : Nat → E
  | 0 => r1
  | 1 => r2
  | 2 => l1
  | _ => l2

/-- Its corners. -/
def corner4 (o td d t : Pt K) : Nat → Pt K
  | 0 => o
  | 1 => td
  | 2 => d
  | _ => t

theorem mesh_delete {yd : Bool} {f0 f1 f2 : Pt K} {z : E} (hM : Triangulated yd f0 f1 f2 s z) {e : E}
    (he : Connected s z e) {o d t td : Pt K} (hf : FaceOf s e o d t) (hg : FaceOf s (sym e) d o td)
    (h1 : Turns yd o d t) (h2 : Turns yd d o td) :
    ∃ r2 l1 l2, Mesh yd f0 f1 f2 (delete s e) z (fun y => ∃ i ≤ 3, y = ring4 (oprev s e) r2 l1 l2 i) ∧
      Poly (delete s e) (ring4 (oprev s e) r2 l1 l2) (corner4 o td d t) 3 ∧
      Quad4 s e l1 l2 (oprev s e) r2 o d t td ∧
      (∀ y, Connected (delete s e) z y → Connected s z y ∧ y.q ≠ e.q) ∧
      (∀ y, Connected s z y → y.q ≠ e.q → Connected (delete s e) z y) ∧
      (∀ y a b c, Connected s z y → ¬ Six e l1 l2 (oprev s e) r2 y → FaceOf s y a b c →
        FaceOf (delete s e) y a b c) ∧
      ∀ p, Vertex (delete s e) z p ↔ Vertex s z p := by
  have hi := Reached.inv hM.reached
  have pr : ∀ {y}, Connected s z y → Primal y := fun h => (connected_primal hi h).2 hM.primal
  have al : ∀ {y}, Connected s z y → y.q < s.size := fun h => connected_alloc hi h hM.alloc
  have ke := pr he
  have hq := quad4 hi hM.agree ke hf hg h1 h2
  have cl1 := lnext_connected hi he
  have cl2 := lnext_connected hi cl1
  have cr1 := lnext_connected hi he.sym
  have cr2 := lnext_connected hi cr1
  have six : ∀ {y}, Six e _ _ _ _ y → ∃ o' d' t', FaceOf s y o' d' t' ∧ Turns yd o' d' t' :=
    fun h => six_turns hi hf hg h1 h2 h
  have hP : oprev s e = lnext s (sym e) := by rw [Inv.lnext_eq, sym_sym]
  rw [hP]
  refine ⟨lnext s (lnext s (sym e)), lnext s e, lnext s (lnext s e), ?_⟩
  have rc : Reached (delete s e) := .delete e hM.reached (al he)
  have hi' := Reached.inv rc
  have hd := hq.nodup
  simp only [List.nodup_cons, List.mem_cons, List.not_mem_nil, or_false, not_or, not_false_eq_true,
    List.nodup_nil, and_true] at hd
  obtain ⟨⟨d1, d2, d3, d4, d5⟩, ⟨d6, d7, d8, d9⟩, ⟨d10, d11, d12⟩, ⟨d13, d14⟩, d15⟩ := hd
  have T := fun {y : E} (ky : Primal y) => delete_table hi (al he) ke hq.a3 hq.b3 d7 (Ne.symm d4) (Ne.symm d1)
    (Ne.symm d13) ky
  generalize lnext s e = l1 at *
  generalize lnext s l1 = l2 at *
  generalize lnext s (sym e) = r1 at *
  generalize lnext s r1 = r2 at *
  have n1 : lnext (delete s e) l1 = l2 := by
    rw [T hq.kl1, if_neg d6, if_neg d9, if_neg (Ne.symm d1), if_neg d7, hq.a2]
  have n2 : lnext (delete s e) l2 = r1 := by rw [T hq.kl2, if_pos rfl]
  have n3 : lnext (delete s e) r1 = r2 := by
    rw [T hq.kr1, if_neg (Ne.symm d11), if_neg d15, if_neg (Ne.symm d4), if_neg (Ne.symm d13), hq.b2]
  have n4 : lnext (delete s e) r2 = l1 := by rw [T hq.kr2, if_neg (Ne.symm d12), if_pos rfl]
  have other : ∀ y, Primal y → ¬ Six e l1 l2 r1 r2 y → lnext (delete s e) y = lnext s y := by
    intro y ky hy
    unfold Six at hy
    simp only [not_or] at hy
    obtain ⟨y1, y2, y3, y4, y5, y6⟩ := hy
    rw [T ky, if_neg y3, if_neg y6, if_neg y1, if_neg y4]
  have V : (delete s e).v = s.v := delete_v s e
  have qq : ∀ {y}, Primal y → y ≠ e → y ≠ sym e → y.q ≠ e.q := by
    intro y ky h1 h2 h
    rcases same_quad h (iff_of_true ky ke) with h | h <;> contradiction
  have c6 : ∀ {y}, Six e l1 l2 r1 r2 y → Connected s z y := by
    rintro y (rfl | rfl | rfl | rfl | rfl | rfl) <;> first | assumption | exact he.sym
  have nz : ¬ Six e l1 l2 r1 r2 (sym z) := by
    intro h
    obtain ⟨o', d', t', g1, g2⟩ := six h
    obtain ⟨rfl, rfl, rfl⟩ := face_unique hM.outer g1
    exact turns_not hM.frame g2
  have zq : z.q ≠ e.q := by
    intro h
    rcases same_quad h (iff_of_true hM.primal ke) with h | h
    · exact nz (by rw [h]; simp [Six])
    · exact nz (by rw [h, sym_sym]; simp [Six])
  have ql1 := qq hq.kl1 (Ne.symm d1) d7
  have ql2 := qq hq.kl2 (Ne.symm d2) d10
  have qr1 := qq hq.kr1 (Ne.symm d4) (Ne.symm d13)
  have qr2 := qq hq.kr2 (Ne.symm d5) (Ne.symm d14)
  have fwd : ∀ y, Connected (delete s e) z y → Connected s z y ∧ y.q ≠ e.q := by
    intro y hy
    refine connected_ind hi' (p := fun y => Connected s z y ∧ y.q ≠ e.q) ⟨.refl, zq⟩
      (fun y h => ⟨h.1.sym, by rw [sym_q]; exact h.2⟩) ?_ hy
    rintro y ⟨hy, hyq⟩
    by_cases h6 : Six e l1 l2 r1 r2 y
    · rcases h6 with rfl | rfl | rfl | rfl | rfl | rfl
      · exact absurd rfl hyq
      · rw [n1]; exact ⟨cl2, ql2⟩
      · rw [n2]; exact ⟨cr1, qr1⟩
      · exact absurd (sym_q _) hyq
      · rw [n3]; exact ⟨cr2, qr2⟩
      · rw [n4]; exact ⟨cl1, ql1⟩
    · rw [other y (pr hy) h6]
      have n := fun h' => h6 (six_out hi hq h')
      refine ⟨lnext_connected hi hy, qq (pr (lnext_connected hi hy)) ?_ ?_⟩
      · intro h; exact n (by rw [h]; simp [Six])
      · intro h; exact n (by rw [h]; simp [Six])
  have bwd : ∀ y, Connected s z y → Connected s z y ∧
      ((y.q ≠ e.q → Connected (delete s e) z y) ∧ (y.q = e.q → Connected (delete s e) z l1)) := by
    intro y hy
    refine connected_ind hi (p := fun y => Connected s z y ∧
      ((y.q ≠ e.q → Connected (delete s e) z y) ∧ (y.q = e.q → Connected (delete s e) z l1)))
      ⟨.refl, fun _ => .refl, fun h => absurd h zq⟩
      (fun y h => ⟨h.1.sym, by rw [sym_q]; exact ⟨fun h' => (h.2.1 h').sym, h.2.2⟩⟩) ?_ hy
    rintro y ⟨hy, hy1, hy2⟩
    refine ⟨lnext_connected hi hy, ?_⟩
    have L := fun {y : E} (h : Connected (delete s e) z y) => lnext_connected hi' h
    by_cases h6 : Six e l1 l2 r1 r2 y
    · rcases h6 with rfl | rfl | rfl | rfl | rfl | rfl
      · rw [hq.a1]; exact ⟨fun _ => hy2 rfl, fun _ => hy2 rfl⟩
      · rw [hq.a2]
        refine ⟨fun _ => ?_, fun h => absurd h ql2⟩
        have := L (hy1 ql1); rwa [n1] at this
      · rw [hq.a3]
        refine ⟨fun h => absurd rfl h, fun _ => ?_⟩
        have := L (L (L (hy1 ql2))); rwa [n2, n3, n4] at this
      · rw [hq.b1]
        refine ⟨fun _ => ?_, fun h => absurd h qr1⟩
        have := L (L (hy2 (sym_q _))); rwa [n1, n2] at this
      · rw [hq.b2]
        refine ⟨fun _ => ?_, fun h => absurd h qr2⟩
        have := L (hy1 qr1); rwa [n3] at this
      · rw [hq.b3]
        refine ⟨fun h => absurd (sym_q _) h, fun _ => ?_⟩
        have := L (hy1 qr2); rwa [n4] at this
    · have n := fun h' => h6 (six_out hi hq h')
      have ny : y.q ≠ e.q := qq (pr hy) (fun h => h6 (by rw [h]; simp [Six])) (fun h => h6 (by rw [h]; simp [Six]))
      refine ⟨fun _ => ?_, fun h => ?_⟩
      · rw [← other y (pr hy) h6]; exact L (hy1 ny)
      · exfalso
        rcases same_quad h (iff_of_true (pr (lnext_connected hi hy)) ke) with h | h
        · exact n (by rw [h]; simp [Six])
        · exact n (by rw [h]; simp [Six])
  have keep : ∀ y a b c, Connected s z y → ¬ Six e l1 l2 r1 r2 y → FaceOf s y a b c →
      FaceOf (delete s e) y a b c := by
    intro y a b c hy h6 hfa
    have n1 := fun h' => h6 (six_out hi hq h')
    have n2 := fun h' => n1 (six_out hi hq h')
    have k1 := (inv_lnext_kind hi y).2 (pr hy)
    have k2 := (inv_lnext_kind hi _).2 k1
    exact face_same hfa (other _ (pr hy) h6) (other _ k1 n1) (other _ k2 n2) (by rw [V]) (by rw [V]) (by rw [V])
  have i4 : ∀ i ≤ 3, i = 0 ∨ i = 1 ∨ i = 2 ∨ i = 3 := by intro i hi; omega
  have inRing : ∀ y, (∃ i ≤ 3, y = ring4 r1 r2 l1 l2 i) ↔ y = r1 ∨ y = r2 ∨ y = l1 ∨ y = l2 := by
    intro y
    constructor
    · rintro ⟨i, hi, rfl⟩
      rcases i4 i hi with rfl | rfl | rfl | rfl <;> simp [ring4]
    · rintro (rfl | rfl | rfl | rfl)
      · exact ⟨0, by omega, rfl⟩
      · exact ⟨1, by omega, rfl⟩
      · exact ⟨2, by omega, rfl⟩
      · exact ⟨3, by omega, rfl⟩
  refine ⟨⟨rc, origins_delete hi hM.agree (al he) ke, ?_, hM.primal, hM.frame, ?_, ?_, ?_⟩, ?_, hq,
    fwd, fun y h => (bwd y h).2.1, keep, ?_⟩
  · have := hM.alloc
    unfold Allocated at *
    rw [delete_size]; exact this
  · exact keep _ _ _ _ Connected.refl.sym nz hM.outer
  · rw [inRing]; intro h; apply nz; unfold Six; tauto
  · intro y hy'
    rw [inRing]
    obtain ⟨hy, hyq⟩ := fwd y hy'
    by_cases h6 : Six e l1 l2 r1 r2 y
    · left
      rcases h6 with rfl | rfl | rfl | rfl | rfl | rfl
      · exact absurd rfl hyq
      · tauto
      · tauto
      · exact absurd (sym_q _) hyq
      · tauto
      · tauto
    · right
      obtain ⟨a, b, c, g1, g2⟩ := hM.face y hy
      have kz := (primal_sym z).2 hM.primal
      exact ⟨a, b, c, keep y a b c hy h6 g1, g2.imp_right (outside_same (other _ kz nz)
        (other _ ((inv_lnext_kind hi _).2 kz) (fun h' => nz (six_out hi hq h'))))⟩
  · constructor
    · intro i hi
      rcases i4 i hi with rfl | rfl | rfl | rfl
      exacts [hq.kr1, hq.kr2, hq.kl1, hq.kl2]
    · intro i hi
      rw [delete_size]
      rcases i4 i hi with rfl | rfl | rfl | rfl
      exacts [al cr1, al cr2, al cl1, al cl2]
    · intro i hi
      rw [V]
      rcases i4 i hi with rfl | rfl | rfl | rfl
      exacts [hq.vr1, hq.vr2, hq.vl1, hq.vl2]
    · intro i hi
      have : i = 0 ∨ i = 1 ∨ i = 2 := by omega
      rcases this with rfl | rfl | rfl
      exacts [n3, n4, n1]
    · exact n2
    · intro i hi j hj h
      rcases i4 i hi with rfl | rfl | rfl | rfl <;> rcases i4 j hj with rfl | rfl | rfl | rfl <;>
        first
        | rfl
        | (exfalso; simp only [ring4] at h; first
            | exact d6 h | exact d6 h.symm | exact d8 h | exact d8 h.symm | exact d9 h | exact d9 h.symm
            | exact d11 h | exact d11 h.symm | exact d12 h | exact d12 h.symm | exact d15 h | exact d15 h.symm)
  · intro p
    constructor
    · rintro ⟨y, hy', ho⟩
      refine ⟨y, (fwd y hy').1, ?_⟩
      unfold orig at *
      rwa [V] at ho
    · rintro ⟨y, hy, ho⟩
      have C := fun {y} (h : Connected s z y) (hq' : y.q ≠ e.q) => (bwd y h).2.1 hq'
      by_cases h : y.q = e.q
      · rcases same_quad h (iff_of_true (pr hy) ke) with rfl | rfl
        · refine ⟨r1, C cr1 qr1, ?_⟩
          rw [← ho]; unfold orig; rw [V, hq.vr1, hq.ve]
        · refine ⟨l1, C cl1 ql1, ?_⟩
          rw [← ho]; unfold orig; rw [V, hq.vl1, hq.vs]
      · refine ⟨y, C hy h, ?_⟩
        rw [← ho]; unfold orig; rw [V]

end

end Verif.Lemmas.SubMesh
