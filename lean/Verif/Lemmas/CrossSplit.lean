import Verif.Lemmas.CrossWalk

/-!
# Helper lemmas: taking out the one edge that is crossed, and putting in the other diagonal
-/

namespace Verif.Lemmas.CrossSplit
open Verif.Quad Verif.Spec.Quad Verif.Lemmas.Quad Verif.Spec.Subdivision Verif.Subdivision
open Verif.Resolve Verif.Spec.Resolve Verif.Lemmas.Resolve Verif.Lemmas.SubLocate Verif.Lemmas.SubTables
open Verif.Lemmas.SubFan Verif.Lemmas.SubWalk Verif.Lemmas.SubMesh Verif.Lemmas.SubCover
open Verif.Lemmas.SubDelaunay Verif.Lemmas.SubRing Verif.Lemmas.CrossGeom Verif.Lemmas.CrossCells
open Verif.Lemmas.CrossWalk Verif.Spec.Constrained

set_option linter.unusedSectionVars false

variable {K : Type} [Field K] [LinearOrder K] [IsStrictOrderedRing K]
variable {yd : Bool} {f0 f1 f2 : Pt K} {s s0 : Store (Pt K)} {z : E} {S T : Pt K}

attribute [local irreducible] splice delete swap connectTo

/-- The new edge. -/
def diag (s0 : Store (Pt K)) : E := ⟨s0.size, 0⟩

/-- A quadrilateral is cut in two. -/
theorem mesh_split {e : Nat → E} {c : Nat → Pt K}
    (hM : Mesh yd f0 f1 f2 s0 z (fun y => ∃ i ≤ 3, y = e i)) (hp : Poly s0 e c 3) (he : Connected s0 z (e 0))
    (h1 : Turns yd (c 2) (c 3) (c 1)) (h2 : Turns yd (c 3) (c 0) (c 1)) :
    Triangulated yd f0 f1 f2 (connectTo s0 (e 2) (e 1)).1 z ∧
    (∀ y, Connected (connectTo s0 (e 2) (e 1)).1 z y ↔ Connected s0 z y ∨ y = diag s0 ∨ y = sym (diag s0)) ∧
    (∀ y, Connected s0 z y → orig (connectTo s0 (e 2) (e 1)).1 y = orig s0 y) ∧
    orig (connectTo s0 (e 2) (e 1)).1 (diag s0) = some (c 3) ∧
    orig (connectTo s0 (e 2) (e 1)).1 (sym (diag s0)) = some (c 1) ∧
    (connectTo s0 (e 2) (e 1)).2 = diag s0 := by
  have hi0 := Reached.inv hM.reached
  have pr : ∀ {y}, Connected s0 z y → Primal y := fun h => (connected_primal hi0 h).2 hM.primal
  have al : ∀ {y}, Connected s0 z y → y.q < s0.size := fun h => connected_alloc hi0 h hM.alloc
  have n0 := hp.next 0 (by omega)
  have n1 := hp.next 1 (by omega)
  have n2 := hp.next 2 (by omega)
  have n3 := hp.last
  simp only [Nat.reduceAdd] at n0 n1 n2
  have ce : ∀ i ≤ 3, Connected s0 z (e i) := by
    intro i
    induction i with
    | zero => exact fun _ => he
    | succ i ih =>
      intro h
      rw [← hp.next i h]
      exact lnext_connected hi0 (ih (by omega))
  have a := fun i (h : i ≤ 3) => hp.alloc i h
  have k := fun i (h : i ≤ 3) => hp.primal i h
  have kd : Primal (diag s0) := Or.inl rfl
  have ksd : Primal (sym (diag s0)) := (primal_sym _).2 kd
  have hne : lnext s0 (e 2) ≠ e 1 := by
    rw [n2]; intro h; have := hp.inj 3 le_rfl 1 (by omega) h; omega
  have T := fun {y : E} (ky : Primal y) (hy : y.q ≤ s0.size) =>
    connect_table hi0 (a 2 (by omega)) (a 1 (by omega)) (k 2 (by omega)) (k 1 (by omega)) hne n0 ky hy
  have rc : Reached (connectTo s0 (e 2) (e 1)).1 :=
    .connect _ _ hM.reached (a 2 (by omega)) (a 1 (by omega)) (k 2 (by omega)) (k 1 (by omega))
  have hi := Reached.inv rc
  have ag : OriginsAgree (connectTo s0 (e 2) (e 1)).1 :=
    origins_connect hi0 hM.agree (a 2 (by omega)) (a 1 (by omega)) (k 2 (by omega)) (k 1 (by omega))
  have sz := connect_size s0 (e 2) (e 1)
  have V : (connectTo s0 (e 2) (e 1)).1.v = (newWithEndPoints s0 (dest s0 (e 2)) (orig s0 (e 1))).1.v := connect_v _ _
  have hD : (connectTo s0 (e 2) (e 1)).2 = diag s0 := by unfold connectTo; rfl
  generalize (connectTo s0 (e 2) (e 1)).1 = s at *
  have nd : ∀ {y : E}, y.q < s0.size → y ≠ diag s0 := by
    rintro y h rfl; exact lt_irrefl _ h
  have nsd : ∀ {y : E}, y.q < s0.size → y ≠ sym (diag s0) := by
    rintro y h rfl; rw [sym_q] at h; exact lt_irrefl _ h
  have ed : (⟨s0.size, 0⟩ : E) = diag s0 := rfl
  rw [ed] at T
  have inj := fun i j (hi : i ≤ 3) (hj : j ≤ 3) (h : i ≠ j) (h' : e i = e j) => h (hp.inj i hi j hj h')
  have m2 : lnext s (e 2) = diag s0 := by rw [T (k 2 (by omega)) (a 2 (by omega)).le, if_pos rfl]
  have md : lnext s (diag s0) = e 1 := by
    rw [T kd (le_refl _), if_neg (nd (a 2 (by omega))).symm, if_pos rfl]
  have ms : lnext s (sym (diag s0)) = e 3 := by
    rw [T ksd (by rw [sym_q]; exact le_refl _), if_neg (nsd (a 2 (by omega))).symm, if_neg (sym_ne _), if_pos rfl, n2]
  have m0 : lnext s (e 0) = sym (diag s0) := by
    rw [T (k 0 (by omega)) (a 0 (by omega)).le, if_neg (inj 0 2 (by omega) (by omega) (by omega)),
      if_neg (nd (a 0 (by omega))), if_neg (nsd (a 0 (by omega))), if_pos rfl]
  have old : ∀ y, Primal y → y.q < s0.size → y ≠ e 0 → y ≠ e 2 → lnext s y = lnext s0 y := by
    intro y ky hy h0 h2
    rw [T ky hy.le, if_neg h2, if_neg (nd hy), if_neg (nsd hy), if_neg h0]
  have m1 : lnext s (e 1) = e 2 := by
    rw [old _ (k 1 (by omega)) (a 1 (by omega)) (inj 1 0 (by omega) (by omega) (by omega))
      (inj 1 2 (by omega) (by omega) (by omega)), n1]
  have m3 : lnext s (e 3) = e 0 := by
    rw [old _ (k 3 (by omega)) (a 3 (by omega)) (inj 3 0 (by omega) (by omega) (by omega))
      (inj 3 2 (by omega) (by omega) (by omega)), n3]
  have vo : ∀ y : E, y.q < s0.size → s.v y = s0.v y := by
    intro y hy; rw [V, newE_v _ _ hy]
  have vd : s.v (diag s0) = some (c 3) := by
    rw [V, ← ed, newE_v_self, dest_lnext hi0 hM.agree (k 2 (by omega)), n2]; exact hp.orig 3 (by omega)
  have vsd : s.v (sym (diag s0)) = some (c 1) := by
    rw [V, ← ed, newE_v_sym]; exact hp.orig 1 (by omega)
  have ve := fun i (h : i ≤ 3) => (vo (e i) (a i h)).trans (hp.orig i h)
  -- the two triangles
  have fA : FaceOf s (e 2) (c 2) (c 3) (c 1) := by
    refine ⟨⟨by rw [m2, md, m1], by rw [m2]; exact (nd (a 2 (by omega))).symm⟩, ve 2 (by omega), ?_, ?_⟩
    · rw [m2]; exact vd
    · rw [m2, md]; exact ve 1 (by omega)
  have fB : FaceOf s (e 3) (c 3) (c 0) (c 1) := by
    refine ⟨⟨by rw [m3, m0, ms], by rw [m3]; exact inj 0 3 (by omega) (by omega) (by omega)⟩, ve 3 (by omega), ?_, ?_⟩
    · rw [m3]; exact ve 0 (by omega)
    · rw [m3, m0]; exact vsd
  have out : ∀ y, (∃ i ≤ 3, lnext s0 y = e i) → ∃ i ≤ 3, y = e i := by
    rintro y ⟨i, hi', h⟩
    cases i with
    | zero => exact ⟨3, le_rfl, lnext_inj hi0 (h.trans hp.last.symm)⟩
    | succ i => exact ⟨i, by omega, lnext_inj hi0 (h.trans (hp.next i hi').symm)⟩
  have same : ∀ y, Connected s0 z y → ¬ (∃ i ≤ 3, y = e i) → lnext s y = lnext s0 y := fun y hy hn =>
    old y (pr hy) (al hy) (fun h => hn ⟨0, by omega, h⟩) (fun h => hn ⟨2, by omega, h⟩)
  have keep : ∀ y o d t, Connected s0 z y → ¬ (∃ i ≤ 3, y = e i) → FaceOf s0 y o d t → FaceOf s y o d t := by
    intro y o d t hy hn hfa
    have c1 := lnext_connected hi0 hy
    have c2 := lnext_connected hi0 c1
    have n1 := fun h => hn (out y h)
    have n2 := fun h => n1 (out _ h)
    exact face_same hfa (same y hy hn) (same _ c1 n1) (same _ c2 n2) (vo _ (al hy)) (vo _ (al c1)) (vo _ (al c2))
  have four : ∀ {y}, (∃ i ≤ 3, y = e i) → y = e 0 ∨ y = e 1 ∨ y = e 2 ∨ y = e 3 := by
    rintro y ⟨i, h, rfl⟩
    obtain rfl | rfl | rfl | rfl : i = 0 ∨ i = 1 ∨ i = 2 ∨ i = 3 := by omega
    all_goals simp
  have fwd : ∀ {y}, Connected s z y → Connected s0 z y ∨ y = diag s0 ∨ y = sym (diag s0) := by
    intro y hy
    refine connected_ind hi (p := fun y => Connected s0 z y ∨ y = diag s0 ∨ y = sym (diag s0)) (Or.inl .refl) ?_ ?_ hy
    · rintro y (h | rfl | rfl)
      · exact Or.inl h.sym
      · exact Or.inr (Or.inr rfl)
      · exact Or.inr (Or.inl (sym_sym _))
    · rintro y (h | rfl | rfl)
      · by_cases hq : ∃ i ≤ 3, y = e i
        · rcases four hq with rfl | rfl | rfl | rfl
          · rw [m0]; exact Or.inr (Or.inr rfl)
          · rw [m1]; exact Or.inl (ce 2 (by omega))
          · rw [m2]; exact Or.inr (Or.inl rfl)
          · rw [m3]; exact Or.inl (ce 0 (by omega))
        · rw [same y h hq]; exact Or.inl (lnext_connected hi0 h)
      · rw [md]; exact Or.inl (ce 1 (by omega))
      · rw [ms]; exact Or.inl (ce 3 (by omega))
  have bwd : ∀ {y}, Connected s0 z y → Connected s0 z y ∧ Connected s z y := by
    intro y hy
    refine connected_ind hi0 (p := fun y => Connected s0 z y ∧ Connected s z y) ⟨.refl, .refl⟩
      (fun y h => ⟨h.1.sym, h.2.sym⟩) ?_ hy
    rintro y ⟨h0, h⟩
    refine ⟨lnext_connected hi0 h0, ?_⟩
    have L := fun {y : E} (h : Connected s z y) => lnext_connected hi h
    by_cases hq : ∃ i ≤ 3, y = e i
    · rcases four hq with rfl | rfl | rfl | rfl
      · have := L (L h).sym; rw [m0, sym_sym, md] at this; rw [n0]; exact this
      · have := L h; rw [m1] at this; rw [n1]; exact this
      · have := L (L h).sym; rw [m2, ms] at this; rw [n2]; exact this
      · have := L h; rw [m3] at this; rw [n3]; exact this
    · rw [← same y h0 hq]; exact L h
  have cd : Connected s z (diag s0) := by
    have := lnext_connected hi (bwd (ce 2 (by omega))).2
    rwa [m2] at this
  refine ⟨⟨rc, ag, ?_, hM.primal, hM.frame, ?_, ?_⟩, fun y => ⟨fwd, ?_⟩, fun y hy => vo y (al hy), vd, vsd, hD⟩
  · show z.q < s.size
    have := hM.alloc
    rw [sz]
    unfold Allocated at this; omega
  · exact keep _ _ _ _ (Connected.refl.sym) hM.nq hM.outer
  · intro y hy
    rcases fwd hy with h | rfl | rfl
    · by_cases hq : ∃ i ≤ 3, y = e i
      · rcases four hq with rfl | rfl | rfl | rfl
        · have := face_rot hi fB; rw [m3] at this
          exact ⟨_, _, _, this, Or.inl (turns_cycle h2)⟩
        · have := face_rot hi (face_rot hi fA); rw [m2, md] at this
          exact ⟨_, _, _, this, Or.inl (turns_cycle (turns_cycle h1))⟩
        · exact ⟨_, _, _, fA, Or.inl h1⟩
        · exact ⟨_, _, _, fB, Or.inl h2⟩
      · obtain ⟨o, d, t, g1, g2⟩ := (hM.face y h).resolve_left hq
        exact ⟨o, d, t, keep y o d t h hq g1, g2.imp_right (outside_same (same _ Connected.refl.sym hM.nq)
          (same _ (lnext_connected hi0 Connected.refl.sym) (fun h => hM.nq (out _ h))))⟩
    · have := face_rot hi fA; rw [m2] at this
      exact ⟨_, _, _, this, Or.inl (turns_cycle h1)⟩
    · have := face_rot hi (face_rot hi fB); rw [m3, m0] at this
      exact ⟨_, _, _, this, Or.inl (turns_cycle (turns_cycle h2))⟩
  · rintro (h | rfl | rfl)
    · exact (bwd h).2
    · exact cd
    · exact cd.sym

end Verif.Lemmas.CrossSplit
