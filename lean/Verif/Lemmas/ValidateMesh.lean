import Verif.Lemmas.Validate
import Verif.Lemmas.CrossInsert

/-!
# Helper lemmas: triangulations pass the tests of validation
-/

set_option linter.unusedSectionVars false

namespace Verif.Lemmas.ValidateMesh
open Verif.Quad Verif.Spec.Quad Verif.Lemmas.Quad Verif.Spec.Subdivision Verif.Subdivision Verif.Lemmas.SubWalk
open Verif.Resolve Verif.Spec.Resolve Verif.Lemmas.Resolve Verif.Spec.Validate Verif.Lemmas.SubMesh
open Verif.Lemmas.SubLocate Verif.Lemmas.SubRing Verif.Lemmas.CrossCells Verif.Lemmas.CrossInsert
open Verif.Spec.Intersect Verif.Spec.Planar Verif.Lemmas.SubCover

variable {K : Type} [Field K] [LinearOrder K] [IsStrictOrderedRing K] {yd : Bool} {f0 f1 f2 : Pt K} {s : Store (Pt K)}
  {z : E}

theorem mesh_long (hT : Triangulated yd f0 f1 f2 s z) {y : E} (hy : Connected s z y) : orig s y ≠ dest s y := by
  obtain ⟨o, d, t, hf, _⟩ := hT.face y hy
  obtain ⟨_, p, hp, hne⟩ := (star hT hy hf.2.1).2 y .refl
  rw [hf.2.1, hp]
  intro h; exact hne (Option.some.inj h).symm

theorem mesh_meet (hT : Triangulated yd f0 f1 f2 s z) : MeetAtEnds s z := by
  have on : ∀ {y : E} {a b p : Pt K}, orig s y = some a → dest s y = some b → OnSegment p a b →
      p = a ∨ p = b ∨ OnEdge s y p := by
    rintro y a b p h1 h2 ⟨t, t0, t1, ht⟩
    rcases eq_or_lt_of_le t0 with rfl | t0
    · left; rw [ht]; ext <;> simp
    · rcases eq_or_lt_of_le t1 with rfl | t1
      · right; left; rw [ht]; ext <;> simp
      · right; right
        refine ⟨a, b, t, h1, h2, t0, t1, ?_⟩
        unfold AtParam
        rw [ht]
  intro y w a b c d p hy hw n1 n2 ha hb hc hd h1 h2
  have va : Vertex s z a := ⟨y, hy, ha⟩
  have vb : Vertex s z b := ⟨sym y, hy.sym, hb⟩
  have vc : Vertex s z c := ⟨w, hw, hc⟩
  have vd : Vertex s z d := ⟨sym w, hw.sym, hd⟩
  rcases on ha hb h1 with g1 | g1 | g1 <;> rcases on hc hd h2 with g2 | g2 | g2
  · exact ⟨Or.inl g1, Or.inl g2⟩
  · exact ⟨Or.inl g1, Or.inr g2⟩
  · rw [g1] at g2; exact absurd g2 (vertex_edge_apart hT va hw)
  · exact ⟨Or.inr g1, Or.inl g2⟩
  · exact ⟨Or.inr g1, Or.inr g2⟩
  · rw [g1] at g2; exact absurd g2 (vertex_edge_apart hT vb hw)
  · rw [g2] at g1; exact absurd g1 (vertex_edge_apart hT vc hy)
  · rw [g2] at g1; exact absurd g1 (vertex_edge_apart hT vd hy)
  · rcases edges_apart hT hy g1 hw g2 with h | h
    · exact absurd h n1
    · exact absurd h n2

theorem mesh_left (hT : Triangulated yd f0 f1 f2 s z) {y : E} (hy : Connected s z y) : MostlyLeft yd s y := by
  classical
  have hi := Reached.inv hT.reached
  intro L n m l
  have ky := (connected_primal hi hy).2 hT.primal
  have turn : ∀ x ∈ L, LeftTurn yd s x ∨ Outside s z x := by
    intro x hx
    have hc := around_connected hy ((m x).1 hx)
    obtain ⟨o, d, t, hf, ht⟩ := hT.face x hc
    rcases ht with ht | ht
    · left
      exact ⟨o, d, t, hf.2.1, face_dest hi hT.agree ((connected_primal hi hc).2 hT.primal) hf, dest_onext hT hf, ht⟩
    · exact Or.inr ht
  have excl : ∀ x, LeftTurn yd s x → ¬ RightTurn yd s x := by
    rintro x ⟨o, d, t, e1, e2, e3, h⟩ ⟨o', d', t', e1', e2', e3', h'⟩
    rw [e1] at e1'; rw [e2] at e2'; rw [e3] at e3'
    rw [← Option.some.inj e1', ← Option.some.inj e2', ← Option.some.inj e3'] at h'
    exact turns_not h (turns_cycle (turns_cycle h'))
  have zc : Connected s z (sym z) := Connected.refl.sym
  -- one of them at most is outside
  have one : ∀ x ∈ L, ∀ x' ∈ L, Outside s z x → Outside s z x' → x' = x := by
    intro x hx x' hx' o o'
    have hx := (m x).1 hx
    have hx' := (m x').1 hx'
    have e : orig s x' = orig s x := by
      rw [hT.agree y x ky hx, hT.agree y x' ky hx']
    have hm : x' ∈ tri s x := by
      have three : ThreeSided s (sym z) := hT.outer.1
      rw [outside_tri] at o o'
      unfold tri at o o' ⊢
      simp only [Finset.mem_insert, Finset.mem_singleton] at o o' ⊢
      have t3 : lnext s (lnext s (lnext s (sym z))) = sym z := three.1
      rcases o with rfl | rfl | rfl <;> rcases o' with rfl | rfl | rfl <;> simp [t3]
    exact tri_orig hT (around_connected hy hx) hm e
  have hle : L.countP (fun w => decide (¬ LeftTurn yd s w)) ≤ 1 := by
    rw [List.countP_eq_length_filter]
    by_contra hc
    have hn : (L.filter (fun w => decide (¬ LeftTurn yd s w))).Nodup := n.filter _
    obtain ⟨a, b, r, hr⟩ : ∃ a b r, L.filter (fun w => decide (¬ LeftTurn yd s w)) = a :: b :: r := by
      match h : L.filter (fun w => decide (¬ LeftTurn yd s w)) with
      | [] => rw [h] at hc; simp at hc
      | [a] => rw [h] at hc; simp at hc
      | a :: b :: r => exact ⟨a, b, r, rfl⟩
    have ha : a ∈ L ∧ ¬ LeftTurn yd s a := by
      have : a ∈ L.filter (fun w => decide (¬ LeftTurn yd s w)) := by rw [hr]; simp
      rwa [List.mem_filter, decide_eq_true_eq] at this
    have hb : b ∈ L ∧ ¬ LeftTurn yd s b := by
      have : b ∈ L.filter (fun w => decide (¬ LeftTurn yd s w)) := by rw [hr]; simp
      rwa [List.mem_filter, decide_eq_true_eq] at this
    have := one a ha.1 b hb.1 ((turn a ha.1).resolve_left ha.2) ((turn b hb.1).resolve_left hb.2)
    rw [hr, this] at hn
    simp at hn
  have hr : L.countP (fun w => decide (RightTurn yd s w)) ≤ L.countP (fun w => decide (¬ LeftTurn yd s w)) := by
    apply List.countP_mono_left
    intro x _ h
    rw [decide_eq_true_eq] at h ⊢
    exact fun hl => excl x hl h
  have hlen := List.length_eq_countP_add_countP (l := L) (fun w => decide (LeftTurn yd s w))
  have : L.countP (fun w => decide (¬ (decide (LeftTurn yd s w)) = true)) = L.countP (fun w => decide (¬ LeftTurn yd s w)) := by
    simp
  omega

theorem mesh_passes (hT : Triangulated yd f0 f1 f2 s z) : Passes yd s z := by
  have hi := Reached.inv hT.reached
  refine ⟨fun y w hy hw => hT.agree y w ((connected_primal hi hy).2 hT.primal) hw, ?_, fun y hy => mesh_left hT hy,
    fun y hy => mesh_long hT hy, ?_⟩
  · intro y w hy hw h
    obtain ⟨o, d, t, hf, _⟩ := hT.face y hy
    have ky := (connected_primal hi hy).2 hT.primal
    have hd := face_dest hi hT.agree ky hf
    exact edge_unique hT hy (around_connected hy hw) hf.2.1 hd (by rw [hT.agree y w ky hw]; exact hf.2.1) (by rw [h]; exact hd)
  · rintro y w a b c d hy hw ha hb hc hd n1 n2 n3 n4 ⟨p, _, h1, h2⟩
    have e1 : w ≠ y := by
      rintro rfl; rw [ha] at hc; exact n1 (Option.some.inj hc)
    have e2 : w ≠ sym y := by
      rintro rfl
      have hb' : orig s (sym y) = some b := hb
      rw [hb'] at hc; exact n3 (Option.some.inj hc)
    obtain ⟨g1, g2⟩ := mesh_meet hT y w a b c d p hy hw e1 e2 ha hb hc hd h1 h2
    rcases g1 with g1 | g1 <;> rcases g2 with g2 | g2
    · exact n1 (g1.symm.trans g2)
    · exact n2 (g1.symm.trans g2)
    · exact n3 (g1.symm.trans g2)
    · exact n4 (g1.symm.trans g2)

theorem mesh_noloop (hT : Triangulated yd f0 f1 f2 s z) {y : E} (hy : Connected s z y) : ¬ Around s y (sym y) := by
  intro h
  have := hT.agree y (sym y) ((connected_primal (Reached.inv hT.reached) hy).2 hT.primal) h
  exact mesh_long hT hy this.symm

end Verif.Lemmas.ValidateMesh
