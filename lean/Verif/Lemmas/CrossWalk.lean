import Verif.Lemmas.CrossCells
import Verif.Props.Resolve

/-!
# Helper lemmas: walking along a segment through a triangulation
-/

namespace Verif.Lemmas.CrossWalk
open Verif.Quad Verif.Spec.Quad Verif.Lemmas.Quad Verif.Spec.Subdivision Verif.Subdivision
open Verif.Resolve Verif.Spec.Resolve Verif.Lemmas.Resolve Verif.Lemmas.SubLocate Verif.Lemmas.SubTables
open Verif.Lemmas.SubFan Verif.Lemmas.SubWalk Verif.Lemmas.SubMesh Verif.Lemmas.SubCover Verif.Lemmas.Circle
open Verif.Lemmas.SubDelaunay Verif.Lemmas.SubRing Verif.Lemmas.CrossGeom Verif.Lemmas.CrossCells
open Verif.Spec.Constrained Verif.Constrained

set_option linter.unusedSectionVars false

variable {K : Type} [Field K] [LinearOrder K] [IsStrictOrderedRing K]
variable {yd : Bool} {f0 f1 f2 : Pt K} {s : Store (Pt K)} {z : E} {S T : Pt K}

/-! ## Setting out -/

/-- The three corners of a face are not on a line. -/
theorem face_flat (hT : Triangulated yd f0 f1 f2 s z) {y : E} (hy : Connected s z y) {o d t : Pt K}
    (hf : FaceOf s y o d t) : area yd o d t ≠ 0 := by
  obtain ⟨o', d', t', hf', ht⟩ := hT.face y hy
  obtain ⟨rfl, rfl, rfl⟩ := face_unique hf hf'
  rcases ht with ht | hO
  · exact (show 0 < area yd o d t from ht).ne'
  · have h0 : 0 < area yd f0 f1 f2 := hT.frame
    have h1 : area yd f1 f0 f2 = - area yd f0 f1 f2 := area_rev yd f0 f1 f2
    have cyc : ∀ a b c : Pt K, area yd b c a = area yd a b c := fun a b c => wedge_cycle yd a b c
    rcases outside_backwards (Reached.inv hT.reached) hT.outer hO hf with ⟨rfl, rfl, rfl⟩ | ⟨rfl, rfl, rfl⟩ | ⟨rfl, rfl, rfl⟩
    · rw [h1]; exact (neg_lt_zero.2 h0).ne
    · have := cyc t o d; rw [this, h1]; exact (neg_lt_zero.2 h0).ne
    · have := cyc o d t; rw [← this, h1]; exact (neg_lt_zero.2 h0).ne

/-- The edge from `p` to set out on towards `q`: there is an edge to `q`, or `q` is seen through the side opposite
to `p` of the triangle to its left. -/
def SetsOut (yd : Bool) (s : Store (Pt K)) (z : E) (p q : Pt K) (x : E) : Prop :=
  (Connected s z x ∧ orig s x = some p ∧ dest s x = some q) ∨
  ∃ a b, Inner s z x ∧ FaceOf s x p a b ∧ 0 < area yd p a q ∧ 0 < area yd b p q ∧ area yd a b q < 0

/-- Where to set out. -/
theorem resolve_cases (hT : Triangulated yd f0 f1 f2 s z) {e : E} (he : Connected s z e)
    (ho : orig s e = some S) (hv : Vertex s z T) (hne : S ≠ T) (hc : Clear s z S T) :
    ∃ x, (resolveEdge (fun p q => decide (p = q)) yd s e T = .colinear x ∧
        Connected s z x ∧ orig s x = some S ∧ dest s x = some T) ∨
      (resolveEdge (fun p q => decide (p = q)) yd s e T = .edge x ∧
        ∃ a b, Inner s z x ∧ FaceOf s x S a b ∧ 0 < area yd S a T ∧ 0 < area yd b S T ∧ area yd a b T < 0) := by
  have hi := Reached.inv hT.reached
  have hS := star hT he ho
  have faceAt : ∀ x, Around s e x → ∃ a b, Connected s z x ∧ FaceOf s x S a b ∧ dest s x = some a ∧
      dest s (onext s x) = some b := by
    intro x hx
    have hcx : Connected s z x := around_connected he hx
    obtain ⟨o', a', b', hfx, _⟩ := hT.face x hcx
    obtain rfl := Option.some.inj ((hS.2 x hx).1.symm.trans hfx.2.1)
    exact ⟨a', b', hcx, hfx, face_dest hi hT.agree ((connected_primal hi hcx).2 hT.primal) hfx, dest_onext hT hfx⟩
  obtain ⟨x, hx, hr⟩ := Props.C128_resolve_partial (fun p q => decide (p = q)) (by simp) yd s hT.reached e
    (connected_alloc hi he hT.alloc) S hS T (by simpa using hne) (by
      intro x a b hx ha hb h1 _
      exfalso
      obtain ⟨a', b', hcx, hf, ha', hb'⟩ := faceAt x hx
      obtain rfl := Option.some.inj (ha.symm.trans ha')
      obtain rfl := Option.some.inj (hb.symm.trans hb')
      refine face_flat hT hcx hf ?_
      unfold Spec.Planar.Colinear at h1
      unfold area wedge arrow
      cases yd <;> simp <;> linarith)
  obtain ⟨a, b, hcx, hf, ha, hb⟩ := faceAt x hx
  refine ⟨x, ?_⟩
  rcases hr with ⟨hres, a', b', ha', hb', h⟩ | ⟨hres, a', ha', t, t0, h⟩
  · -- between two edges
    obtain rfl := Option.some.inj (ha.symm.trans ha')
    obtain rfl := Option.some.inj (hb.symm.trans hb')
    refine Or.inr ⟨hres, ?_⟩
    obtain ⟨o', a', b', hf', ht⟩ := hT.face x hcx
    obtain ⟨rfl, rfl, rfl⟩ := face_unique hf hf'
    have hz : ∀ t : K, arrow S b = (t * (arrow S a).1, t * (arrow S a).2) → False := by
      intro t h
      refine face_flat hT hcx hf ?_
      show wedge yd (arrow S a) (arrow S b) = 0
      rw [h, wedge_smul_right, wedge_self, mul_zero]
    have hT' : Inner s z x ∧ 0 < area yd S a T ∧ 0 < area yd b S T := by
      unfold Between at h
      simp only at h
      rcases ht with ht | hO
      · have ht' : 0 < wedge yd (arrow S a) (arrow S b) := ht
        refine ⟨inner_of hT hcx hf ht, ?_⟩
        rcases h with ⟨_, σ, τ, s0, t0, h⟩ | ⟨h, _⟩ | ⟨⟨t, _, h⟩, _⟩ | ⟨⟨t, _, h⟩, _⟩
        · unfold Mix at h
          have e1 : area yd S a T = τ * wedge yd (arrow S a) (arrow S b) := by
            show wedge yd (arrow S a) (arrow S T) = _
            rw [h]; unfold wedge; cases yd <;> simp <;> ring
          have e2 : area yd b S T = σ * wedge yd (arrow S a) (arrow S b) := by
            have : area yd b S T = wedge yd (arrow S T) (arrow S b) := by
              unfold area wedge arrow; cases yd <;> simp <;> ring
            rw [this, h]; unfold wedge; cases yd <;> simp <;> ring
          rw [e1, e2]
          exact ⟨mul_pos t0 ht', mul_pos s0 ht'⟩
        · exact absurd h (not_lt.2 ht'.le)
        · exact (hz t h).elim
        · exact (hz (-t) (by rw [h])).elim
      · exfalso
        have hin := vertex_inFrame hT hv
        have sides : area yd S a b < 0 ∧ 0 ≤ area yd S b T ∧ 0 ≤ area yd a S T := by
          have h0 : 0 < area yd f0 f1 f2 := hT.frame
          have h1 : area yd f1 f0 f2 = - area yd f0 f1 f2 := area_rev yd f0 f1 f2
          have cyc : ∀ a b c : Pt K, area yd b c a = area yd a b c := fun a b c => wedge_cycle yd a b c
          rcases outside_backwards hi hT.outer hO hf with ⟨rfl, rfl, rfl⟩ | ⟨rfl, rfl, rfl⟩ | ⟨rfl, rfl, rfl⟩
          · exact ⟨by rw [h1]; linarith, hin.2.1, hin.1⟩
          · refine ⟨?_, hin.1, hin.2.2⟩
            have := cyc b S a; rw [this, h1]; linarith
          · refine ⟨?_, hin.2.2, hin.2.1⟩
            have := cyc S a b; rw [← this, h1]; linarith
        obtain ⟨neg, k1, k2⟩ := sides
        have neg : wedge yd (arrow S a) (arrow S b) < 0 := neg
        rcases h with ⟨h, _⟩ | ⟨_, h⟩ | ⟨⟨t, _, h⟩, _⟩ | ⟨⟨t, _, h⟩, _⟩
        · exact lt_asymm h neg
        · refine h ⟨wedge yd (arrow S T) (arrow S b) / wedge yd (arrow S a) (arrow S b),
            wedge yd (arrow S a) (arrow S T) / wedge yd (arrow S a) (arrow S b), ?_, ?_,
            (mix_iff neg.ne _ _).2 ⟨rfl, rfl⟩⟩
          · apply div_nonneg_of_nonpos _ neg.le
            rw [wedge_swap]
            have : 0 ≤ wedge yd (arrow S b) (arrow S T) := k1
            linarith
          · apply div_nonneg_of_nonpos _ neg.le
            have : wedge yd (arrow S a) (arrow S T) = - area yd a S T := by
              unfold area wedge arrow; cases yd <;> simp <;> ring
            rw [this]; linarith
        · exact hz t h
        · exact hz (-t) (by rw [h])
    obtain ⟨hx', k1, k2⟩ := hT'
    refine ⟨a, b, hx', hf, k1, k2, ?_⟩
    by_contra hn
    rcases vertex_corner hT hv hx' hf k1.le (not_lt.1 hn) k2.le with rfl | rfl | rfl
    · exact hne rfl
    · rw [(area_self0 yd S T).2] at k1; exact lt_irrefl _ k1
    · rw [(area_self0 yd T S).1] at k2; exact lt_irrefl _ k2
  · -- in the direction of an edge
    obtain rfl := Option.some.inj (ha.symm.trans ha')
    refine Or.inl ⟨hres, hcx, hf.2.1, ?_⟩
    have hat : AtParam T S a t := by
      unfold AtParam
      unfold arrow at h
      rw [Prod.mk.injEq] at h
      exact Prod.ext (by linarith [h.1]) (by linarith [h.2])
    rcases lt_trichotomy t 1 with h1 | h1 | h1
    · exact (vertex_edge_apart hT hv hcx ⟨S, a, t, hf.2.1, ha, t0, h1, hat⟩).elim
    · rw [ha]
      unfold AtParam at hat
      rw [hat, h1]
      congr 1
      refine Prod.ext ?_ ?_ <;> simp
    · exfalso
      refine hc a ⟨lnext s x, lnext_connected hi hcx, hf.2.2.1⟩ ⟨1 / t, one_div_pos.2 t0, ?_, ?_⟩
      · rw [div_lt_one t0]; exact h1
      · unfold AtParam at hat ⊢
        rw [hat]
        refine Prod.ext ?_ ?_ <;> simp <;> field_simp <;> ring

theorem resolve_sets_out (hT : Triangulated yd f0 f1 f2 s z) {e : E} (he : Connected s z e)
    (ho : orig s e = some S) (hv : Vertex s z T) (hne : S ≠ T) (hc : Clear s z S T) :
    ∃ x, (resolveEdge (fun p q => decide (p = q)) yd s e T).candidate = some x ∧ SetsOut yd s z S T x := by
  obtain ⟨x, ⟨h, h1, h2, h3⟩ | ⟨h, h'⟩⟩ := resolve_cases hT he ho hv hne hc
  · exact ⟨x, by rw [h]; rfl, Or.inl ⟨h1, h2, h3⟩⟩
  · exact ⟨x, by rw [h]; rfl, Or.inr h'⟩

/-! ## Going on -/

/-- The segment from `S` to `T` crosses the edge from its right to its left. -/
structure Front (yd : Bool) (s : Store (Pt K)) (z : E) (S T : Pt K) (w : E) (p q : Pt K) : Prop where
  conn : Connected s z w
  orig : orig s w = some p
  dest : dest s w = some q
  left : 0 < area yd S T p
  right : area yd S T q < 0
  behind : area yd p q S < 0
  ahead : 0 < area yd p q T

/-- Where the edge is crossed. -/
def par (yd : Bool) (S T p q : Pt K) : K := area yd p q S / (area yd p q S - area yd p q T)

theorem par_pos {p q X : Pt K} (h1 : area yd p q S < 0) (h2 : 0 < area yd p q T) {t : K} (hX : AtParam X S T t) :
    (0 < area yd p q X ↔ par yd S T p q < t) ∧ (area yd p q X < 0 ↔ t < par yd S T p q) := by
  have hD : area yd p q S - area yd p q T < 0 := by linarith
  have e := area_param yd p q S T X t hX
  unfold par
  constructor
  · rw [div_lt_iff_of_neg hD, e]
    constructor <;> intro h <;> linarith
  · rw [lt_div_iff_of_neg hD, e]
    constructor <;> intro h <;> linarith

theorem Front.crosses {w : E} {p q : Pt K} (h : Front yd s z S T w p q) : CrossesAt s S T w (par yd S T p q) := by
  rw [crossesAt_iff yd h.orig h.dest]
  refine ⟨mul_neg_of_pos_of_neg h.left h.right, mul_neg_of_neg_of_pos h.behind h.ahead, ?_⟩
  unfold par
  have := h.behind
  have := h.ahead
  exact div_mul_cancel₀ _ (by linarith : area yd p q S - area yd p q T < 0).ne

theorem Front.at {w : E} {p q : Pt K} (h : Front yd s z S T w p q) {t : K} (ht : CrossesAt s S T w t) :
    t = par yd S T p q := by
  rw [crossesAt_iff yd h.orig h.dest] at ht
  have := h.behind
  have := h.ahead
  unfold par
  rw [eq_div_iff (by linarith : area yd p q S - area yd p q T < 0).ne]
  exact ht.2.2

theorem crosses_onEdge {y : E} {t : K} (h : CrossesAt s S T y t) :
    0 < t ∧ t < 1 ∧ OnEdge s y (S.1 + t * (T.1 - S.1), S.2 + t * (T.2 - S.2)) := by
  obtain ⟨p, q, x, u, ho, hd, _, t0, t1, u0, u1, h1, h2⟩ := h
  unfold AtParam at h1
  rw [← h1]
  exact ⟨t0, t1, p, q, u, ho, hd, u0, u1, h2⟩

/-- Distances from the line, weighed. -/
theorem line_mean (yd : Bool) (p q r X a b : Pt K) (h : area yd a b X = 0) :
    area yd q r X * area yd a b p + area yd r p X * area yd a b q + area yd p q X * area yd a b r = 0 := by
  have := area_affine yd p q r X a b
  rw [h, zero_mul] at this
  exact this.symm

theorem front_face (hT : Triangulated yd f0 f1 f2 s z) (hvT : Vertex s z T) {w : E} {p q : Pt K}
    (h : Front yd s z S T w p q) : ∃ r, FaceOf s w p q r ∧ Inner s z w := by
  have hi := Reached.inv hT.reached
  have kw := (connected_primal hi h.conn).2 hT.primal
  obtain ⟨o, d, r, hf, _⟩ := hT.face w h.conn
  obtain rfl := Option.some.inj (h.orig.symm.trans hf.2.1)
  obtain rfl := Option.some.inj (h.dest.symm.trans (face_dest hi hT.agree kw hf))
  refine ⟨r, hf, h.conn, fun hO => ?_⟩
  have := outside_side hT hO hf (vertex_inFrame hT hvT)
  rw [area_rev] at this
  have := h.ahead
  linarith

/-- The edge on the other side of the left face. -/
theorem next_edges (hT : Triangulated yd f0 f1 f2 s z) {w : E} (hw : Connected s z w) {p q r : Pt K}
    (hf : FaceOf s w p q r) :
    (Connected s z (onext s w) ∧ orig s (onext s w) = some p ∧ dest s (onext s w) = some r) ∧
    (onext s (sym (onext s w)) = sym (lnext s w)) ∧
    (Connected s z (sym (lnext s w)) ∧ orig s (sym (lnext s w)) = some r ∧ dest s (sym (lnext s w)) = some q) := by
  have hi := Reached.inv hT.reached
  have kw := (connected_primal hi hw).2 hT.primal
  have e1 := onext_of_three hi hf.1
  have g2 := face_rot hi (face_rot hi hf)
  have g1 := face_rot hi hf
  have k1 := (inv_lnext_kind hi _).2 kw
  have k2 := (inv_lnext_kind hi _).2 k1
  have c1 := lnext_connected hi hw
  refine ⟨⟨hw.next, ?_, dest_onext hT hf⟩, ?_, c1.sym, ?_, ?_⟩
  · rw [e1]; exact face_dest hi hT.agree k2 g2
  · rw [e1, sym_sym, onext_of_three hi g2.1, hf.1.1]
  · exact face_dest hi hT.agree k1 g1
  · unfold Quad.dest; rw [sym_sym]; exact g1.2.1

/-- One round of the walk. -/
theorem front_step (hT : Triangulated yd f0 f1 f2 s z) (hvT : Vertex s z T) (hne : S ≠ T)
    (hc : Clear s z S T) {w : E} {p q r : Pt K} (h : Front yd s z S T w p q) (hf : FaceOf s w p q r)
    (hw : Inner s z w) :
    (r = T ∧ ∀ t X, par yd S T p q < t → t < 1 → AtParam X S T t → InFace yd s w X) ∨
    (r ≠ T ∧ area yd S T r < 0 ∧ Front yd s z S T (onext s w) p r ∧ par yd S T p q < par yd S T p r ∧
      ∀ t X, par yd S T p q < t → t < par yd S T p r → AtParam X S T t → InFace yd s w X) ∨
    (r ≠ T ∧ 0 < area yd S T r ∧ Front yd s z S T (sym (lnext s w)) r q ∧ par yd S T p q < par yd S T r q ∧
      ∀ t X, par yd S T p q < t → t < par yd S T r q → AtParam X S T t → InFace yd s w X) := by
  have hi := Reached.inv hT.reached
  have ht : 0 < area yd p q r := inner_turns hT hw hf
  obtain ⟨⟨c1, o1, d1⟩, _, c2, o2, d2⟩ := next_edges hT hw.1 hf
  have hp := h.left
  have hq := h.right
  have hb := h.behind
  have ha := h.ahead
  have zS := (area_self0 yd S T).1
  have zT := (area_self0 yd S T).2
  have mS := line_mean yd p q r S S T zS
  have mT := line_mean yd p q r T S T zT
  have sS := area_sum yd p q r S
  have rev1 : ∀ X, area yd p r X = - area yd r p X := fun X => area_rev yd r p X
  have rev2 : ∀ X, area yd r q X = - area yd q r X := fun X => area_rev yd q r X
  have onL : ∀ X t, AtParam X S T t → area yd S T X = 0 := by
    intro X t hX
    rw [area_param yd S T S T X t hX, zS, zT]; ring
  by_cases hr : r = T
  · subst hr
    refine Or.inl ⟨rfl, fun t X h1 h2 hX => ⟨p, q, r, hf, ((par_pos hb ha hX).1).2 h1, ?_, ?_⟩⟩
    · rw [area_param yd q r S r X t hX, (area_self0 yd q r).2]
      have : area yd q r S = - area yd S r q := by unfold area wedge arrow; cases yd <;> simp <;> ring
      rw [this]
      have := mul_pos (sub_pos.2 h2) (neg_pos.2 hq)
      linarith
    · rw [area_param yd r p S r X t hX, (area_self0 yd r p).1]
      have : area yd r p S = area yd S r p := by unfold area wedge arrow; cases yd <;> simp <;> ring
      rw [this]
      have := mul_pos (sub_pos.2 h2) hp
      linarith
  right
  -- `T` is beyond the triangle
  have notIn : ¬ (0 ≤ area yd q r T ∧ 0 ≤ area yd r p T) := by
    rintro ⟨k1, k2⟩
    rcases vertex_corner hT hvT hw hf ha.le k1 k2 with e | e | e
    · rw [e, (area_self0 yd p q).1] at ha; exact lt_irrefl _ ha
    · rw [e, (area_self0 yd p q).2] at ha; exact lt_irrefl _ ha
    · exact hr e.symm
  have vr : Vertex s z r := ⟨_, lnext_connected hi (lnext_connected hi hw.1), hf.2.2.2⟩
  rcases lt_trichotomy (area yd S T r) 0 with hl | hl | hl
  · left
    -- out through the side from `p` to `r`
    have kT : area yd r p T < 0 := by
      by_contra hn
      refine notIn ⟨?_, not_lt.1 hn⟩
      by_contra hn2
      have a1 := mul_nonneg (not_lt.1 hn) (neg_nonneg.2 hq.le)
      have a2 := mul_pos ha (neg_pos.2 hl)
      have a3 := mul_pos (neg_pos.2 (not_le.1 hn2)) hp
      linarith
    have kS : 0 < area yd r p S := by
      by_contra hn
      have hn := not_lt.1 hn
      have b1 : 0 < area yd q r S := by linarith
      have a1 := mul_nonneg (neg_nonneg.2 hn) (neg_nonneg.2 hq.le)
      have a2 := mul_pos (neg_pos.2 hb) (neg_pos.2 hl)
      have a3 := mul_pos b1 hp
      linarith
    have hF : Front yd s z S T (onext s w) p r :=
      ⟨c1, o1, d1, hp, hl, by rw [rev1]; linarith, by rw [rev1]; linarith⟩
    have inside : ∀ t X, par yd S T p q < t → t < par yd S T p r → AtParam X S T t → InFace yd s w X := by
      intro t X h1 h2 hX
      have k1 := ((par_pos hb ha hX).1).2 h1
      have k3 := ((par_pos hF.behind hF.ahead hX).2).2 h2
      rw [rev1] at k3
      refine ⟨p, q, r, hf, k1, ?_, by linarith⟩
      have m := line_mean yd p q r X S T (onL X t hX)
      by_contra hn
      have a1 := mul_pos (show 0 < area yd r p X by linarith) (neg_pos.2 hq)
      have a2 := mul_pos k1 (neg_pos.2 hl)
      have a3 := mul_nonneg (neg_nonneg.2 (not_lt.1 hn)) hp.le
      linarith
    refine ⟨hr, hl, hF, ?_, inside⟩
    have hX : AtParam (S.1 + par yd S T p r * (T.1 - S.1), S.2 + par yd S T p r * (T.2 - S.2)) S T
      (par yd S T p r) := rfl
    generalize (S.1 + par yd S T p r * (T.1 - S.1), S.2 + par yd S T p r * (T.2 - S.2)) = X at hX
    rw [← (par_pos hb ha hX).1]
    have e0 : area yd r p X = 0 := by
      have n1 := (par_pos hF.behind hF.ahead hX).1
      have n2 := (par_pos hF.behind hF.ahead hX).2
      rw [rev1] at n1 n2
      have n1 := mt n1.1 (lt_irrefl _)
      have n2 := mt n2.1 (lt_irrefl _)
      linarith
    have m := line_mean yd p q r X S T (onL X _ hX)
    have sX := area_sum yd p q r X
    rw [e0, zero_mul] at m
    rw [e0] at sX
    by_contra hn
    have a1 := mul_nonneg (neg_nonneg.2 (not_lt.1 hn)) (neg_nonneg.2 hl.le)
    have a2 := mul_pos (show 0 < area yd q r X by linarith) hp
    linarith
  · exfalso
    -- `r` on the line
    rw [hl, mul_zero, add_zero] at mT
    have e1 : area yd q r T * area yd S T p = area yd r p T * (- area yd S T q) := by linarith
    have sT := area_sum yd p q r T
    have : area yd q r T < 0 ∧ area yd r p T < 0 := by
      by_cases h0 : 0 ≤ area yd q r T
      · exfalso
        refine notIn ⟨h0, ?_⟩
        by_contra hn
        have a1 := mul_nonneg h0 hp.le
        have a2 := mul_pos (neg_pos.2 (not_le.1 hn)) (neg_pos.2 hq)
        linarith
      · refine ⟨not_le.1 h0, ?_⟩
        by_contra hn
        have a1 := mul_nonneg (not_lt.1 hn) (neg_nonneg.2 hq.le)
        have a2 := mul_pos (neg_pos.2 (not_le.1 h0)) hp
        linarith
    obtain ⟨k1, k2⟩ := this
    obtain ⟨c, hcc⟩ := wedge_zero (arrow_ne (Ne.symm hne)) (show wedge yd (arrow S T) (arrow S r) = 0 from hl)
    have hat : AtParam r S T c := by
      unfold AtParam
      unfold arrow at hcc
      rw [Prod.mk.injEq] at hcc
      exact Prod.ext (by linarith [hcc.1]) (by linarith [hcc.2])
    have er := area_param yd p q S T r c hat
    -- between 0 and 1
    have c0 : 0 < c := by
      by_contra hn
      have a1 := mul_nonneg (show 0 ≤ 1 - c by linarith) (neg_nonneg.2 hb.le)
      have a2 := mul_nonneg (neg_nonneg.2 (not_lt.1 hn)) ha.le
      linarith
    have c1 : c < 1 := by
      -- `p q r` is smaller than `p q T`
      have : (1 - c) * (area yd p q S - area yd p q T) < 0 := by linarith
      by_contra hn
      have a1 := mul_nonneg (show 0 ≤ c - 1 by linarith) (show 0 ≤ area yd p q T - area yd p q S by linarith)
      have : (1 - c) * (area yd p q S - area yd p q T) = (c - 1) * (area yd p q T - area yd p q S) := by ring
      linarith
    exact hc r vr ⟨c, c0, c1, hat⟩
  · right
    have kT : area yd q r T < 0 := by
      by_contra hn
      refine notIn ⟨not_lt.1 hn, ?_⟩
      by_contra hn2
      have a1 := mul_nonneg (not_lt.1 hn) hp.le
      have a2 := mul_pos ha hl
      have a3 := mul_pos (neg_pos.2 (not_le.1 hn2)) (neg_pos.2 hq)
      linarith
    have kS : 0 < area yd q r S := by
      by_contra hn
      have hn := not_lt.1 hn
      have b1 : 0 < area yd r p S := by linarith
      have a1 := mul_nonneg (neg_nonneg.2 hn) hp.le
      have a2 := mul_pos (neg_pos.2 hb) hl
      have a3 := mul_pos b1 (neg_pos.2 hq)
      linarith
    have hF : Front yd s z S T (sym (lnext s w)) r q :=
      ⟨c2, o2, d2, hl, hq, by rw [rev2]; linarith, by rw [rev2]; linarith⟩
    have inside : ∀ t X, par yd S T p q < t → t < par yd S T r q → AtParam X S T t → InFace yd s w X := by
      intro t X h1 h2 hX
      have k1 := ((par_pos hb ha hX).1).2 h1
      have k3 := ((par_pos hF.behind hF.ahead hX).2).2 h2
      rw [rev2] at k3
      refine ⟨p, q, r, hf, k1, by linarith, ?_⟩
      have m := line_mean yd p q r X S T (onL X t hX)
      by_contra hn
      have a1 := mul_pos (show 0 < area yd q r X by linarith) hp
      have a2 := mul_pos k1 hl
      have a3 := mul_nonneg (neg_nonneg.2 (not_lt.1 hn)) (neg_nonneg.2 hq.le)
      linarith
    refine ⟨hr, hl, hF, ?_, inside⟩
    have hX : AtParam (S.1 + par yd S T r q * (T.1 - S.1), S.2 + par yd S T r q * (T.2 - S.2)) S T
      (par yd S T r q) := rfl
    generalize (S.1 + par yd S T r q * (T.1 - S.1), S.2 + par yd S T r q * (T.2 - S.2)) = X at hX
    rw [← (par_pos hb ha hX).1]
    have e0 : area yd q r X = 0 := by
      have n1 := (par_pos hF.behind hF.ahead hX).1
      have n2 := (par_pos hF.behind hF.ahead hX).2
      rw [rev2] at n1 n2
      have n1 := mt n1.1 (lt_irrefl _)
      have n2 := mt n2.1 (lt_irrefl _)
      linarith
    have m := line_mean yd p q r X S T (onL X _ hX)
    have sX := area_sum yd p q r X
    rw [e0, zero_mul] at m
    rw [e0] at sX
    by_contra hn
    have a1 := mul_nonneg (neg_nonneg.2 (not_lt.1 hn)) hl.le
    have a2 := mul_pos (show 0 < area yd r p X by linarith) (neg_pos.2 hq)
    linarith

/-! ## All the way -/

theorem isEqual_iff (e e1 : E) : isEqual e e1 = true ↔ e.q = e1.q := by
  unfold isEqual
  rw [decide_eq_true_iff]
  constructor
  · intro h; rw [h]
  · intro h; cases e; cases e1; simp only at h; subst h; rfl

/-- The last edge that is crossed is the side opposite to the end. -/
theorem last_iff (hT : Triangulated yd f0 f1 f2 s z) {ye : E} {a b : Pt K} (hye : Inner s z ye)
    (hfe : FaceOf s ye T a b) (e1 : 0 < area yd T a S) (e2 : 0 < area yd b T S) {w : E} {p q r : Pt K}
    (h : Front yd s z S T w p q) (hf : FaceOf s w p q r) (hw : Inner s z w) :
    isEqual (sym (lnext s ye)) w = true ↔ r = T := by
  have hi := Reached.inv hT.reached
  rw [isEqual_iff]
  have sq : (sym (lnext s ye)).q = (lnext s ye).q := sym_q _
  rw [sq]
  have cy : ∀ a b c : Pt K, area yd b c a = area yd a b c := fun a b c => wedge_cycle yd a b c
  constructor
  · intro hq
    have k1 := (inv_lnext_kind hi _).2 ((connected_primal hi hye.1).2 hT.primal)
    have k2 := (connected_primal hi h.conn).2 hT.primal
    have g1 := face_rot hi hfe
    rcases primal_same_q k2 k1 hq.symm with rfl | rfl
    · obtain ⟨_, _, rfl⟩ := face_unique hf g1
      rfl
    · exfalso
      have ho : orig s (sym (lnext s ye)) = some b := face_dest hi hT.agree k1 g1
      obtain rfl := Option.some.inj (ho.symm.trans h.orig)
      have := h.left
      have : area yd b T S = - area yd S T b := by unfold area wedge arrow; cases yd <;> simp <;> ring
      linarith
  · rintro rfl
    have g2 := face_rot hi (face_rot hi hf)
    have i2 := inner_lnext hT (inner_lnext hT hw)
    have := cone_unique hT hye i2 hfe g2 e1 e2
      (by have := h.left; have := cy S r p; linarith)
      (by
        have := h.right
        have : area yd q r S = - area yd S r q := by unfold area wedge arrow; cases yd <;> simp <;> ring
        linarith)
    rw [← this, hf.1.1]

/-- The edges that are crossed from an edge on. -/
structure Rest (yd : Bool) (s : Store (Pt K)) (z : E) (S T : Pt K) (w : E) (c : K) (L : List E) : Prop where
  head : ∃ l, L = w :: l
  fronts : ∀ y ∈ L, ∃ p q, Front yd s z S T y p q ∧ c ≤ par yd S T p q
  order : L.Pairwise fun y y' => ∀ t t', CrossesAt s S T y t → CrossesAt s S T y' t' → t < t'
  complete : ∀ y t, Connected s z y → CrossesAt s S T y t → c ≤ t → y ∈ L ∨ sym y ∈ L

theorem rest_cons (hT : Triangulated yd f0 f1 f2 s z) {w w' : E} {p q p' q' : Pt K} {L : List E}
    (h : Front yd s z S T w p q) (hlt : par yd S T p q < par yd S T p' q')
    (hin : ∀ t X, par yd S T p q < t → t < par yd S T p' q' → AtParam X S T t → InFace yd s w X)
    (hL : Rest yd s z S T w' (par yd S T p' q') L) : Rest yd s z S T w (par yd S T p q) (w :: L) := by
  refine ⟨⟨L, rfl⟩, ?_, ?_, ?_⟩
  · intro y hy
    rcases List.mem_cons.1 hy with rfl | hy
    · exact ⟨p, q, h, le_refl _⟩
    · obtain ⟨p1, q1, h1, h2⟩ := hL.fronts y hy
      exact ⟨p1, q1, h1, (hlt.le.trans h2)⟩
  · refine List.pairwise_cons.2 ⟨?_, hL.order⟩
    intro y hy t t' ht ht'
    obtain ⟨p1, q1, h1, h2⟩ := hL.fronts y hy
    rw [h.at ht, h1.at ht']
    exact lt_of_lt_of_le hlt h2
  · intro y t hy hc ht
    rcases lt_or_ge t (par yd S T p' q') with hlt' | hge
    · obtain ⟨t0, t1, hon⟩ := crosses_onEdge hc
      rcases lt_or_eq_of_le ht with ht | rfl
      · exact (face_edge_apart hT h.conn (hin t _ ht hlt' rfl) hy hon).elim
      · obtain ⟨_, _, hon'⟩ := crosses_onEdge h.crosses
        rcases edges_apart hT h.conn hon' hy hon with rfl | rfl
        · exact Or.inl (List.mem_cons_self ..)
        · right; rw [sym_sym]; exact List.mem_cons_self ..
    · rcases hL.complete y t hy hc hge with h | h
      · exact Or.inl (List.mem_cons_of_mem _ h)
      · exact Or.inr (List.mem_cons_of_mem _ h)

/-- What the loop does when the edges crossed from here on are `L`. -/
def Loops (s : Store (Pt K)) (line : Pt K × Pt K) (sh w : E) (L : List E) : Prop :=
  ∀ fuel acc, Constrained.findLoop s line sh fuel w acc =
    if L.length ≤ fuel then .edges (acc ++ L) else .infinite (acc ++ L.take fuel)

theorem loops_last {line : Pt K × Pt K} {sh w : E} (hm : meets s line w = true) (he : isEqual sh w = true) :
    Loops s line sh w [w] := by
  intro fuel acc
  cases fuel with
  | zero => simp [Constrained.findLoop]
  | succ n => simp [Constrained.findLoop, hm, he]

theorem loops_cons {line : Pt K × Pt K} {sh w w' : E} {L : List E} (hm : meets s line w = true)
    (he : isEqual sh w = false)
    (hw' : (if meets s line (onext s w) then onext s w else onext s (sym (onext s w))) = w')
    (hL : Loops s line sh w' L) : Loops s line sh w (w :: L) := by
  intro fuel acc
  cases fuel with
  | zero => simp [Constrained.findLoop]
  | succ n =>
    have : Constrained.findLoop s line sh (n + 1) w acc = Constrained.findLoop s line sh n w' (acc ++ [w]) := by
      rw [← hw']
      rw [Constrained.findLoop]
      simp only [hm, he, if_true, Bool.false_eq_true, if_false]
      split <;> rfl
    rw [this, hL n (acc ++ [w])]
    simp

open Classical in
/-- The edges still to be crossed. -/
noncomputable def beyond (yd : Bool) (s : Store (Pt K)) (z : E) (S T : Pt K) (c : K) : Finset E :=
  (edges s z).filter fun y => ∃ p q, Front yd s z S T y p q ∧ c < par yd S T p q

theorem beyond_lt (hT : Triangulated yd f0 f1 f2 s z) {w' : E} {p q p' q' : Pt K} (h' : Front yd s z S T w' p' q')
    (hlt : par yd S T p q < par yd S T p' q') :
    (beyond yd s z S T (par yd S T p' q')).card < (beyond yd s z S T (par yd S T p q)).card := by
  classical
  apply Finset.card_lt_card
  rw [Finset.ssubset_iff_of_subset]
  · refine ⟨w', ?_, ?_⟩
    · unfold beyond
      rw [Finset.mem_filter]
      exact ⟨(mem_edges hT).2 h'.conn, p', q', h', hlt⟩
    · unfold beyond
      rw [Finset.mem_filter]
      rintro ⟨_, p1, q1, h1, h2⟩
      obtain rfl := Option.some.inj (h'.orig.symm.trans h1.orig)
      obtain rfl := Option.some.inj (h'.dest.symm.trans h1.dest)
      exact lt_irrefl _ h2
  · intro y hy
    unfold beyond at *
    rw [Finset.mem_filter] at *
    obtain ⟨hy, p1, q1, h1, h2⟩ := hy
    exact ⟨hy, p1, q1, h1, hlt.trans h2⟩

theorem last (hT : Triangulated yd f0 f1 f2 s z) {ye : E} {a b : Pt K} (hye : Inner s z ye)
    (hfe : FaceOf s ye T a b) (e1 : 0 < area yd T a S) (e2 : 0 < area yd b T S) {w : E} {p q : Pt K}
    (h : Front yd s z S T w p q) (hf : FaceOf s w p q T) (hw : Inner s z w)
    (hin : ∀ t X, par yd S T p q < t → t < 1 → AtParam X S T t → InFace yd s w X) :
    ∃ L, Rest yd s z S T w (par yd S T p q) L ∧ Loops s (S, T) (sym (lnext s ye)) w L := by
  refine ⟨[w], ⟨⟨[], rfl⟩, ?_, List.pairwise_singleton _ _, ?_⟩,
    loops_last (meets_of_crosses h.crosses) ((last_iff hT hye hfe e1 e2 h hf hw).2 rfl)⟩
  · intro y hy
    obtain rfl := List.mem_singleton.1 hy
    exact ⟨p, q, h, le_refl _⟩
  · intro y t hy hc ht
    obtain ⟨t0, t1, hon⟩ := crosses_onEdge hc
    rcases lt_or_eq_of_le ht with ht | rfl
    · exact (face_edge_apart hT h.conn (hin t _ ht t1 rfl) hy hon).elim
    · obtain ⟨_, _, hon'⟩ := crosses_onEdge h.crosses
      rcases edges_apart hT h.conn hon' hy hon with rfl | rfl
      · exact Or.inl (List.mem_cons_self ..)
      · right; rw [sym_sym]; exact List.mem_cons_self ..

theorem walk (hT : Triangulated yd f0 f1 f2 s z) (hvT : Vertex s z T) (hne : S ≠ T) (hc : Clear s z S T)
    {ye : E} {a b : Pt K} (hye : Inner s z ye) (hfe : FaceOf s ye T a b) (e1 : 0 < area yd T a S)
    (e2 : 0 < area yd b T S) (n : ℕ) : ∀ w p q, Front yd s z S T w p q →
      (beyond yd s z S T (par yd S T p q)).card ≤ n →
      ∃ L, Rest yd s z S T w (par yd S T p q) L ∧ Loops s (S, T) (sym (lnext s ye)) w L := by
  induction n with
  | zero =>
    intro w p q h hn
    obtain ⟨r, hf, hw⟩ := front_face hT hvT h
    rcases front_step hT hvT hne hc h hf hw with ⟨rfl, hin⟩ | ⟨_, _, h', hlt, _⟩ | ⟨_, _, h', hlt, _⟩
    · exact last hT hye hfe e1 e2 h hf hw hin
    · have := beyond_lt hT h' hlt; omega
    · have := beyond_lt hT h' hlt; omega
  | succ n ih =>
    intro w p q h hn
    obtain ⟨r, hf, hw⟩ := front_face hT hvT h
    have hm := meets_of_crosses h.crosses
    have hlast := last_iff hT hye hfe e1 e2 h hf hw
    obtain ⟨⟨c1, o1, d1⟩, en, c2, o2, d2⟩ := next_edges hT h.conn hf
    rcases front_step hT hvT hne hc h hf hw with ⟨rfl, hin⟩ | ⟨hr, hl, h', hlt, hin⟩ | ⟨hr, hl, h', hlt, hin⟩
    · exact last hT hye hfe e1 e2 h hf hw hin
    · obtain ⟨L, hL, hloop⟩ := ih _ _ _ h' (by have := beyond_lt hT h' hlt; omega)
      refine ⟨w :: L, rest_cons hT h hlt hin hL, loops_cons hm (by simpa using mt hlast.1 hr) ?_ hloop⟩
      rw [if_pos (meets_of_crosses h'.crosses)]
    · obtain ⟨L, hL, hloop⟩ := ih _ _ _ h' (by have := beyond_lt hT h' hlt; omega)
      refine ⟨w :: L, rest_cons hT h hlt hin hL, loops_cons hm (by simpa using mt hlast.1 hr) ?_ hloop⟩
      rw [meets_false o1 d1 h.left hl]
      exact en

/-- The first edge that is crossed. -/
theorem first_front (hT : Triangulated yd f0 f1 f2 s z) {x : E} {a b : Pt K} (hx : Inner s z x)
    (hf : FaceOf s x S a b) (h1 : 0 < area yd S a T) (h2 : 0 < area yd b S T) (h3 : area yd a b T < 0) :
    Front yd s z S T (sym (lnext s x)) b a ∧
    ∀ t X, 0 < t → t < par yd S T b a → AtParam X S T t → InFace yd s x X := by
  obtain ⟨_, _, c2, o2, d2⟩ := next_edges hT hx.1 hf
  have ht : 0 < area yd S a b := inner_turns hT hx hf
  have cy : ∀ a b c : Pt K, area yd b c a = area yd a b c := fun a b c => wedge_cycle yd a b c
  have F : Front yd s z S T (sym (lnext s x)) b a := by
    refine ⟨c2, o2, d2, ?_, ?_, ?_, ?_⟩
    · rw [cy b S T]; exact h2
    · have : area yd S T a = - area yd S a T := by unfold area wedge arrow; cases yd <;> simp <;> ring
      linarith
    · rw [area_rev yd a b S, cy S a b]; linarith
    · rw [area_rev yd a b T]; linarith
  refine ⟨F, fun t X t0 tp hX => ⟨S, a, b, hf, ?_, ?_, ?_⟩⟩
  · rw [area_param yd S a S T X t hX, (area_self0 yd S a).1]
    have := mul_pos t0 h1
    linarith
  · have := ((par_pos F.behind F.ahead hX).2).2 tp
    rw [area_rev yd a b X] at this
    linarith
  · rw [area_param yd b S S T X t hX, (area_self0 yd b S).2]
    have := mul_pos t0 h2
    linarith

/-- Nothing crosses an edge. -/
theorem edge_uncrossed (hT : Triangulated yd f0 f1 f2 s z) {x : E} (hx : Connected s z x) (ho : orig s x = some S)
    (hd : dest s x = some T) {y : E} (hy : Connected s z y) {t : K} (hc : CrossesAt s S T y t) : False := by
  obtain ⟨t0, t1, hon⟩ := crosses_onEdge hc
  have hx' : orig s (sym x) = some T := hd
  have hx'' : dest s (sym x) = some S := by unfold Quad.dest; rw [sym_sym]; exact ho
  rcases edges_apart hT hx ⟨S, T, t, ho, hd, t0, t1, rfl⟩ hy hon with rfl | rfl
  · rw [crossesAt_iff yd ho hd, (area_self0 yd S T).1, zero_mul] at hc
    exact lt_irrefl _ hc.1
  · rw [crossesAt_iff yd hx' hx'', (area_self0 yd S T).2, zero_mul] at hc
    exact lt_irrefl _ hc.1

theorem find_edges (hT : Triangulated yd f0 f1 f2 s z) {se ee : E} (hse : Connected s z se)
    (hee : Connected s z ee) (hS : orig s se = some S) (hE : orig s ee = some T) (hne : S ≠ T)
    (hc : Clear s z S T) : ∃ L, CrossedInOrder yd s z S T L ∧
      findIntersectingEdges yd s se ee = if L.length ≤ 21 then .edges L else .infinite (L.take 21) := by
  have hi := Reached.inv hT.reached
  have hc' : Clear s z T S := by
    rintro p hp ⟨t, t0, t1, ht⟩
    refine hc p hp ⟨1 - t, by linarith, by linarith, ?_⟩
    unfold AtParam at *
    rw [ht]
    refine Prod.ext ?_ ?_ <;> simp <;> ring
  obtain ⟨x, hx, ox⟩ := resolve_sets_out hT hse hS ⟨ee, hee, hE⟩ hne hc
  obtain ⟨ye, hy, oy⟩ := resolve_sets_out hT hee hE ⟨se, hse, hS⟩ hne.symm hc'
  have hd0 : ¬ ((T.1 - S.1) * (T.1 - S.1) + (T.2 - S.2) * (T.2 - S.2) = 0) := by
    intro h
    have a := mul_self_nonneg (T.1 - S.1)
    have b := mul_self_nonneg (T.2 - S.2)
    have a0 : T.1 - S.1 = 0 := mul_self_eq_zero.1 (by linarith)
    have b0 : T.2 - S.2 = 0 := mul_self_eq_zero.1 (by linarith)
    exact hne (Prod.ext (by linarith) (by linarith))
  have hfind : findIntersectingEdges yd s se ee = findBetween s (S, T) x ye := by
    unfold findIntersectingEdges
    simp only [hS, hE, hx, hy, if_neg hd0]
  rw [hfind]
  have dsome : ∀ {p q : Pt K} {x : E}, SetsOut yd s z p q x → ∃ d, dest s x = some d := by
    rintro p q x (⟨_, _, h⟩ | ⟨a, b, hx, hf, _⟩)
    · exact ⟨_, h⟩
    · exact ⟨a, face_dest hi hT.agree ((connected_primal hi hx.1).2 hT.primal) hf⟩
  obtain ⟨dx, hdx⟩ := dsome ox
  obtain ⟨dy, hdy⟩ := dsome oy
  -- an edge from one to the other
  have joined : (∃ j, Connected s z j ∧ orig s j = some S ∧ dest s j = some T) → (dx = T ∨ dy = S) →
      ∃ L, CrossedInOrder yd s z S T L ∧
        findBetween s (S, T) x ye = if L.length ≤ 21 then .edges L else .infinite (L.take 21) := by
    rintro ⟨j, cj, oj, dj⟩ h
    refine ⟨[], ⟨by simp, ?_, List.Pairwise.nil⟩, ?_⟩
    · rintro y hy ⟨t, ht⟩
      exact (edge_uncrossed hT cj oj dj hy ht).elim
    · unfold findBetween
      simp only [hdx, hdy]
      rw [if_pos h]
      simp
  rcases ox with ⟨c, o, d⟩ | ⟨a, b, ix, fx, x1, x2, x3⟩
  · exact joined ⟨x, c, o, d⟩ (Or.inl (Option.some.inj (hdx.symm.trans d)))
  rcases oy with ⟨c, o, d⟩ | ⟨a', b', iy, fy, y1, y2, y3⟩
  · exact joined ⟨sym ye, c.sym, d, by unfold Quad.dest; rw [sym_sym]; exact o⟩
      (Or.inr (Option.some.inj (hdy.symm.trans d)))
  obtain ⟨F, hin⟩ := first_front hT ix fx x1 x2 x3
  obtain ⟨L, hL, hloop⟩ := walk hT ⟨ee, hee, hE⟩ hne hc iy fy y1 y2 _ _ _ _ F (le_refl _)
  have en := (next_edges hT ix.1 fx).2.1
  have en' := (next_edges hT iy.1 fy).2.1
  refine ⟨L, ⟨?_, ?_, hL.order⟩, ?_⟩
  · intro y hy
    obtain ⟨p, q, h, _⟩ := hL.fronts y hy
    exact ⟨h.conn, ⟨_, h.crosses⟩, p, h.orig, h.left⟩
  · rintro y hy ⟨t, ht⟩
    rcases lt_or_ge t (par yd S T b a) with h | h
    · obtain ⟨t0, _, hon⟩ := crosses_onEdge ht
      exact (face_edge_apart hT ix.1 (hin t _ t0 h rfl) hy hon).elim
    · exact hL.complete y t hy ht h
  · have n1 : dx ≠ T := by
      rintro rfl
      exact cone_no_edge hT ix fx x1 x2 ix.1 fx.2.1 hdx
    have n2 : dy ≠ S := by
      rintro rfl
      exact cone_no_edge hT iy fy y1 y2 iy.1 fy.2.1 hdy
    unfold findBetween
    simp only [hdx, hdy]
    rw [if_neg (by simp [n1, n2]), en, en', hloop 21 []]
    simp

end Verif.Lemmas.CrossWalk
