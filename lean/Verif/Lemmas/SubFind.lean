import Verif.Lemmas.SubHistory

/-!
# Helper lemmas: the search for the triangle of a point comes to its end

Going from triangle to triangle the power of the point does not get greater.  Among triangles with one
circle the barycentric coordinates of the point are looked at, that of the corner put in last first: as the
edge between two such triangles ends in the last of the four corners, they get less.
-/

namespace Verif.Lemmas.SubFind
open Verif.Quad Verif.Spec.Quad Verif.Lemmas.Quad Verif.Spec.Subdivision Verif.Subdivision
open Verif.Resolve Verif.Spec.Resolve Verif.Lemmas.Resolve Verif.Lemmas.SubLocate Verif.Lemmas.SubTables
open Verif.Lemmas.SubWalk Verif.Lemmas.SubMesh Verif.Lemmas.SubCover Verif.Lemmas.Circle
open Verif.Lemmas.SubDelaunay Verif.Lemmas.SubHistory Verif.Lemmas.SubFlip Verif.Lemmas.SubSuspect
open Verif.Lemmas.SubInsert

set_option linter.unusedSectionVars false

variable {K : Type} [Field K] [LinearOrder K] [IsStrictOrderedRing K]

/-! ## The order -/

/-- Less, comparing the numbers first, and then the functions at the last place they differ. -/
def Lower (p q : K × (Nat → K)) : Prop :=
  p.1 < q.1 ∨ p.1 = q.1 ∧ ∃ n, p.2 n < q.2 n ∧ ∀ k, n < k → p.2 k = q.2 k

theorem lower_irrefl (p : K × (Nat → K)) : ¬ Lower p p := by
  rintro (h | ⟨_, n, h, _⟩) <;> exact lt_irrefl _ h

theorem lower_trans {p q r : K × (Nat → K)} (h1 : Lower p q) (h2 : Lower q r) : Lower p r := by
  rcases h1 with h1 | ⟨h1, n, a, a'⟩ <;> rcases h2 with h2 | ⟨h2, m, b, b'⟩
  · exact Or.inl (h1.trans h2)
  · exact Or.inl (h2 ▸ h1)
  · exact Or.inl (h1 ▸ h2)
  · refine Or.inr ⟨h1.trans h2, ?_⟩
    rcases lt_trichotomy n m with h | rfl | h
    · exact ⟨m, (a' m h) ▸ b, fun k hk => (a' k (h.trans hk)).trans (b' k hk)⟩
    · exact ⟨n, a.trans b, fun k hk => (a' k hk).trans (b' k hk)⟩
    · exact ⟨n, (b' n h) ▸ a, fun k hk => (a' k hk).trans (b' k (h.trans hk))⟩

/-- The barycentric coordinates of `x`, by the times of the corners. -/
def lam (yd : Bool) (τ : Pt K → Nat) (x o d t : Pt K) (n : Nat) : K :=
  (if n = τ o then area yd d t x / area yd o d t else 0) +
  (if n = τ d then area yd t o x / area yd o d t else 0) +
  (if n = τ t then area yd o d x / area yd o d t else 0)

theorem lam_cycle (yd : Bool) (τ : Pt K → Nat) (x o d t : Pt K) : lam yd τ x d t o = lam yd τ x o d t := by
  funext n
  unfold lam
  rw [show area yd d t o = area yd o d t from wedge_cycle yd o d t]
  ring

theorem lam_o (yd : Bool) (o d t td x : Pt K) :
    area yd d t x * area yd d o td - area yd td d x * area yd o d t = area yd d o x * area yd d t td := by
  unfold area wedge arrow; cases yd <;> simp <;> ring

theorem lam_d (yd : Bool) (o d t td x : Pt K) :
    area yd t o x * area yd d o td - area yd o td x * area yd o d t = area yd d o x * area yd t o td := by
  unfold area wedge arrow; cases yd <;> simp <;> ring

variable {yd : Bool} {τ : Pt K → Nat} {x : Pt K}

theorem cross_tie {o d t td : Pt K} (h1 : Turns yd o d t) (h2 : Turns yd d o td) (hp : area yd o d x = 0) :
    pw yd d o td x = pw yd o d t x ∧ lam yd τ x d o td = lam yd τ x o d t := by
  have w1 : 0 < area yd o d t := h1
  have w2 : 0 < area yd d o td := h2
  have n1 := w1.ne'
  have n2 := w2.ne'
  have hp' : area yd d o x = 0 := by rw [area_rev, hp]; ring
  constructor
  · have k := plucker yd o d td t x
    have e2 : inc yd d o td x = - inc yd o d td x := inc_rev _ _ _ _ _
    have e3 : area yd d o td = - area yd o d td := area_rev _ _ _ _
    have e4 : inc yd o d x td = - inc yd o d td x := inc_anti _ _ _ _ _
    rw [e3] at n2
    unfold pw
    rw [e2, e3]
    rw [e4, hp] at k
    generalize inc yd o d td x = I2 at *
    generalize inc yd o d t x = I3 at *
    generalize area yd o d t = T at *
    generalize area yd o d td = D at *
    have n3 : D ≠ 0 := fun h => n2 (by rw [h]; ring)
    field_simp
    linear_combination k
  · funext n
    have a := lam_o yd o d t td x
    have b := lam_d yd o d t td x
    rw [hp', zero_mul] at a b
    have e1 : area yd td d x / area yd d o td = area yd d t x / area yd o d t := by
      rw [div_eq_div_iff n2 n1]; linarith
    have e2 : area yd o td x / area yd d o td = area yd t o x / area yd o d t := by
      rw [div_eq_div_iff n2 n1]; linarith
    unfold lam
    rw [e1, e2, hp, hp']
    simp only [zero_div, ite_self]
    ring

theorem cross_lower {o d t td : Pt K} (h1 : Turns yd o d t) (h2 : Turns yd d o td)
    (hl : inc yd d o td t ≤ 0) (hp : area yd o d x < 0) (hod : τ o ≠ τ d)
    (hm : inc yd d o td t = 0 → τ t < max (τ o) (τ d) ∧ τ td < max (τ o) (τ d)) :
    Lower (pw yd d o td x, lam yd τ x d o td) (pw yd o d t x, lam yd τ x o d t) := by
  obtain ⟨p1, p2⟩ := pw_cross h1 h2 hl hp
  rcases lt_or_eq_of_le p1 with h | h
  · exact Or.inl h
  · have h0 : inc yd d o td t = 0 := by rw [inc_rev, p2 h]; ring
    obtain ⟨m1, m2⟩ := hm h0
    have w1 : 0 < area yd o d t := h1
    have w2 : 0 < area yd d o td := h2
    have hp' : 0 < area yd d o x := by rw [area_rev]; linarith
    have key : InCircle o d td t := by
      obtain ⟨m, e1, e2⟩ := exists_centre h2
      have e3 : inc yd d o td t = _ := inc_of_centre e1 e2
      rw [h0] at e3
      have e4 := (mul_eq_zero.1 e3.symm).resolve_right w2.ne'
      have kk : ∀ p q : Pt K, PseudoPolygon.dist2 p q = Spec.Planar.dist2 p q := by
        intro p q; unfold PseudoPolygon.dist2 Spec.Planar.dist2; ring
      refine ⟨m, ?_, ?_, ?_⟩ <;> simp only [kk] <;> linarith
    obtain ⟨c1, c2⟩ := convex_of_circle h1 h2 key
    have c1' : 0 < area yd t o td := by
      have : 0 < area yd td t o := c1
      have e : area yd t o td = area yd td t o := wedge_cycle yd td t o
      linarith
    have c2' : 0 < area yd d t td := by
      have : 0 < area yd t td d := c2
      have e : area yd t td d = area yd d t td := wedge_cycle yd d t td
      linarith
    have lo : area yd td d x / area yd d o td < area yd d t x / area yd o d t := by
      rw [div_lt_div_iff₀ w2 w1]
      have := lam_o yd o d t td x
      have := mul_pos hp' c2'
      linarith
    have ld : area yd o td x / area yd d o td < area yd t o x / area yd o d t := by
      rw [div_lt_div_iff₀ w2 w1]
      have := lam_d yd o d t td x
      have := mul_pos hp' c1'
      linarith
    refine Or.inr ⟨h, ?_⟩
    rcases lt_or_gt_of_ne hod with hlt | hlt
    · rw [max_eq_right hlt.le] at m1 m2
      refine ⟨τ d, ?_, ?_⟩
      · simp only [lam, if_true, if_neg (by omega : ¬ τ d = τ o), if_neg (by omega : ¬ τ d = τ td),
          if_neg (by omega : ¬ τ d = τ t), add_zero, zero_add]
        exact ld
      · intro k hk
        simp only [lam, if_neg (by omega : ¬ k = τ o), if_neg (by omega : ¬ k = τ d),
          if_neg (by omega : ¬ k = τ td), if_neg (by omega : ¬ k = τ t)]
    · rw [max_eq_left hlt.le] at m1 m2
      refine ⟨τ o, ?_, ?_⟩
      · simp only [lam, if_true, if_neg (by omega : ¬ τ o = τ d), if_neg (by omega : ¬ τ o = τ td),
          if_neg (by omega : ¬ τ o = τ t), add_zero, zero_add]
        exact lo
      · intro k hk
        simp only [lam, if_neg (by omega : ¬ k = τ o), if_neg (by omega : ¬ k = τ d),
          if_neg (by omega : ¬ k = τ td), if_neg (by omega : ¬ k = τ t)]

/-! ## The triangles -/

variable {f0 f1 f2 : Pt K} {s : Store (Pt K)} {z : E}

/-- The times of the points are different, and the edge between two triangles with one circle ends in the last
of the four corners. -/
structure Latest (yd : Bool) (s : Store (Pt K)) (z : E) (τ : Pt K → Nat) : Prop where
  inj : ∀ p q, Vertex s z p → Vertex s z q → τ p = τ q → p = q
  last : ∀ y o d t td, Connected s z y → FaceOf s y o d t → FaceOf s (sym y) d o td → Turns yd o d t →
    Turns yd d o td → inc yd d o td t = 0 → τ t < max (τ o) (τ d) ∧ τ td < max (τ o) (τ d)

/-- What is compared. -/
def val (yd : Bool) (s : Store (Pt K)) (τ : Pt K → Nat) (x : Pt K) (y : E) : K × (Nat → K) :=
  (pwE yd s x y, lam yd τ x (org s y) (org s (lnext s y)) (org s (lnext s (lnext s y))))

/-- On which side of the edge `x` is. -/
def side (yd : Bool) (s : Store (Pt K)) (x : Pt K) (y : E) : K := area yd (org s y) (org s (lnext s y)) x

theorem val_face (hT : Triangulated yd f0 f1 f2 s z) {y : E} (hy : Connected s z y) {o d t : Pt K}
    (hf : FaceOf s y o d t) : val yd s τ x y = (pw yd o d t x, lam yd τ x o d t) ∧ side yd s x y = area yd o d x := by
  obtain ⟨a, b, c, h⟩ := pwE_face hT hy (p := x) hf
  unfold val side
  rw [h, a, b, c]
  exact ⟨rfl, rfl⟩

theorem val_lnext (hT : Triangulated yd f0 f1 f2 s z) {y : E} (hy : Connected s z y) :
    val yd s τ x (lnext s y) = val yd s τ x y := by
  have hi := Reached.inv hT.reached
  obtain ⟨o, d, t, hf, _⟩ := hT.face y hy
  rw [(val_face hT hy hf).1, (val_face hT (lnext_connected hi hy) (face_rot hi hf)).1, pw_cycle, lam_cycle]

/-- `x` is inside the frame. -/
def Within (yd : Bool) (f0 f1 f2 x : Pt K) : Prop :=
  0 < area yd f0 f1 x ∧ 0 < area yd f1 f2 x ∧ 0 < area yd f2 f0 x

theorem within_side (hT : Triangulated yd f0 f1 f2 s z) (hx : Within yd f0 f1 f2 x) {y : E} (hy : Outside s z y)
    {o d t : Pt K} (hf : FaceOf s y d o t) : 0 < area yd o d x := by
  obtain ⟨h0, h1, h2⟩ := hx
  rcases outside_backwards (Reached.inv hT.reached) hT.outer hy hf with ⟨rfl, rfl, rfl⟩ | ⟨rfl, rfl, rfl⟩ | ⟨rfl, rfl, rfl⟩
  · exact h0
  · exact h2
  · exact h1

/-- An edge `x` is not to the right of is an inner one. -/
theorem side_inner (hT : Triangulated yd f0 f1 f2 s z) (hx : Within yd f0 f1 f2 x) {y : E} (hy : Connected s z y)
    (h : 0 ≤ side yd s x y) : Inner s z y := by
  refine ⟨hy, fun hO => ?_⟩
  obtain ⟨o, d, t, hf, _⟩ := hT.face y hy
  rw [(val_face (τ := fun _ => 0) hT hy hf).2] at h
  have := within_side hT hx hO hf
  rw [area_rev] at this
  linarith

/-- Crossing an edge. -/
theorem cross_edge (hT : Triangulated yd f0 f1 f2 s z) (hL : Local yd s z) (hτ : Latest yd s z τ)
    (hx : Within yd f0 f1 f2 x) {y : E} (hy : Inner s z y) (h : side yd s x y ≤ 0) :
    Inner s z (sym y) ∧ side yd s x (sym y) = - side yd s x y ∧
      (side yd s x y < 0 → Lower (val yd s τ x (sym y)) (val yd s τ x y)) ∧
      (side yd s x y = 0 → val yd s τ x (sym y) = val yd s τ x y) := by
  have hi := Reached.inv hT.reached
  obtain ⟨o, d, t, hf, ht⟩ := inner_face hT hy
  obtain ⟨td, hg⟩ := across hT hy.1 hf
  obtain ⟨v1, v2⟩ := val_face (τ := τ) (x := x) hT hy.1 hf
  obtain ⟨v3, v4⟩ := val_face (τ := τ) (x := x) hT hy.1.sym hg
  have e : side yd s x (sym y) = - side yd s x y := by rw [v4, v2, area_rev]
  have hin : Inner s z (sym y) := side_inner hT hx hy.1.sym (by rw [e]; linarith)
  have hgt := inner_turns hT hin hg
  rw [v2] at *
  rw [v1, v3]
  refine ⟨hin, e, fun h' => ?_, fun h' => ?_⟩
  · refine cross_lower ht hgt (hL y o d t td hy.1 hf hg ht hgt) h' ?_ (hτ.last y o d t td hy.1 hf hg ht hgt)
    intro h0
    exact (turns_ne ht).1 (hτ.inj o d ⟨y, hy.1, hf.2.1⟩ ⟨_, hy.1.sym, hg.2.1⟩ h0)
  · obtain ⟨a, b⟩ := cross_tie (τ := τ) ht hgt h'
    rw [a, b]

open Classical in
/-- The edges of triangles not above that of `y`. -/
noncomputable def below (yd : Bool) (s : Store (Pt K)) (z : E) (τ : Pt K → Nat) (x : Pt K) (y : E) : Finset E :=
  (edges s z \ tri s (sym z)).filter
    (fun w => val yd s τ x w = val yd s τ x y ∨ Lower (val yd s τ x w) (val yd s τ x y))

open Classical in
/-- What gets less. -/
noncomputable def rank (yd : Bool) (s : Store (Pt K)) (z : E) (τ : Pt K → Nat) (x : Pt K) (y : E) : Nat :=
  (below yd s z τ x y).card - if side yd s x y = 0 then 3 else 0

theorem mem_inner (hT : Triangulated yd f0 f1 f2 s z) {y : E} : y ∈ edges s z \ tri s (sym z) ↔ Inner s z y := by
  rw [Finset.mem_sdiff, mem_edges hT, ← outside_tri]; rfl

theorem tri_inner (hT : Triangulated yd f0 f1 f2 s z) {y w : E} (hy : Inner s z y) (hw : w ∈ tri s y) :
    Inner s z w ∧ val yd s τ x w = val yd s τ x y := by
  have h1 := inner_lnext hT hy
  unfold tri at hw
  simp only [Finset.mem_insert, Finset.mem_singleton] at hw
  rcases hw with rfl | rfl | rfl
  · exact ⟨hy, rfl⟩
  · exact ⟨h1, val_lnext hT hy.1⟩
  · exact ⟨inner_lnext hT h1, (val_lnext hT h1.1).trans (val_lnext hT hy.1)⟩

theorem tri_three (hT : Triangulated yd f0 f1 f2 s z) {y : E} (hy : Connected s z y) : (tri s y).card = 3 := by
  obtain ⟨o, d, t, hf, _⟩ := hT.face y hy
  exact tri_card (Reached.inv hT.reached) hf.1

theorem tri_disjoint (hT : Triangulated yd f0 f1 f2 s z) {y : E} (hy : Inner s z y) (hy' : Inner s z (sym y)) :
    Disjoint (tri s y) (tri s (sym y)) := by
  have hi := Reached.inv hT.reached
  obtain ⟨o, d, t, hf, ht⟩ := inner_face hT hy
  obtain ⟨td, hg⟩ := across hT hy.1 hf
  have hgt := inner_turns hT hy' hg
  obtain ⟨n1, n2, n3⟩ := turns_ne ht
  have f2 := face_rot hi hf
  have f3 := face_rot hi f2
  have g2 := face_rot hi hg
  have g3 := face_rot hi g2
  rw [Finset.disjoint_left]
  intro w hw hw'
  unfold tri at hw hw'
  simp only [Finset.mem_insert, Finset.mem_singleton] at hw hw'
  have no : ∀ {w a b c a' b' c'}, FaceOf s w a b c → FaceOf s w a' b' c' → Turns yd a b c →
      a = a' ∧ b = b' ∧ c = c' := fun h1 h2 _ => face_unique h1 h2
  rcases hw with rfl | rfl | rfl <;> rcases hw' with h | h | h
  · rw [h] at hf; exact n1 (face_unique hf hg).1
  · rw [h] at hf
    obtain ⟨a, b, c⟩ := face_unique hf g2
    exact n2 c.symm
  · rw [h] at hf
    obtain ⟨a, b, c⟩ := face_unique hf g3
    exact n3 c.symm
  · rw [h] at f2
    exact n3 (face_unique f2 hg).2.1.symm
  · rw [h] at f2
    exact n1 (face_unique f2 g2).1.symm
  · rw [h] at f2
    obtain ⟨a, b, c⟩ := face_unique f2 g3
    exact n2 b.symm
  · rw [h] at f3
    exact n2 (face_unique f3 hg).1.symm
  · rw [h] at f3
    exact n3 (face_unique f3 g2).1.symm
  · rw [h] at f3
    obtain ⟨a, b, c⟩ := face_unique f3 g3
    exact n1 b

theorem tri_below (hT : Triangulated yd f0 f1 f2 s z) {y : E} (hy : Inner s z y) :
    tri s y ⊆ below yd s z τ x y := by
  classical
  intro w hw
  obtain ⟨h1, h2⟩ := tri_inner (τ := τ) (x := x) hT hy hw
  unfold below
  rw [Finset.mem_filter]
  exact ⟨(mem_inner hT).2 h1, Or.inl h2⟩

/-- Crossing one of the other two sides of a triangle. -/
theorem rank_step (hT : Triangulated yd f0 f1 f2 s z) (hL : Local yd s z) (hτ : Latest yd s z τ)
    (hx : Within yd f0 f1 f2 x) {e y : E} (he : Inner s z e) (h0 : 0 ≤ side yd s x e) (hy : y ∈ tri s e)
    (h : side yd s x y ≤ 0) (hne : side yd s x e = 0 → side yd s x y ≠ 0) :
    rank yd s z τ x (sym y) + 3 ≤ rank yd s z τ x e := by
  classical
  obtain ⟨hyI, hv⟩ := tri_inner (τ := τ) (x := x) hT he hy
  obtain ⟨c1, c2, c3, c4⟩ := cross_edge hT hL hτ hx hyI h
  have three := tri_three hT he.1
  have sub3 := Finset.card_le_card (tri_below (τ := τ) (x := x) hT he)
  rcases lt_or_eq_of_le h with hlt | heq
  · have low := c3 hlt
    rw [hv] at low
    have hsub : below yd s z τ x (sym y) ⊆ below yd s z τ x e := by
      intro w hw
      unfold below at hw ⊢
      rw [Finset.mem_filter] at hw ⊢
      refine ⟨hw.1, Or.inr ?_⟩
      rcases hw.2 with h' | h'
      · rw [h']; exact low
      · exact lower_trans h' low
    have out : ∀ w, val yd s τ x w = val yd s τ x e → w ∉ below yd s z τ x (sym y) := by
      intro w hw hb
      unfold below at hb
      rw [Finset.mem_filter, hw] at hb
      rcases hb.2 with h' | h'
      · rw [← h'] at low; exact lower_irrefl _ low
      · exact lower_irrefl _ (lower_trans h' low)
    have hr : rank yd s z τ x (sym y) ≤ (below yd s z τ x (sym y)).card := Nat.sub_le _ _
    by_cases hz : side yd s x e = 0
    · obtain ⟨d1, d2, _, d4⟩ := cross_edge hT hL hτ hx he hz.le
      have ev := d4 hz
      have hd := tri_disjoint hT he d1
      have hsub2 : below yd s z τ x (sym y) ∪ (tri s e ∪ tri s (sym e)) ⊆ below yd s z τ x e := by
        refine Finset.union_subset hsub (Finset.union_subset (tri_below hT he) ?_)
        intro w hw
        have := tri_below (τ := τ) (x := x) hT d1 hw
        unfold below at this ⊢
        rw [ev] at this
        exact this
      have hdis : Disjoint (below yd s z τ x (sym y)) (tri s e ∪ tri s (sym e)) := by
        rw [Finset.disjoint_right]
        intro w hw
        rw [Finset.mem_union] at hw
        apply out
        rcases hw with hw | hw
        · exact (tri_inner hT he hw).2
        · exact (tri_inner hT d1 hw).2.trans ev
      have := Finset.card_le_card hsub2
      rw [Finset.card_union_of_disjoint hdis, Finset.card_union_of_disjoint hd, three, tri_three hT d1.1] at this
      unfold rank at hr ⊢
      rw [if_pos hz]
      omega
    · have hsub2 : below yd s z τ x (sym y) ∪ tri s e ⊆ below yd s z τ x e :=
        Finset.union_subset hsub (tri_below hT he)
      have hdis : Disjoint (below yd s z τ x (sym y)) (tri s e) := by
        rw [Finset.disjoint_right]
        intro w hw
        exact out w (tri_inner hT he hw).2
      have := Finset.card_le_card hsub2
      rw [Finset.card_union_of_disjoint hdis, three] at this
      unfold rank at hr ⊢
      rw [if_neg hz]
      omega
  · have ev : val yd s τ x (sym y) = val yd s τ x e := (c4 heq).trans hv
    have hb : below yd s z τ x (sym y) = below yd s z τ x e := by unfold below; rw [ev]
    have hz : side yd s x e ≠ 0 := fun h' => hne h' heq
    unfold rank
    rw [hb, c2, heq, neg_zero, if_pos rfl, if_neg hz]
    omega

theorem rank_le (hT : Triangulated yd f0 f1 f2 s z) (y : E) : rank yd s z τ x y + 3 ≤ (edges s z).card := by
  classical
  have h1 : rank yd s z τ x y ≤ (edges s z \ tri s (sym z)).card := by
    unfold rank below
    exact le_trans (Nat.sub_le _ _) (Finset.card_filter_le _ _)
  have hs : tri s (sym z) ⊆ edges s z := by
    intro w hw
    have hi := Reached.inv hT.reached
    rw [mem_edges hT]
    unfold tri at hw
    simp only [Finset.mem_insert, Finset.mem_singleton] at hw
    rcases hw with rfl | rfl | rfl
    · exact Connected.refl.sym
    · exact lnext_connected hi Connected.refl.sym
    · exact lnext_connected hi (lnext_connected hi Connected.refl.sym)
  rw [Finset.card_sdiff_of_subset hs, tri_three hT Connected.refl.sym] at h1
  have := Finset.card_le_card hs
  rw [tri_three hT Connected.refl.sym] at this
  omega

/-! ## The search -/

/-- One step. -/
theorem test_step (hT : Triangulated yd f0 f1 f2 s z) (hL : Local yd s z) (hτ : Latest yd s z τ)
    (hx : Within yd f0 f1 f2 x) {e : E} (he : Inner s z e) (h0 : 0 ≤ side yd s x e) :
    (testEdge yd s x e).2 = true ∨ ((testEdge yd s x e).2 = false ∧ Inner s z (testEdge yd s x e).1 ∧
      0 ≤ side yd s x (testEdge yd s x e).1 ∧
      rank yd s z τ x (testEdge yd s x e).1 + 3 ≤ rank yd s z τ x e) := by
  have hi := Reached.inv hT.reached
  have ke := (connected_primal hi he.1).2 hT.primal
  obtain ⟨o, d, t, hf, ht⟩ := inner_face hT he
  have hd := face_dest hi hT.agree ke hf
  have I1 := inner_lnext hT he
  have I2 := inner_lnext hT I1
  have f1' := face_rot hi hf
  have f2' := face_rot hi f1'
  have v0 := (val_face (τ := τ) (x := x) hT he.1 hf).2
  have v1 := (val_face (τ := τ) (x := x) hT I1.1 f1').2
  have v2 := (val_face (τ := τ) (x := x) hT I2.1 f2').2
  have eo := onext_of_three hi hf.1
  have ed := dprev_eq s e
  have d1 : orig s (dprev s e) = some t ∧ dest s (dprev s e) = some d := by
    rw [ed]
    refine ⟨?_, ?_⟩
    · exact face_dest hi hT.agree ((inv_lnext_kind hi _).2 ke) f1'
    · unfold dest; rw [sym_sym]; exact hf.2.2.1
  have d2 : orig s (onext s e) = some o ∧ dest s (onext s e) = some t := by
    rw [eo]
    refine ⟨?_, ?_⟩
    · exact face_dest hi hT.agree ((inv_lnext_kind hi _).2 ((inv_lnext_kind hi _).2 ke)) f2'
    · unfold dest; rw [sym_sym]; exact hf.2.2.2
  unfold testEdge
  rw [hf.2.1, hd]
  by_cases hend : (ptEqual x (some o) || ptEqual x (some d)) = true
  · rw [if_pos hend]; exact Or.inl rfl
  rw [if_neg hend]
  have hne : x ≠ o ∧ x ≠ d := by
    rw [Bool.or_eq_true, not_or] at hend
    unfold ptEqual at hend
    simpa using hend
  rw [if_neg (by rw [rightOf_iff hf.2.1 hd]; rw [v0] at h0; exact not_lt.2 h0)]
  have r2 := rightOf_iff (yd := yd) (x := x) d2.1 d2.2
  have r1 := rightOf_iff (yd := yd) (x := x) d1.1 d1.2
  by_cases g2 : (!rightOf yd s x (onext s e)) = true
  · rw [if_pos g2]
    right
    have a2 : area yd t o x ≤ 0 := by
      rw [area_rev]
      have : ¬ area yd o t x < 0 := fun h => by rw [r2.2 h] at g2; cases g2
      linarith
    have hs : side yd s x (lnext s (lnext s e)) ≤ 0 := by rw [v2]; exact a2
    obtain ⟨c1, c2, _⟩ := cross_edge hT hL hτ hx I2 hs
    rw [eo]
    refine ⟨rfl, c1, by rw [c2]; linarith, ?_⟩
    refine rank_step hT hL hτ hx he h0 (by unfold tri; simp) hs ?_
    rw [v0, v2]
    intro h1 h2
    have h2' : area yd o t x = 0 := by rw [area_rev, h2]; ring
    refine hne.1 (two_zero (turns_cycle (turns_cycle ht)) ?_ ?_)
    · exact h2
    · exact h1
  rw [if_neg g2]
  by_cases g1 : (!rightOf yd s x (dprev s e)) = true
  · rw [if_pos g1]
    right
    have a1 : area yd d t x ≤ 0 := by
      rw [area_rev]
      have : ¬ area yd t d x < 0 := fun h => by rw [r1.2 h] at g1; cases g1
      linarith
    have hs : side yd s x (lnext s e) ≤ 0 := by rw [v1]; exact a1
    obtain ⟨c1, c2, _⟩ := cross_edge hT hL hτ hx I1 hs
    rw [ed]
    refine ⟨rfl, c1, by rw [c2]; linarith, ?_⟩
    refine rank_step hT hL hτ hx he h0 (by unfold tri; simp) hs ?_
    rw [v0, v1]
    intro h1 h2
    exact hne.2 (two_zero ht h1 h2)
  rw [if_neg g1]
  exact Or.inl rfl

theorem find_loop (hT : Triangulated yd f0 f1 f2 s z) (hL : Local yd s z) (hτ : Latest yd s z τ)
    (hx : Within yd f0 f1 f2 x) {se : E} : ∀ (fuel : Nat) (e : E), Inner s z e → 0 ≤ side yd s x e →
      rank yd s z τ x e ≤ 3 * fuel + 2 →
      (∀ e', 0 ≤ side yd s x e' → rank yd s z τ x e' < rank yd s z τ x e → e' ≠ se) →
      ∃ y, locateLoop yd s x se fuel e = some y := by
  intro fuel
  induction fuel with
  | zero =>
    intro e he h0 hr _
    rcases test_step hT hL hτ hx he h0 with h | ⟨_, _, _, h⟩
    · refine ⟨(testEdge yd s x e).1, ?_⟩
      unfold locateLoop
      simp only [h, if_true]
    · omega
  | succ n ih =>
    intro e he h0 hr hse
    rcases test_step hT hL hτ hx he h0 with h | ⟨h1, h2, h3, h4⟩
    · refine ⟨(testEdge yd s x e).1, ?_⟩
      unfold locateLoop
      simp only [h, if_true]
    · obtain ⟨y, hy⟩ := ih _ h2 h3 (by omega) (fun e' g1 g2 => hse e' g1 (by omega))
      refine ⟨y, ?_⟩
      unfold locateLoop
      simp only [h1]
      rw [if_neg (by simp), if_neg (hse _ h3 (by omega))]
      exact hy

/-- The search finds the point. -/
theorem locate_found (hT : Triangulated yd f0 f1 f2 s z) (hL : Local yd s z) (hτ : Latest yd s z τ)
    (hx : Within yd f0 f1 f2 x) {limit : Nat} (hn : (edges s z).card ≤ 3 * limit + 2) (hne : x ≠ f0) :
    ∃ y, locate yd s z x limit = some y := by
  have hi := Reached.inv hT.reached
  have hz : Inner s z z := by
    have := outside_sym hT (Connected.refl.sym) (Or.inl rfl)
    rw [sym_sym] at this
    exact ⟨.refl, this⟩
  have horig : orig s z = some f0 := by
    have := face_dest hi hT.agree ((connected_primal hi Connected.refl.sym).2 hT.primal) hT.outer
    unfold dest at this
    rwa [sym_sym] at this
  have hS : Star s z f0 := by
    refine ⟨hT.primal, fun y hy => ?_⟩
    have hc : Connected s z y := around_connected .refl hy
    have ky := (connected_primal hi hc).2 hT.primal
    obtain ⟨o, d, t, hf, ht⟩ := hT.face y hc
    have h1 : orig s y = some f0 := by rw [← horig]; exact hT.agree z y hT.primal hy
    obtain rfl := Option.some.inj (hf.2.1.symm.trans h1)
    refine ⟨h1, d, face_dest hi hT.agree ky hf, ?_⟩
    rcases ht with ht | hO
    · exact (turns_ne ht).1.symm
    · obtain ⟨n1, n2, n3⟩ := turns_ne hT.frame
      rcases outside_backwards hi hT.outer hO hf with ⟨a, b, c⟩ | ⟨a, b, c⟩ | ⟨a, b, c⟩
      · exact absurd a n1
      · rw [b]; exact n3.symm
      · exact absurd a n3
  obtain ⟨L, hLr⟩ := around_onceRound hi z
  obtain ⟨w, r, hw, hr, hfs⟩ := resolve_ends (yd := yd) hne hS hLr
  have heq : resolveEdge (fun p q => decide (p = q)) yd s z x = r := by
    unfold resolveEdge
    rw [horig]
    simp only
    rw [if_neg (by simpa using fun h => hne h.symm), resolve_walk hi hT.alloc hS hLr, hfs]
    rfl
  have hcand : ∃ se', r.candidate = some se' := by
    unfold out at hr
    obtain ⟨_, a, ha, _⟩ := hS.2 w hw
    obtain ⟨_, b, hb, _⟩ := hS.2 _ hw.next
    simp only [ha, hb] at hr
    cases hst : resolveStep yd f0 a b x <;> rw [hst] at hr <;> cases hr <;> exact ⟨_, rfl⟩
  obtain ⟨se', hse'⟩ := hcand
  have hc : Connected s z se' := around_connected .refl (resolve_around (heq ▸ hse'))
  unfold locate
  rw [heq, hse']
  simp only
  have hle := fun y => rank_le (τ := τ) (x := x) hT y
  rcases le_or_gt 0 (side yd s x se') with h | h
  · refine find_loop hT hL hτ hx _ _ (side_inner hT hx hc h) h (by have := hle se'; omega) ?_
    rintro e' h1 h2 rfl
    exact lt_irrefl _ h2
  · have hsy : side yd s x (sym se') = - side yd s x se' := by
      obtain ⟨o, d, t, hf, _⟩ := hT.face se' hc
      obtain ⟨td, hg⟩ := across hT hc hf
      rw [(val_face (τ := τ) hT hc hf).2, (val_face (τ := τ) hT hc.sym hg).2, area_rev]
    have hI : Inner s z (sym se') := side_inner hT hx hc.sym (by rw [hsy]; linarith)
    have hrank : 3 ≤ (edges s z).card := by have := hle se'; omega
    have htest : testEdge yd s x se' = (sym se', false) ∨ (testEdge yd s x se').2 = true := by
      obtain ⟨o, d, t, hf, _⟩ := hT.face se' hc
      have ks := (connected_primal hi hc).2 hT.primal
      have hd := face_dest hi hT.agree ks hf
      unfold testEdge
      split_ifs with h1 h2
      · exact Or.inr rfl
      · exact Or.inl rfl
      all_goals
        exfalso
        apply h2
        rw [rightOf_iff hf.2.1 hd]
        rw [(val_face (τ := τ) hT hc hf).2] at h
        exact h
    rcases htest with htest | htest
    · cases limit with
      | zero => exfalso; have : (edges s z).card ≤ 2 := by omega
                omega
      | succ n =>
        obtain ⟨y, hy⟩ := find_loop (se := se') hT hL hτ hx n _ hI (by rw [hsy]; linarith)
          (by have := hle (sym se'); omega) (by
          rintro e' h1 _ rfl
          linarith)
        refine ⟨y, ?_⟩
        unfold locateLoop
        rw [htest]
        simp only
        rw [if_neg (by simp), if_neg (sym_ne se')]
        exact hy
    · refine ⟨(testEdge yd s x se').1, ?_⟩
      unfold locateLoop
      simp only [htest, if_true]

end Verif.Lemmas.SubFind
