import Verif.Lemmas.Circle

/-!
# Helper lemmas: a subdivision whose edges are all locally Delaunay is Delaunay
-/

namespace Verif.Lemmas.SubDelaunay
open Verif.Quad Verif.Spec.Quad Verif.Lemmas.Quad Verif.Spec.Subdivision Verif.Subdivision
open Verif.Resolve Verif.Spec.Resolve Verif.Lemmas.Resolve Verif.Lemmas.SubLocate Verif.Lemmas.SubTables
open Verif.Lemmas.SubFan Verif.Lemmas.SubWalk Verif.Lemmas.SubMesh Verif.Lemmas.SubCover Verif.Lemmas.Circle

set_option linter.unusedSectionVars false

variable {K : Type} [Field K] [LinearOrder K] [IsStrictOrderedRing K]
variable {yd : Bool} {f0 f1 f2 : Pt K} {s : Store (Pt K)} {z : E}

/-- An edge whose left face is not the outside. -/
def Inner (s : Store (Pt K)) (z y : E) : Prop := Connected s z y ∧ ¬ Outside s z y

/-- `p` is in the frame or on its border. -/
def InFrame (yd : Bool) (f0 f1 f2 p : Pt K) : Prop :=
  0 ≤ area yd f0 f1 p ∧ 0 ≤ area yd f1 f2 p ∧ 0 ≤ area yd f2 f0 p

/-- No edge between two triangles has the one corner within the circle of the other. -/
def Local (yd : Bool) (s : Store (Pt K)) (z : E) : Prop :=
  ∀ y o d t td, Connected s z y → FaceOf s y o d t → FaceOf s (sym y) d o td → Turns yd o d t → Turns yd d o td →
    inc yd d o td t ≤ 0

/-- The power of `p` for the left face of `y`. -/
def pwE (yd : Bool) (s : Store (Pt K)) (p : Pt K) (y : E) : K :=
  pw yd (org s y) (org s (lnext s y)) (org s (lnext s (lnext s y))) p

theorem pwE_face (hT : Triangulated yd f0 f1 f2 s z) {y : E} (hy : Connected s z y) {o d t p : Pt K}
    (hf : FaceOf s y o d t) : org s y = o ∧ org s (lnext s y) = d ∧ org s (lnext s (lnext s y)) = t ∧
      pwE yd s p y = pw yd o d t p := by
  have hi := Reached.inv hT.reached
  have ky := (connected_primal hi hy).2 hT.primal
  have e1 : ∀ {y : E} {o d t : Pt K}, Primal y → FaceOf s y o d t → org s y = o := by
    intro y o d t ky hf
    refine org_eq ?_
    have := hf.2.1
    unfold orig at this
    simpa [ky] using this
  have k1 := (inv_lnext_kind hi _).2 ky
  have k2 := (inv_lnext_kind hi _).2 k1
  have a := e1 ky hf
  have b := e1 k1 (face_rot hi hf)
  have c := e1 k2 (face_rot hi (face_rot hi hf))
  refine ⟨a, b, c, ?_⟩
  unfold pwE; rw [a, b, c]

theorem inner_face (hT : Triangulated yd f0 f1 f2 s z) {y : E} (hy : Inner s z y) :
    ∃ o d t, FaceOf s y o d t ∧ Turns yd o d t := by
  obtain ⟨o, d, t, hf, ht⟩ := hT.face y hy.1
  exact ⟨o, d, t, hf, ht.resolve_right hy.2⟩

theorem inner_turns (hT : Triangulated yd f0 f1 f2 s z) {y : E} (hy : Inner s z y) {o d t : Pt K}
    (hf : FaceOf s y o d t) : Turns yd o d t := by
  obtain ⟨o', d', t', hf', ht⟩ := inner_face hT hy
  obtain ⟨rfl, rfl, rfl⟩ := face_unique hf hf'
  exact ht

theorem outside_lnext (hT : Triangulated yd f0 f1 f2 s z) {y : E} (h : Outside s z (lnext s y)) :
    Outside s z y := by
  have hi := Reached.inv hT.reached
  have h3 := lnext3 hT (y := sym z) Connected.refl.sym
  rcases h with h | h | h
  · right; right; apply lnext_inj hi; rw [h, h3]
  · left; exact lnext_inj hi h
  · right; left; exact lnext_inj hi h

theorem inner_lnext (hT : Triangulated yd f0 f1 f2 s z) {y : E} (hy : Inner s z y) : Inner s z (lnext s y) :=
  ⟨lnext_connected (Reached.inv hT.reached) hy.1, fun h => hy.2 (outside_lnext hT h)⟩

/-- The face on the other side. -/
theorem across (hT : Triangulated yd f0 f1 f2 s z) {y : E} (hy : Connected s z y) {o d t : Pt K}
    (hf : FaceOf s y o d t) : ∃ td, FaceOf s (sym y) d o td := by
  have hi := Reached.inv hT.reached
  have ky := (connected_primal hi hy).2 hT.primal
  obtain ⟨a, b, c, hg, _⟩ := hT.face (sym y) hy.sym
  have h1 := face_dest hi hT.agree ky hf
  have h2 := face_dest hi hT.agree ((primal_sym y).2 ky) hg
  unfold dest at h1 h2
  rw [sym_sym, hf.2.1] at h2
  rw [hg.2.1] at h1
  obtain rfl := Option.some.inj h1
  obtain rfl := Option.some.inj h2
  exact ⟨c, hg⟩

theorem outside_side (hT : Triangulated yd f0 f1 f2 s z) {y : E} (hy : Outside s z y) {o d t p : Pt K}
    (hf : FaceOf s y d o t) (hp : InFrame yd f0 f1 f2 p) : 0 ≤ area yd o d p := by
  obtain ⟨h0, h1, h2⟩ := hp
  rcases outside_backwards (Reached.inv hT.reached) hT.outer hy hf with ⟨rfl, rfl, rfl⟩ | ⟨rfl, rfl, rfl⟩ | ⟨rfl, rfl, rfl⟩
  · exact h0
  · exact h2
  · exact h1

theorem outside_sym (hT : Triangulated yd f0 f1 f2 s z) {y : E} (hc : Connected s z y) (hy : Outside s z y) :
    ¬ Outside s z (sym y) := by
  intro hs
  obtain ⟨o, d, t, hf, _⟩ := hT.face y hc
  obtain ⟨td, hg⟩ := across hT hc hf
  have hi := Reached.inv hT.reached
  obtain ⟨n1, n2, n3⟩ := turns_ne hT.frame
  have b1 := outside_backwards hi hT.outer hy hf
  have b2 := outside_backwards hi hT.outer hs hg
  rcases b1 with ⟨rfl, rfl, rfl⟩ | ⟨rfl, rfl, rfl⟩ | ⟨rfl, rfl, rfl⟩ <;>
    rcases b2 with ⟨h1, h2, _⟩ | ⟨h1, h2, _⟩ | ⟨h1, h2, _⟩ <;>
    first
    | exact n1 h1
    | exact n1 h1.symm
    | exact n2 h1
    | exact n2 h1.symm
    | exact n3 h1
    | exact n3 h1.symm
    | exact n1 h2
    | exact n1 h2.symm
    | exact n2 h2
    | exact n2 h2.symm
    | exact n3 h2
    | exact n3 h2.symm

/-- The edges from corners on the circle of `y`'s face to the right of `y`. -/
noncomputable def behind (yd : Bool) (s : Store (Pt K)) (z y : E) : Finset E :=
  (edges s z).filter (fun e =>
    inc yd (org s y) (org s (lnext s y)) (org s (lnext s (lnext s y))) (org s e) = 0 ∧
      area yd (org s y) (org s (lnext s y)) (org s e) < 0)

/-- Every point of the frame is in one of the triangles for which its power is least. -/
theorem walk (hT : Triangulated yd f0 f1 f2 s z) (hL : Local yd s z) {p : Pt K} (hp : InFrame yd f0 f1 f2 p)
    {y0 : E} (hy0 : Inner s z y0) :
    ∃ y o d t, Inner s z y ∧ FaceOf s y o d t ∧ 0 ≤ area yd o d p ∧ 0 ≤ area yd d t p ∧ 0 ≤ area yd t o p ∧
      pw yd o d t p ≤ pwE yd s p y0 := by
  classical
  have hi := Reached.inv hT.reached
  have memI : ∀ {y}, y ∈ (edges s z).filter (fun y => ¬ Outside s z y) ↔ Inner s z y := by
    intro y; rw [Finset.mem_filter, mem_edges hT]; rfl
  obtain ⟨ym, hm, hmin⟩ := Finset.exists_min_image ((edges s z).filter (fun y => ¬ Outside s z y)) (pwE yd s p)
    ⟨y0, memI.2 hy0⟩
  rw [memI] at hm
  have hmin : ∀ y, Inner s z y → pwE yd s p ym ≤ pwE yd s p y := fun y hy => hmin y (memI.2 hy)
  have hrot : ∀ y, Inner s z y → pwE yd s p (lnext s y) = pwE yd s p y := by
    intro y hy
    obtain ⟨o, d, t, hf, ht⟩ := inner_face hT hy
    rw [(pwE_face hT hy.1 hf).2.2.2, (pwE_face hT (lnext_connected hi hy.1) (face_rot hi hf)).2.2.2, pw_cycle]
  -- those of least power that have `p` to the right
  set R := (edges s z).filter (fun y => Inner s z y ∧ pwE yd s p y = pwE yd s p ym ∧
    area yd (org s y) (org s (lnext s y)) p < 0) with hR
  have memR : ∀ {y}, y ∈ R ↔ Inner s z y ∧ pwE yd s p y = pwE yd s p ym ∧
    area yd (org s y) (org s (lnext s y)) p < 0 := by
    intro y; rw [hR, Finset.mem_filter, mem_edges hT]
    exact ⟨fun h => h.2, fun h => ⟨h.1.1, h⟩⟩
  by_cases hne : R.Nonempty
  · obtain ⟨y, hy, hymin⟩ := Finset.exists_min_image R (fun y => (behind yd s z y).card) hne
    obtain ⟨hyI, hyp, hya⟩ := memR.1 hy
    obtain ⟨o, d, t, hf, ht⟩ := inner_face hT hyI
    obtain ⟨td, hg⟩ := across hT hyI.1 hf
    obtain ⟨eo, ed, et, epw⟩ := pwE_face hT hyI.1 (p := p) hf
    rw [eo, ed] at hya
    have hsI : Inner s z (sym y) := by
      refine ⟨hyI.1.sym, fun ho => ?_⟩
      have := outside_side hT ho hg hp
      linarith
    have ht2 := inner_turns hT hsI hg
    obtain ⟨es1, es2, es3, espw⟩ := pwE_face hT hsI.1 (p := p) hg
    obtain ⟨hle, heq⟩ := pw_cross ht ht2 (hL y o d t td hyI.1 hf hg ht ht2) hya
    have h0 : inc yd o d td t = 0 := by
      refine heq (le_antisymm hle ?_)
      rw [← epw, ← espw, hyp]; exact hmin _ hsI
    have hspw : pwE yd s p (sym y) = pwE yd s p ym := by
      refine le_antisymm ?_ (hmin _ hsI)
      rw [← hyp, espw, epw]; exact hle
    have w2 : area yd o d td < 0 := by
      have : 0 < area yd d o td := ht2
      rw [area_rev] at this; linarith
    have I1 := inner_lnext hT hsI
    have I2 := inner_lnext hT I1
    have g1 := face_rot hi hg
    have g2 := face_rot hi g1
    obtain ⟨a1, a2, a3, a4⟩ := pwE_face hT I1.1 (p := p) g1
    obtain ⟨b1, b2, b3, b4⟩ := pwE_face hT I2.1 (p := p) g2
    have sub1 : ∀ y', Inner s z y' → (∀ v, inc yd (org s y') (org s (lnext s y')) (org s (lnext s (lnext s y'))) v = 0 →
        area yd (org s y') (org s (lnext s y')) v < 0 → inc yd o d td v = 0 ∧ area yd o d v < 0) →
        ¬ area yd (org s y') (org s (lnext s y')) td < 0 → y' ∉ R := by
      intro y' hy' h1 h2 hin
      have := hymin y' hin
      refine absurd this (not_le.2 (Finset.card_lt_card ?_))
      rw [Finset.ssubset_iff_of_subset]
      · refine ⟨lnext s (lnext s (sym y)), ?_, ?_⟩
        · unfold behind
          rw [Finset.mem_filter, mem_edges hT, eo, ed, et, es3]
          refine ⟨I2.1, same_circle h0 (inc_corner yd o d td).2.2 w2.ne, w2⟩
        · unfold behind
          rw [Finset.mem_filter, es3]
          exact fun h => h2 h.2.2
      · intro e he
        unfold behind at *
        rw [Finset.mem_filter] at *
        rw [eo, ed, et]
        obtain ⟨k1, k2⟩ := h1 _ he.2.1 he.2.2
        exact ⟨he.1, same_circle h0 k1 w2.ne, k2⟩
    have n1 : lnext s (sym y) ∉ R := by
      refine sub1 _ I1 ?_ ?_
      · rw [a1, a2, a3]
        intro v hv ha
        have hv' : inc yd o d td v = 0 := by
          have e1 := inc_cycle yd o td d v
          have e2 := inc_rev yd d o td v
          have e3 := inc_cycle yd d o td v
          have e4 := inc_cycle yd td d o v
          linarith
        exact ⟨hv', right_first hv' w2 ha⟩
      · rw [a1, a2, (area_self yd o td).2]; exact lt_irrefl _
    have n2 : lnext s (lnext s (sym y)) ∉ R := by
      refine sub1 _ I2 ?_ ?_
      · rw [b1, b2, b3]
        intro v hv ha
        have hv' : inc yd o d td v = 0 := by
          have e1 := inc_cycle yd td d o v
          have e2 := inc_rev yd d o td v
          have e3 := inc_cycle yd d o td v
          have e4 := inc_cycle yd o td d v
          linarith
        exact ⟨hv', right_second hv' w2 ha⟩
      · rw [b1, b2, (area_self yd td d).1]; exact lt_irrefl _
    refine ⟨sym y, d, o, td, hsI, hg, ?_, ?_, ?_, ?_⟩
    · rw [area_rev]; linarith
    · by_contra h
      refine n1 (memR.2 ⟨I1, (hrot _ hsI).trans hspw, ?_⟩)
      rw [a1, a2]; exact not_le.1 h
    · by_contra h
      refine n2 (memR.2 ⟨I2, (hrot _ I1).trans ((hrot _ hsI).trans hspw), ?_⟩)
      rw [b1, b2]; exact not_le.1 h
    · rw [← espw, hspw]; exact hmin _ hy0
  · obtain ⟨o, d, t, hf, ht⟩ := inner_face hT hm
    have I1 := inner_lnext hT hm
    have I2 := inner_lnext hT I1
    have g1 := face_rot hi hf
    have g2 := face_rot hi g1
    obtain ⟨e1, e2, e3, e4⟩ := pwE_face hT hm.1 (p := p) hf
    obtain ⟨a1, a2, a3, a4⟩ := pwE_face hT I1.1 (p := p) g1
    obtain ⟨b1, b2, b3, b4⟩ := pwE_face hT I2.1 (p := p) g2
    have no : ∀ y, y ∉ R := fun y hy => hne ⟨y, hy⟩
    refine ⟨ym, o, d, t, hm, hf, ?_, ?_, ?_, ?_⟩
    · by_contra h
      refine no ym (memR.2 ⟨hm, rfl, ?_⟩)
      rw [e1, e2]; exact not_le.1 h
    · by_contra h
      refine no _ (memR.2 ⟨I1, hrot _ hm, ?_⟩)
      rw [a1, a2]; exact not_le.1 h
    · by_contra h
      refine no _ (memR.2 ⟨I2, (hrot _ I1).trans (hrot _ hm), ?_⟩)
      rw [b1, b2]; exact not_le.1 h
    · rw [← e4]; exact hmin _ hy0

theorem small (a c : K) (h : 0 < a) : ∃ δ > 0, ∀ ε, 0 < ε → ε < δ → 0 < a + ε * c := by
  refine ⟨a / (|c| + 1), by positivity, fun ε h0 h1 => ?_⟩
  rw [lt_div_iff₀ (by positivity)] at h1
  have := neg_abs_le c
  nlinarith

/-- A point a little way off from `v`, towards `q` and `r`. -/
def nudge (v q r : Pt K) (l ε : K) : Pt K :=
  (v.1 + ε * ((q.1 - v.1) + l * (r.1 - v.1)), v.2 + ε * ((q.2 - v.2) + l * (r.2 - v.2)))

theorem area_nudge (yd : Bool) (a b v q r : Pt K) (l ε : K) : area yd a b (nudge v q r l ε) =
    area yd a b v + ε * ((area yd a b q - area yd a b v) + l * (area yd a b r - area yd a b v)) := by
  unfold nudge area wedge arrow; cases yd <;> simp <;> ring

/-- Sides that have `v` on their left have the points near `v` on their left. -/
theorem near (yd : Bool) (v q r : Pt K) (l : K) (L : List (Pt K × Pt K)) (hL : ∀ ab ∈ L, 0 < area yd ab.1 ab.2 v) :
    ∃ δ > 0, ∀ ε, 0 < ε → ε < δ → ∀ ab ∈ L, 0 < area yd ab.1 ab.2 (nudge v q r l ε) := by
  induction L with
  | nil => exact ⟨1, one_pos, fun _ _ _ _ h => absurd h List.not_mem_nil⟩
  | cons ab L ih =>
    obtain ⟨δ, hd, ih⟩ := ih (fun x hx => hL x (List.mem_cons_of_mem _ hx))
    obtain ⟨δ', hd', h'⟩ := small _ ((area yd ab.1 ab.2 q - area yd ab.1 ab.2 v) +
      l * (area yd ab.1 ab.2 r - area yd ab.1 ab.2 v)) (hL ab List.mem_cons_self)
    refine ⟨min δ δ', lt_min hd hd', fun ε h0 h1 x hx => ?_⟩
    rcases List.mem_cons.1 hx with rfl | hx
    · rw [area_nudge]; exact h' ε h0 (lt_of_lt_of_le h1 (min_le_right _ _))
    · exact ih ε h0 (lt_of_lt_of_le h1 (min_le_left _ _)) x hx

/-- Points of the face with the corner `v` near `v`. -/
theorem near_corner (hT : Triangulated yd f0 f1 f2 s z) {y : E} (hy : Inner s z y) {v q r : Pt K}
    (hf : FaceOf s y v q r) {l : K} (hl : 0 < l) :
    ∃ δ > 0, ∀ ε, 0 < ε → ε < δ → InFace yd s y (nudge v q r l ε) := by
  have ht : 0 < area yd v q r := inner_turns hT hy hf
  have e1 : area yd q r v = area yd v q r := wedge_cycle yd v q r
  obtain ⟨δ, hd, h⟩ := near yd v q r l [(q, r)] (by simpa [e1] using ht)
  refine ⟨δ, hd, fun ε h0 h1 => ⟨v, q, r, hf, ?_, h ε h0 h1 (q, r) (by simp), ?_⟩⟩
  · rw [area_nudge, (area_self yd v q).1, (area_self yd v q).2]
    have := mul_pos h0 (mul_pos hl ht)
    linarith
  · have e2 : area yd r v q = area yd v q r := by rw [← e1]; exact wedge_cycle yd q r v
    rw [area_nudge, (area_self yd r v).1, (area_self yd r v).2, e2]
    have := mul_pos h0 ht
    linarith

/-- Every point of the subdivision is a corner of a triangle. -/
theorem vertex_inner (hT : Triangulated yd f0 f1 f2 s z) {v : Pt K} (hv : Vertex s z v) :
    ∃ y q r, Inner s z y ∧ FaceOf s y v q r := by
  have hi := Reached.inv hT.reached
  obtain ⟨e, hc, ho⟩ := hv
  obtain ⟨o, d, t, hf, _⟩ := hT.face e hc
  obtain rfl := Option.some.inj (ho.symm.trans hf.2.1)
  by_cases hO : Outside s z e
  · obtain ⟨td, hg⟩ := across hT hc hf
    exact ⟨_, _, _, inner_lnext hT ⟨hc.sym, outside_sym hT hc hO⟩, face_rot hi hg⟩
  · exact ⟨_, _, _, ⟨hc, hO⟩, hf⟩

theorem inFace_inFrame (hT : Triangulated yd f0 f1 f2 s z) {y : E} (hy : Connected s z y) {p : Pt K}
    (h : InFace yd s y p) : InFrame yd f0 f1 f2 p := by
  have := (good (p := p) hT.frame).2.1 (inFace_frame hT hy h)
  exact this

/-- The points of the subdivision are in the frame. -/
theorem vertex_inFrame (hT : Triangulated yd f0 f1 f2 s z) {v : Pt K} (hv : Vertex s z v) :
    InFrame yd f0 f1 f2 v := by
  obtain ⟨y, q, r, hy, hf⟩ := vertex_inner hT hv
  obtain ⟨δ, hd, hn⟩ := near_corner hT hy hf one_pos
  have side : ∀ a b : Pt K, (∀ p, InFrame yd f0 f1 f2 p → 0 ≤ area yd a b p) → 0 ≤ area yd a b v := by
    intro a b h
    by_contra hc
    obtain ⟨δ', hd', hn'⟩ := near yd v q r 1 [(b, a)] (by
      intro ab hab
      rw [List.mem_singleton] at hab; subst hab
      show 0 < area yd b a v
      rw [area_rev]; linarith)
    have h0 : 0 < min δ δ' / 2 := half_pos (lt_min hd hd')
    have h1 : min δ δ' / 2 < min δ δ' := half_lt_self (lt_min hd hd')
    have h2 := hn' _ h0 (lt_of_lt_of_le h1 (min_le_right _ _)) (b, a) (by simp)
    have h3 := h _ (inFace_inFrame hT hy.1 (hn _ h0 (lt_of_lt_of_le h1 (min_le_left _ _))))
    have h2 : 0 < area yd b a (nudge v q r 1 (min δ δ' / 2)) := h2
    rw [area_rev] at h2; linarith
  exact ⟨side _ _ fun p h => h.1, side _ _ fun p h => h.2.1, side _ _ fun p h => h.2.2⟩

/-- Three points on the line from `a` to `b` are on a line. -/
theorem flat {yd : Bool} {a b v q r : Pt K} (hab : a ≠ b) (h1 : area yd a b v = 0) (h2 : area yd a b q = 0)
    (h3 : area yd a b r = 0) : area yd v q r = 0 := by
  have hn : b.1 - a.1 ≠ 0 ∨ b.2 - a.2 ≠ 0 := by
    by_contra h
    rw [not_or, not_not, not_not] at h
    exact hab (Prod.ext (by linarith [h.1]) (by linarith [h.2]))
  rcases hn with hn | hn
  · have : (b.1 - a.1) * area yd v q r = 0 := by
      have e : (b.1 - a.1) * area yd v q r = (q.1 - v.1) * (area yd a b r - area yd a b v) -
          (r.1 - v.1) * (area yd a b q - area yd a b v) := by
        unfold area wedge arrow; cases yd <;> simp <;> ring
      rw [e, h1, h2, h3]; ring
    exact (mul_eq_zero.1 this).resolve_left hn
  · have : (b.2 - a.2) * area yd v q r = 0 := by
      have e : (b.2 - a.2) * area yd v q r = (q.2 - v.2) * (area yd a b r - area yd a b v) -
          (r.2 - v.2) * (area yd a b q - area yd a b v) := by
        unfold area wedge arrow; cases yd <;> simp <;> ring
      rw [e, h1, h2, h3]; ring
    exact (mul_eq_zero.1 this).resolve_left hn

theorem area_affine (yd : Bool) (o d t v a b : Pt K) : area yd a b v * area yd o d t =
    area yd d t v * area yd a b o + area yd t o v * area yd a b d + area yd o d v * area yd a b t := by
  unfold area wedge arrow; cases yd <;> simp <;> ring

theorem two_zero {yd : Bool} {o d t v : Pt K} (ht : Turns yd o d t) (h1 : area yd o d v = 0)
    (h2 : area yd d t v = 0) : v = d := by
  have ht : 0 < area yd o d t := ht
  have h3 := area_sum yd o d t v
  rw [h1, h2] at h3
  have m2 := area_mean yd o d t v
  have m1 : v.1 * area yd o d t = area yd d t v * o.1 + area yd t o v * d.1 + area yd o d v * t.1 := by
    unfold area wedge arrow; cases yd <;> simp <;> ring
  have h4 : area yd t o v = area yd o d t := by linarith
  rw [h1, h2, h4] at m1 m2
  refine Prod.ext ?_ ?_
  · exact mul_right_cancel₀ ht.ne' (by linarith)
  · exact mul_right_cancel₀ ht.ne' (by linarith)

/-- The corners of an edge of the same triangle. -/
theorem tri_corner (hT : Triangulated yd f0 f1 f2 s z) {y y1 : E} {o d t v q r : Pt K}
    (hf : FaceOf s y o d t) (hf1 : FaceOf s y1 v q r) (h : y1 ∈ tri s y) : v = o ∨ v = d ∨ v = t := by
  have hi := Reached.inv hT.reached
  unfold tri at h
  simp only [Finset.mem_insert, Finset.mem_singleton] at h
  rcases h with rfl | rfl | rfl
  · exact Or.inl (face_unique hf1 hf).1
  · exact Or.inr (Or.inl (face_unique hf1 (face_rot hi hf)).1)
  · exact Or.inr (Or.inr (face_unique hf1 (face_rot hi (face_rot hi hf))).1)

theorem vertex_inside (hT : Triangulated yd f0 f1 f2 s z) {v : Pt K} (hv : Vertex s z v) {y : E} (hy : Inner s z y)
    {o d t : Pt K} (hf : FaceOf s y o d t) (h1 : 0 < area yd o d v) (h2 : 0 < area yd d t v)
    (h3 : 0 < area yd t o v) : False := by
  obtain ⟨y1, q, r, hy1, hf1⟩ := vertex_inner hT hv
  obtain ⟨δ, hd, hn⟩ := near_corner hT hy1 hf1 one_pos
  obtain ⟨δ', hd', hn'⟩ := near yd v q r 1 [(o, d), (d, t), (t, o)] (by simp [h1, h2, h3])
  have h0 : 0 < min δ δ' / 2 := half_pos (lt_min hd hd')
  have hs : min δ δ' / 2 < min δ δ' := half_lt_self (lt_min hd hd')
  have k := hn' _ h0 (lt_of_lt_of_le hs (min_le_right _ _))
  have kin : InFace yd s y (nudge v q r 1 (min δ δ' / 2)) :=
    ⟨o, d, t, hf, k (o, d) (by simp), k (d, t) (by simp), k (t, o) (by simp)⟩
  have := tri_corner hT hf hf1 (inFace_unique hT hy.1 hy1.1 kin (hn _ h0 (lt_of_lt_of_le hs (min_le_left _ _))))
  rcases this with rfl | rfl | rfl
  · rw [(area_self yd v d).1] at h1; exact lt_irrefl _ h1
  · rw [(area_self yd o v).2] at h1; exact lt_irrefl _ h1
  · rw [(area_self yd d v).2] at h2; exact lt_irrefl _ h2

theorem vertex_side (hT : Triangulated yd f0 f1 f2 s z) {v : Pt K} (hv : Vertex s z v) {y : E} (hy : Inner s z y)
    {o d t : Pt K} (hf : FaceOf s y o d t) (h1 : area yd o d v = 0) (h2 : 0 < area yd d t v)
    (h3 : 0 < area yd t o v) : False := by
  have ht := inner_turns hT hy hf
  have ht' : 0 < area yd o d t := ht
  obtain ⟨y1, q, r, hy1, hf1⟩ := vertex_inner hT hv
  have ht1 := inner_turns hT hy1 hf1
  have ht1' : 0 < area yd v q r := ht1
  obtain ⟨l, hl, hc⟩ : ∃ l : K, 0 < l ∧ area yd o d q + l * area yd o d r ≠ 0 := by
    by_cases hq : area yd o d q + 1 * area yd o d r = 0
    · refine ⟨2, two_pos, fun h => ?_⟩
      have hr : area yd o d r = 0 := by linarith
      have hq : area yd o d q = 0 := by linarith
      exact ht1'.ne' (flat (turns_ne ht).1 h1 hq hr)
    · exact ⟨1, one_pos, hq⟩
  obtain ⟨δ, hd, hn⟩ := near_corner hT hy1 hf1 hl
  obtain ⟨td, hg⟩ := across hT hy.1 hf
  have eb : ∀ ε, area yd o d (nudge v q r l ε) = ε * (area yd o d q + l * area yd o d r) := by
    intro ε; rw [area_nudge, h1]; ring
  rcases lt_or_gt_of_ne hc with hc | hc
  · by_cases hO : Outside s z (sym y)
    · have h0 : 0 < δ / 2 := half_pos hd
      have := outside_side hT hO hg (inFace_inFrame hT hy1.1 (hn _ h0 (half_lt_self hd)))
      rw [eb] at this
      have := mul_neg_of_pos_of_neg h0 hc
      linarith
    · have hsI : Inner s z (sym y) := ⟨hy.1.sym, hO⟩
      have ht2 : 0 < area yd d o td := inner_turns hT hsI hg
      have e1 : area yd o td d = area yd d o td := wedge_cycle yd d o td
      have e2 : area yd td d o = area yd d o td := by rw [← e1]; exact wedge_cycle yd o td d
      have p1 : 0 < area yd o td v := by
        have := area_affine yd o d t v o td
        rw [h1, e1, (area_self yd o td).1] at this
        refine (mul_pos_iff_of_pos_right ht').1 ?_
        rw [this]
        have := mul_pos h3 ht2
        linarith
      have p2 : 0 < area yd td d v := by
        have := area_affine yd o d t v td d
        rw [h1, e2, (area_self yd td d).2] at this
        refine (mul_pos_iff_of_pos_right ht').1 ?_
        rw [this]
        have := mul_pos h2 ht2
        linarith
      obtain ⟨δ', hd', hn'⟩ := near yd v q r l [(o, td), (td, d)] (by simp [p1, p2])
      have h0 : 0 < min δ δ' / 2 := half_pos (lt_min hd hd')
      have hs : min δ δ' / 2 < min δ δ' := half_lt_self (lt_min hd hd')
      have k := hn' _ h0 (lt_of_lt_of_le hs (min_le_right _ _))
      have kin : InFace yd s (sym y) (nudge v q r l (min δ δ' / 2)) := by
        refine ⟨d, o, td, hg, ?_, k (o, td) (by simp), k (td, d) (by simp)⟩
        rw [area_rev, eb]
        have := mul_neg_of_pos_of_neg h0 hc
        linarith
      have := tri_corner hT hg hf1 (inFace_unique hT hsI.1 hy1.1 kin (hn _ h0 (lt_of_lt_of_le hs (min_le_left _ _))))
      rcases this with rfl | rfl | rfl
      · rw [(area_self yd v t).1] at h2; exact lt_irrefl _ h2
      · rw [(area_self yd t v).2] at h3; exact lt_irrefl _ h3
      · rw [area_rev, h1] at ht2; linarith
  · obtain ⟨δ', hd', hn'⟩ := near yd v q r l [(d, t), (t, o)] (by simp [h2, h3])
    have h0 : 0 < min δ δ' / 2 := half_pos (lt_min hd hd')
    have hs : min δ δ' / 2 < min δ δ' := half_lt_self (lt_min hd hd')
    have k := hn' _ h0 (lt_of_lt_of_le hs (min_le_right _ _))
    have kin : InFace yd s y (nudge v q r l (min δ δ' / 2)) := by
      refine ⟨o, d, t, hf, ?_, k (d, t) (by simp), k (t, o) (by simp)⟩
      rw [eb]; exact mul_pos h0 hc
    have := tri_corner hT hf hf1 (inFace_unique hT hy.1 hy1.1 kin (hn _ h0 (lt_of_lt_of_le hs (min_le_left _ _))))
    rcases this with rfl | rfl | rfl
    · rw [(area_self yd t v).2] at h3; exact lt_irrefl _ h3
    · rw [(area_self yd v t).1] at h2; exact lt_irrefl _ h2
    · rw [(area_self yd d v).2] at h2; exact lt_irrefl _ h2

/-- A point of the subdivision in a triangle or on its side is one of its corners. -/
theorem vertex_corner (hT : Triangulated yd f0 f1 f2 s z) {v : Pt K} (hv : Vertex s z v) {y : E} (hy : Inner s z y)
    {o d t : Pt K} (hf : FaceOf s y o d t) (h1 : 0 ≤ area yd o d v) (h2 : 0 ≤ area yd d t v)
    (h3 : 0 ≤ area yd t o v) : v = o ∨ v = d ∨ v = t := by
  have hi := Reached.inv hT.reached
  have ht := inner_turns hT hy hf
  rcases lt_or_eq_of_le h1 with h1 | h1
  · rcases lt_or_eq_of_le h2 with h2 | h2
    · rcases lt_or_eq_of_le h3 with h3 | h3
      · exact (vertex_inside hT hv hy hf h1 h2 h3).elim
      · exact (vertex_side hT hv (inner_lnext hT (inner_lnext hT hy)) (face_rot hi (face_rot hi hf)) h3.symm h1 h2).elim
    · rcases lt_or_eq_of_le h3 with h3 | h3
      · exact (vertex_side hT hv (inner_lnext hT hy) (face_rot hi hf) h2.symm h3 h1).elim
      · exact Or.inr (Or.inr (two_zero (turns_cycle ht) h2.symm h3.symm))
  · rcases lt_or_eq_of_le h2 with h2 | h2
    · rcases lt_or_eq_of_le h3 with h3 | h3
      · exact (vertex_side hT hv hy hf h1.symm h2 h3).elim
      · exact Or.inl (two_zero (turns_cycle (turns_cycle ht)) h3.symm h1.symm)
    · exact Or.inr (Or.inl (two_zero ht h1.symm h2.symm))

/-- Edges that are all locally Delaunay make a Delaunay triangulation. -/
theorem delaunay_of_local (hT : Triangulated yd f0 f1 f2 s z) (hL : Local yd s z) : Delaunay s z := by
  intro y o d t hc hO hf v hv hin
  have hy : Inner s z y := ⟨hc, hO⟩
  have ht := inner_turns hT hy hf
  rw [inside_inc ht] at hin
  obtain ⟨y', o', d', t', hy', hf', k1, k2, k3, hle⟩ := walk hT hL (vertex_inFrame hT hv) hy
  rw [(pwE_face hT hc hf).2.2.2] at hle
  have neg : pw yd o d t v < 0 := by
    unfold pw
    exact div_neg_of_neg_of_pos (by linarith) (show 0 < area yd o d t from ht)
  have h0 : inc yd o' d' t' v = 0 := by
    rcases vertex_corner hT hv hy' hf' k1 k2 k3 with rfl | rfl | rfl
    · exact (inc_corner yd _ _ _).1
    · exact (inc_corner yd _ _ _).2.1
    · exact (inc_corner yd _ _ _).2.2
  unfold pw at hle neg
  rw [h0] at hle
  simp only [neg_zero, zero_div] at hle
  linarith

/-- And the other way round. -/
theorem local_of_delaunay (hT : Triangulated yd f0 f1 f2 s z) (hD : Delaunay s z) : Local yd s z := by
  intro y o d t td hc hf hg h1 h2
  have hi := Reached.inv hT.reached
  by_contra hn
  refine hD (sym y) d o td hc.sym ?_ hg t ⟨_, lnext_connected hi (lnext_connected hi hc), hf.2.2.2⟩
    ((inside_inc h2).2 (not_le.1 hn))
  intro hO
  have := outside_backwards hi hT.outer hO hg
  rcases this with ⟨rfl, rfl, rfl⟩ | ⟨rfl, rfl, rfl⟩ | ⟨rfl, rfl, rfl⟩
  · exact turns_not hT.frame h2
  · exact turns_not (turns_cycle (turns_cycle hT.frame)) h2
  · exact turns_not (turns_cycle hT.frame) h2

end Verif.Lemmas.SubDelaunay
