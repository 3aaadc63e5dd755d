import Verif.Lemmas.SubFind
import Verif.Lemmas.SubNew

/-!
# Helper lemmas: what is kept by all calls
-/

namespace Verif.Lemmas.SubHealthy
open Verif.Quad Verif.Spec.Quad Verif.Lemmas.Quad Verif.Spec.Subdivision Verif.Subdivision
open Verif.Resolve Verif.Spec.Resolve Verif.Lemmas.Resolve Verif.Lemmas.SubLocate
open Verif.Lemmas.SubWalk Verif.Lemmas.SubMesh Verif.Lemmas.SubCover Verif.Lemmas.Circle
open Verif.Lemmas.SubDelaunay Verif.Lemmas.SubHistory Verif.Lemmas.SubFlip Verif.Lemmas.SubInsert
open Verif.Lemmas.SubFind Verif.Lemmas.SubNew Verif.Spec.Planar

set_option linter.unusedSectionVars false

variable {K : Type} [Field K] [LinearOrder K] [IsStrictOrderedRing K]
variable {yd : Bool} {f0 f1 f2 x : Pt K} {s : Store (Pt K)} {z : E}

/-- What `New` makes and `InsertSite` keeps. -/
structure Healthy (yd : Bool) (f0 f1 f2 : Pt K) (sd : Subdiv K) : Prop where
  tri : Triangulated yd f0 f1 f2 sd.store sd.start
  del : Delaunay sd.store sd.start
  lat : ∃ τ, Latest yd sd.store sd.start τ
  card : (edges sd.store sd.start).card + 12 ≤ 6 * sd.ptcount

theorem weights {o d t p : Pt K} (ht : Turns yd o d t) :
    area yd d t p / area yd o d t + area yd t o p / area yd o d t + area yd o d p / area yd o d t = 1 ∧
    p = (area yd d t p / area yd o d t * o.1 + area yd t o p / area yd o d t * d.1 + area yd o d p / area yd o d t * t.1,
      area yd d t p / area yd o d t * o.2 + area yd t o p / area yd o d t * d.2 + area yd o d p / area yd o d t * t.2) := by
  have hA : 0 < area yd o d t := ht
  have hne : area yd o d t ≠ 0 := hA.ne'
  have s : area yd o d t = area yd o d p + area yd d t p + area yd t o p := wedge_sum yd o d t p
  refine ⟨by field_simp; linarith, Prod.ext ?_ ?_⟩
  · simp only
    have : area yd d t p * o.1 + area yd t o p * d.1 + area yd o d p * t.1 = p.1 * area yd o d t := by
      unfold area wedge arrow; cases yd <;> simp <;> ring
    field_simp; linarith
  · simp only
    have : area yd d t p * o.2 + area yd t o p * d.2 + area yd o d p * t.2 = p.2 * area yd o d t := by
      unfold area wedge arrow; cases yd <;> simp <;> ring
    field_simp; linarith

theorem within_iff (ht : Turns yd f0 f1 f2) : Within yd f0 f1 f2 x ↔ InsideTriangle x f0 f1 f2 := by
  have hA : 0 < area yd f0 f1 f2 := ht
  constructor
  · rintro ⟨h1, h2, h3⟩
    obtain ⟨w1, w2⟩ := weights (p := x) ht
    exact ⟨_, _, _, div_pos h2 hA, div_pos h3 hA, div_pos h1 hA, w1, w2⟩
  · exact fun h => insideTriangle_area ht h

/-- A point of the triangle that is on the line of its first side is on the side. -/
theorem on_side {o d t p : Pt K} (ht : Turns yd o d t) (h1 : area yd o d p = 0) (h2 : 0 ≤ area yd d t p)
    (h3 : 0 ≤ area yd t o p) : OnSegment p o d := by
  have hA : 0 < area yd o d t := ht
  obtain ⟨w1, w2⟩ := weights (p := p) ht
  rw [h1, zero_div] at w1 w2
  have a := div_nonneg h2 hA.le
  have b := div_nonneg h3 hA.le
  generalize area yd d t p / area yd o d t = u at *
  generalize area yd t o p / area yd o d t = v at *
  obtain rfl : u = 1 - v := by linarith
  refine ⟨v, b, by linarith, ?_⟩
  rw [w2]
  refine Prod.ext ?_ ?_ <;> simp only <;> ring

theorem within_of_inFrame (ht : Turns yd f0 f1 f2) (h : InFrame yd f0 f1 f2 x) (h01 : ¬ OnSegment x f0 f1)
    (h12 : ¬ OnSegment x f1 f2) (h20 : ¬ OnSegment x f2 f0) : Within yd f0 f1 f2 x := by
  obtain ⟨a, b, c⟩ := h
  refine ⟨lt_of_le_of_ne a fun h => ?_, lt_of_le_of_ne b fun h => ?_, lt_of_le_of_ne c fun h => ?_⟩
  · exact h01 (on_side ht h.symm b c)
  · exact h12 (on_side (turns_cycle ht) h.symm c a)
  · exact h20 (on_side (turns_cycle (turns_cycle ht)) h.symm a b)

theorem latest_insert {st s : Store (Pt K)} {τ : Pt K → Nat} {N M : Nat} (hτ : Latest yd st z τ)
    (hS : Settled yd z x st N s) (hxV : ¬ Vertex st z x) (hV : ∀ p, Vertex s z p ↔ Vertex st z p ∨ p = x)
    (hM : ∀ p, Vertex st z p → τ p < M) (hi : Inv s) :
    Latest yd s z (fun p => if p = x then M else τ p) := by
  have old : ∀ p, Vertex s z p → p ≠ x → Vertex st z p := fun p h hn => ((hV p).1 h).resolve_right hn
  refine ⟨?_, ?_⟩
  · intro p q hp hq h
    by_cases h1 : p = x <;> by_cases h2 : q = x
    · rw [h1, h2]
    · simp only [h1, h2, if_true, if_false] at h
      have := hM q (old q hq h2); omega
    · simp only [h1, h2, if_true, if_false] at h
      have := hM p (old p hp h1); omega
    · simp only [h1, h2, if_false] at h
      exact hτ.inj p q (old p hp h1) (old q hq h2) h
  · intro y o d t td hy hf hg ht hgt h0
    have vt : Vertex s z t := ⟨_, lnext_connected hi (lnext_connected hi hy), hf.2.2.2⟩
    have vtd : Vertex s z td := ⟨_, lnext_connected hi (lnext_connected hi hy.sym), hg.2.2.2⟩
    have tx : t ≠ x := by
      rintro rfl
      exact (hS.legal y o d td hy hf hg hgt).ne h0
    have tdx : td ≠ x := by
      rintro rfl
      have := (hS.legal (sym y) d o t hy.sym hg (by rw [sym_sym]; exact hf) ht).ne
      apply this
      rw [← h0, inc_rev yd d o t td, inc_anti yd d o td t]; ring
    simp only [tx, tdx, if_false]
    by_cases ho : o = x
    · simp only [ho, if_true]
      exact ⟨lt_max_of_lt_left (hM _ (old _ vt tx)), lt_max_of_lt_left (hM _ (old _ vtd tdx))⟩
    by_cases hd : d = x
    · simp only [hd, if_true]
      exact ⟨lt_max_of_lt_right (hM _ (old _ vt tx)), lt_max_of_lt_right (hM _ (old _ vtd tdx))⟩
    simp only [ho, hd, if_false]
    obtain ⟨c1, g1⟩ := hS.old y o d t hy hf ho hd tx
    obtain ⟨_, g2⟩ := hS.old (sym y) d o td hy.sym hg hd ho tdx
    exact hτ.last y o d t td c1 g1 g2 ht hgt h0

theorem vertex_bound (hT : Triangulated yd f0 f1 f2 s z) (τ : Pt K → Nat) :
    ∃ M, ∀ p, Vertex s z p → τ p < M := by
  classical
  refine ⟨(edges s z).sup (fun y => τ (org s y)) + 1, ?_⟩
  rintro p ⟨e, he, ho⟩
  have hi := Reached.inv hT.reached
  obtain ⟨o, d, t, hf, _⟩ := hT.face e he
  obtain rfl := Option.some.inj (ho.symm.trans hf.2.1)
  have := Finset.le_sup (f := fun y => τ (org s y)) ((mem_edges hT).2 he)
  simp only [(pwE_face (p := p) hT he hf).1] at this
  omega

theorem insert_healthy {sd : Subdiv K} (h : Healthy yd f0 f1 f2 sd) (h01 : ¬ OnSegment x f0 f1)
    (h12 : ¬ OnSegment x f1 f2) (h20 : ¬ OnSegment x f2 f0) :
    ∃ r sd', insertSite yd sd x = some (r, sd') ∧ Healthy yd f0 f1 f2 sd' ∧ sd'.start = sd.start ∧
      (r = true ↔ InsideTriangle x f0 f1 f2) ∧
      ∀ p, Vertex sd'.store sd'.start p ↔ Vertex sd.store sd.start p ∨ (p = x ∧ InsideTriangle x f0 f1 f2) := by
  obtain ⟨hT, hD, ⟨τ, hτ⟩, hc⟩ := h
  obtain ⟨r, s2, h1, h2⟩ := insert_settled hT h01 h12 h20 hD
  obtain ⟨r', s3, g1, g2, g3, g4⟩ := insert_site hT h01 h12 h20
  rw [h1] at g1
  obtain ⟨rfl, g⟩ := Prod.mk.inj (Option.some.inj g1)
  obtain rfl : s2 = s3 := congrArg Subdiv.store g
  have hr : r = true ↔ Within yd f0 f1 f2 x := by
    constructor
    · intro hr
      exact within_of_inFrame hT.frame (vertex_inFrame g2 ((g4 hr x).2 (Or.inr rfl))) h01 h12 h20
    · intro hw
      by_contra hr
      have hne : x ≠ f0 := by rintro rfl; exact h01 ⟨0, le_rfl, zero_le_one, by simp⟩
      obtain ⟨y, hy⟩ := locate_found hT (local_of_delaunay hT hD) hτ hw (limit := 2 * (sd.ptcount + 1))
        (by omega) hne
      have := (g3 (by simpa using hr)).2
      unfold Subdiv.locate at this
      simp only at this
      rw [this] at hy
      cases hy
  refine ⟨r, _, h1, ?_, rfl, hr.trans (within_iff hT.frame), ?_⟩
  · rcases h2 with ⟨_, rfl⟩ | ⟨hrt, hxV, h2⟩
    · exact ⟨hT, hD, ⟨τ, hτ⟩, by simp only; omega⟩
    · obtain ⟨M, hM⟩ := vertex_bound hT τ
      refine ⟨g2, delaunay_of_local g2 h2.loc, ⟨_, latest_insert hτ h2 hxV (g4 hrt) hM (Reached.inv g2.reached)⟩, ?_⟩
      have := h2.card
      simp only
      omega
  · intro p
    rw [← within_iff hT.frame, ← hr]
    cases r with
    | false => simp [(g3 rfl).1]
    | true => simpa using g4 rfl p

/-- Three corners and no further points. -/
theorem healthy_three {a b c : Pt K} {sd : Subdiv K} (hT : Triangulated yd f0 f1 f2 sd.store sd.start)
    (hv : ∀ p, Vertex sd.store sd.start p ↔ p = a ∨ p = b ∨ p = c) (h3 : sd.ptcount = 3)
    (hc : (edges sd.store sd.start).card ≤ 6) : Healthy yd f0 f1 f2 sd := by
  classical
  have hi := Reached.inv hT.reached
  refine ⟨hT, delaunay_three hT hv, ⟨fun p => if p = a then 0 else if p = b then 1 else 2, ?_, ?_⟩, by omega⟩
  · intro p q hp hq h
    rcases (hv p).1 hp with rfl | rfl | rfl <;> rcases (hv q).1 hq with rfl | rfl | rfl <;>
      first | rfl | (simp only at h; split_ifs at h <;> first | (symm; assumption) | assumption | simp_all)
  · intro y o d t td hy hf hg ht hgt _
    exfalso
    obtain ⟨n1, n2, n3⟩ := turns_ne ht
    obtain ⟨_, m2, m3⟩ := turns_ne hgt
    have a1 := (hv o).1 ⟨y, hy, hf.2.1⟩
    have a2 := (hv d).1 ⟨_, lnext_connected hi hy, hf.2.2.1⟩
    have a3 := (hv t).1 ⟨_, lnext_connected hi (lnext_connected hi hy), hf.2.2.2⟩
    have a4 := (hv td).1 ⟨_, lnext_connected hi (lnext_connected hi hy.sym), hg.2.2.2⟩
    have k : td = t := by
      rcases a1 with rfl | rfl | rfl <;> rcases a2 with rfl | rfl | rfl <;> rcases a3 with rfl | rfl | rfl <;>
        rcases a4 with rfl | rfl | rfl <;> simp_all
    subst k
    exact turns_not ht hgt

/-- The edges of `New`. -/
theorem edges_new (a b c : Pt K) {z : E} (hz : z.q < 3) (kz : Primal z) :
    (edges (newStore a b c) z).card ≤ 6 := by
  classical
  have hs : edges (newStore a b c) z ⊆ {⟨0, 0⟩, ⟨1, 0⟩, ⟨2, 0⟩, ⟨0, 2⟩, ⟨1, 2⟩, ⟨2, 2⟩} := by
    intro y hy
    unfold edges at hy
    rw [Finset.mem_filter] at hy
    obtain ⟨h1, h2⟩ := (newStore_connected a b c hz kz).1 hy.2
    rcases six h1 h2 with rfl | rfl | rfl | rfl | rfl | rfl <;> simp
  exact le_trans (Finset.card_le_card hs) Finset.card_le_six

end Verif.Lemmas.SubHealthy
