import Verif.Model.Clip
import Verif.Spec.Clip
import Verif.Lemmas.Planar
import Mathlib.Tactic.Linarith
import Mathlib.Tactic.LinearCombination

/-! Helper lemmas for clipping: the geometry of a segment and a box. -/

set_option linter.unusedSectionVars false

namespace Verif.Lemmas.Clip
open Verif.Clip Verif.Spec.Clip Verif.Spec.Planar
open Verif.Planar (Line segmentIntersect)
open Verif.KdTree (Box)
open Verif.Intersect (boxContains)

variable {K : Type} [Field K] [LinearOrder K] [IsStrictOrderedRing K]

/-- The point a share `t` of the way from `p` to `q`. -/
def at' (p q : Pt K) (t : K) : Pt K := (p.1 + t * (q.1 - p.1), p.2 + t * (q.2 - p.2))

theorem at_zero (p q : Pt K) : at' p q 0 = p := by simp [at']
theorem at_one (p q : Pt K) : at' p q 1 = q := by simp [at']

theorem at_swap (p q : Pt K) (t : K) : at' q p (1 - t) = at' p q t := by
  unfold at'; apply Prod.ext <;> simp only <;> ring

theorem at_inj {p q : Pt K} (h : p ≠ q) {s t : K} (e : at' p q s = at' p q t) : s = t := by
  unfold at' at e
  have e1 := congrArg Prod.fst e
  have e2 := congrArg Prod.snd e
  simp only at e1 e2
  by_contra hne
  apply h
  have hne' : s - t ≠ 0 := sub_ne_zero.2 hne
  apply Prod.ext
  · have : (s - t) * (q.1 - p.1) = 0 := by linear_combination e1
    rcases mul_eq_zero.1 this with h | h
    · exact absurd h hne'
    · linear_combination -h
  · have : (s - t) * (q.2 - p.2) = 0 := by linear_combination e2
    rcases mul_eq_zero.1 this with h | h
    · exact absurd h hne'
    · linear_combination -h

theorem boxContains_iff {e : Box K} {p : Pt K} : boxContains e p = true ↔ Inside e p := by
  simp [boxContains, Inside, and_assoc]

/-- The first share at which affine constraints hold. -/
theorem first_in (L : List (K × K)) (s : K) (hs : 0 ≤ s) (h : ∀ x ∈ L, 0 ≤ x.1 + x.2 * s)
    (hn : ∃ x ∈ L, x.1 < 0) :
    ∃ t, 0 < t ∧ t ≤ s ∧ (∀ x ∈ L, 0 ≤ x.1 + x.2 * t) ∧
      ∃ x ∈ L, x.1 < 0 ∧ 0 < x.2 ∧ x.1 + x.2 * t = 0 := by
  have conv : ∀ (c d u v t : K), u ≤ t → t ≤ v → 0 ≤ c + d * u → 0 ≤ c + d * v → 0 ≤ c + d * t := by
    intro c d u v t h1 h2 h3 h4
    rcases le_total 0 d with h | h
    · have : d * u ≤ d * t := mul_le_mul_of_nonneg_left h1 h
      linarith
    · have : d * v ≤ d * t := mul_le_mul_of_nonpos_left h2 h
      linarith
  induction L with
  | nil => obtain ⟨x, hx, -⟩ := hn; simp at hx
  | cons a L ih =>
    obtain ⟨c, d⟩ := a
    have ha := h (c, d) (by simp)
    simp only at ha
    have hL : ∀ x ∈ L, 0 ≤ x.1 + x.2 * s := fun x hx => h x (by simp [hx])
    have root : ∀ u : K, 0 ≤ u → u ≤ s → c + d * u < 0 → (∀ x ∈ L, 0 ≤ x.1 + x.2 * u) →
        c < 0 → ∃ t, 0 < t ∧ t ≤ s ∧ (∀ x ∈ (c, d) :: L, 0 ≤ x.1 + x.2 * t) ∧
        ∃ x ∈ (c, d) :: L, x.1 < 0 ∧ 0 < x.2 ∧ x.1 + x.2 * t = 0 := by
      intro u hu hus hcu hLu hc
      have hd : 0 < d := by
        by_contra hd
        rw [not_lt] at hd
        have : d * s ≤ 0 := mul_nonpos_of_nonpos_of_nonneg hd hs
        linarith
      have hr : c + d * (-c / d) = 0 := by field_simp; ring
      have h1 : u ≤ -c / d := by
        rw [le_div_iff₀ hd]; linarith
      have h2 : -c / d ≤ s := by
        rw [div_le_iff₀ hd]; linarith
      refine ⟨-c / d, div_pos (by linarith) hd, h2, ?_, (c, d), by simp, hc, hd, hr⟩
      intro x hx
      rcases List.mem_cons.1 hx with rfl | hx
      · simp only; rw [hr]
      · exact conv x.1 x.2 u s _ h1 h2 (hLu x hx) (hL x hx)
    by_cases hneg : ∃ x ∈ L, x.1 < 0
    · obtain ⟨t, t0, ts, hall, x, hx, hx0, hxd, hxt⟩ := ih hL hneg
      rcases le_or_gt 0 (c + d * t) with hc | hc
      · refine ⟨t, t0, ts, ?_, x, by simp [hx], hx0, hxd, hxt⟩
        intro y hy
        rcases List.mem_cons.1 hy with rfl | hy
        · exact hc
        · exact hall y hy
      · have hc0 : c < 0 := by
          by_contra hc0
          rw [not_lt] at hc0
          have := conv c d 0 s t t0.le ts (by simpa using hc0) ha
          linarith
        exact root t t0.le ts hc hall hc0
    · have hc0 : c < 0 := by
        obtain ⟨x, hx, hx0⟩ := hn
        rcases List.mem_cons.1 hx with rfl | hx
        · exact hx0
        · exact absurd ⟨x, hx, hx0⟩ hneg
      refine root 0 le_rfl hs (by simpa using hc0) ?_ hc0
      intro x hx
      have := fun h => hneg ⟨x, hx, h⟩
      simpa using not_lt.1 this

/-- Edges of the box and what it means to be on one. -/
theorem mem_edges {e : Box K} {E : Line K} : E ∈ edges e ↔
    E = ((e.minx, e.miny), (e.maxx, e.miny)) ∨ E = ((e.maxx, e.miny), (e.maxx, e.maxy))
    ∨ E = ((e.maxx, e.maxy), (e.minx, e.maxy)) ∨ E = ((e.minx, e.maxy), (e.minx, e.miny)) := by
  simp [edges]

theorem onSegment_hor {x y a b : K} (hab : a < b) :
    OnSegment (x, y) (a, y) (b, y) ↔ a ≤ x ∧ x ≤ b := by
  have hne : b - a ≠ 0 := by linarith
  constructor
  · rintro ⟨t, t0, t1, h⟩
    have := congrArg Prod.fst h
    simp only at this
    subst this
    constructor <;> nlinarith
  · rintro ⟨h1, h2⟩
    refine ⟨(x - a) / (b - a), div_nonneg (by linarith) (by linarith), ?_, ?_⟩
    · rw [div_le_one (by linarith)]; linarith
    · apply Prod.ext
      · simp only; field_simp; ring
      · simp

theorem onSegment_ver {x y a b : K} (hab : a < b) :
    OnSegment (x, y) (x, a) (x, b) ↔ a ≤ y ∧ y ≤ b := by
  have hne : b - a ≠ 0 := by linarith
  constructor
  · rintro ⟨t, t0, t1, h⟩
    have := congrArg Prod.snd h
    simp only at this
    subst this
    constructor <;> nlinarith
  · rintro ⟨h1, h2⟩
    refine ⟨(y - a) / (b - a), div_nonneg (by linarith) (by linarith), ?_, ?_⟩
    · rw [div_le_one (by linarith)]; linarith
    · apply Prod.ext
      · simp
      · simp only; field_simp; ring

theorem onSegment_comm {p a b : Pt K} : OnSegment p a b ↔ OnSegment p b a :=
  ⟨Planar.onSegment_symm, Planar.onSegment_symm⟩

theorem onSegment_const_y {p : Pt K} {a b y : K} (h : OnSegment p (a, y) (b, y)) : p.2 = y := by
  obtain ⟨t, -, -, rfl⟩ := h; simp

theorem onSegment_const_x {p : Pt K} {a b x : K} (h : OnSegment p (x, a) (x, b)) : p.1 = x := by
  obtain ⟨t, -, -, rfl⟩ := h; simp

/-- Which points are on which edge. -/
theorem on_bottom {e : Box K} (he : Proper e) {p : Pt K} :
    OnSegment p (e.minx, e.miny) (e.maxx, e.miny) ↔ p.2 = e.miny ∧ e.minx ≤ p.1 ∧ p.1 ≤ e.maxx := by
  obtain ⟨x, y⟩ := p
  constructor
  · intro h
    have := onSegment_const_y h
    simp only at this; subst this
    exact ⟨rfl, (onSegment_hor he.1).1 h⟩
  · rintro ⟨rfl, h⟩
    exact (onSegment_hor he.1).2 h

theorem on_top {e : Box K} (he : Proper e) {p : Pt K} :
    OnSegment p (e.maxx, e.maxy) (e.minx, e.maxy) ↔ p.2 = e.maxy ∧ e.minx ≤ p.1 ∧ p.1 ≤ e.maxx := by
  obtain ⟨x, y⟩ := p
  rw [onSegment_comm]
  constructor
  · intro h
    have := onSegment_const_y h
    simp only at this; subst this
    exact ⟨rfl, (onSegment_hor he.1).1 h⟩
  · rintro ⟨rfl, h⟩
    exact (onSegment_hor he.1).2 h

theorem on_right {e : Box K} (he : Proper e) {p : Pt K} :
    OnSegment p (e.maxx, e.miny) (e.maxx, e.maxy) ↔ p.1 = e.maxx ∧ e.miny ≤ p.2 ∧ p.2 ≤ e.maxy := by
  obtain ⟨x, y⟩ := p
  constructor
  · intro h
    have := onSegment_const_x h
    simp only at this; subst this
    exact ⟨rfl, (onSegment_ver he.2).1 h⟩
  · rintro ⟨rfl, h⟩
    exact (onSegment_ver he.2).2 h

theorem on_left {e : Box K} (he : Proper e) {p : Pt K} :
    OnSegment p (e.minx, e.maxy) (e.minx, e.miny) ↔ p.1 = e.minx ∧ e.miny ≤ p.2 ∧ p.2 ≤ e.maxy := by
  obtain ⟨x, y⟩ := p
  rw [onSegment_comm]
  constructor
  · intro h
    have := onSegment_const_x h
    simp only at this; subst this
    exact ⟨rfl, (onSegment_ver he.2).1 h⟩
  · rintro ⟨rfl, h⟩
    exact (onSegment_ver he.2).2 h

theorem edge_inside {e : Box K} (he : Proper e) {E : Line K} (hE : E ∈ edges e) {p : Pt K}
    (hp : OnSegment p E.1 E.2) : Inside e p ∧ ¬ StrictlyInside e p := by
  obtain ⟨h1, h2⟩ := he
  unfold Inside StrictlyInside
  rcases mem_edges.1 hE with rfl | rfl | rfl | rfl
  · obtain ⟨a, b, c⟩ := (on_bottom ⟨h1, h2⟩).1 hp
    rw [a]; exact ⟨⟨b, c, le_rfl, h2.le⟩, fun h => absurd h.2.2.1 (lt_irrefl _)⟩
  · obtain ⟨a, b, c⟩ := (on_right ⟨h1, h2⟩).1 hp
    rw [a]; exact ⟨⟨h1.le, le_rfl, b, c⟩, fun h => absurd h.2.1 (lt_irrefl _)⟩
  · obtain ⟨a, b, c⟩ := (on_top ⟨h1, h2⟩).1 hp
    rw [a]; exact ⟨⟨b, c, h2.le, le_rfl⟩, fun h => absurd h.2.2.2 (lt_irrefl _)⟩
  · obtain ⟨a, b, c⟩ := (on_left ⟨h1, h2⟩).1 hp
    rw [a]; exact ⟨⟨le_rfl, h1.le, b, c⟩, fun h => absurd h.1 (lt_irrefl _)⟩

/-- Where the segment from outside first meets the box. -/
theorem entry {e : Box K} (he : Proper e) {p q : Pt K} (hp : ¬ Inside e p) {s : K} (hs : 0 ≤ s)
    (hin : Inside e (at' p q s)) :
    ∃ t, 0 < t ∧ t ≤ s ∧ Inside e (at' p q t) ∧ (∀ r, r < t → ¬ Inside e (at' p q r)) ∧
      ∃ E ∈ edges e, ¬ Parallel E.1 E.2 p q ∧ OnSegment (at' p q t) E.1 E.2 := by
  obtain ⟨h1, h2⟩ := he
  let L : List (K × K) := [(p.1 - e.minx, q.1 - p.1), (e.maxx - p.1, -(q.1 - p.1)),
    (p.2 - e.miny, q.2 - p.2), (e.maxy - p.2, -(q.2 - p.2))]
  have key : ∀ t, Inside e (at' p q t) ↔ ∀ x ∈ L, 0 ≤ x.1 + x.2 * t := by
    intro t
    simp only [L, Inside, at', List.mem_cons, List.not_mem_nil, or_false, forall_eq_or_imp,
      forall_eq]
    constructor
    · rintro ⟨a, b, c, d⟩
      refine ⟨?_, ?_, ?_, ?_⟩ <;> linarith
    · rintro ⟨a, b, c, d⟩
      refine ⟨?_, ?_, ?_, ?_⟩ <;> linarith
  have hn : ∃ x ∈ L, x.1 < 0 := by
    by_contra hcon
    apply hp
    have h0 := (key 0).2 (fun x hx => by
      rw [mul_zero, add_zero]
      by_contra hx0
      exact hcon ⟨x, hx, not_le.1 hx0⟩)
    rwa [at_zero] at h0
  obtain ⟨t, t0, ts, hall, x, hx, hx0, hxd, hxt⟩ := first_in L s hs ((key s).1 hin) hn
  have hI := (key t).2 hall
  refine ⟨t, t0, ts, hI, ?_, ?_⟩
  · intro r hr hcon
    have := (key r).1 hcon x hx
    have h3 : x.2 * r < x.2 * t := mul_lt_mul_of_pos_left hr hxd
    linarith
  · obtain ⟨i1, i2, i3, i4⟩ := hI
    simp only [L, List.mem_cons, List.not_mem_nil, or_false] at hx
    rcases hx with rfl | rfl | rfl | rfl <;> simp only at hx0 hxd hxt
    · refine ⟨_, mem_edges.2 (Or.inr (Or.inr (Or.inr rfl))), ?_, (on_left ⟨h1, h2⟩).2 ⟨?_, i3, i4⟩⟩
      · unfold Parallel; simp only; intro h
        have : (e.miny - e.maxy) * (q.1 - p.1) = 0 := by linear_combination -h
        rcases mul_eq_zero.1 this with h | h <;> linarith
      · simp only [at']; linarith
    · refine ⟨_, mem_edges.2 (Or.inr (Or.inl rfl)), ?_, (on_right ⟨h1, h2⟩).2 ⟨?_, i3, i4⟩⟩
      · unfold Parallel; simp only; intro h
        have : (e.maxy - e.miny) * (q.1 - p.1) = 0 := by linear_combination -h
        rcases mul_eq_zero.1 this with h | h <;> linarith
      · simp only [at']; linarith
    · refine ⟨_, mem_edges.2 (Or.inl rfl), ?_, (on_bottom ⟨h1, h2⟩).2 ⟨?_, i1, i2⟩⟩
      · unfold Parallel; simp only; intro h
        have : (e.maxx - e.minx) * (q.2 - p.2) = 0 := by linear_combination h
        rcases mul_eq_zero.1 this with h | h <;> linarith
      · simp only [at']; linarith
    · refine ⟨_, mem_edges.2 (Or.inr (Or.inr (Or.inl rfl))), ?_, (on_top ⟨h1, h2⟩).2 ⟨?_, i1, i2⟩⟩
      · unfold Parallel; simp only; intro h
        have : (e.minx - e.maxx) * (q.2 - p.2) = 0 := by linear_combination h
        rcases mul_eq_zero.1 this with h | h <;> linarith
      · simp only [at']; linarith

/-- Where the segment to the outside last meets the box. -/
theorem exit {e : Box K} (he : Proper e) {p q : Pt K} (hq : ¬ Inside e q) {s : K} (hs : s ≤ 1)
    (hin : Inside e (at' p q s)) :
    ∃ t, t < 1 ∧ s ≤ t ∧ Inside e (at' p q t) ∧ (∀ r, t < r → ¬ Inside e (at' p q r)) ∧
      ∃ E ∈ edges e, ¬ Parallel E.1 E.2 p q ∧ OnSegment (at' p q t) E.1 E.2 := by
  obtain ⟨t, t0, ts, hI, hlt, E, hE, hpar, hon⟩ := entry he (p := q) (q := p) hq (s := 1 - s)
    (by linarith) (by rw [at_swap]; exact hin)
  have e1 : at' q p t = at' p q (1 - t) := by
    rw [← at_swap p q (1 - t)]; congr 1; ring
  refine ⟨1 - t, by linarith, by linarith, e1 ▸ hI, ?_, E, hE, ?_, e1 ▸ hon⟩
  · intro r hr
    have := hlt (1 - r) (by linarith)
    rwa [at_swap] at this
  · intro h
    apply hpar
    unfold Parallel at h ⊢
    linear_combination -h

/-- A point strictly between two points of the box is not on an edge that crosses the segment. -/
theorem between_parallel {e : Box K} (he : Proper e) {p q : Pt K} {r s t : K} (hrs : r < s)
    (hst : s < t) (hr : Inside e (at' p q r)) (ht : Inside e (at' p q t)) {E : Line K}
    (hE : E ∈ edges e) (hs : OnSegment (at' p q s) E.1 E.2) : Parallel E.1 E.2 p q := by
  have lin : ∀ c d m : K, m ≤ c + r * d → m ≤ c + t * d → c + s * d = m → d = 0 := by
    intro c d m a b h
    rcases lt_trichotomy d 0 with hd | hd | hd
    · have := mul_lt_mul_of_neg_right hst hd
      linarith
    · exact hd
    · have := mul_lt_mul_of_pos_right hrs hd
      linarith
  obtain ⟨a1, a2, a3, a4⟩ := hr
  obtain ⟨b1, b2, b3, b4⟩ := ht
  simp only [at'] at *
  unfold Parallel
  rcases mem_edges.1 hE with rfl | rfl | rfl | rfl
  · obtain ⟨h, -, -⟩ := (on_bottom he).1 hs
    have := lin p.2 (q.2 - p.2) e.miny a3 b3 h
    simp only; rw [this]; ring
  · obtain ⟨h, -, -⟩ := (on_right he).1 hs
    have := lin (-p.1) (-(q.1 - p.1)) (-e.maxx) (by linarith) (by linarith)
      (by simp only at h; linarith)
    have h0 : q.1 - p.1 = 0 := by linarith
    simp only; rw [h0]; ring
  · obtain ⟨h, -, -⟩ := (on_top he).1 hs
    have := lin (-p.2) (-(q.2 - p.2)) (-e.maxy) (by linarith) (by linarith)
      (by simp only at h; linarith)
    have h0 : q.2 - p.2 = 0 := by linarith
    simp only; rw [h0]; ring
  · obtain ⟨h, -, -⟩ := (on_left he).1 hs
    have := lin p.1 (q.1 - p.1) e.minx a1 b1 h
    simp only; rw [this]; ring

/-- Points of the box fill what is between them. -/
theorem inside_convex {e : Box K} {p q : Pt K} {r s t : K} (hrs : r ≤ s) (hst : s ≤ t)
    (hr : Inside e (at' p q r)) (ht : Inside e (at' p q t)) : Inside e (at' p q s) := by
  have conv : ∀ (c d m : K), m ≤ c + r * d → m ≤ c + t * d → m ≤ c + s * d := by
    intro c d m h3 h4
    rcases le_total 0 d with h | h
    · have : r * d ≤ s * d := mul_le_mul_of_nonneg_right hrs h
      linarith
    · have : t * d ≤ s * d := mul_le_mul_of_nonpos_right hst h
      linarith
  obtain ⟨a1, a2, a3, a4⟩ := hr
  obtain ⟨b1, b2, b3, b4⟩ := ht
  simp only [at'] at *
  refine ⟨conv _ _ _ a1 b1, ?_, conv _ _ _ a3 b3, ?_⟩
  · have := conv (-p.1) (-(q.1 - p.1)) (-e.maxx) (by linarith) (by linarith); simp only; linarith
  · have := conv (-p.2) (-(q.2 - p.2)) (-e.maxy) (by linarith) (by linarith); simp only; linarith

/-- Two edges only share corners. -/
theorem edges_apart {e : Box K} (he : Proper e) : (edges e).Pairwise (fun E E' =>
    ∀ x, OnSegment x E.1 E.2 → OnSegment x E'.1 E'.2 → Corner e x) := by
  have h1 := he.1
  have h2 := he.2
  have h : ∀ E E' : Line K, E ∈ edges e → E' ∈ edges e → E ≠ E' →
      ∀ x, OnSegment x E.1 E.2 → OnSegment x E'.1 E'.2 → Corner e x := by
    intro E E' hE hE' hne x hx hx'
    rw [mem_edges] at hE hE'
    unfold Corner
    rcases hE with rfl | rfl | rfl | rfl <;> rcases hE' with rfl | rfl | rfl | rfl <;>
      simp only [on_bottom he, on_right he, on_top he, on_left he] at hx hx' <;>
      first | exact absurd rfl hne | (constructor <;> grind)
  have hnd : (edges e).Nodup := by
    simp [edges, Prod.ext_iff, h1.ne, h1.ne', h2.ne, h2.ne']
  exact hnd.imp_of_mem (fun ha hb hne => h _ _ ha hb hne)

end Verif.Lemmas.Clip
