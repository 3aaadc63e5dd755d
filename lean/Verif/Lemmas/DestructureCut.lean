import Verif.Lemmas.Destructure

/-! Helper lemmas for cutting into segments: all the segments together. -/

set_option linter.unusedSectionVars false

namespace Verif.Lemmas.Destructure
open Verif.Planar (Line)
open Verif.KdTree (Box)
open Verif.Clip (pointLess)
open Verif.Destructure
open Verif.Simplify (Ctx)
open Verif.Intersect (Event Out IsQueue findIntersects sharesEnd)
open Verif.Spec.Intersect (MeetAt Touch ListsAllMeetings callAll)
open Verif.Spec.Planar Verif.Spec.Clip Verif.Spec.Destructure
open Verif.Lemmas.Clip (at' at_inj at_zero at_one)

variable {K : Type} [Field K] [LinearOrder K] [IsStrictOrderedRing K]

/-- Exact equality of points. -/
abbrev px : Pt K → Pt K → Bool := fun a b => decide (a = b)

theorem px_iff (a b : Pt K) : px a b = true ↔ a = b := by simp

theorem mem_callAll_record {i : Nat} {p : Pt K} : ∀ (hits : List (Nat × Nat × Pt K)) (m : Nat → List (Pt K)) (last : Out Unit),
    p ∈ (callAll record last hits m).1 i ↔ p ∈ m i ∨ ∃ j, (i, j, p) ∈ hits ∨ (j, i, p) ∈ hits
  | [], m, last => by simp [callAll]
  | (a, b, x) :: hits, m, last => by
    have ih := mem_callAll_record (i := i) (p := p) hits (addAt (addAt m a x) b x) last
    simp only [callAll, record]
    rw [ih]
    have hm : p ∈ addAt (addAt m a x) b x i ↔ p ∈ m i ∨ (i = a ∧ p = x) ∨ (i = b ∧ p = x) := by
      unfold addAt
      by_cases h2 : i = b
      · rw [if_pos h2]
        by_cases h1 : i = a
        · rw [if_pos h1]; simp [← h1, ← h2]
        · rw [if_neg h1]; simp [h2]; tauto
      · rw [if_neg h2]
        by_cases h1 : i = a
        · rw [if_pos h1]; simp [h1]; tauto
        · rw [if_neg h1]; simp [h1, h2]
    rw [hm]
    constructor
    · rintro ((h | ⟨rfl, rfl⟩ | ⟨rfl, rfl⟩) | ⟨j, h⟩)
      · exact Or.inl h
      · exact Or.inr ⟨b, Or.inl (by simp)⟩
      · exact Or.inr ⟨a, Or.inr (by simp)⟩
      · exact Or.inr ⟨j, h.imp (List.mem_cons_of_mem _) (List.mem_cons_of_mem _)⟩
    · rintro (h | ⟨j, h | h⟩)
      · exact Or.inl (Or.inl h)
      · rcases List.mem_cons.1 h with h | h
        · cases h; exact Or.inl (Or.inr (Or.inl ⟨rfl, rfl⟩))
        · exact Or.inr ⟨j, Or.inl h⟩
      · rcases List.mem_cons.1 h with h | h
        · cases h; exact Or.inl (Or.inr (Or.inr ⟨rfl, rfl⟩))
        · exact Or.inr ⟨j, Or.inr h⟩

theorem splitLoop_eq {peq : Pt K → Pt K → Bool} {keep : Line K → Bool} {ctx : Ctx} (hctx : ∀ n, ctx n = false)
    {ipts : Nat → List (Pt K)} : ∀ (segs : List (Line K)) (n i : Nat) (acc : List (Line K)),
    splitLoop peq keep ctx ipts n i segs acc = some (acc ++ (segs.zipIdx i).flatMap
      (fun x => cutLoop peq keep (sortPts (x.1.1 :: x.1.2 :: ipts x.2))))
  | [], n, i, acc => by simp [splitLoop]
  | s :: segs, n, i, acc => by
    unfold splitLoop
    simp only [hctx, Bool.false_eq_true, if_false]
    rw [splitLoop_eq hctx segs]
    simp

/-- If the context has ended by then, nothing is returned. -/
theorem splitLoop_none {peq : Pt K → Pt K → Bool} {keep : Line K → Bool} {ctx : Ctx}
    {ipts : Nat → List (Pt K)} : ∀ (segs : List (Line K)) (n i : Nat) (acc : List (Line K)),
    (∃ k, k < segs.length ∧ ctx (n + k) = true) ∧ splitLoop peq keep ctx ipts n i segs acc = none ∨
      (∀ k, k < segs.length → ctx (n + k) = false) ∧
      splitLoop peq keep ctx ipts n i segs acc = some (acc ++ (segs.zipIdx i).flatMap
      (fun x => cutLoop peq keep (sortPts (x.1.1 :: x.1.2 :: ipts x.2))))
  | [], n, i, acc => by simp [splitLoop]
  | s :: segs, n, i, acc => by
    unfold splitLoop
    cases h : ctx n
    · simp only [Bool.false_eq_true, if_false]
      rcases splitLoop_none segs (n + 1) (i + 1) (acc ++ cutLoop peq keep (sortPts (s.1 :: s.2 :: ipts i))) with ⟨⟨k, hk, hk2⟩, h2⟩ | ⟨h2, h3⟩
      · refine Or.inl ⟨⟨k + 1, by simpa using hk, ?_⟩, h2⟩
        rw [← hk2]; congr 1; omega
      · right
        rw [h3]
        refine ⟨?_, by simp⟩
        intro k hk
        cases k with
        | zero => simpa using h
        | succ k =>
          have := h2 k (by simpa using hk)
          rw [← this]; congr 1; omega
    · left; exact ⟨⟨0, by simp, by simpa using h⟩, by simp⟩

/-- Two segments that are not parallel have one point in common at most. -/
theorem meet_unique {s t : Line K} {p q : Pt K} (hp : MeetAt p s t) (hq : MeetAt q s t) : p = q := by
  obtain ⟨hn, hp1, hp2⟩ := hp
  obtain ⟨-, hq1, hq2⟩ := hq
  have h1 := (Verif.Planar.segmentIntersect_iff s.1 s.2 t.1 t.2 p).2 ⟨hn, hp1, hp2⟩
  have h2 := (Verif.Planar.segmentIntersect_iff s.1 s.2 t.1 t.2 q).2 ⟨hn, hq1, hq2⟩
  rw [h1] at h2
  cases h2; rfl

theorem onSegment_left (a b : Pt K) : OnSegment a a b := ⟨0, le_refl _, zero_le_one, by simp⟩
theorem onSegment_right (a b : Pt K) : OnSegment b a b := ⟨1, zero_le_one, le_refl _, by simp⟩

theorem touch_meet {s t : Line K} (hn : ¬ Parallel s.1 s.2 t.1 t.2) (h : Touch px s t) :
    ∃ p, MeetAt p s t ∧ EndOf p s ∧ EndOf p t := by
  obtain ⟨a, ha, b, hb, hab⟩ := h
  have hab : a = b := (px_iff a b).1 hab
  subst hab
  have h1 : EndOf a s := by simpa [EndOf] using ha
  have h2 : EndOf a t := by simpa [EndOf] using hb
  refine ⟨a, ⟨hn, ?_, ?_⟩, h1, h2⟩
  · rcases h1 with rfl | rfl
    · exact onSegment_left _ _
    · exact onSegment_right _ _
  · rcases h2 with rfl | rfl
    · exact onSegment_left _ _
    · exact onSegment_right _ _

/-- The sorted points of the segment `i`. -/
structure Points (segs : List (Line K)) (P : Nat → List (Pt K)) : Prop where
  sorted : ∀ i, (P i).Pairwise Le
  ends : ∀ i s, segs[i]? = some s → ∀ p, EndOf p s → p ∈ P i
  meets : ∀ i j s t p, i ≠ j → segs[i]? = some s → segs[j]? = some t → MeetAt p s t → p ∈ P i
  only : ∀ i s p, segs[i]? = some s → p ∈ P i → EndOf p s ∨ ∃ j t, j ≠ i ∧ segs[j]? = some t ∧ MeetAt p s t

theorem meetAt_symm {s t : Line K} {p : Pt K} (h : MeetAt p s t) : MeetAt p t s := by
  obtain ⟨h1, h2, h3⟩ := h
  refine ⟨?_, h3, h2⟩
  intro hp
  apply h1
  unfold Parallel at *
  linear_combination -hp

theorem points_of_hits {segs : List (Line K)} {hits : List (Nat × Nat × Pt K)}
    (h : ListsAllMeetings segs true px hits) :
    Points segs (fun i => sortPts ((segs.getD i ((0, 0), (0, 0))).1 :: (segs.getD i ((0, 0), (0, 0))).2 ::
      (callAll record (Out.ok : Out Unit) hits (fun _ => [])).1 i)) := by
  obtain ⟨-, hne, hall⟩ := h
  have hget : ∀ i s, segs[i]? = some s → segs.getD i ((0, 0), (0, 0)) = s := by
    intro i s hs
    rw [List.getD_eq_getElem?_getD, hs]; rfl
  refine ⟨fun i => sorted_sortPts _, ?_, ?_, ?_⟩
  · intro i s hs p hp
    rw [mem_sortPts, hget i s hs]
    rcases hp with rfl | rfl <;> simp
  · intro i j s t p hij hs ht hm
    rw [mem_sortPts, hget i s hs]
    by_cases htch : Touch px s t
    · obtain ⟨q, hq, hqe, -⟩ := touch_meet hm.1 htch
      rw [meet_unique hm hq]
      rcases hqe with rfl | rfl <;> simp
    · refine List.mem_cons_of_mem _ (List.mem_cons_of_mem _ ?_)
      rw [mem_callAll_record]
      exact Or.inr ⟨j, (hall i j p hij).2 ⟨s, t, hs, ht, hm, fun h => htch h.2⟩⟩
  · intro i s p hs hp
    rw [mem_sortPts, hget i s hs] at hp
    rcases List.mem_cons.1 hp with rfl | hp
    · exact Or.inl (Or.inl rfl)
    rcases List.mem_cons.1 hp with rfl | hp
    · exact Or.inl (Or.inr rfl)
    rw [mem_callAll_record] at hp
    rcases hp with hp | ⟨j, hp⟩
    · simp at hp
    · have hij : i ≠ j := by
        rcases hp with hp | hp
        · exact hne _ _ _ hp
        · exact (hne _ _ _ hp).symm
      obtain ⟨s', t, hs', ht, hm, -⟩ := (hall i j p hij).1 hp
      rw [hs] at hs'
      cases hs'
      exact Or.inr ⟨j, t, hij.symm, ht, hm⟩

/-- All the pieces, with the clip test `keep`. -/
def Pieces (segs : List (Line K)) (P : Nat → List (Pt K)) (keep : Line K → Bool) : List (Line K) :=
  (segs.zipIdx).flatMap (fun x => cutLoop px keep (P x.2))

theorem mem_pieces {segs : List (Line K)} {P : Nat → List (Pt K)} {keep : Line K → Bool} {l : Line K} :
    l ∈ Pieces segs P keep ↔ ∃ i s, segs[i]? = some s ∧ l ∈ cutLoop px keep (P i) := by
  unfold Pieces
  rw [List.mem_flatMap]
  constructor
  · rintro ⟨⟨s, i⟩, h1, h2⟩
    exact ⟨i, s, List.mem_zipIdx_iff_getElem?.1 h1, h2⟩
  · rintro ⟨i, s, h1, h2⟩
    exact ⟨(s, i), List.mem_zipIdx_iff_getElem?.2 h1, h2⟩

variable {segs : List (Line K)} {P : Nat → List (Pt K)} {keep : Line K → Bool}

theorem points_on (hP : Points segs P) {i : Nat} {s : Line K} (hs : segs[i]? = some s) {p : Pt K} (hp : p ∈ P i) :
    OnSegment p s.1 s.2 := by
  rcases hP.only i s p hs hp with (rfl | rfl) | ⟨j, t, -, -, h⟩
  · exact onSegment_left _ _
  · exact onSegment_right _ _
  · exact h.2.1

/-- What there is to know of a piece of segment `i`. -/
theorem piece_spec (hP : Points segs P) {i : Nat} {s : Line K} (hs : segs[i]? = some s) {x y : Pt K}
    (h : (x, y) ∈ cutLoop px keep (P i)) :
    s.1 ≠ s.2 ∧ x ∈ P i ∧ y ∈ P i ∧ Before x y ∧ keep (x, y) = true ∧ (∀ z ∈ P i, OnSegment z x y → z = x ∨ z = y) ∧
      ∀ p, OnSegment p x y ↔ OnLine p s.1 s.2 ∧ Le x p ∧ Le p y := by
  obtain ⟨h1, h2, h3, h4, h5⟩ := mem_cutLoop px_iff (hP.sorted i) h
  have hx := points_on hP hs h1
  have hy := points_on hP hs h2
  have hne : s.1 ≠ s.2 := by
    intro he
    obtain ⟨u, -, -, rfl⟩ := hx
    obtain ⟨v, -, -, rfl⟩ := hy
    rw [he] at h3
    simp only [sub_self, mul_zero, add_zero] at h3
    exact before_irrefl _ h3
  have hon : ∀ p, OnSegment p x y ↔ OnLine p s.1 s.2 ∧ Le x p ∧ Le p y :=
    fun p => onSegment_iff hne (onLine_of_onSegment hx) (onLine_of_onSegment hy) h3
  refine ⟨hne, h1, h2, h3, h4, ?_, hon⟩
  intro z hz hzo
  obtain ⟨-, hz1, hz2⟩ := (hon z).1 hzo
  rcases h5 z hz with h | h
  · exact Or.inl (le_antisymm' h hz1)
  · exact Or.inr (le_antisymm' hz2 h)

/-- The piece is a part of its segment. -/
theorem piece_sub (hP : Points segs P) {i : Nat} {s : Line K} (hs : segs[i]? = some s) {x y p : Pt K}
    (h : (x, y) ∈ cutLoop px keep (P i)) (hp : OnSegment p x y) : OnSegment p s.1 s.2 := by
  obtain ⟨hne, h1, h2, h3, -, -, h6⟩ := piece_spec hP hs h
  obtain ⟨u, u0, u1, hu⟩ := points_on hP hs h1
  obtain ⟨v, v0, v1, hv⟩ := points_on hP hs h2
  obtain ⟨t, t0, t1, ht⟩ := hp
  refine ⟨u + t * (v - u), ?_, ?_, ?_⟩
  · have : u + t * (v - u) = (1 - t) * u + t * v := by ring
    rw [this]
    exact add_nonneg (mul_nonneg (by linarith) u0) (mul_nonneg t0 v0)
  · have h1 := mul_le_mul_of_nonneg_left u1 (sub_nonneg.2 t1)
    have h2 := mul_le_mul_of_nonneg_left v1 t0
    have : u + t * (v - u) = (1 - t) * u + t * v := by ring
    rw [this]; linarith
  · rw [ht, hu, hv]
    ext <;> simp <;> ring

/-- The direction of a piece is that of its segment. -/
theorem piece_parallel (hP : Points segs P) {i j : Nat} {s t : Line K} (hs : segs[i]? = some s) (ht : segs[j]? = some t)
    {x y u v : Pt K} (h : (x, y) ∈ cutLoop px keep (P i)) (h' : (u, v) ∈ cutLoop px keep (P j)) :
    Parallel x y u v ↔ Parallel s.1 s.2 t.1 t.2 := by
  have key : ∀ {i : Nat} {s : Line K} {x y : Pt K}, segs[i]? = some s → (x, y) ∈ cutLoop px keep (P i) →
      ∃ c : K, c ≠ 0 ∧ y.1 - x.1 = c * (s.2.1 - s.1.1) ∧ y.2 - x.2 = c * (s.2.2 - s.1.2) := by
    intro i s x y hs h
    obtain ⟨hne, h1, h2, h3, -⟩ := piece_spec hP hs h
    obtain ⟨u, u0, u1, hu⟩ := points_on hP hs h1
    obtain ⟨v, v0, v1, hv⟩ := points_on hP hs h2
    refine ⟨v - u, ?_, ?_, ?_⟩
    · intro h0
      have : u = v := (sub_eq_zero.1 h0).symm
      subst this
      rw [← hv] at hu
      rw [hu] at h3
      exact before_irrefl _ h3
    · rw [hu, hv]; ring
    · rw [hu, hv]; ring
  obtain ⟨c, hc, c1, c2⟩ := key hs h
  obtain ⟨d, hd, d1, d2⟩ := key ht h'
  unfold Parallel
  rw [c1, c2, d1, d2]
  have hcd : c * d ≠ 0 := mul_ne_zero hc hd
  constructor
  · intro e
    apply mul_left_cancel₀ hcd
    linear_combination e
  · intro e
    linear_combination c * d * e

/-- Pieces that are not parallel meet at their ends only. -/
theorem pieces_meet (hP : Points segs P) {l m : Line K} (hl : l ∈ Pieces segs P keep) (hm : m ∈ Pieces segs P keep)
    (hn : ¬ Parallel l.1 l.2 m.1 m.2) {p : Pt K} (h1 : OnSegment p l.1 l.2) (h2 : OnSegment p m.1 m.2) :
    EndOf p l ∧ EndOf p m := by
  obtain ⟨i, s, hs, hl⟩ := mem_pieces.1 hl
  obtain ⟨j, t, ht, hm⟩ := mem_pieces.1 hm
  obtain ⟨x, y⟩ := l
  obtain ⟨u, v⟩ := m
  have hpar := (piece_parallel hP hs ht hl hm).not.1 hn
  have hij : i ≠ j := by
    rintro rfl
    rw [hs] at ht
    cases ht
    exact hpar (by unfold Parallel; ring)
  have hmeet : MeetAt p s t := ⟨hpar, piece_sub hP hs hl h1, piece_sub hP ht hm h2⟩
  have a1 := hP.meets i j s t p hij hs ht hmeet
  have a2 := hP.meets j i t s p hij.symm ht hs (meetAt_symm hmeet)
  obtain ⟨-, -, -, -, -, b1, -⟩ := piece_spec hP hs hl
  obtain ⟨-, -, -, -, -, b2, -⟩ := piece_spec hP ht hm
  exact ⟨b1 p a1 h1, b2 p a2 h2⟩

theorem apart_symm {a b c d : Pt K} (h : Apart a b c d) : Apart c d a b :=
  fun x y h1 h2 h3 h4 => h x y h2 h1 h4 h3

/-- Two different pieces of one segment meet at their ends only. -/
theorem same_meet (hP : Points segs P) {i : Nat} {s : Line K} (hs : segs[i]? = some s) {x y u v p : Pt K}
    (h : (x, y) ∈ cutLoop px keep (P i)) (h' : (u, v) ∈ cutLoop px keep (P i)) (hne : (x, y) ≠ (u, v))
    (h1 : OnSegment p x y) (h2 : OnSegment p u v) : EndOf p (x, y) ∧ EndOf p (u, v) := by
  obtain ⟨hn, x1, y1, xy, -, b1, c1⟩ := piece_spec hP hs h
  obtain ⟨-, u1, v1, uv, -, b2, c2⟩ := piece_spec hP hs h'
  obtain ⟨pl, p1, p2⟩ := (c1 p).1 h1
  obtain ⟨-, p3, p4⟩ := (c2 p).1 h2
  have hor : ∀ z ∈ P i, Le z x ∨ Le y z := (mem_cutLoop px_iff (hP.sorted i) h).2.2.2.2
  have hor' : ∀ z ∈ P i, Le z u ∨ Le v z := (mem_cutLoop px_iff (hP.sorted i) h').2.2.2.2
  have hmem : p ∈ P i := by
    by_contra hc
    have np : ∀ z ∈ P i, z ≠ p := fun z hz e => hc (e ▸ hz)
    have hux : Le u x := by
      rcases hor u u1 with h | h
      · exact h
      · exact absurd (le_antisymm' p3 (le_trans' p2 h)) (np u u1)
    have hyv : Le y v := by
      rcases hor v v1 with h | h
      · exact absurd (le_antisymm' (le_trans' h p1) p4) (np v v1)
      · exact h
    have hxu : x = u := by
      rcases hor' x x1 with h | h
      · exact le_antisymm' h hux
      · exact absurd (before_of_before_le xy (le_trans' hyv h)) (before_irrefl _)
    have hyv' : y = v := by
      rcases hor' y y1 with h | h
      · exact absurd (before_of_before_le (before_of_le_before hux xy) h) (before_irrefl _)
      · exact le_antisymm' hyv h
    exact hne (by rw [hxu, hyv'])
  exact ⟨b1 p hmem h1, b2 p hmem h2⟩

/-- Parallel segments with exactly one common point have it at an end. -/
theorem end_of_apart {s t : Line K} (hs : s.1 ≠ s.2) (ht : t.1 ≠ t.2) (hpar : Parallel s.1 s.2 t.1 t.2)
    (hap : Apart s.1 s.2 t.1 t.2) {p : Pt K} (h1 : OnSegment p s.1 s.2) (h2 : OnSegment p t.1 t.2) : EndOf p s := by
  obtain ⟨a, b⟩ := s
  obtain ⟨c, d⟩ := t
  simp only at *
  by_contra hc
  unfold EndOf at hc
  simp only [not_or] at hc
  obtain ⟨u, u0, u1, hu⟩ := h1
  obtain ⟨w, w0, w1, hw⟩ := h2
  have hu0 : 0 < u := by
    rcases u0.lt_or_eq with h | h
    · exact h
    · subst h; exact absurd (by rw [hu]; simp) hc.1
  have hu1 : u < 1 := by
    rcases u1.lt_or_eq with h | h
    · exact h
    · subst h; exact absurd (by rw [hu]; simp) hc.2
  -- the direction of the second segment is a multiple of that of the first
  obtain ⟨k, hk, k1, k2⟩ : ∃ k : K, k ≠ 0 ∧ d.1 - c.1 = k * (b.1 - a.1) ∧ d.2 - c.2 = k * (b.2 - a.2) := by
    unfold Parallel at hpar
    by_cases hx : b.1 - a.1 = 0
    · have hy : b.2 - a.2 ≠ 0 := by
        intro hy
        exact hs (Prod.ext (sub_eq_zero.1 hx).symm (sub_eq_zero.1 hy).symm)
      have hd1 : d.1 - c.1 = 0 := by
        rw [hx, zero_mul] at hpar
        rcases mul_eq_zero.1 hpar.symm with h | h
        · exact absurd h hy
        · exact h
      refine ⟨(d.2 - c.2) / (b.2 - a.2), ?_, ?_, ?_⟩
      · intro h
        rcases div_eq_zero_iff.1 h with h | h
        · exact ht (Prod.ext (sub_eq_zero.1 hd1).symm (sub_eq_zero.1 h).symm)
        · exact hy h
      · rw [hd1, hx, mul_zero]
      · field_simp
    · refine ⟨(d.1 - c.1) / (b.1 - a.1), ?_, ?_, ?_⟩
      · intro h
        rcases div_eq_zero_iff.1 h with h | h
        · rw [h, mul_zero] at hpar
          rcases mul_eq_zero.1 hpar with h' | h'
          · exact hx h'
          · exact ht (Prod.ext (sub_eq_zero.1 h).symm (sub_eq_zero.1 h').symm)
        · exact hx h
      · field_simp
      · rw [div_mul_eq_mul_div, eq_div_iff hx]
        linear_combination hpar
  -- go a little further on the second segment
  have step : ∀ δ : K, 0 ≤ w + δ → w + δ ≤ 1 → 0 ≤ u + δ * k → u + δ * k ≤ 1 → δ = 0 := by
    intro δ e1 e2 e3 e4
    have heq : (a.1 + (u + δ * k) * (b.1 - a.1), a.2 + (u + δ * k) * (b.2 - a.2))
        = (c.1 + (w + δ) * (d.1 - c.1), c.2 + (w + δ) * (d.2 - c.2)) := by
      rw [hu] at hw
      have w1 := congrArg Prod.fst hw
      have w2 := congrArg Prod.snd hw
      simp only at w1 w2
      ext
      · simp only; linear_combination w1 - δ * k1
      · simp only; linear_combination w2 - δ * k2
    have := hap (a.1 + (u + δ * k) * (b.1 - a.1), a.2 + (u + δ * k) * (b.2 - a.2)) p
      ⟨u + δ * k, e3, e4, rfl⟩ ⟨w + δ, e1, e2, heq⟩ ⟨u, u0, u1, hu⟩ ⟨w, w0, w1, hw⟩
    rw [hu] at this
    have e := at_inj (p := a) (q := b) hs (s := u + δ * k) (t := u) this
    have : δ * k = 0 := by linarith
    rcases mul_eq_zero.1 this with h | h
    · exact h
    · exact absurd h hk
  -- room on both sides of u
  have hroom : ∃ ε : K, 0 < ε ∧ |k| * ε ≤ u ∧ |k| * ε ≤ 1 - u := by
    have hkp : 0 < |k| := abs_pos.2 hk
    refine ⟨min u (1 - u) / |k|, div_pos (lt_min hu0 (by linarith)) hkp, ?_, ?_⟩
    · rw [mul_div_cancel₀ _ hkp.ne']; exact min_le_left _ _
    · rw [mul_div_cancel₀ _ hkp.ne']; exact min_le_right _ _
  obtain ⟨ε, he, e1, e2⟩ := hroom
  have hkabs : ∀ δ : K, |δ| ≤ ε → 0 ≤ u + δ * k ∧ u + δ * k ≤ 1 := by
    intro δ hδ
    have : |δ * k| ≤ |k| * ε := by
      rw [abs_mul, mul_comm]; exact mul_le_mul_of_nonneg_left hδ (abs_nonneg _)
    obtain ⟨l1, l2⟩ := abs_le.1 this
    constructor <;> linarith
  by_cases hw1 : w < 1
  · have hpos : 0 < min ε (1 - w) := lt_min he (by linarith)
    have := hkabs (min ε (1 - w)) (by rw [abs_of_pos hpos]; exact min_le_left _ _)
    have h0 := step (min ε (1 - w)) (by linarith) (by have := min_le_right ε (1 - w); linarith) this.1 this.2
    linarith
  · have hw1 : w = 1 := le_antisymm w1 (not_lt.1 hw1)
    have hpos : 0 < min ε 1 := lt_min he one_pos
    have := hkabs (-min ε 1) (by rw [abs_neg, abs_of_pos hpos]; exact min_le_left _ _)
    have h0 := step (-min ε 1) (by have := min_le_right ε 1; linarith) (by linarith) this.1 this.2
    linarith

theorem parallel_symm {a b c d : Pt K} (h : Parallel a b c d) : Parallel c d a b := by
  unfold Parallel at *
  linear_combination -h

/-- If no two segments overlap, any two different pieces meet at their ends only. -/
theorem pieces_apart (hP : Points segs P) (hap : segs.Pairwise (fun s t => Apart s.1 s.2 t.1 t.2))
    {l m : Line K} (hl : l ∈ Pieces segs P keep) (hm : m ∈ Pieces segs P keep)
    (hne : l ≠ m) {p : Pt K} (h1 : OnSegment p l.1 l.2) (h2 : OnSegment p m.1 m.2) :
    EndOf p l ∧ EndOf p m := by
  by_cases hpar : Parallel l.1 l.2 m.1 m.2
  · obtain ⟨i, s, hs, hl⟩ := mem_pieces.1 hl
    obtain ⟨j, t, ht, hm⟩ := mem_pieces.1 hm
    obtain ⟨x, y⟩ := l
    obtain ⟨u, v⟩ := m
    by_cases hij : i = j
    · subst hij
      exact same_meet hP hs hl hm hne h1 h2
    · have hpar' := (piece_parallel hP hs ht hl hm).1 hpar
      have hst : Apart s.1 s.2 t.1 t.2 := by
        rcases Nat.lt_or_gt_of_ne hij with hlt | hlt
        · obtain ⟨hi', e1⟩ := List.getElem?_eq_some_iff.1 hs
          obtain ⟨hj', e2⟩ := List.getElem?_eq_some_iff.1 ht
          rw [← e1, ← e2]
          exact List.pairwise_iff_getElem.1 hap i j hi' hj' hlt
        · obtain ⟨hi', e1⟩ := List.getElem?_eq_some_iff.1 hs
          obtain ⟨hj', e2⟩ := List.getElem?_eq_some_iff.1 ht
          rw [← e1, ← e2]
          exact apart_symm (List.pairwise_iff_getElem.1 hap j i hj' hi' hlt)
      obtain ⟨hsn, -, -, -, -, b1, -⟩ := piece_spec hP hs hl
      obtain ⟨htn, -, -, -, -, b2, -⟩ := piece_spec hP ht hm
      have o1 := piece_sub hP hs hl h1
      have o2 := piece_sub hP ht hm h2
      have e1 := end_of_apart hsn htn hpar' hst o1 o2
      have e2 := end_of_apart htn hsn (parallel_symm hpar') (apart_symm hst) o2 o1
      exact ⟨b1 p (hP.ends i s hs p e1) h1, b2 p (hP.ends j t ht p e2) h2⟩
  · exact pieces_meet hP hl hm hpar h1 h2

/-- If no two segments overlap, no piece comes twice. -/
theorem pieces_nodup (hP : Points segs P) (hap : segs.Pairwise (fun s t => Apart s.1 s.2 t.1 t.2)) :
    (Pieces segs P keep).Nodup := by
  unfold Pieces
  rw [List.nodup_flatMap]
  refine ⟨fun x _ => cutLoop_nodup px_iff (hP.sorted _), ?_⟩
  rw [List.pairwise_iff_getElem]
  intro i j hi hj hij
  simp only [List.getElem_zipIdx, Nat.zero_add, Function.onFun]
  rw [List.disjoint_left]
  rintro ⟨x, y⟩ h1 h2
  have hi' : i < segs.length := by simpa using hi
  have hj' : j < segs.length := by simpa using hj
  have hs : segs[i]? = some segs[i] := List.getElem?_eq_getElem hi'
  have ht : segs[j]? = some segs[j] := List.getElem?_eq_getElem hj'
  have hst := List.pairwise_iff_getElem.1 hap i j hi' hj' hij
  have hb := (piece_spec hP hs h1).2.2.2.1
  have := hst x y (piece_sub hP hs h1 (onSegment_left _ _)) (piece_sub hP ht h2 (onSegment_left _ _))
    (piece_sub hP hs h1 (onSegment_right _ _)) (piece_sub hP ht h2 (onSegment_right _ _))
  subst this
  exact before_irrefl _ hb

/-- Every point of a segment is in a piece of it, if the piece is kept. -/
theorem piece_cover (hP : Points segs P) {i : Nat} {s : Line K} (hs : segs[i]? = some s) (hne : s.1 ≠ s.2) {p : Pt K}
    (hp : OnSegment p s.1 s.2) :
    ∃ x y, x ∈ P i ∧ y ∈ P i ∧ Before x y ∧ OnSegment p x y ∧ (∀ z ∈ P i, OnSegment z x y → z = x ∨ z = y) ∧
      (keep (x, y) = true → (x, y) ∈ Pieces segs P keep) := by
  have he1 := hP.ends i s hs s.1 (Or.inl rfl)
  have he2 := hP.ends i s hs s.2 (Or.inr rfl)
  have hso := hP.sorted i
  -- the two ends in order
  obtain ⟨a, b, ha, hb, hab, hla, hlb, hpab⟩ : ∃ a b, a ∈ P i ∧ b ∈ P i ∧ Before a b ∧ OnLine a s.1 s.2 ∧ OnLine b s.1 s.2 ∧
      OnSegment p a b := by
    rcases before_tri s.1 s.2 with h | h | h
    · exact ⟨_, _, he1, he2, h, onLine_left _ _, onLine_right _ _, hp⟩
    · exact absurd h hne
    · exact ⟨_, _, he2, he1, h, onLine_right _ _, onLine_left _ _, Verif.Planar.onSegment_symm hp⟩
  obtain ⟨hpl, hap, hpb⟩ := (onSegment_iff hne hla hlb hab).1 hpab
  cases hPi : P i with
  | nil => rw [hPi] at ha; simp at ha
  | cons u l =>
    rw [hPi] at hso ha hb
    have hu : Le u a := by
      rcases List.mem_cons.1 ha with h | h
      · exact Or.inr h.symm
      · exact (List.pairwise_cons.1 hso).1 a h
    obtain ⟨x, y, i1, i2, i3, i4, i5, i6, i7⟩ := cutLoop_cover px_iff (keep := keep) hso hb (before_of_le_before hu hab)
      (le_trans' hu hap) hpb
    have hx := onLine_of_onSegment (points_on hP hs (p := x) (by rw [hPi]; exact i1))
    have hy := onLine_of_onSegment (points_on hP hs (p := y) (by rw [hPi]; exact i2))
    refine ⟨x, y, i1, i2, i3, (onSegment_iff hne hx hy i3).2 ⟨hpl, i4, i5⟩, ?_, ?_⟩
    · intro z hz hzo
      obtain ⟨-, hz1, hz2⟩ := (onSegment_iff hne hx hy i3).1 hzo
      rcases i6 z hz with h | h
      · exact Or.inl (le_antisymm' h hz1)
      · exact Or.inr (le_antisymm' hz2 h)
    · intro hk
      refine mem_pieces.2 ⟨i, s, hs, ?_⟩
      rw [hPi]
      exact i7 hk

end Verif.Lemmas.Destructure
