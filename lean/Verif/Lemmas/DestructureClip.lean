import Verif.Lemmas.DestructureCut

/-! Helper lemmas for cutting into segments: the segments of the multipolygon and the clip box. -/

set_option linter.unusedSectionVars false

namespace Verif.Lemmas.Destructure
open Verif.Planar (Line)
open Verif.KdTree (Box)
open Verif.Clip (pointLess edges)
open Verif.Destructure
open Verif.Simplify (Ctx)
open Verif.Intersect (Event Out IsQueue findIntersects sharesEnd boxContains)
open Verif.Spec.Intersect (MeetAt Touch ListsAllMeetings callAll)
open Verif.Spec.Planar Verif.Spec.Clip Verif.Spec.Destructure
open Verif.Lemmas.Clip (at' at_inj at_zero at_one boxContains_iff mem_edges entry exit on_bottom on_top on_left on_right)

variable {K : Type} [Field K] [LinearOrder K] [IsStrictOrderedRing K]

/-! ### The edges of the rings -/

theorem zip_shift (c : Pt K) : ∀ (t : List (Pt K)) (a : Pt K),
    (a :: t).zip (t ++ [c]) = Geom.ringLoop a t ++ [((a :: t).getLast (by simp), c)]
  | [], a => by simp [Geom.ringLoop]
  | b :: t, a => by
    rw [List.cons_append, List.zip_cons_cons, zip_shift c t b]
    simp [Geom.ringLoop]

theorem poly_perm : ∀ (rings : List (List (Pt K))), ((Geom.polySegments rings).flatten).Perm (rings.flatMap ringEdges)
  | [] => by simp [Geom.polySegments]
  | r :: rings => by
    have ih := poly_perm rings
    rw [List.flatMap_cons]
    have hshort : r.length < 3 → (Geom.polySegments (r :: rings)) = Geom.polySegments rings := by
      intro h
      match r, h with
      | [], _ => rfl
      | [a], _ => rfl
      | [a, b], _ => rfl
      | a :: b :: c :: t, h => simp at h; omega
    by_cases hr : r.length < 3
    · rw [hshort hr]
      unfold ringEdges
      rw [if_neg (by omega), List.nil_append]
      exact ih
    · match r, hr with
      | [], h => simp at h
      | [a], h => simp at h
      | [a, b], h => simp at h
      | a :: b :: c :: t, h =>
        have h1 : Geom.polySegments ((a :: b :: c :: t) :: rings)
          = Geom.ringLoop ((c :: t).getLast (by simp)) (a :: b :: c :: t) :: Geom.polySegments rings := rfl
        rw [h1, List.flatten_cons]
        refine List.Perm.append ?_ ih
        unfold ringEdges
        rw [if_pos (by omega), List.rotate_cons_succ, List.rotate_zero, zip_shift]
        have : (a :: b :: c :: t).getLast (by simp) = (c :: t).getLast (by simp) := by simp
        rw [this]
        conv_lhs => rw [Geom.ringLoop]
        exact (List.perm_append_singleton _ _).symm

theorem asSegments_perm : ∀ (mp : List (List (List (Pt K)))), (asSegments mp).Perm (edgesOf mp)
  | [] => by simp [asSegments, Geom.mpolySegments, edgesOf]
  | p :: mp => by
    have ih := asSegments_perm mp
    have h1 : asSegments (p :: mp) = (Geom.polySegments p).flatten ++ asSegments mp := by
      simp [asSegments, Geom.mpolySegments]
    have h2 : edgesOf (p :: mp) = p.flatMap ringEdges ++ edgesOf mp := by
      simp [edgesOf, List.flatMap_append]
    rw [h1, h2]
    exact (poly_perm p).append ih

/-! ### Whether the clip box is used -/

theorem foldl_box {e : Box K} : ∀ (ps : List (Pt K)) (b : Box K),
    boxContainsBox e (ps.foldl Box.add b) = true ↔ boxContainsBox e b = true ∧ ∀ p ∈ ps, Inside e p
  | [], b => by simp
  | p :: ps, b => by
    rw [List.foldl_cons, foldl_box ps]
    have : boxContainsBox e (b.add p) = true ↔ boxContainsBox e b = true ∧ Inside e p := by
      simp only [boxContainsBox, Box.add, Inside, Bool.and_eq_true, decide_eq_true_eq, le_min_iff, max_le_iff]
      tauto
    rw [this, List.forall_mem_cons, and_assoc]

theorem mem_points {mp : List (List (List (Pt K)))} {p : Pt K} :
    p ∈ (mp.map List.flatten).flatten ↔ Vertex mp p := by
  simp only [List.mem_flatten, List.mem_map, Vertex]
  constructor
  · rintro ⟨l, ⟨poly, h1, rfl⟩, h2⟩
    obtain ⟨r, h3, h4⟩ := List.mem_flatten.1 h2
    exact ⟨poly, h1, r, h3, h4⟩
  · rintro ⟨poly, h1, r, h3, h4⟩
    exact ⟨_, ⟨poly, h1, rfl⟩, List.mem_flatten.2 ⟨r, h3, h4⟩⟩

theorem hasClipbox_iff {clip : Option (Box K)} {mp : List (List (List (Pt K)))} :
    hasClipbox clip mp = false ↔ NotClipped clip mp := by
  unfold hasClipbox NotClipped extentOf
  cases clip with
  | none => simp
  | some e =>
    cases hps : (mp.map List.flatten).flatten with
    | nil =>
      simp only [Option.some.injEq, forall_eq']
      constructor
      · intro h; cases h
      · rintro ⟨⟨p, hp⟩, -⟩
        rw [← mem_points, hps] at hp; simp at hp
    | cons p ps =>
      simp only [Option.some.injEq, forall_eq', Bool.not_eq_false']
      rw [foldl_box]
      have hp : Vertex mp p := by rw [← mem_points, hps]; simp
      have h0 : boxContainsBox e (Box.ofPt p) = true ↔ Inside e p := by
        unfold boxContainsBox Inside
        rw [Bool.and_eq_true, Bool.and_eq_true, Bool.and_eq_true, decide_eq_true_iff, decide_eq_true_iff,
          decide_eq_true_iff, decide_eq_true_iff, and_assoc, and_assoc]
        exact Iff.rfl
      have hall : (∀ q ∈ p :: ps, Inside e q) ↔ ∀ q, Vertex mp q → Inside e q := by
        rw [← hps]
        exact forall_congr' (fun q => by rw [mem_points])
      rw [h0, hall]
      exact ⟨fun h => ⟨⟨p, hp⟩, h.2⟩, fun h => ⟨h.2 p hp, h.2⟩⟩

theorem hasClipbox_true {clip : Option (Box K)} {mp : List (List (List (Pt K)))} (h : ¬ NotClipped clip mp) :
    hasClipbox clip mp = true := by
  rw [← hasClipbox_iff] at h
  simpa using h

theorem edges_side {e : Box K} (he : Proper e) {E : Line K} (h : E ∈ edges e) : Side e E.1 E.2 := by
  obtain ⟨h1, h2⟩ := he
  unfold Side Corner
  rcases mem_edges.1 h with rfl | rfl | rfl | rfl <;> simp [h1.ne, h1.ne', h2.ne, h2.ne']

theorem onSegment_flip {p a b : Pt K} : OnSegment p a b ↔ OnSegment p b a :=
  ⟨Verif.Planar.onSegment_symm, Verif.Planar.onSegment_symm⟩

theorem mem_allSegments {clip : Option (Box K)} {mp : List (List (List (Pt K)))} {s : Line K} :
    s ∈ allSegments clip mp ↔ s ∈ edgesOf mp ∨ (¬ NotClipped clip mp ∧ ∃ e, clip = some e ∧ s ∈ edges e) := by
  unfold allSegments
  have hperm : s ∈ asSegments mp ↔ s ∈ edgesOf mp := (asSegments_perm mp).mem_iff
  cases clip with
  | none => simp [hperm]
  | some e =>
    cases h : hasClipbox (some e) mp
    · have := hasClipbox_iff.1 h
      simp [hperm, this]
    · have : ¬ NotClipped (some e) mp := by rw [← hasClipbox_iff, h]; simp
      simp only [List.mem_append, hperm, this, not_false_eq_true, true_and, Option.some.injEq, exists_eq_left']
      tauto

theorem allSegments_cut {clip : Option (Box K)} (hclip : ∀ e, clip = some e → Proper e)
    {mp : List (List (List (Pt K)))} {s : Line K} (h : s ∈ allSegments clip mp) : Cut clip mp s.1 s.2 := by
  rcases mem_allSegments.1 h with h | ⟨h1, e, h2, h3⟩
  · exact Or.inl h
  · exact Or.inr ⟨h1, e, h2, edges_side (hclip e h2) h3⟩

theorem apart_of_not_parallel {a b c d : Pt K} (h : ¬ Parallel a b c d) : Apart a b c d := by
  intro x y h1 h2 h3 h4
  exact meet_unique (s := (a, b)) (t := (c, d)) ⟨h, h1, h2⟩ ⟨h, h3, h4⟩

theorem edges_apart {e : Box K} (he : Proper e) : (edges e).Pairwise (fun s t => Apart s.1 s.2 t.1 t.2) := by
  obtain ⟨h1, h2⟩ := id he
  have hx : e.maxx - e.minx ≠ 0 := by linarith
  have hy : e.maxy - e.miny ≠ 0 := by linarith
  unfold edges
  refine List.Pairwise.cons ?_ (List.Pairwise.cons ?_ (List.Pairwise.cons ?_ (List.Pairwise.cons ?_ List.Pairwise.nil)))
  · intro t ht
    simp only [List.mem_cons, List.not_mem_nil, or_false] at ht
    rcases ht with rfl | rfl | rfl
    · apply apart_of_not_parallel; unfold Parallel; simp [hx, hy]
    · intro x y a b
      have p1 := ((on_bottom he).1 a).1
      have p2 := ((on_top he).1 b).1
      rw [p1] at p2; exact absurd p2 h2.ne
    · apply apart_of_not_parallel; unfold Parallel; simp [sub_eq_zero, h1.ne', h2.ne]
  · intro t ht
    simp only [List.mem_cons, List.not_mem_nil, or_false] at ht
    rcases ht with rfl | rfl
    · apply apart_of_not_parallel; unfold Parallel; simp [sub_eq_zero, h1.ne, h2.ne']
    · intro x y a b
      have p1 := ((on_right he).1 a).1
      have p2 := ((on_left he).1 b).1
      rw [p1] at p2; exact absurd p2 h1.ne'
  · intro t ht
    simp only [List.mem_cons, List.not_mem_nil, or_false] at ht
    subst ht
    apply apart_of_not_parallel; unfold Parallel; simp [sub_eq_zero, h1.ne, h2.ne]
  · simp

theorem allSegments_apart {clip : Option (Box K)} (hclip : ∀ e, clip = some e → Proper e)
    {mp : List (List (List (Pt K)))} (h : NoOverlap clip mp) :
    (allSegments clip mp).Pairwise (fun s t => Apart s.1 s.2 t.1 t.2) := by
  obtain ⟨h1, h2⟩ := h
  have hseg : (asSegments mp).Pairwise (fun s t => Apart s.1 s.2 t.1 t.2) :=
    ((asSegments_perm mp).pairwise_iff (fun h => apart_symm h)).2 h1
  unfold allSegments
  cases clip with
  | none => exact hseg
  | some e =>
    cases hc : hasClipbox (some e) mp
    · exact hseg
    · have hn : ¬ NotClipped (some e) mp := by rw [← hasClipbox_iff, hc]; simp
      simp only
      rw [List.pairwise_append]
      refine ⟨edges_apart (hclip e rfl), hseg, ?_⟩
      intro E hE s hs
      exact h2 hn e rfl E.1 E.2 (edges_side (hclip e rfl) hE) s ((asSegments_perm mp).mem_iff.1 hs)

/-! ### The result -/

theorem destructure_eq {ctx : Ctx} (hctx : ∀ n, ctx n = false) {clip : Option (Box K)} {mp : List (List (List (Pt K)))}
    {q : List (Event K)} (hq : IsQueue (allSegments clip mp) q) :
    ∃ P, Points (allSegments clip mp) P ∧ destructure px px ctx clip mp q
      = some (unique px (Pieces (allSegments clip mp) P (keepPiece clip (hasClipbox clip mp)))) := by
  have hsym : ∀ a b : Pt K, px a b = px b a := by intro a b; simp [px, eq_comm]
  have hhits := Verif.Intersect.sweep_hits hq true px hsym
  have hrun := Verif.Intersect.sweep_eq ctx (allSegments clip mp) true px (record (K := K)) q 0 [] (fun _ => []) q.length
    (fun i _ _ => hctx i) (Nat.le_refl _) (fun h => absurd h (Nat.lt_irrefl _))
  rw [if_neg (Nat.lt_irrefl _), List.take_length] at hrun
  refine ⟨_, points_of_hits hhits, ?_⟩
  unfold destructure findIntersects
  simp only
  rw [hrun, splitLoop_eq hctx, List.nil_append, Option.map_some]
  congr 2
  unfold Pieces
  apply List.flatMap_congr
  rintro ⟨s, i⟩ hx
  have := List.mem_zipIdx_iff_getElem?.1 hx
  simp only at this ⊢
  rw [List.getD_eq_getElem?_getD, this]
  rfl

theorem destructure_ends {ctx : Ctx} (hctx : ∀ m n, m ≤ n → ctx m = true → ctx n = true) {clip : Option (Box K)}
    {mp : List (List (List (Pt K)))} {q : List (Event K)} (hq : q.length = 0 ∨ allSegments clip mp ≠ []) :
    destructure px px ctx clip mp q = (if (allSegments clip mp) ≠ [] ∧
        ctx (q.length + (allSegments clip mp).length - 1) = true
      then none else destructure px px (fun _ => false) clip mp q) := by
  by_cases hc : (allSegments clip mp) ≠ [] ∧ ctx (q.length + (allSegments clip mp).length - 1) = true
  · rw [if_pos hc]
    obtain ⟨h1, h2⟩ := hc
    have hpos := List.length_pos_iff.2 h1
    unfold destructure
    simp only
    rcases splitLoop_none (peq := px) (keep := keepPiece clip (hasClipbox clip mp)) (ctx := ctx)
      (ipts := (findIntersects ctx (allSegments clip mp) q true px record (fun _ => [])).1)
      (allSegments clip mp) q.length 0 [] with ⟨-, h⟩ | ⟨h, -⟩
    · rw [h]; rfl
    · have := h ((allSegments clip mp).length - 1) (by omega)
      rw [show q.length + ((allSegments clip mp).length - 1) = q.length + (allSegments clip mp).length - 1 by omega] at this
      rw [this] at h2; cases h2
  · rw [if_neg hc]
    have hall : ∀ n, n < q.length + (allSegments clip mp).length → ctx n = false := by
      intro n hn
      by_cases h1 : allSegments clip mp = []
      · rcases hq with hq | hq
        · rw [h1, hq] at hn; simp at hn
        · exact absurd h1 hq
      · by_contra h2
        exact hc ⟨h1, hctx n _ (by omega) (by simpa using h2)⟩
    unfold destructure findIntersects
    simp only
    have r1 := Verif.Intersect.sweep_eq ctx (allSegments clip mp) true px (record (K := K)) q 0 [] (fun _ => []) q.length
      (fun i _ h => hall i (by omega)) (Nat.le_refl _) (fun h => absurd h (Nat.lt_irrefl _))
    have r2 := Verif.Intersect.sweep_eq (fun _ => false) (allSegments clip mp) true px (record (K := K)) q 0 [] (fun _ => []) q.length
      (fun i _ h => rfl) (Nat.le_refl _) (fun h => absurd h (Nat.lt_irrefl _))
    rw [if_neg (Nat.lt_irrefl _)] at r1 r2
    rw [r1, r2, splitLoop_eq (ctx := fun _ => false) (fun _ => rfl)]
    rcases splitLoop_none (peq := px) (keep := keepPiece clip (hasClipbox clip mp)) (ctx := ctx)
      (ipts := (callAll record (Out.ok : Out Unit) _ (fun _ => [])).1)
      (allSegments clip mp) q.length 0 [] with ⟨⟨k, hk, hk2⟩, -⟩ | ⟨-, h⟩
    · rw [hall _ (by omega)] at hk2; cases hk2
    · exact congrArg (Option.map (unique px)) h

theorem keep_unclipped {clip : Option (Box K)} {mp : List (List (List (Pt K)))} (h : NotClipped clip mp) (l : Line K) :
    keepPiece clip (hasClipbox clip mp) l = true := by
  rw [hasClipbox_iff.2 h]
  unfold keepPiece
  cases clip <;> rfl

theorem keep_clipped {e : Box K} {mp : List (List (List (Pt K)))} (h : ¬ NotClipped (some e) mp) (l : Line K) :
    keepPiece (some e) (hasClipbox (some e) mp) l = true ↔ Inside e l.1 ∧ Inside e l.2 := by
  rw [hasClipbox_true h]
  unfold keepPiece
  simp only [Bool.and_eq_true, boxContains_iff]

theorem border_iff {e : Box K} (he : Proper e) {p : Pt K} : OnBoxBorder e p ↔ ∃ E ∈ edges e, OnSegment p E.1 E.2 := by
  constructor
  · rintro ⟨⟨h1, h2, h3, h4⟩, h | h | h | h⟩
    · exact ⟨_, mem_edges.2 (Or.inr (Or.inr (Or.inr rfl))), (on_left he).2 ⟨h, h3, h4⟩⟩
    · exact ⟨_, mem_edges.2 (Or.inr (Or.inl rfl)), (on_right he).2 ⟨h, h3, h4⟩⟩
    · exact ⟨_, mem_edges.2 (Or.inl rfl), (on_bottom he).2 ⟨h, h1, h2⟩⟩
    · exact ⟨_, mem_edges.2 (Or.inr (Or.inr (Or.inl rfl))), (on_top he).2 ⟨h, h1, h2⟩⟩
  · rintro ⟨E, hE, h⟩
    refine ⟨(Lemmas.Clip.edge_inside he hE h).1, ?_⟩
    rcases mem_edges.1 hE with rfl | rfl | rfl | rfl
    · exact Or.inr (Or.inr (Or.inl ((on_bottom he).1 h).1))
    · exact Or.inr (Or.inl ((on_right he).1 h).1)
    · exact Or.inr (Or.inr (Or.inr ((on_top he).1 h).1))
    · exact Or.inl ((on_left he).1 h).1

theorem inside_segment {e : Box K} {a b p : Pt K} (ha : Inside e a) (hb : Inside e b) (hp : OnSegment p a b) : Inside e p := by
  obtain ⟨t, t0, t1, rfl⟩ := hp
  have key : ∀ x y m : K, m ≤ x → m ≤ y → m ≤ x + t * (y - x) := by
    intro x y m h1 h2
    have e1 := mul_nonneg t0 (sub_nonneg.2 h2)
    have e2 := mul_nonneg (sub_nonneg.2 t1) (sub_nonneg.2 h1)
    nlinarith
  have key' : ∀ x y m : K, x ≤ m → y ≤ m → x + t * (y - x) ≤ m := by
    intro x y m h1 h2
    have := key (-x) (-y) (-m) (by linarith) (by linarith)
    linarith
  exact ⟨key _ _ _ ha.1 hb.1, key' _ _ _ ha.2.1 hb.2.1, key _ _ _ ha.2.2.1 hb.2.2.1, key' _ _ _ ha.2.2.2 hb.2.2.2⟩

/-- A piece that is not kept meets the box at most at one of its own ends, on the border. -/
theorem outside_piece {e : Box K} (he : Proper e) {segs : List (Line K)} {P : Nat → List (Pt K)} (hP : Points segs P)
    (hE : ∀ E ∈ edges e, ∃ j : Nat, segs[j]? = some E) {i : Nat} {s : Line K} (hs : segs[i]? = some s)
    (hi : s ∉ edges e) {x y p : Pt K} (hx : x ∈ P i) (hy : y ∈ P i) (hxy : Before x y)
    (hz : ∀ z ∈ P i, OnSegment z x y → z = x ∨ z = y) (hp : OnSegment p x y) (hin : Inside e p)
    (hout : ¬ Inside e x ∨ ¬ Inside e y) : OnBoxBorder e p := by
  have hne : x ≠ y := by rintro rfl; exact before_irrefl _ hxy
  obtain ⟨u, u0, u1, hu⟩ := points_on hP hs hx
  obtain ⟨v, v0, v1, hv⟩ := points_on hP hs hy
  -- a crossing of the border inside the piece is one of the points
  have cross : ∀ (t : K), 0 ≤ t → t ≤ 1 → ∀ E ∈ edges e, ¬ Parallel E.1 E.2 x y →
      OnSegment (at' x y t) E.1 E.2 → at' x y t = x ∨ at' x y t = y := by
    intro t t0 t1 E hEe hpar hon
    obtain ⟨j, hj⟩ := hE E hEe
    have hij : i ≠ j := by
      rintro rfl
      rw [hs] at hj
      cases hj
      exact hi hEe
    refine hz _ ?_ (Lemmas.Clip.onSegment_at t0 t1)
    refine hP.meets i j s E _ hij hs hj ⟨?_, ?_, hon⟩
    · intro hc
      apply hpar
      unfold Parallel at hc ⊢
      rw [hu, hv]
      simp only
      linear_combination (u - v) * hc
    · refine ⟨u + t * (v - u), ?_, ?_, ?_⟩
      · have := mul_nonneg (sub_nonneg.2 t1) u0
        have := mul_nonneg t0 v0
        nlinarith
      · have := mul_nonneg (sub_nonneg.2 t1) (sub_nonneg.2 u1)
        have := mul_nonneg t0 (sub_nonneg.2 v1)
        nlinarith
      · rw [hu, hv]; unfold at'
        ext <;> simp <;> ring
  obtain ⟨t, t0, t1, rfl⟩ := hp
  rcases hout with hout | hout
  · obtain ⟨r, r0, r1, ri, -, E, hEe, hpar, hon⟩ := entry he (q := y) hout t0 hin
    rcases cross r r0.le (r1.trans t1) E hEe hpar hon with h | h
    · exact absurd (h ▸ ri) hout
    · have hr1 : r = 1 := at_inj hne (by rw [h, at_one])
      have : t = 1 := le_antisymm t1 (hr1 ▸ r1)
      rw [border_iff he]
      refine ⟨E, hEe, ?_⟩
      have : t = r := by rw [this, hr1]
      rw [this]; exact hon
  · obtain ⟨r, r0, r1, ri, -, E, hEe, hpar, hon⟩ := exit he (p := x) hout t1 hin
    rcases cross r (t0.trans r1) r0.le E hEe hpar hon with h | h
    · have hr1 : r = 0 := at_inj hne (by rw [h, at_zero])
      rw [border_iff he]
      refine ⟨E, hEe, ?_⟩
      have : t = r := by rw [hr1]; exact le_antisymm (hr1 ▸ r1) t0
      rw [this]; exact hon
    · exact absurd (h ▸ ri) hout

variable {ctx : Ctx} {clip : Option (Box K)} {mp : List (List (List (Pt K)))} {q : List (Event K)}

theorem cover_unclipped (hctx : ∀ n, ctx n = false) (hq : IsQueue (allSegments clip mp) q) (hc : NotClipped clip mp)
    {out : List (Line K)} (h : destructure px px ctx clip mp q = some out) (p : Pt K) :
    (∃ l ∈ out, OnSegment p l.1 l.2) ↔ ∃ s ∈ edgesOf mp, s.1 ≠ s.2 ∧ OnSegment p s.1 s.2 := by
  obtain ⟨P, hP, hd⟩ := destructure_eq hctx hq
  rw [hd] at h
  cases h
  have hmem : ∀ s, s ∈ allSegments clip mp ↔ s ∈ edgesOf mp := by
    intro s; rw [mem_allSegments]; simp [hc]
  constructor
  · rintro ⟨⟨x, y⟩, hl, hp⟩
    rw [mem_unique px_iff] at hl
    obtain ⟨i, s, hs, hl⟩ := mem_pieces.1 hl
    exact ⟨s, (hmem s).1 (List.mem_of_getElem? hs), (piece_spec hP hs hl).1, piece_sub hP hs hl hp⟩
  · rintro ⟨s, hs, hne, hp⟩
    obtain ⟨i, hi⟩ := List.mem_iff_getElem?.1 ((hmem s).2 hs)
    obtain ⟨x, y, -, -, -, hon, -, hk⟩ := piece_cover (keep := keepPiece clip (hasClipbox clip mp)) hP hi hne hp
    exact ⟨(x, y), (mem_unique px_iff).2 (hk (keep_unclipped hc _)), hon⟩

theorem cover_clipped (hctx : ∀ n, ctx n = false) {e : Box K} (he : Proper e) (hq : IsQueue (allSegments (some e) mp) q)
    (hc : ¬ NotClipped (some e) mp) {out : List (Line K)} (h : destructure px px ctx (some e) mp q = some out) (p : Pt K) :
    (∃ l ∈ out, OnSegment p l.1 l.2) ↔
      OnBoxBorder e p ∨ (Inside e p ∧ ∃ s ∈ edgesOf mp, s.1 ≠ s.2 ∧ OnSegment p s.1 s.2) := by
  obtain ⟨P, hP, hd⟩ := destructure_eq hctx hq
  rw [hd] at h
  cases h
  have hmem : ∀ s, s ∈ allSegments (some e) mp ↔ s ∈ edgesOf mp ∨ s ∈ edges e := by
    intro s; rw [mem_allSegments]; simp [hc]
  have hEj : ∀ E ∈ edges e, ∃ j : Nat, (allSegments (some e) mp)[j]? = some E :=
    fun E hE => List.mem_iff_getElem?.1 ((hmem E).2 (Or.inr hE))
  have hborder : OnBoxBorder e p → ∃ l ∈ unique px (Pieces (allSegments (some e) mp) P
      (keepPiece (some e) (hasClipbox (some e) mp))), OnSegment p l.1 l.2 := by
    intro hb
    obtain ⟨E, hE, hp⟩ := (border_iff he).1 hb
    obtain ⟨j, hj⟩ := hEj E hE
    have hne : E.1 ≠ E.2 := by
      intro h0
      obtain ⟨-, -, h | h⟩ := edges_side he hE
      · exact h.2 (by rw [h0])
      · exact h.1 (by rw [h0])
    obtain ⟨x, y, hx, hy, -, hon, -, hk⟩ := piece_cover (keep := keepPiece (some e) (hasClipbox (some e) mp)) hP hj hne hp
    refine ⟨(x, y), (mem_unique px_iff).2 (hk ((keep_clipped hc _).2 ⟨?_, ?_⟩)), hon⟩
    · exact (Lemmas.Clip.edge_inside he hE (points_on hP hj hx)).1
    · exact (Lemmas.Clip.edge_inside he hE (points_on hP hj hy)).1
  constructor
  · rintro ⟨⟨x, y⟩, hl, hp⟩
    rw [mem_unique px_iff] at hl
    obtain ⟨i, s, hs, hl⟩ := mem_pieces.1 hl
    obtain ⟨hne, -, -, -, hk, -, -⟩ := piece_spec hP hs hl
    obtain ⟨hxi, hyi⟩ := (keep_clipped hc _).1 hk
    have hpi := inside_segment hxi hyi hp
    have hps := piece_sub hP hs hl hp
    rcases (hmem s).1 (List.mem_of_getElem? hs) with hm | hm
    · exact Or.inr ⟨hpi, s, hm, hne, hps⟩
    · exact Or.inl ((border_iff he).2 ⟨s, hm, hps⟩)
  · rintro (hb | ⟨hin, s, hs, hne, hp⟩)
    · exact hborder hb
    · by_cases hse : s ∈ edges e
      · exact hborder ((border_iff he).2 ⟨s, hse, hp⟩)
      · obtain ⟨i, hi⟩ := List.mem_iff_getElem?.1 ((hmem s).2 (Or.inl hs))
        obtain ⟨x, y, hx, hy, hxy, hon, hz, hk⟩ :=
          piece_cover (keep := keepPiece (some e) (hasClipbox (some e) mp)) hP hi hne hp
        by_cases hboth : Inside e x ∧ Inside e y
        · exact ⟨(x, y), (mem_unique px_iff).2 (hk ((keep_clipped hc _).2 hboth)), hon⟩
        · refine hborder (outside_piece he hP hEj hi hse hx hy hxy hz hon hin ?_)
          tauto

end Verif.Lemmas.Destructure
