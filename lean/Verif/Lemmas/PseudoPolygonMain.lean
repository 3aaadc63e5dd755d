import Verif.Lemmas.PseudoPolygon

set_option linter.unusedSectionVars false
set_option linter.unusedSimpArgs false

namespace Verif.Lemmas.PseudoPolygon
open Verif.PseudoPolygon Verif.Spec.PseudoPolygon
open Verif.Planar (Line)
open Verif.Winding (orientation colinear)
open Verif.Spec.Winding (area2 cross)
open Verif.Spec.Walker (HasEdge Corners)

variable {K : Type} [Field K] [LinearOrder K]

/-! ### Never a panic -/

theorem at_mem {points : List (Pt K)} {i : Nat} (h : i < points.length) : at' points i ∈ points := by
  rw [at_eq _ h]
  exact List.getElem_mem h

/-- What is known of the two parts. -/
theorem rest_parts (yd : Bool) (inCircle : Pt K → Pt K → Pt K → Pt K → Bool) {points : List (Pt K)}
    (hn : points.Nodup) (h4 : 4 ≤ points.length) (ha : orientation yd points ≠ colinear) :
    ∃ pe p1 ps p2 l₁ l₂, chord yd inCircle points = some (pe, p1, ps, p2) ∧ Chosen points.length pe p1 ps p2 ∧
      points.IsRotated (at' points pe :: l₁ ++ at' points p1 :: l₂) ∧ l₁ ≠ [] ∧ l₂ ≠ [] ∧
      at' points pe :: collect points p1 points.length pe = at' points pe :: l₁ ++ [at' points p1] ∧
      at' points p1 :: collect points pe points.length p1 = at' points p1 :: l₂ ++ [at' points pe] := by
  obtain ⟨pe, p1, ps, p2, hc, hC⟩ := chord_spec yd inCircle hn h4 ha
  obtain ⟨c1, c2, -, -, c5, c6⟩ := chosen_apart h4 hC
  obtain ⟨l₁, l₂, e⟩ := parts' points c1 c2 c5 c6
  exact ⟨pe, p1, ps, p2, l₁, l₂, hc, hC, e⟩

theorem part_lt {points : List (Pt K)} {a b : Pt K} {l₁ l₂ : List (Pt K)}
    (hr : points.IsRotated (a :: l₁ ++ b :: l₂)) (h1 : l₁ ≠ []) (h2 : l₂ ≠ []) :
    ((a :: l₁ ++ [b]).length < points.length ∧ 3 ≤ (a :: l₁ ++ [b]).length) ∧
    ((b :: l₂ ++ [a]).length < points.length ∧ 3 ≤ (b :: l₂ ++ [a]).length) := by
  have hl := hr.perm.length_eq
  have e1 := List.length_pos_iff.2 h1
  have e2 := List.length_pos_iff.2 h2
  simp at hl ⊢
  omega

theorem part_nodup {points : List (Pt K)} (hn : points.Nodup) {a b : Pt K} {l₁ l₂ : List (Pt K)}
    (hr : points.IsRotated (a :: l₁ ++ b :: l₂)) :
    (a :: l₁ ++ [b]).Nodup ∧ (b :: l₂ ++ [a]).Nodup := by
  have h := hr.nodup_iff.1 hn
  constructor
  · refine h.sublist ?_
    exact List.Sublist.append (List.Sublist.refl _) (by simp)
  · rw [← List.nodup_reverse] at h ⊢
    have h' := (List.nodup_append_comm (l₁ := (a :: l₁)) (l₂ := b :: l₂)).1 (hr.nodup_iff.1 hn)
    rw [List.nodup_reverse]
    exact h'.sublist (List.Sublist.append (List.Sublist.refl _) (by simp))

theorem part_mem {points : List (Pt K)} {a b : Pt K} {l₁ l₂ : List (Pt K)}
    (hr : points.IsRotated (a :: l₁ ++ b :: l₂)) :
    (∀ x ∈ a :: l₁ ++ [b], x ∈ points) ∧ (∀ x ∈ b :: l₂ ++ [a], x ∈ points) := by
  constructor <;> intro x hx <;> rw [hr.mem_iff] <;> simp at hx ⊢ <;> tauto

theorem rest_good (yd : Bool) (inCircle : Pt K → Pt K → Pt K → Pt K → Bool)
    (tri : List (Pt K) → Res (List (Line K))) (points : List (Pt K)) (edges : List (Line K))
    (hg : Good tri points.length) (hn : points.Nodup) (o : List (Pt K)) (hp : ∀ x ∈ points, x ∈ o)
    (he : ∀ l ∈ edges, l.1 ∈ o ∧ l.2 ∈ o) :
    triRest yd inCircle tri points edges ≠ .panic ∧
      ∀ e, triRest yd inCircle tri points edges = .ok e → ∀ x ∈ e, x.1 ∈ o ∧ x.2 ∈ o := by
  unfold triRest
  simp only []
  have hat : ∀ i, i < points.length → at' points i ∈ o := fun i hi => hp _ (at_mem hi)
  split_ifs with h1 h2 h3 h4 h5
  · simp
  · refine ⟨by simp, ?_⟩
    intro e h
    cases h
    simpa using ⟨hat 0 (by omega), hat 1 (by omega)⟩
  · simp
  · refine ⟨by simp, ?_⟩
    intro e h
    cases h
    intro x hx
    rcases List.mem_append.1 hx with hx | hx
    · exact he x hx
    · simp at hx
      rcases hx with rfl | rfl | rfl
      · exact ⟨hat 0 (by omega), hat 1 (by omega)⟩
      · exact ⟨hat 1 (by omega), hat 2 (by omega)⟩
      · exact ⟨hat 2 (by omega), hat 0 (by omega)⟩
  · obtain ⟨pe, p1, ps, p2, l₁, l₂, hc, hC, hr, n1, n2, e1, e2⟩ := rest_parts yd inCircle hn (by omega) h3
    obtain ⟨c1, c2, c3, c4, -, -⟩ := chosen_apart (by omega) hC
    rw [hc]
    simp only []
    refine ⟨by simp, ?_⟩
    intro e h
    cases h
    intro x hx
    rcases List.mem_append.1 hx with hx | hx
    · exact he x hx
    · simp at hx
      rcases hx with rfl | rfl | rfl | rfl | rfl
      · exact ⟨hat _ c3, hat _ c2⟩
      · exact ⟨hat _ c1, hat _ c3⟩
      · exact ⟨hat _ c1, hat _ c2⟩
      · exact ⟨hat _ c2, hat _ c4⟩
      · exact ⟨hat _ c4, hat _ c1⟩
  · obtain ⟨pe, p1, ps, p2, l₁, l₂, hc, hC, hr, n1, n2, e1, e2⟩ := rest_parts yd inCircle hn (by omega) h3
    obtain ⟨c1, c2, c3, c4, -, -⟩ := chosen_apart (by omega) hC
    rw [hc]
    simp only []
    rw [e1, e2]
    obtain ⟨⟨q1, -⟩, ⟨q2, -⟩⟩ := part_lt hr n1 n2
    obtain ⟨m1, m2⟩ := part_mem hr
    obtain ⟨g1, g1'⟩ := hg _ q1
    obtain ⟨g2, g2'⟩ := hg _ q2
    cases t1 : tri (at' points pe :: l₁ ++ [at' points p1]) with
    | size => simp
    | colinear => simp
    | panic => exact absurd t1 g1
    | ok f1 =>
      simp only []
      cases t2 : tri (at' points p1 :: l₂ ++ [at' points pe]) with
      | size => simp
      | colinear => simp
      | panic => exact absurd t2 g2
      | ok f2 =>
        refine ⟨by simp, ?_⟩
        intro e h
        cases h
        intro x hx
        rcases List.mem_append.1 hx with hx | hx
        · rcases List.mem_append.1 hx with hx | hx
          · exact he x hx
          · obtain ⟨a, b⟩ := g1' f1 t1 x hx
            exact ⟨hp _ (m1 _ a), hp _ (m1 _ b)⟩
        · obtain ⟨a, b⟩ := g2' f2 t2 x hx
          exact ⟨hp _ (m2 _ a), hp _ (m2 _ b)⟩

theorem triangulateN_good (yd : Bool) (inCircle : Pt K → Pt K → Pt K → Pt K → Bool) :
    ∀ n, Good (triangulateN yd inCircle n) n
  | 0 => by intro l hl; omega
  | n + 1 => by
    intro o ho
    have ih : Good (triangulateN yd inCircle n) o.length :=
      fun l hl => triangulateN_good yd inCircle n l (by omega)
    obtain ⟨s1, s2⟩ := subRings_inv (triangulateN yd inCircle n) o ih
    rw [triangulateN]
    cases hs : subRings (triangulateN yd inCircle n) o with
    | size => simp
    | colinear => simp
    | panic => exact absurd hs s1
    | ok s =>
      simp only []
      have hI := s2 s hs
      have hle : s.points.length ≤ o.length := (hI.nodup.subperm (fun x hx => hI.mem x hx)).length_le
      exact rest_good yd inCircle _ s.points s.edges (fun l hl => ih l (by omega)) hI.nodup o hI.mem hI.ends

/-! ### A triangulation -/

theorem hasEdge_iff {P : Type} (a b c p q : P) : HasEdge (a, b, c) p q ↔
    (p = a ∧ q = b) ∨ (p = b ∧ q = c) ∨ (p = c ∧ q = a) ∨ (q = a ∧ p = b) ∨ (q = b ∧ p = c) ∨ (q = c ∧ p = a) := by
  unfold HasEdge Corners
  constructor
  · rintro ⟨w, h⟩
    simp only [Prod.mk.injEq] at h
    rcases h with ⟨rfl, rfl, rfl⟩ | ⟨rfl, rfl, rfl⟩ | ⟨rfl, rfl, rfl⟩ | ⟨rfl, rfl, rfl⟩ | ⟨rfl, rfl, rfl⟩ | ⟨rfl, rfl, rfl⟩ <;> simp
  · rintro (⟨rfl, rfl⟩ | ⟨rfl, rfl⟩ | ⟨rfl, rfl⟩ | ⟨rfl, rfl⟩ | ⟨rfl, rfl⟩ | ⟨rfl, rfl⟩)
    · exact ⟨c, by simp⟩
    · exact ⟨a, by simp⟩
    · exact ⟨b, by simp⟩
    · exact ⟨c, by simp⟩
    · exact ⟨a, by simp⟩
    · exact ⟨b, by simp⟩

theorem edgesOf_append {P : Type} {e f : List (P × P)} {T U : List (P × P × P)} (h1 : EdgesOf e T)
    (h2 : EdgesOf f U) : EdgesOf (e ++ f) (T ++ U) := by
  intro p q
  have a := h1 p q
  have b := h2 p q
  unfold Joins at *
  simp only [List.mem_append]
  constructor
  · rintro ((h | h) | (h | h))
    · obtain ⟨t, ht, hx⟩ := a.1 (.inl h); exact ⟨t, .inl ht, hx⟩
    · obtain ⟨t, ht, hx⟩ := b.1 (.inl h); exact ⟨t, .inr ht, hx⟩
    · obtain ⟨t, ht, hx⟩ := a.1 (.inr h); exact ⟨t, .inl ht, hx⟩
    · obtain ⟨t, ht, hx⟩ := b.1 (.inr h); exact ⟨t, .inr ht, hx⟩
  · rintro ⟨t, ht | ht, hx⟩
    · rcases a.2 ⟨t, ht, hx⟩ with h | h
      · exact .inl (.inl h)
      · exact .inr (.inl h)
    · rcases b.2 ⟨t, ht, hx⟩ with h | h
      · exact .inl (.inr h)
      · exact .inr (.inr h)

theorem four_edges {P : Type} (ps pe p1 p2 : P) {lines : List (P × P)}
    (h : lines = [(ps, p1), (pe, ps), (pe, p1), (p1, p2), (p2, pe)]) :
    EdgesOf lines [(pe, ps, p1), (p1, p2, pe)] ∧ EdgesOf lines [(pe, p2, p1), (p1, ps, pe)] := by
  subst h
  constructor <;>
  · intro p q
    unfold Joins
    simp only [List.mem_cons, List.not_mem_nil, or_false, exists_eq_or_imp, exists_eq_left, hasEdge_iff, Prod.mk.injEq]
    constructor
    · rintro ((⟨rfl, rfl⟩ | ⟨rfl, rfl⟩ | ⟨rfl, rfl⟩ | ⟨rfl, rfl⟩ | ⟨rfl, rfl⟩) |
        (⟨rfl, rfl⟩ | ⟨rfl, rfl⟩ | ⟨rfl, rfl⟩ | ⟨rfl, rfl⟩ | ⟨rfl, rfl⟩)) <;> simp
    · rintro ((⟨rfl, rfl⟩ | ⟨rfl, rfl⟩ | ⟨rfl, rfl⟩ | ⟨rfl, rfl⟩ | ⟨rfl, rfl⟩ | ⟨rfl, rfl⟩) |
        (⟨rfl, rfl⟩ | ⟨rfl, rfl⟩ | ⟨rfl, rfl⟩ | ⟨rfl, rfl⟩ | ⟨rfl, rfl⟩ | ⟨rfl, rfl⟩)) <;> simp

theorem rest_tri (yd : Bool) (inCircle : Pt K → Pt K → Pt K → Pt K → Bool)
    (tri : List (Pt K) → Res (List (Line K))) (points : List (Pt K)) (hn : points.Nodup) (h3 : 3 ≤ points.length)
    (ih : ∀ l, l.Nodup → 3 ≤ l.length → l.length < points.length → ∀ e, tri l = .ok e →
      ∃ T, Triangulates l T ∧ EdgesOf e T) (e : List (Line K)) (h : triRest yd inCircle tri points [] = .ok e) :
    ∃ T, Triangulates points T ∧ EdgesOf e T := by
  unfold triRest at h
  simp only [] at h
  split_ifs at h with h1 h2 ho hl h4
  · omega
  · cases h
    match points, hl with
    | [a, b, c], _ =>
      refine ⟨[(a, b, c)], .three a b c, ?_⟩
      intro p q
      unfold Joins
      simp only [at', List.getD_cons_zero, List.getD_cons_succ, List.nil_append, List.mem_cons,
        List.not_mem_nil, or_false, exists_eq_left, hasEdge_iff, Prod.mk.injEq]
      tauto
  · obtain ⟨pe, p1, ps, p2, l₁, l₂, hc, hC, hr, n1, n2, e1, e2⟩ := rest_parts yd inCircle hn (by omega) ho
    rw [hc] at h
    simp only [] at h
    cases h
    rw [List.nil_append]
    clear e1 e2 hr hc n1 n2 ih
    match points, h4 with
    | [a, b, c, d], _ =>
      have hcase : (pe = 3 ∧ p1 = 1 ∧ ps = 0 ∧ p2 = 2) ∨ (pe = 2 ∧ p1 = 0 ∧ ps = 3 ∧ p2 = 1) ∨
          (pe = 0 ∧ p1 = 2 ∧ ps = 3 ∧ p2 = 1) ∨ (pe = 1 ∧ p1 = 3 ∧ ps = 0 ∧ p2 = 2) := by
        have hl : [a, b, c, d].length = 4 := rfl
        rw [hl] at hC
        cases hC <;> omega
      rcases hcase with ⟨rfl, rfl, rfl, rfl⟩ | ⟨rfl, rfl, rfl, rfl⟩ | ⟨rfl, rfl, rfl, rfl⟩ | ⟨rfl, rfl, rfl, rfl⟩ <;>
        simp only [at', List.getD_cons_zero, List.getD_cons_succ]
      · refine ⟨_, ?_, (four_edges a d b c rfl).1⟩
        exact .cut (T₁ := [(d, a, b)]) (T₂ := [(b, c, d)]) (a := d) (b := b) (l₁ := [a]) (l₂ := [c])
          ⟨3, rfl⟩ (by simp) (by simp) (.three d a b) (.three b c d)
      · refine ⟨_, ?_, (four_edges d c a b rfl).1⟩
        exact .cut (T₁ := [(c, d, a)]) (T₂ := [(a, b, c)]) (a := c) (b := a) (l₁ := [d]) (l₂ := [b])
          ⟨2, rfl⟩ (by simp) (by simp) (.three c d a) (.three a b c)
      · refine ⟨_, ?_, (four_edges d a c b rfl).2⟩
        exact .cut (T₁ := [(a, b, c)]) (T₂ := [(c, d, a)]) (a := a) (b := c) (l₁ := [b]) (l₂ := [d])
          ⟨0, rfl⟩ (by simp) (by simp) (.three a b c) (.three c d a)
      · refine ⟨_, ?_, (four_edges a b d c rfl).2⟩
        exact .cut (T₁ := [(b, c, d)]) (T₂ := [(d, a, b)]) (a := b) (b := d) (l₁ := [c]) (l₂ := [a])
          ⟨1, rfl⟩ (by simp) (by simp) (.three b c d) (.three d a b)
  · obtain ⟨pe, p1, ps, p2, l₁, l₂, hc, hC, hr, n1, n2, e1, e2⟩ := rest_parts yd inCircle hn (by omega) ho
    rw [hc] at h
    simp only [] at h
    rw [e1, e2] at h
    obtain ⟨⟨q1, r1⟩, ⟨q2, r2⟩⟩ := part_lt hr n1 n2
    obtain ⟨m1, m2⟩ := part_nodup hn hr
    cases t1 : tri (at' points pe :: l₁ ++ [at' points p1]) with
    | size => rw [t1] at h; cases h
    | colinear => rw [t1] at h; cases h
    | panic => rw [t1] at h; cases h
    | ok f1 =>
      rw [t1] at h
      simp only [] at h
      cases t2 : tri (at' points p1 :: l₂ ++ [at' points pe]) with
      | size => rw [t2] at h; cases h
      | colinear => rw [t2] at h; cases h
      | panic => rw [t2] at h; cases h
      | ok f2 =>
        rw [t2] at h
        cases h
        rw [List.nil_append]
        obtain ⟨T1, a1, b1⟩ := ih _ m1 r1 q1 _ t1
        obtain ⟨T2, a2, b2⟩ := ih _ m2 r2 q2 _ t2
        exact ⟨T1 ++ T2, .cut hr n1 n2 a1 a2, edgesOf_append b1 b2⟩

theorem triangulateN_tri (yd : Bool) (inCircle : Pt K → Pt K → Pt K → Pt K → Bool) :
    ∀ n (o : List (Pt K)), o.Nodup → 3 ≤ o.length → ∀ e, triangulateN yd inCircle n o = .ok e →
      ∃ T, Triangulates o T ∧ EdgesOf e T
  | 0, _, _, _, e, h => by simp [triangulateN] at h
  | n + 1, o, hn, h3, e, h => by
    obtain ⟨m, hm⟩ := subRings_nodup (triangulateN yd inCircle n) o hn
    rw [triangulateN, hm] at h
    exact rest_tri yd inCircle _ o hn h3 (fun l hl h3 _ e he => triangulateN_tri yd inCircle n l hl h3 e he) e h

/-! ### When there is one -/

/-- No part of the ring with three points or more has area 0. -/
def Sound (ring : List (Pt K)) : Prop :=
  ∀ s r : List (Pt K), r.IsRotated ring → s.Sublist r → 3 ≤ s.length → area2 s ≠ 0

/-- A rotation of a sublist is a sublist of a rotation. -/
theorem rotated_sublist {P : Type} {s t r : List P} (h : s.IsRotated t) (ht : t.Sublist r) :
    ∃ r', r'.IsRotated r ∧ s.Sublist r' := by
  obtain ⟨n, hn, rfl⟩ := List.isRotated_iff_mod.1 h.symm
  rw [List.rotate_eq_drop_append_take hn]
  rw [← List.take_append_drop n t] at ht
  obtain ⟨r1, r2, rfl, h1, h2⟩ := List.append_sublist_iff.1 ht
  exact ⟨r2 ++ r1, List.isRotated_append, h2.append h1⟩

theorem Sound.part {ring t r : List (Pt K)} (h : Sound ring) (hr : r.IsRotated ring) (ht : t.Sublist r) :
    Sound t := by
  intro s r' h1 h2 h3
  obtain ⟨r'', h4, h5⟩ := rotated_sublist h1 ht
  exact h s r'' (h4.trans hr) (h2.trans h5) h3

theorem rest_sound (yd : Bool) (inCircle : Pt K → Pt K → Pt K → Pt K → Bool)
    (tri : List (Pt K) → Res (List (Line K))) (points : List (Pt K)) (hn : points.Nodup) (h2 : 2 ≤ points.length)
    (hs : Sound points) (edges : List (Line K))
    (ih : ∀ l, l.Nodup → 2 ≤ l.length → l.length < points.length → Sound l → ∃ e, tri l = .ok e) :
    ∃ e, triRest yd inCircle tri points edges = .ok e := by
  unfold triRest
  simp only []
  split_ifs with g1 g2 g3 g4 g5
  · omega
  · exact ⟨_, rfl⟩
  · rw [show colinear = 0 from rfl, Winding.orientation_zero] at g3
    exact absurd g3 (hs points points (List.IsRotated.refl _) (List.Sublist.refl _) (by omega))
  · exact ⟨_, rfl⟩
  · obtain ⟨pe, p1, ps, p2, l₁, l₂, hc, hC, hr, n1, n2, e1, e2⟩ := rest_parts yd inCircle hn (by omega) g3
    rw [hc]
    simp only []
    exact ⟨_, rfl⟩
  · obtain ⟨pe, p1, ps, p2, l₁, l₂, hc, hC, hr, n1, n2, e1, e2⟩ := rest_parts yd inCircle hn (by omega) g3
    rw [hc]
    simp only []
    rw [e1, e2]
    obtain ⟨⟨q1, r1⟩, ⟨q2, r2⟩⟩ := part_lt hr n1 n2
    obtain ⟨m1, m2⟩ := part_nodup hn hr
    obtain ⟨f1, t1⟩ := ih _ m1 (by omega) q1 (hs.part hr.symm (List.Sublist.append (List.Sublist.refl _) (by simp)))
    obtain ⟨f2, t2⟩ := ih _ m2 (by omega) q2
      (hs.part (List.isRotated_append.trans hr.symm) (List.Sublist.append (List.Sublist.refl _) (by simp)))
    rw [t1]
    simp only []
    rw [t2]
    exact ⟨_, rfl⟩

theorem triangulateN_sound (yd : Bool) (inCircle : Pt K → Pt K → Pt K → Pt K → Bool) :
    ∀ n (o : List (Pt K)), o.length < n → o.Nodup → 2 ≤ o.length → Sound o →
      ∃ e, triangulateN yd inCircle n o = .ok e
  | 0, _, h, _, _, _ => by omega
  | n + 1, o, hl, hn, h3, hs => by
    obtain ⟨m, hm⟩ := subRings_nodup (triangulateN yd inCircle n) o hn
    rw [triangulateN, hm]
    exact rest_sound yd inCircle _ o hn h3 hs [] (fun l a b c d => triangulateN_sound yd inCircle n l (by omega) a b d)

theorem sublist_rotated {P : Type} {s r t : List P} (h : s.Sublist r) (hr : r.IsRotated t) :
    ∃ s' : List P, s'.IsRotated s ∧ s'.Sublist t := by
  obtain ⟨n, hn, rfl⟩ := List.isRotated_iff_mod.1 hr.symm
  rw [List.rotate_eq_drop_append_take hn] at h
  obtain ⟨s1, s2, rfl, h1, h2⟩ := List.sublist_append_iff.1 h
  refine ⟨s2 ++ s1, List.isRotated_append, ?_⟩
  rw [← List.take_append_drop n t]
  exact h2.append h1

theorem sound_of (ring : List (Pt K)) (h : NoFlatPart ring) : Sound ring := by
  intro s r hr hs h3
  obtain ⟨s', a, b⟩ := sublist_rotated hs hr
  rw [← area2_isRotated a]
  exact h s' b (by rw [a.perm.length_eq]; exact h3)

theorem convex_area [IsStrictOrderedRing K] (a b : Pt K) : ∀ l : List (Pt K), l ≠ [] →
    (∀ x y z, [x, y, z].Sublist (a :: b :: l) → Spec.Planar.Ccw x y z) → 0 < area2 (a :: b :: l)
  | [], h, _ => absurd rfl h
  | [c], _, h => by
    have := h a b c (List.Sublist.refl _)
    simp [area2, cross, Spec.Planar.Ccw] at this ⊢
    linarith
  | c :: d :: l, _, h => by
    have e : area2 (a :: b :: c :: d :: l) = area2 [a, b, c] + area2 (a :: c :: d :: l) := by
      have h1 := area2_cut a c [b] (d :: l)
      have h2 : area2 (c :: (d :: l) ++ [a]) = area2 (a :: c :: d :: l) :=
        area2_isRotated (List.isRotated_append (l := c :: d :: l) (l' := [a]))
      simp only [List.cons_append, List.nil_append] at h1 h2
      rw [h1, h2]
    have h1 := convex_area a c (d :: l) (by simp) (fun x y z hx => h x y z (hx.trans (by simp)))
    have h2 : 0 < area2 [a, b, c] := by
      have := h a b c (by simp)
      simp [area2, cross, Spec.Planar.Ccw] at this ⊢
      linarith
    rw [e]
    linarith

theorem convex_noFlat [IsStrictOrderedRing K] {ring : List (Pt K)} (h : StrictlyConvex ring) : NoFlatPart ring := by
  intro s hs h3
  match s, h3 with
  | a :: b :: c :: l, _ =>
    exact (convex_area a b (c :: l) (by simp) (fun x y z hx => h x y z (hx.trans hs))).ne'

/-! ### Consecutive repetitions -/

theorem squeeze_cons {P : Type} [DecidableEq P] (a : P) (l : List P) : ∃ t, squeeze (a :: l) = a :: t := by
  induction l generalizing a with
  | nil => exact ⟨[], rfl⟩
  | cons b l ih =>
    rw [squeeze]
    split_ifs with h
    · subst h; exact ih a
    · exact ⟨_, rfl⟩

theorem squeeze_nodup {P : Type} [DecidableEq P] : ∀ l : List P, l.Nodup → squeeze l = l
  | [], _ => rfl
  | [_], _ => rfl
  | a :: b :: l, h => by
    have hne : a ≠ b := by rintro rfl; simp at h
    rw [squeeze, if_neg hne, squeeze_nodup (b :: l) (List.nodup_cons.1 h).2]

theorem subLoop_squeeze (tri : List (Pt K) → Res (List (Line K))) (o : List (Pt K)) :
    ∀ (pts : List (Pt K)) (i j : Nat) (P : List (Pt K)) (last : Pt K) (seen : Pt K → Option (Nat × Nat)),
      (P ++ squeeze (last :: pts)).Nodup → (∀ x, x ∉ P ++ [last] → seen x = none) → seen last = some (i, j) →
      ∃ m, subLoop tri o (i + 1) pts ⟨P ++ [last], seen, []⟩ = .ok ⟨P ++ squeeze (last :: pts), m, []⟩
  | [], i, j, P, last, seen, _, _, _ => ⟨seen, rfl⟩
  | pt :: pts, i, j, P, last, seen, hn, h1, h2 => by
    rw [subLoop]
    by_cases h : last = pt
    · subst h
      simp only [h2, if_true]
      have e : squeeze (last :: last :: pts) = squeeze (last :: pts) := by rw [squeeze, if_pos rfl]
      rw [e] at hn ⊢
      refine subLoop_squeeze tri o pts (i + 1) j P last _ hn ?_ ?_
      · intro x hx
        have hne : x ≠ last := by rintro rfl; simp at hx
        simp [setSeen, hne, h1 x hx]
      · simp [setSeen]
    · have e : squeeze (last :: pt :: pts) = last :: squeeze (pt :: pts) := by rw [squeeze, if_neg h]
      rw [e] at hn ⊢
      have hn' : ((P ++ [last]) ++ squeeze (pt :: pts)).Nodup := by simpa using hn
      obtain ⟨t, ht⟩ := squeeze_cons pt pts
      have hpt : pt ∉ P ++ [last] := by
        intro hm
        have := List.disjoint_of_nodup_append hn' hm
        rw [ht] at this
        simp at this
      simp only [h1 pt hpt]
      have a1 : ∀ x, x ∉ (P ++ [last]) ++ [pt] → setSeen seen pt (i + 1, (P ++ [last]).length) x = none := by
        intro x hx
        have hne : x ≠ pt := by rintro rfl; simp at hx
        have hx' : x ∉ P ++ [last] := fun h => hx (List.mem_append_left _ h)
        simp only [setSeen, if_neg hne, h1 x hx']
      obtain ⟨m, hm⟩ := subLoop_squeeze tri o pts (i + 1) (P ++ [last]).length (P ++ [last]) pt
        (setSeen seen pt (i + 1, (P ++ [last]).length)) hn' a1 (by simp [setSeen])
      exact ⟨m, by rw [hm]; simp⟩

theorem subRings_squeeze (tri : List (Pt K) → Res (List (Line K))) (o : List (Pt K)) (h : (squeeze o).Nodup) :
    ∃ m, subRings tri o = .ok ⟨squeeze o, m, []⟩ := by
  match o, h with
  | [], _ => exact ⟨_, rfl⟩
  | a :: l, h =>
    unfold subRings
    rw [subLoop]
    exact subLoop_squeeze tri (a :: l) l 0 0 [] a (setSeen (fun _ => none) a (0, 0)) h
      (by intro x hx; simp at hx; simp [setSeen, hx]) (by simp [setSeen])

/-- What is returned for the ring is returned with enough fuel for the ring without the repetitions. -/
theorem triangulateN_squeeze (yd : Bool) (inCircle : Pt K → Pt K → Pt K → Pt K → Bool) (n : Nat) (o : List (Pt K))
    (h : (squeeze o).Nodup) :
    triangulateN yd inCircle (n + 1) o = triangulateN yd inCircle (n + 1) (squeeze o) := by
  obtain ⟨m, hm⟩ := subRings_squeeze (triangulateN yd inCircle n) o h
  obtain ⟨m', hm'⟩ := subRings_nodup (triangulateN yd inCircle n) (squeeze o) h
  rw [triangulateN, triangulateN, hm, hm']

theorem squeeze_length {P : Type} [DecidableEq P] : ∀ l : List P, (squeeze l).length ≤ l.length
  | [] => by simp [squeeze]
  | [_] => by simp [squeeze]
  | a :: b :: l => by
    have := squeeze_length (b :: l)
    rw [squeeze]
    split_ifs <;> simp at this ⊢ <;> omega

theorem pairs_squeeze {P : Type} [DecidableEq P] (x p q : P) (hne : p ≠ q) : ∀ (l : List P) (a : P),
    (p, q) ∈ (a :: l).zip (l ++ [x]) →
    ∀ t, squeeze (a :: l) = a :: t → (p, q) ∈ (a :: t).zip (t ++ [x])
  | [], a, h, t, ht => by
    cases ht
    simpa using h
  | b :: l, a, h, t, ht => by
    simp only [List.cons_append, List.zip_cons_cons, List.mem_cons, Prod.mk.injEq] at h
    obtain ⟨u, hu⟩ := squeeze_cons b l
    rw [squeeze] at ht
    split_ifs at ht with hab
    · subst hab
      rcases h with ⟨rfl, rfl⟩ | h
      · exact absurd rfl hne
      · exact pairs_squeeze x p q hne l a h t ht
    · rw [hu] at ht
      cases ht
      simp only [List.cons_append, List.zip_cons_cons, List.mem_cons, Prod.mk.injEq]
      rcases h with h | h
      · exact .inl h
      · exact .inr (pairs_squeeze x p q hne l b h u hu)

theorem side_squeeze {P : Type} [DecidableEq P] {o : List P} {p q : P} (hne : p ≠ q) (h : Side o p q) :
    Side (squeeze o) p q := by
  match o, h with
  | a :: l, h =>
    unfold Side at h ⊢
    rw [sides_cons] at h
    obtain ⟨t, ht⟩ := squeeze_cons a l
    rw [ht, sides_cons]
    exact pairs_squeeze a p q hne l a h t ht

/-- Two points. -/
theorem triangulateN_two (yd : Bool) (inCircle : Pt K → Pt K → Pt K → Pt K → Bool) (n : Nat) (a b : Pt K) (h : a ≠ b) :
    triangulateN yd inCircle (n + 1) [a, b] = .ok [(a, b)] := by
  obtain ⟨m, hm⟩ := subRings_nodup (triangulateN yd inCircle n) [a, b] (by simp [h])
  rw [triangulateN, hm]
  simp [triRest, at']

end Verif.Lemmas.PseudoPolygon
