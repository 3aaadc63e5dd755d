import Mathlib.Tactic.Linarith
import Mathlib.Tactic.Positivity
import Verif.Spec.KdTree
import Verif.Spec.Planar

set_option linter.unusedSectionVars false

namespace Verif.KdTree
open Verif.Spec.KdTree

section Order
variable {K : Type} [LinearOrder K] {P : Type}

theorem isBB_one (p : Pt K) : IsBoundingBox (Box.ofPt p) [p] := by
  refine ⟨?_, ⟨p, by simp, rfl⟩, ⟨p, by simp, rfl⟩, ⟨p, by simp, rfl⟩, ⟨p, by simp, rfl⟩⟩
  intro q hq
  simp only [List.mem_singleton] at hq
  subst hq
  exact ⟨⟨le_refl _, le_refl _⟩, ⟨le_refl _, le_refl _⟩⟩

theorem isBB_mem {e : Box K} {ps qs : List (Pt K)} (h : ∀ p, p ∈ ps ↔ p ∈ qs)
    (H : IsBoundingBox e ps) : IsBoundingBox e qs := by
  obtain ⟨h1, ⟨a, ha, ha'⟩, ⟨b, hb, hb'⟩, ⟨c, hc, hc'⟩, ⟨d, hd, hd'⟩⟩ := H
  exact ⟨fun p hp => h1 p ((h p).2 hp), ⟨a, (h a).1 ha, ha'⟩, ⟨b, (h b).1 hb, hb'⟩,
    ⟨c, (h c).1 hc, hc'⟩, ⟨d, (h d).1 hd, hd'⟩⟩

theorem isBB_add {e : Box K} {ps : List (Pt K)} {p : Pt K}
    (H : IsBoundingBox e ps) : IsBoundingBox (e.add p) (p :: ps) := by
  obtain ⟨h1, ⟨a, ha, ha'⟩, ⟨b, hb, hb'⟩, ⟨c, hc, hc'⟩, ⟨d, hd, hd'⟩⟩ := H
  refine ⟨?_, ?_, ?_, ?_, ?_⟩
  · intro q hq
    rcases List.mem_cons.1 hq with rfl | hq
    · exact ⟨⟨min_le_left _ _, le_max_left _ _⟩, ⟨min_le_left _ _, le_max_left _ _⟩⟩
    · obtain ⟨⟨x1, x2⟩, ⟨x3, x4⟩⟩ := h1 q hq
      exact ⟨⟨(min_le_right _ _).trans x1, x2.trans (le_max_right _ _)⟩,
        ⟨(min_le_right _ _).trans x3, x4.trans (le_max_right _ _)⟩⟩
  · rcases le_total p.1 e.minx with h | h
    · exact ⟨p, by simp, by simp [Box.add, h]⟩
    · exact ⟨a, by simp [ha], by simp [Box.add, h, ha']⟩
  · rcases le_total p.2 e.miny with h | h
    · exact ⟨p, by simp, by simp [Box.add, h]⟩
    · exact ⟨b, by simp [hb], by simp [Box.add, h, hb']⟩
  · rcases le_total p.1 e.maxx with h | h
    · exact ⟨c, by simp [hc], by simp [Box.add, h, hc']⟩
    · exact ⟨p, by simp, by simp [Box.add, h]⟩
  · rcases le_total p.2 e.maxy with h | h
    · exact ⟨d, by simp [hd], by simp [Box.add, h, hd']⟩
    · exact ⟨p, by simp, by simp [Box.add, h]⟩

theorem add_of_in {e : Box K} {p : Pt K} (h : InBox e p) : e.add p = e := by
  obtain ⟨⟨x1, x2⟩, ⟨x3, x4⟩⟩ := h
  simp [Box.add, x1, x2, x3, x4]

theorem coord_eq (d : Bool) (p : Pt K) : coord d p = if d then p.2 else p.1 := rfl

/-- What one insertion does, below a well-formed node. -/
theorem insertAt_spec (xy : P → Pt K) (t : Tree K P) : ∀ (d : Bool) (p : P), WellFormed xy d t →
    WellFormed xy d (insertAt xy d t p).1 ∧
    ((∃ q ∈ items t, xy q = xy p ∧ insertAt xy d t p = (t, ⟨q, true⟩)) ∨
      ((∀ q ∈ items t, xy q ≠ xy p) ∧ (insertAt xy d t p).2 = ⟨p, false⟩ ∧
        (items (insertAt xy d t p).1).Perm (p :: items t))) := by
  induction t with
  | nil =>
    intro d p _
    refine ⟨?_, Or.inr ⟨by simp [items], rfl, by simp [insertAt, newNode, items]⟩⟩
    simp only [insertAt, newNode, WellFormed, items]
    refine ⟨by simp, by simp, ?_, trivial, trivial⟩
    simpa using isBB_one (xy p)
  | node c bb l r ihl ihr =>
    intro d p hw
    obtain ⟨hl, hr, hbb, wl, wr⟩ := hw
    have hbb' : IsBoundingBox (bb.add (xy p)) (xy p :: (items l ++ c :: items r).map xy) :=
      isBB_add hbb
    by_cases hd : (xy p).1 = (xy c).1 ∧ (xy p).2 = (xy c).2
    · have e : xy p = xy c := Prod.ext hd.1 hd.2
      have hin : InBox bb (xy p) := by
        rw [e]; exact hbb.1 _ (List.mem_map.2 ⟨c, by simp, rfl⟩)
      have : insertAt xy d (.node c bb l r) p = (.node c bb l r, ⟨c, true⟩) := by
        simp only [insertAt, if_pos hd, add_of_in hin]
      rw [this]
      exact ⟨⟨hl, hr, hbb, wl, wr⟩, Or.inl ⟨c, by simp [items], e.symm, rfl⟩⟩
    · have hne : xy c ≠ xy p := fun h => hd ⟨by rw [h], by rw [h]⟩
      by_cases hlt : coord d (xy p) < coord d (xy c)
      · obtain ⟨w, h⟩ := ihl (!d) p wl
        have E : insertAt xy d (.node c bb l r) p =
            (.node c (bb.add (xy p)) (insertAt xy (!d) l p).1 r, (insertAt xy (!d) l p).2) := by
          simp only [insertAt, if_neg hd, if_pos hlt]
        rw [E]
        rcases h with ⟨q, hq, hqp, hi⟩ | ⟨hno, hres, hperm⟩
        · have hin : InBox bb (xy p) := by
            rw [← hqp]; exact hbb.1 _ (List.mem_map.2 ⟨q, by simp [hq], rfl⟩)
          rw [hi, add_of_in hin]
          exact ⟨⟨hl, hr, hbb, wl, wr⟩, Or.inl ⟨q, by simp [items, hq], hqp, rfl⟩⟩
        · refine ⟨⟨?_, hr, ?_, w, wr⟩, Or.inr ⟨?_, hres, ?_⟩⟩
          · intro q hq
            rcases List.mem_cons.1 (hperm.mem_iff.1 hq) with rfl | hq
            · exact (by cases d <;> simpa [coord] using hlt)
            · exact hl q hq
          · refine isBB_mem ?_ hbb'
            intro x
            simp only [List.map_append, List.map_cons, List.mem_cons, List.mem_append,
              List.mem_map, hperm.mem_iff]
            constructor
            · rintro (rfl | ⟨a, ha, rfl⟩ | h | h)
              · exact Or.inl ⟨p, by simp, rfl⟩
              · exact Or.inl ⟨a, by simp [ha], rfl⟩
              · exact Or.inr (Or.inl h)
              · exact Or.inr (Or.inr h)
            · rintro (⟨a, (rfl | ha), rfl⟩ | h | h)
              · exact Or.inl rfl
              · exact Or.inr (Or.inl ⟨a, ha, rfl⟩)
              · exact Or.inr (Or.inr (Or.inl h))
              · exact Or.inr (Or.inr (Or.inr h))
          · intro q hq
            simp only [items, List.mem_append, List.mem_cons] at hq
            rcases hq with hq | rfl | hq
            · exact hno q hq
            · exact hne
            · intro e
              have := hr q hq
              rw [e] at this
              rw [coord_eq, coord_eq] at hlt
              cases d <;> simp at this hlt <;> exact absurd hlt (not_lt.2 this)
          · simp only [items]
            exact (hperm.append_right _)
      · obtain ⟨w, h⟩ := ihr (!d) p wr
        have E : insertAt xy d (.node c bb l r) p =
            (.node c (bb.add (xy p)) l (insertAt xy (!d) r p).1, (insertAt xy (!d) r p).2) := by
          simp only [insertAt, if_neg hd, if_neg hlt]
        rw [E]
        rcases h with ⟨q, hq, hqp, hi⟩ | ⟨hno, hres, hperm⟩
        · have hin : InBox bb (xy p) := by
            rw [← hqp]; exact hbb.1 _ (List.mem_map.2 ⟨q, by simp [hq], rfl⟩)
          rw [hi, add_of_in hin]
          exact ⟨⟨hl, hr, hbb, wl, wr⟩, Or.inl ⟨q, by simp [items, hq], hqp, rfl⟩⟩
        · refine ⟨⟨hl, ?_, ?_, wl, w⟩, Or.inr ⟨?_, hres, ?_⟩⟩
          · intro q hq
            rcases List.mem_cons.1 (hperm.mem_iff.1 hq) with rfl | hq
            · exact (by cases d <;> simpa [coord] using hlt)
            · exact hr q hq
          · refine isBB_mem ?_ hbb'
            intro x
            simp only [List.map_append, List.map_cons, List.mem_cons, List.mem_append,
              List.mem_map, hperm.mem_iff]
            constructor
            · rintro (rfl | h | h | ⟨a, ha, rfl⟩)
              · exact Or.inr (Or.inr ⟨p, by simp, rfl⟩)
              · exact Or.inl h
              · exact Or.inr (Or.inl h)
              · exact Or.inr (Or.inr ⟨a, by simp [ha], rfl⟩)
            · rintro (h | h | ⟨a, (rfl | ha), rfl⟩)
              · exact Or.inr (Or.inl h)
              · exact Or.inr (Or.inr (Or.inl h))
              · exact Or.inl rfl
              · exact Or.inr (Or.inr (Or.inr ⟨a, ha, rfl⟩))
          · intro q hq
            simp only [items, List.mem_append, List.mem_cons] at hq
            rcases hq with hq | rfl | hq
            · intro e
              have := hl q hq
              rw [e] at this
              rw [coord_eq, coord_eq] at hlt
              cases d <;> simp at this hlt <;> exact absurd this (not_lt.2 hlt)
            · exact hne
            · exact hno q hq
          · simp only [items]
            refine ((hperm.cons c).append_left (items l)).trans ?_
            refine ((List.Perm.swap p c _).append_left (items l)).trans ?_
            exact List.perm_middle

theorem distinct_unique {xy : P → Pt K} {S : List P} (h : S.Pairwise (fun a b => xy a ≠ xy b))
    {a b : P} (ha : a ∈ S) (hb : b ∈ S) (e : xy a = xy b) : a = b := by
  induction S with
  | nil => simp at ha
  | cons c S ih =>
    rw [List.pairwise_cons] at h
    rcases List.mem_cons.1 ha with rfl | ha' <;> rcases List.mem_cons.1 hb with rfl | hb'
    · rfl
    · exact absurd e (h.1 b hb')
    · exact absurd e.symm (h.1 a ha')
    · exact ih h.2 ha' hb'

/-- A tree and a set with the same points stay so, answer alike. -/
theorem insert_sim (xy : P → Pt K) (t : Tree K P) (S : List P) (p : P)
    (hw : WellFormed xy false t) (hp : (items t).Perm S)
    (hS : S.Pairwise (fun a b => xy a ≠ xy b)) :
    WellFormed xy false (insert xy t p).1 ∧
    (items (insert xy t p).1).Perm (setInsert xy S p).1 ∧
    (setInsert xy S p).1.Pairwise (fun a b => xy a ≠ xy b) ∧
    (insert xy t p).2 = (setInsert xy S p).2 ∧
    ((insert xy t p).2.dup = true → (insert xy t p).1 = t) := by
  obtain ⟨w, h⟩ := insertAt_spec xy t false p hw
  refine ⟨w, ?_⟩
  rcases h with ⟨q, hq, hqp, hi⟩ | ⟨hno, hres, hperm⟩
  · have hf : S.find? (fun q => xy q = xy p) = some q := by
      cases hc : S.find? (fun q => xy q = xy p) with
      | none =>
        rw [List.find?_eq_none] at hc
        exact absurd (by simpa using hqp) (hc q (hp.mem_iff.1 hq))
      | some q' =>
        have h1 := List.find?_some hc
        have h2 := List.mem_of_find?_eq_some hc
        simp only [decide_eq_true_eq] at h1
        rw [distinct_unique hS h2 (hp.mem_iff.1 hq) (h1.trans hqp.symm)]
    simp only [setInsert, hf, insert, hi]
    exact ⟨hp, hS, trivial, fun _ => trivial⟩
  · have hf : S.find? (fun q => xy q = xy p) = none := by
      rw [List.find?_eq_none]
      intro q hq
      simpa using hno q (hp.mem_iff.2 hq)
    simp only [setInsert, hf, insert, hres]
    refine ⟨?_, ?_, trivial, fun h => by simp at h⟩
    · exact hperm.trans ((hp.cons p).trans (List.perm_append_singleton p S).symm)
    · rw [List.pairwise_append]
      refine ⟨hS, by simp, ?_⟩
      intro a ha b hb
      simp only [List.mem_singleton] at hb
      subst hb
      exact hno a (hp.mem_iff.2 ha)

theorem insertAll_sim (xy : P → Pt K) (ps : List P) : ∀ (t : Tree K P) (S : List P),
    WellFormed xy false t → (items t).Perm S → S.Pairwise (fun a b => xy a ≠ xy b) →
    WellFormed xy false (insertAll xy t ps).1 ∧
    (items (insertAll xy t ps).1).Perm (setInsertAll xy S ps).1 ∧
    (setInsertAll xy S ps).1.Pairwise (fun a b => xy a ≠ xy b) ∧
    (insertAll xy t ps).2 = (setInsertAll xy S ps).2 := by
  induction ps with
  | nil => intro t S hw hp hS; exact ⟨hw, hp, hS, rfl⟩
  | cons p ps ih =>
    intro t S hw hp hS
    obtain ⟨a, b, c, d, _⟩ := insert_sim xy t S p hw hp hS
    obtain ⟨a', b', c', d'⟩ := ih _ _ a b c
    refine ⟨a', b', c', ?_⟩
    simp only [insertAll, setInsertAll]
    rw [d, d']

/-- Nothing but bounding boxes with distances below their points is asked of
the distance function, and only at the boxes of the tree. -/
theorem wf_box {xy : P → Pt K} {d : Bool} {p : P} {bb : Box K} {l r : Tree K P}
    (h : WellFormed xy d (.node p bb l r)) : ∀ q ∈ items (.node p bb l r), InBox bb (xy q) :=
  fun q hq => h.2.2.1.1 _ (List.mem_map.2 ⟨q, hq, rfl⟩)

end Order

/-! ### Iteration -/

section Iter
variable {K P D : Type} [LinearOrder K] [LinearOrder D]

/-- Points not yet yielded. -/
def pending (xy : P → Pt K) (df : Box K → D) (s : It K P D) : List (P × D) :=
  s.nodeHeap ++ (s.bboxHeap.flatMap (fun e => items e.1.1 ++ items e.1.2)).map
    (fun p => (p, df (.ofPt (xy p))))

/-- The iterator's invariant. -/
structure Ok (xy : P → Pt K) (df : Box K → D) (s : It K P D) : Prop where
  wf : ∀ e ∈ s.bboxHeap, ∃ d, WellFormed xy d e.1.1 ∧ WellFormed xy d e.1.2
  low : ∀ e ∈ s.bboxHeap, ∀ q ∈ items e.1.1 ++ items e.1.2, e.2 ≤ df (.ofPt (xy q))

variable {xy : P → Pt K} {df : Box K → D}

theorem pushNode_ok (hdf : LowerBound df) {s : It K P D} (hs : Ok xy df s) (t : Tree K P) {d}
    (hw : WellFormed xy d t) : Ok xy df (pushNode xy df t s) := by
  cases t with
  | nil => exact hs
  | node p bb l r =>
    have hb := wf_box hw
    obtain ⟨_, _, _, wl, wr⟩ := hw
    constructor
    · intro e he
      rcases List.mem_cons.1 he with rfl | he
      · exact ⟨_, wl, wr⟩
      · exact hs.wf e he
    · intro e he q hq
      rcases List.mem_cons.1 he with rfl | he
      · refine hdf _ _ (hb q ?_)
        simp only [items, List.mem_append, List.mem_cons] at hq ⊢
        rcases hq with h | h
        · exact Or.inl h
        · exact Or.inr (Or.inr h)
      · exact hs.low e he q hq

theorem pushNode_pending (s : It K P D) (t : Tree K P) :
    (pending xy df (pushNode xy df t s)).Perm
      ((items t).map (fun p => (p, df (.ofPt (xy p)))) ++ pending xy df s) := by
  cases t with
  | nil => simp [pushNode, items]
  | node p bb l r =>
    simp only [pushNode, pending, items, List.flatMap_cons, List.map_append, List.map_cons,
      List.cons_append, List.append_assoc]
    refine List.Perm.trans ?_ List.perm_middle.symm
    refine List.Perm.cons _ ?_
    rw [← List.append_assoc, ← List.append_assoc, ← List.append_assoc, ← List.append_assoc]
    refine List.Perm.append_right _ ?_
    rw [List.append_assoc]
    exact List.perm_append_comm

/-- Nodes still to be expanded: what the loop of `Next` uses up. -/
def size : Tree K P → Nat
  | .nil => 0
  | .node _ _ l r => 1 + size l + size r

def bsize (h : List ((Tree K P × Tree K P) × D)) : Nat :=
  (h.map (fun e => 1 + size e.1.1 + size e.1.2)).sum

omit [LinearOrder K] [LinearOrder D] in
theorem bsize_perm {h h' : List ((Tree K P × Tree K P) × D)} (p : h.Perm h') :
    bsize h = bsize h' := (p.map _).sum_eq

theorem pushNode_bsize (s : It K P D) (t : Tree K P) :
    bsize (pushNode xy df t s).bboxHeap = size t + bsize s.bboxHeap := by
  cases t with
  | nil => simp [pushNode, size]
  | node p bb l r => simp [pushNode, bsize, size]

theorem expand_pending {s : It K P D} {e rest} (hpop : Pop s.bboxHeap e rest) :
    (pending xy df (pushNode xy df e.1.2 (pushNode xy df e.1.1 ⟨s.nodeHeap, rest⟩))).Perm
      (pending xy df s) := by
  refine (pushNode_pending _ _).trans ?_
  refine ((pushNode_pending _ _).append_left _).trans ?_
  have h2 : (pending xy df s).Perm (s.nodeHeap ++
      ((e :: rest).flatMap (fun e => items e.1.1 ++ items e.1.2)).map
        (fun p => (p, df (.ofPt (xy p))))) := by
    refine List.Perm.append_left _ (List.Perm.map _ ?_)
    exact hpop.1.flatMap_right _
  refine List.Perm.trans ?_ h2.symm
  simp only [pending, List.flatMap_cons, List.map_append]
  rw [← List.append_assoc, ← List.append_assoc, ← List.append_assoc]
  refine List.Perm.append_right _ ?_
  refine List.Perm.trans ?_ List.perm_append_comm
  exact (List.perm_append_comm).append_right _

theorem expand_ok (hdf : LowerBound df) {s : It K P D} (hs : Ok xy df s) {e rest}
    (hpop : Pop s.bboxHeap e rest) :
    Ok xy df (pushNode xy df e.1.2 (pushNode xy df e.1.1 ⟨s.nodeHeap, rest⟩)) := by
  obtain ⟨d, w1, w2⟩ := hs.wf e (hpop.1.mem_iff.2 (by simp))
  refine pushNode_ok hdf (pushNode_ok hdf ⟨?_, ?_⟩ _ w1) _ w2
  · exact fun x hx => hs.wf x (hpop.1.mem_iff.2 (List.mem_cons_of_mem _ hx))
  · exact fun x hx => hs.low x (hpop.1.mem_iff.2 (List.mem_cons_of_mem _ hx))

theorem expand_bsize {s : It K P D} {e rest} (hpop : Pop s.bboxHeap e rest) :
    bsize (pushNode xy df e.1.2 (pushNode xy df e.1.1 ⟨s.nodeHeap, rest⟩)).bboxHeap
      < bsize s.bboxHeap := by
  rw [pushNode_bsize, pushNode_bsize, bsize_perm hpop.1]
  simp only [bsize, List.map_cons, List.sum_cons]
  omega

theorem exists_pop {E : Type} (h : List (E × D)) (hne : h ≠ []) : ∃ e rest, Pop h e rest := by
  induction h with
  | nil => exact absurd rfl hne
  | cons a h ih =>
    by_cases hh : h = []
    · subst hh; exact ⟨a, [], List.Perm.refl _, by simp⟩
    · obtain ⟨e, rest, hp, hm⟩ := ih hh
      rcases le_total a.2 e.2 with hle | hle
      · refine ⟨a, h, List.Perm.refl _, fun x hx => ?_⟩
        rcases List.mem_cons.1 (hp.mem_iff.1 hx) with rfl | hx
        · exact hle
        · exact hle.trans (hm x hx)
      · refine ⟨e, a :: rest, (hp.cons a).trans (List.Perm.swap e a rest), fun x hx => ?_⟩
        rcases List.mem_cons.1 hx with rfl | hx
        · exact hle
        · exact hm x hx

/-- A call of `Next` ends. -/
theorem next_total (xy : P → Pt K) (df : Box K → D) (n : Nat) : ∀ s : It K P D,
    bsize s.bboxHeap ≤ n → ∃ o s', Next xy df s o s' := by
  induction n with
  | zero =>
    intro s hs
    by_cases hb : s.bboxHeap = []
    · by_cases hn : s.nodeHeap = []
      · obtain ⟨a, b⟩ := s
        simp only at hb hn
        subst hb hn
        exact ⟨_, _, .done⟩
      · obtain ⟨e, rest, hp⟩ := exists_pop s.nodeHeap hn
        exact ⟨_, _, .yield ⟨hn, Or.inr hb⟩ hp⟩
    · exfalso
      obtain ⟨e, rest, hp⟩ := exists_pop s.bboxHeap hb
      rw [bsize_perm hp.1] at hs
      simp [bsize] at hs
  | succ n ih =>
    intro s hs
    by_cases hemp : s.nodeHeap = [] ∧ s.bboxHeap = []
    · obtain ⟨a, b⟩ := s
      simp only at hemp
      obtain ⟨rfl, rfl⟩ := hemp
      exact ⟨_, _, .done⟩
    · by_cases hnf : NodeFirst s
      · obtain ⟨e, rest, hp⟩ := exists_pop s.nodeHeap hnf.1
        exact ⟨_, _, .yield hnf hp⟩
      · have hb : s.bboxHeap ≠ [] := by
          intro hb
          exact hnf ⟨fun hn => hemp ⟨hn, hb⟩, Or.inr hb⟩
        obtain ⟨e, rest, hp⟩ := exists_pop s.bboxHeap hb
        have hlt := expand_bsize (xy := xy) (df := df) hp
        obtain ⟨o, s', hn⟩ := ih (pushNode xy df e.1.2 (pushNode xy df e.1.1 ⟨s.nodeHeap, rest⟩))
          (by omega)
        exact ⟨o, s', .expand hemp hnf hp hn⟩

/-- What one call of `Next` does. -/
theorem next_spec (hdf : LowerBound df) {s : It K P D} {o s'} (h : Next xy df s o s') :
    Ok xy df s → Ok xy df s' ∧
      match o with
      | none => pending xy df s = [] ∧ pending xy df s' = []
      | some e => (pending xy df s).Perm (e :: pending xy df s') ∧
          ∀ x ∈ pending xy df s', e.2 ≤ x.2 := by
  induction h with
  | done => intro hs; exact ⟨hs, by simp [pending], by simp [pending]⟩
  | @yield s e rest hnf hpop =>
    intro hs
    refine ⟨⟨hs.wf, hs.low⟩, ?_, ?_⟩
    · simp only [pending]
      exact (hpop.1.append_right _)
    · intro x hx
      simp only [pending, List.mem_append, List.mem_map, List.mem_flatMap] at hx
      rcases hx with hx | ⟨q, ⟨f, hf, hq⟩, rfl⟩
      · exact hpop.2 x hx
      · rcases hnf.2 with ⟨_, e', he', hmin, f', hf', hmin', hle⟩ | hb
        · have h1 : e.2 ≤ e'.2 := by
            rcases List.mem_cons.1 (hpop.1.mem_iff.1 he') with rfl | h
            · exact le_refl _
            · exact hpop.2 _ h
          exact h1.trans (hle.trans ((hmin' f hf).trans
            (hs.low f hf q (List.mem_append.2 hq))))
        · rw [hb] at hf; simp at hf
  | @expand s e rest o s' hne hnf hpop hnext ih =>
    intro hs
    obtain ⟨h1, h2⟩ := ih (expand_ok hdf hs hpop)
    refine ⟨h1, ?_⟩
    have hp := expand_pending (xy := xy) (df := df) hpop
    cases o with
    | none => exact ⟨List.perm_nil.1 (hp.symm.trans (by rw [h2.1])), h2.2⟩
    | some x => exact ⟨hp.symm.trans h2.1, h2.2⟩

theorem drain_spec (hdf : LowerBound df) {s : It K P D} {out} (h : Drain xy df s out) :
    Ok xy df s → out.Perm (pending xy df s) ∧ out.Pairwise (fun a b => a.2 ≤ b.2) := by
  induction h with
  | stop h =>
    intro hs
    obtain ⟨_, h2⟩ := next_spec hdf h hs
    rw [h2.1]
    exact ⟨List.Perm.refl _, List.Pairwise.nil⟩
  | @more s s' e out h _ ih =>
    intro hs
    obtain ⟨h1, h2⟩ := next_spec hdf h hs
    obtain ⟨h3, h4⟩ := ih h1
    refine ⟨(h3.cons e).trans h2.1.symm, List.pairwise_cons.2 ⟨fun x hx => ?_, h4⟩⟩
    exact h2.2 x (h3.mem_iff.1 hx)

theorem drain_total (hdf : LowerBound df) (n : Nat) : ∀ s : It K P D, Ok xy df s →
    (pending xy df s).length = n → ∃ out, Drain xy df s out := by
  induction n with
  | zero =>
    intro s hs hn
    obtain ⟨o, s', h⟩ := next_total xy df _ s (Nat.le_refl _)
    cases o with
    | none => exact ⟨[], .stop h⟩
    | some e =>
      have := (next_spec hdf h hs).2.1.length_eq
      rw [hn] at this
      simp at this
  | succ n ih =>
    intro s hs hn
    obtain ⟨o, s', h⟩ := next_total xy df _ s (Nat.le_refl _)
    obtain ⟨h1, h2⟩ := next_spec hdf h hs
    cases o with
    | none => exact ⟨[], .stop h⟩
    | some e =>
      have := h2.1.length_eq
      rw [hn] at this
      obtain ⟨out, ho⟩ := ih s' h1 (by simpa using this.symm)
      exact ⟨_, .more h ho⟩

/-- One pass of the loop of `Next` that does not find both heaps empty. -/
theorem tick_measure {s s' : It K P D} (h : Tick xy df s s') :
    3 * bsize s'.bboxHeap + s'.nodeHeap.length < 3 * bsize s.bboxHeap + s.nodeHeap.length := by
  have hpn : ∀ (s : It K P D) t, (pushNode xy df t s).nodeHeap.length ≤ s.nodeHeap.length + 1 := by
    intro s t; cases t <;> simp [pushNode]
  cases h with
  | @yield e rest hnf hp =>
    have := hp.1.length_eq
    simp at this ⊢
    omega
  | @expand e rest hnf hp =>
    have h1 := expand_bsize (xy := xy) (df := df) hp
    have h2 := hpn (pushNode xy df e.1.1 ⟨s.nodeHeap, rest⟩) e.1.2
    have h3 := hpn ⟨s.nodeHeap, rest⟩ e.1.1
    simp only at h3
    omega

theorem tick_wf (xy : P → Pt K) (df : Box K → D) :
    WellFounded (fun s' s : It K P D => Tick xy df s s') := by
  refine Subrelation.wf (fun {a b} h => ?_)
    (measure (fun s : It K P D => 3 * bsize s.bboxHeap + s.nodeHeap.length)).wf
  exact tick_measure h

theorem start_ok (hdf : LowerBound df) {t : Tree K P} {d} (hw : WellFormed xy d t) :
    Ok xy df (start xy df t) :=
  pushNode_ok hdf ⟨by simp, by simp⟩ t hw

theorem start_pending (t : Tree K P) :
    (pending xy df (start xy df t)).Perm ((items t).map (fun p => (p, df (.ofPt (xy p))))) := by
  refine (pushNode_pending _ _).trans ?_
  simp [pending]

end Iter

/-! ### The euclidean distance -/

open Verif.Spec.Planar (eucl IsDistanceTo)

theorem distance_eq (a b : Pt ℝ) : distance a b = eucl a b := by
  show Real.sqrt _ = Real.sqrt _
  congr 1
  ring

theorem eucl_ge_of {p q : Pt ℝ} {d : ℝ} (_ : 0 ≤ d)
    (h : d ^ 2 ≤ (p.1 - q.1) ^ 2 + (p.2 - q.2) ^ 2) : d ≤ eucl p q :=
  Real.le_sqrt_of_sq_le h

theorem eucl_mono {p q r : Pt ℝ} (h1 : (p.1 - q.1) ^ 2 ≤ (p.1 - r.1) ^ 2)
    (h2 : (p.2 - q.2) ^ 2 ≤ (p.2 - r.2) ^ 2) : eucl p q ≤ eucl p r :=
  Real.sqrt_le_sqrt (by linarith)

theorem sq_le_left {p q r : ℝ} (h1 : p ≤ q) (h2 : q ≤ r) : (p - q) ^ 2 ≤ (p - r) ^ 2 := by
  nlinarith

theorem sq_le_right {p q r : ℝ} (h1 : q ≤ p) (h2 : r ≤ q) : (p - q) ^ 2 ≤ (p - r) ^ 2 := by
  nlinarith

theorem eucl_x (a b y : ℝ) (h : a ≤ b) : eucl (a, y) (b, y) = b - a := by
  unfold eucl
  have : ((a, y) : Pt ℝ).1 - ((b, y) : Pt ℝ).1 = -(b - a) := by simp
  rw [this]
  simp only [sub_self]
  rw [show (-(b - a)) ^ 2 + (0:ℝ) ^ 2 = (b - a) ^ 2 by ring]
  exact Real.sqrt_sq (by linarith)

theorem eucl_y (a b x : ℝ) (h : a ≤ b) : eucl (x, a) (x, b) = b - a := by
  unfold eucl
  simp only [sub_self]
  rw [show (0:ℝ) ^ 2 + (a - b) ^ 2 = (b - a) ^ 2 by ring]
  exact Real.sqrt_sq (by linarith)

theorem eucl_comm (a b : Pt ℝ) : eucl a b = eucl b a := by
  unfold eucl; congr 1; ring

theorem euclideanDistance_spec (p : Pt ℝ) (e : Box ℝ) (hx : e.minx ≤ e.maxx)
    (hy : e.miny ≤ e.maxy) : IsDistanceTo (euclideanDistance p e) p (InBox e) := by
  obtain ⟨x, y⟩ := p
  obtain ⟨a, b, c, d⟩ := e
  simp only at hx hy
  unfold euclideanDistance
  simp only [Box.containsPoint]
  split
  · rename_i h
    refine ⟨⟨(x, y), ⟨⟨h.1, h.2.1⟩, ⟨h.2.2.1, h.2.2.2⟩⟩, by simp [eucl]⟩, fun q _ => ?_⟩
    exact Real.sqrt_nonneg _
  rename_i hc
  split
  · rename_i h1
    split
    · rename_i h2
      rw [distance_eq]
      refine ⟨⟨(a, b), ⟨⟨le_refl _, hx⟩, ⟨le_refl _, hy⟩⟩, rfl⟩, fun q hq => ?_⟩
      exact eucl_mono (sq_le_left h1.le hq.1.1) (sq_le_left h2.le hq.2.1)
    rename_i h2
    split
    · rename_i h3
      rw [distance_eq]
      refine ⟨⟨(a, d), ⟨⟨le_refl _, hx⟩, ⟨hy, le_refl _⟩⟩, rfl⟩, fun q hq => ?_⟩
      exact eucl_mono (sq_le_left h1.le hq.1.1) (sq_le_right h3.le hq.2.2)
    · rename_i h3
      refine ⟨⟨(a, y), ⟨⟨le_refl _, hx⟩, ⟨not_lt.1 h2, not_lt.1 h3⟩⟩, eucl_x _ _ _ h1.le⟩,
        fun q hq => eucl_ge_of (by linarith) ?_⟩
      have := sq_le_left h1.le hq.1.1
      simp only
      nlinarith [sq_nonneg (y - q.2)]
  rename_i h1
  split
  · rename_i h0
    split
    · rename_i h2
      rw [distance_eq]
      refine ⟨⟨(c, b), ⟨⟨hx, le_refl _⟩, ⟨le_refl _, hy⟩⟩, rfl⟩, fun q hq => ?_⟩
      exact eucl_mono (sq_le_right h0.le hq.1.2) (sq_le_left h2.le hq.2.1)
    rename_i h2
    split
    · rename_i h3
      rw [distance_eq]
      refine ⟨⟨(c, d), ⟨⟨hx, le_refl _⟩, ⟨hy, le_refl _⟩⟩, rfl⟩, fun q hq => ?_⟩
      exact eucl_mono (sq_le_right h0.le hq.1.2) (sq_le_right h3.le hq.2.2)
    · rename_i h3
      refine ⟨⟨(c, y), ⟨⟨hx, le_refl _⟩, ⟨not_lt.1 h2, not_lt.1 h3⟩⟩, ?_⟩,
        fun q hq => eucl_ge_of (by simp at h0; linarith) ?_⟩
      · rw [eucl_comm]; exact eucl_x _ _ _ h0.le
      · have := sq_le_right h0.le hq.1.2
        simp only at this ⊢
        nlinarith [sq_nonneg (y - q.2)]
  rename_i h0
  split
  · rename_i h2
    refine ⟨⟨(x, b), ⟨⟨not_lt.1 h1, not_lt.1 h0⟩, ⟨le_refl _, hy⟩⟩, eucl_y _ _ _ h2.le⟩,
      fun q hq => eucl_ge_of (by linarith) ?_⟩
    have := sq_le_left h2.le hq.2.1
    simp only at this ⊢
    nlinarith [sq_nonneg (x - q.1)]
  · rename_i h2
    have h3 : d < y := by
      by_contra h3
      exact hc ⟨not_lt.1 h1, not_lt.1 h0, not_lt.1 h2, not_lt.1 h3⟩
    refine ⟨⟨(x, d), ⟨⟨not_lt.1 h1, not_lt.1 h0⟩, ⟨hy, le_refl _⟩⟩, ?_⟩,
      fun q hq => eucl_ge_of (by linarith) ?_⟩
    · rw [eucl_comm]; exact eucl_y _ _ _ h3.le
    · have := sq_le_right h3.le hq.2.2
      simp only at this ⊢
      nlinarith [sq_nonneg (x - q.1)]

theorem euclideanDistance_pt (p q : Pt ℝ) : euclideanDistance p (.ofPt q) = eucl p q := by
  obtain ⟨⟨r, hr, he⟩, _⟩ := euclideanDistance_spec p (.ofPt q) (le_refl _) (le_refl _)
  rw [← he]
  congr 1
  exact Prod.ext (le_antisymm hr.1.2 hr.1.1) (le_antisymm hr.2.2 hr.2.1)

theorem euclid_lower (p : Pt ℝ) : LowerBound (euclideanDistance p) := by
  intro e q hq
  rw [euclideanDistance_pt]
  exact (euclideanDistance_spec p e (hq.1.1.trans hq.1.2) (hq.2.1.trans hq.2.2)).2 q hq

end Verif.KdTree
