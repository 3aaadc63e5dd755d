/-
Helper lemmas: no node of the R-tree gets more than `MaxChildren` entries.
-/
import Verif.Lemmas.RTreeKnn
import Mathlib.Data.List.Sort

set_option linter.unusedSectionVars false

namespace Verif.RTree

open Verif.RTreeSpec

variable {K : Type} [LinearOrder K] {d : Nat} {Obj : Type}

/-- All entries satisfy the bound. -/
def OccEs (max l : Nat) (es : List (Entry K d Obj)) : Prop := ∀ e ∈ es, Occ max l e.2

theorem overflow_occ (A : Arith K d) (min max l : Nat) (es : List (Entry K d Obj))
    (n : Node K d Obj) (nn : Option (Node K d Obj)) (hes : OccEs max l es)
    (hlen : es.length ≤ max + 1) (h : overflow A min max es = some (n, nn)) :
    Occ max (l + 1) n ∧ ∀ m, nn = some m → Occ max (l + 1) m := by
  unfold overflow at h
  split at h
  · rw [Option.map_eq_some_iff] at h
    obtain ⟨⟨a, b⟩, hs, h⟩ := h
    simp only [Prod.mk.injEq] at h
    obtain ⟨rfl, rfl⟩ := h
    obtain ⟨hp, ha, hb⟩ := split_spec A min es a b (split_len A min es _ hs) hs
    have hl := hp.length_eq
    rw [List.length_append] at hl
    have ha' := List.length_pos_of_ne_nil ha
    have hb' := List.length_pos_of_ne_nil hb
    refine ⟨⟨by simp only [Node.entries]; omega, ?_⟩, ?_⟩
    · intro e he
      exact hes e (hp.subset (by simp [Node.entries] at he; simp [he]))
    · rintro m hm
      simp only [Option.some.injEq] at hm
      subst hm
      refine ⟨by simp only [Node.entries]; omega, ?_⟩
      intro e he
      exact hes e (hp.subset (by simp [Node.entries] at he; simp [he]))
  · simp only [Option.some.injEq, Prod.mk.injEq] at h
    obtain ⟨rfl, rfl⟩ := h
    exact ⟨⟨by simp only [Node.entries]; omega, hes⟩, by simp⟩

theorem occEs_set {max l : Nat} {es : List (Entry K d Obj)} (hes : OccEs max l es) (i : Nat)
    (x : Entry K d Obj) (hx : Occ max l x.2) : OccEs max l (es.set i x) := by
  intro e he
  rcases List.mem_or_eq_of_mem_set he with h | rfl
  · exact hes e h
  · exact hx

theorem insertAt_occ (A : Arith K d) (min max target : Nat) (x : Entry K d Obj)
    (ht : 1 ≤ target) (hx : Occ max (target - 1) x.2) :
    ∀ (l : Nat) (n n' : Node K d Obj) (nn : Option (Node K d Obj)),
    target ≤ l + 1 → Occ max (l + 1) n →
    insertAt A min max target x (l + 1) n = some (n', nn) →
    Occ max (l + 1) n' ∧ ∀ m, nn = some m → Occ max (l + 1) m := by
  intro l
  induction l with
  | zero =>
    intro n n' nn htl hn h
    rw [insertAt, if_pos (Or.inl rfl)] at h
    refine overflow_occ A min max 0 _ n' nn ?_ ?_ h
    · intro e _; trivial
    · rw [List.length_append]; have := hn.1; simp; omega
  | succ l ih =>
    intro n n' nn htl hn h
    rw [insertAt] at h
    split at h
    · rename_i hc
      have htt : target - 1 = l + 1 := by omega
      refine overflow_occ A min max (l + 1) _ n' nn ?_ ?_ h
      · intro e he
        rcases List.mem_append.1 he with h | h
        · exact hn.2 e h
        · simp only [List.mem_singleton] at h
          subst h
          rw [← htt]; exact hx
      · rw [List.length_append]; have := hn.1; simp; omega
    · rename_i hc
      simp only [Option.bind_eq_bind, Option.bind_eq_some_iff] at h
      obtain ⟨i, hi, en, hen, ⟨r1, r2⟩, hres, bb, hbb, h⟩ := h
      obtain ⟨h1, h2⟩ := ih en.2 r1 r2 (by omega) (hn.2 en (List.mem_of_getElem? hen)) hres
      have hset : OccEs max (l + 1) (n.entries.set i (bb, r1)) := occEs_set hn.2 i _ h1
      cases r2 with
      | none =>
        simp only [Option.some.injEq, Prod.mk.injEq] at h
        obtain ⟨rfl, rfl⟩ := h
        refine ⟨⟨?_, hset⟩, by simp⟩
        simp only [Node.entries, List.length_set]
        exact hn.1
      | some m =>
        simp only [Option.bind_eq_some_iff] at h
        obtain ⟨bb2, hbb2, h⟩ := h
        refine overflow_occ A min max (l + 1) _ n' nn ?_ ?_ h
        · intro e he
          rcases List.mem_append.1 he with h | h
          · exact hset e h
          · simp only [List.mem_singleton] at h
            subst h
            exact h2 m rfl
        · rw [List.length_append, List.length_set]; have := hn.1; simp; omega

/-- The bound for a whole tree. -/
def OccTree (t : Tree K d Obj) : Prop := 1 ≤ t.height ∧ 2 ≤ t.max ∧ Occ t.max t.height t.root

theorem insertEntry_occ (A : Arith K d) (t t' : Tree K d Obj) (x : Entry K d Obj) (target : Nat)
    (ht : 1 ≤ target) (htl : target ≤ t.height) (hx : Occ t.max (target - 1) x.2)
    (ho : OccTree t) (h : insertEntry A t x target = some t') :
    OccTree t' ∧ t'.max = t.max ∧ t.height ≤ t'.height := by
  obtain ⟨h1, h2, h3⟩ := ho
  obtain ⟨l, hl⟩ : ∃ l, t.height = l + 1 := ⟨t.height - 1, by omega⟩
  unfold insertEntry at h
  simp only [Option.bind_eq_bind, Option.bind_eq_some_iff] at h
  obtain ⟨⟨n', nn⟩, hins, h⟩ := h
  rw [hl] at hins h3
  obtain ⟨g1, g2⟩ := insertAt_occ A t.min t.max target x ht hx l t.root n' nn (by omega) h3 hins
  cases nn with
  | none =>
    simp only [Option.some.injEq] at h
    subst h
    exact ⟨⟨h1, h2, by simp only [hl]; exact g1⟩, rfl, Nat.le_refl _⟩
  | some m =>
    simp only [Option.bind_eq_some_iff, Option.some.injEq] at h
    obtain ⟨bb1, _, bb2, _, rfl⟩ := h
    refine ⟨⟨by simp, h2, ?_⟩, rfl, by simp⟩
    simp only [hl]
    refine ⟨by simpa [Node.entries] using h2, ?_⟩
    intro e he
    simp only [Node.entries, List.mem_cons, List.not_mem_nil, or_false] at he
    rcases he with rfl | rfl
    · exact g1
    · exact g2 m rfl

theorem occ_erase {max l : Nat} {n : Node K d Obj} (h : Occ max (l + 1) n) (i : Nat) :
    Occ max (l + 1) (.mk (n.entries.take i ++ n.entries.drop (i + 1))) := by
  refine ⟨?_, ?_⟩
  · have := h.1
    simp only [Node.entries, List.length_append, List.length_take, List.length_drop] at this ⊢
    omega
  · intro e he
    simp only [Node.entries, List.mem_append] at he
    rcases he with he | he
    · exact h.2 e (List.mem_of_mem_take he)
    · exact h.2 e (List.mem_of_mem_drop he)

theorem condense_occ (max min ind : Nat) :
    ∀ (p : List Nat) (l : Nat) (n n' : Node K d Obj) (del : List (Nat × Node K d Obj)),
    Occ max (l + 1) n → condense min ind p (l + 1) n = some (n', del) → p.length ≤ l →
    Occ max (l + 1) n' ∧ ∀ x ∈ del, x.1 ≤ l ∧ Occ max x.1 x.2 := by
  intro p
  induction p with
  | nil =>
    intro l n n' del hn h _
    simp only [condense, Option.some.injEq, Prod.mk.injEq] at h
    obtain ⟨rfl, rfl⟩ := h
    exact ⟨occ_erase hn ind, by simp⟩
  | cons i p ih =>
    intro l n n' del hn h hp
    rw [List.length_cons] at hp
    obtain ⟨l, rfl⟩ : ∃ m, l = m + 1 := ⟨l - 1, by omega⟩
    rw [condense] at h
    simp only [Option.bind_eq_bind, Option.bind_eq_some_iff] at h
    obtain ⟨en, hen, ⟨r1, r2⟩, hres, h⟩ := h
    obtain ⟨h1, h2⟩ := ih l en.2 r1 r2 (hn.2 en (List.mem_of_getElem? hen)) hres (by omega)
    have h2' : ∀ x ∈ r2, x.1 ≤ l + 1 ∧ Occ max x.1 x.2 := fun x hx =>
      ⟨by have := (h2 x hx).1; omega, (h2 x hx).2⟩
    split at h
    · simp only [Option.some.injEq, Prod.mk.injEq] at h
      obtain ⟨rfl, rfl⟩ := h
      refine ⟨occ_erase hn i, ?_⟩
      intro x hx
      split at hx
      · rcases List.mem_append.1 hx with hx | hx
        · exact h2' x hx
        · simp only [List.mem_singleton] at hx
          subst hx
          exact ⟨Nat.le_refl _, h1⟩
      · exact h2' x hx
    · simp only [Option.bind_eq_some_iff, Option.some.injEq, Prod.mk.injEq] at h
      obtain ⟨bb, _, rfl, rfl⟩ := h
      refine ⟨⟨?_, occEs_set hn.2 i _ h1⟩, h2'⟩
      simp only [Node.entries, List.length_set]
      exact hn.1

theorem reinsert_occ (A : Arith K d) :
    ∀ (del : List (Nat × Node K d Obj)) (t t' : Tree K d Obj), OccTree t →
    (∀ x ∈ del, x.1 + 1 ≤ t.height ∧ Occ t.max x.1 x.2) → reinsert A del t = some t' →
    OccTree t' := by
  intro del
  induction del with
  | nil =>
    intro t t' ho _ h
    simp only [reinsert, Option.some.injEq] at h
    subst h
    exact ho
  | cons x xs ih =>
    obtain ⟨lvl, n⟩ := x
    intro t t' ho hdel h
    simp only [reinsert, Option.bind_eq_bind, Option.bind_eq_some_iff] at h
    obtain ⟨bb, _, t1, ht1, h⟩ := h
    have hx := hdel (lvl, n) (by simp)
    obtain ⟨g1, g2, g3⟩ := insertEntry_occ A t t1 (bb, n) (lvl + 1) (by omega) hx.1 hx.2 ho ht1
    refine ih t1 t' g1 ?_ h
    intro y hy
    have := hdel y (by simp [hy])
    exact ⟨by omega, by rw [g2]; exact this.2⟩

theorem shrink_occ (t : Tree K d Obj) (ho : OccTree t) : OccTree (shrink t) := by
  unfold shrink
  split
  · rename_i e he
    split
    · exact ho
    · rename_i hne
      obtain ⟨h1, h2, h3⟩ := ho
      obtain ⟨l, hl⟩ : ∃ l, t.height = l + 1 := ⟨t.height - 1, by omega⟩
      rw [hl] at h3
      refine ⟨?_, h2, ?_⟩
      · show 1 ≤ t.height - 1; omega
      · show Occ t.max (t.height - 1) e.2
        rw [hl, Nat.add_sub_cancel]
        exact h3.2 e (by rw [he]; simp)
  · exact ho

section
variable [DecidableEq Obj] (A : Arith K d) (bounds : Obj → Rect K d)

theorem findLoop_length (o : Obj) (rec : Node K d Obj → Option (List Nat)) (b : Nat)
    (hrec : ∀ n p, rec n = some p → p.length ≤ b) :
    ∀ (es : List (Entry K d Obj)) (i : Nat) (p : List Nat),
    findLoop bounds o rec i es = some p → p.length ≤ b + 1 := by
  intro es
  induction es with
  | nil => intro i p h; simp [findLoop] at h
  | cons e es ih =>
    intro i p h
    rw [findLoop] at h
    split at h
    · split at h
      · exact ih _ _ h
      · rename_i q hq
        split at h
        · simp only [Option.some.injEq] at h
          subst h
          have := hrec _ _ hq
          simp
          omega
        · exact ih _ _ h
    · exact ih _ _ h

theorem findLeaf_length (o : Obj) : ∀ (l : Nat) (n : Node K d Obj) (p : List Nat),
    findLeaf bounds o (l + 1) n = some p → p.length ≤ l := by
  intro l
  induction l with
  | zero =>
    intro n p h
    rw [findLeaf, if_pos rfl] at h
    simp only [Option.some.injEq] at h
    subst h
    simp
  | succ l ih =>
    intro n p h
    rw [findLeaf, if_neg (by omega)] at h
    exact findLoop_length bounds o _ l (fun n p h => ih n p h) _ _ _ h

theorem delete_occ (t t' : Tree K d Obj) (o : Obj) (b : Bool) (ho : OccTree t)
    (h : delete A bounds t o = some (t', b)) : OccTree t' := by
  unfold delete at h
  split at h
  · simp only [Option.some.injEq, Prod.mk.injEq] at h
    rw [← h.1]; exact ho
  · rename_i p hp
    simp only [Option.bind_eq_bind, Option.bind_eq_some_iff] at h
    obtain ⟨leaf, _, h⟩ := h
    split at h
    · simp only [Option.some.injEq, Prod.mk.injEq] at h
      rw [← h.1]; exact ho
    · rename_i ind _
      simp only [Option.bind_eq_some_iff, Option.some.injEq, Prod.mk.injEq] at h
      obtain ⟨⟨r1, r2⟩, hres, t1, ht1, rfl, _⟩ := h
      obtain ⟨h1, h2, h3⟩ := ho
      obtain ⟨l, hl⟩ : ∃ l, t.height = l + 1 := ⟨t.height - 1, by omega⟩
      rw [hl] at h3 hres hp
      obtain ⟨g1, g2⟩ := condense_occ t.max t.min ind p l t.root r1 r2 h3 hres
        (findLeaf_length bounds o l _ _ hp)
      apply shrink_occ
      have := reinsert_occ A r2 { t with root := r1 } t1 ⟨h1, h2, by simp only [hl]; exact g1⟩
        (by intro x hx; have := g2 x hx; exact ⟨by simp only [hl]; omega, this.2⟩) ht1
      exact this

theorem insert_occ (t t' : Tree K d Obj) (o : Obj) (ho : OccTree t)
    (h : insert A bounds t o = some t') : OccTree t' := by
  unfold insert at h
  rw [Option.map_eq_some_iff] at h
  obtain ⟨t1, h1, rfl⟩ := h
  exact (insertEntry_occ A t t1 _ 1 (Nat.le_refl _) ho.1 trivial ho h1).1

theorem run_occ : ∀ (ops : List (Op Obj)) (t t' : Tree K d Obj) (ans : List Bool), OccTree t →
    run A bounds t ops = some (t', ans) → OccTree t' := by
  intro ops
  induction ops with
  | nil =>
    intro t t' ans ho h
    simp only [run, Option.some.injEq, Prod.mk.injEq] at h
    rw [← h.1]; exact ho
  | cons op ops ih =>
    intro t t' ans ho h
    cases op with
    | insert o =>
      simp only [run, Option.bind_eq_bind, Option.bind_eq_some_iff] at h
      obtain ⟨t1, h1, h⟩ := h
      exact ih t1 t' ans (insert_occ A bounds t t1 o ho h1) h
    | delete o =>
      simp only [run, Option.bind_eq_bind, Option.bind_eq_some_iff, Option.some.injEq,
        Prod.mk.injEq] at h
      obtain ⟨⟨t1, b⟩, h1, ⟨t2, ans2⟩, h2, rfl, _⟩ := h
      exact ih t1 t2 ans2 (delete_occ A bounds t t1 o b ho h1) h2

theorem occ_empty (min max : Nat) (hmax : 2 ≤ max) :
    OccTree (empty min max : Tree K d Obj) :=
  ⟨Nat.le_refl _, hmax, by simp [empty, Node.entries], by simp [empty, Node.entries]⟩

/-! ### Bulk load -/

theorem partitions_count (k : Nat) (hk : 1 ≤ k) : ∀ (fuel : Nat) (es : List (Entry K d Obj)),
    es ≠ [] → es.length ≤ fuel → 1 ≤ (partitions k fuel es).length ∧
    (partitions k fuel es).length * k < es.length + k := by
  intro fuel
  induction fuel with
  | zero =>
    intro es hne hlen
    exact absurd (List.length_eq_zero_iff.1 (by omega)) hne
  | succ fuel ih =>
    intro es hne hlen
    have hpos := List.length_pos_of_ne_nil hne
    rw [partitions]
    split
    · simp; omega
    · rename_i hk2
      have hl : (es.drop k).length = es.length - k := List.length_drop
      obtain ⟨h1, h2⟩ := ih (es.drop k) (by
        intro h0; rw [h0] at hl; simp at hl; omega) (by omega)
      refine ⟨by simp, ?_⟩
      rw [List.length_cons, Nat.add_mul, Nat.one_mul]
      omega

theorem slices_count (k v : Nat) (hk : 1 ≤ k) (hv : 1 ≤ v)
    (srt : List (Entry K d Obj) → List (Entry K d Obj)) (hsort : ∀ es, (srt es).Perm es) :
    ∀ (fuel : Nat) (es : List (Entry K d Obj)), es ≠ [] → es.length ≤ fuel →
    (es.length ≤ v ∨ ∃ c, v = c * k) →
    ((partitions v fuel es).flatMap fun w => partitions k (srt w).length (srt w)).length * k <
      es.length + k := by
  intro fuel
  induction fuel with
  | zero =>
    intro es hne hlen
    exact absurd (List.length_eq_zero_iff.1 (by omega)) hne
  | succ fuel ih =>
    intro es hne hlen hor
    have hpos := List.length_pos_of_ne_nil hne
    have cnt : ∀ w : List (Entry K d Obj), w ≠ [] →
        (partitions k (srt w).length (srt w)).length * k < w.length + k := by
      intro w hw
      have hl := (hsort w).length_eq
      have := (partitions_count k hk (srt w).length (srt w) (by
        intro h0; rw [h0] at hl; exact hw (List.length_eq_zero_iff.1 hl.symm)) (Nat.le_refl _)).2
      omega
    rw [partitions]
    split
    · simpa using cnt es hne
    · rename_i hlt
      obtain ⟨c, hc⟩ : ∃ c, v = c * k := by
        rcases hor with h | h
        · omega
        · exact h
      have hl : (es.drop v).length = es.length - v := List.length_drop
      have h1 := ih (es.drop v) (by
        intro h0; rw [h0] at hl; simp at hl; omega) (by omega) (Or.inr ⟨c, hc⟩)
      have hlt' : (es.take v).length = v := by rw [List.length_take]; omega
      have h2 := cnt (es.take v) (by intro h0; rw [h0] at hlt'; simp at hlt'; omega)
      rw [hlt', hc, ← Nat.succ_mul] at h2
      have h3 : (partitions k (srt (es.take v)).length (srt (es.take v))).length ≤ c := by
        rw [← hc] at h2
        have := Nat.lt_of_mul_lt_mul_right h2
        omega
      rw [List.flatMap_cons, List.length_append, Nat.add_mul]
      have h4 := Nat.mul_le_mul_right k h3
      rw [← hc] at h4
      omega

theorem children_occ (max l : Nat) (child : List (Entry K d Obj) → Option (Node K d Obj)) :
    ∀ (parts : List (List (Entry K d Obj))) (es : List (Entry K d Obj)),
    (∀ p ∈ parts, ∀ n, child p = some n → Occ max (l + 1) n) →
    children child parts = some es → OccEs max (l + 1) es ∧ es.length = parts.length := by
  intro parts
  induction parts with
  | nil =>
    intro es _ h
    simp only [children, Option.some.injEq] at h
    subst h
    exact ⟨by intro e he; simp at he, rfl⟩
  | cons p ps ih =>
    intro es hc h
    simp only [children, Option.bind_eq_bind, Option.bind_eq_some_iff, Option.some.injEq] at h
    obtain ⟨c, h1, bb, _, rest, h2, rfl⟩ := h
    obtain ⟨g1, g2⟩ := ih rest (fun p hp => hc p (by simp [hp])) h2
    refine ⟨?_, by simp [g2]⟩
    intro e he
    rcases List.mem_cons.1 he with rfl | he
    · exact hc p (by simp) c h1
    · exact g1 e he

theorem omt_occ (max : Nat) (hmax : 1 ≤ max)
    (sort : Nat → List (Entry K d Obj) → List (Entry K d Obj))
    (hsort : ∀ l es, (sort l es).Perm es) :
    ∀ (l nSlices : Nat) (objs : List (Entry K d Obj)) (m : Nat) (n : Node K d Obj),
    1 ≤ m → m ≤ max → objs ≠ [] → omt max sort (l + 1) nSlices objs m = some n →
    Occ max (l + 1) n := by
  intro l
  induction l with
  | zero =>
    intro nSlices objs m n hm hmm hne h
    rw [omt] at h
    split at h
    · rw [if_neg (by omega)] at h
      simp only [Option.some.injEq] at h
      subst h
      exact ⟨by simp only [Node.entries]; omega, fun _ _ => trivial⟩
    · rw [if_pos rfl] at h
      simp at h
  | succ l ih =>
    intro nSlices objs m n hm hmm hne h
    rw [omt] at h
    split at h
    · rw [if_pos (by omega)] at h
      simp only [Option.bind_eq_bind, Option.bind_eq_some_iff, Option.some.injEq] at h
      obtain ⟨c, hc, bb, _, rfl⟩ := h
      refine ⟨by simpa [Node.entries] using hmax, ?_⟩
      intro e he
      simp only [Node.entries, List.mem_singleton] at he
      subst he
      exact ih nSlices objs m c hm hmm hne hc
    · rename_i hgt
      rw [if_neg (by omega)] at h
      simp only [Option.bind_eq_bind, Option.bind_eq_some_iff, Option.some.injEq] at h
      obtain ⟨es, hes, rfl⟩ := h
      have hpos := List.length_pos_of_ne_nil hne
      generalize hk : (objs.length + m - 1) / m = k at hes
      have hk1 : 1 ≤ k := by
        rw [← hk, Nat.le_div_iff_mul_le (by omega)]; omega
      generalize hv : (if nSlices > 1 then nSlices * k else objs.length) = v at hes
      have hv1 : 1 ≤ v := by
        rw [← hv]
        split
        · exact Nat.mul_pos (by omega) hk1
        · exact hpos
      have hor : objs.length ≤ v ∨ ∃ c, v = c * k := by
        rw [← hv]
        split
        · exact Or.inr ⟨_, rfl⟩
        · exact Or.inl (Nat.le_refl _)
      have hcount := slices_count k v hk1 hv1 (sort (l + 1 + 1)) (hsort _) objs.length objs hne
        (Nat.le_refl _) hor
      have hpart : ∀ p ∈ (partitions v objs.length objs).flatMap (fun w =>
          partitions k (sort (l + 1 + 1) w).length (sort (l + 1 + 1) w)), p ≠ [] := by
        intro p hp
        rw [List.mem_flatMap] at hp
        obtain ⟨w, hw, hp⟩ := hp
        have hwne := ((partitions_spec v hv1 objs.length objs hne (Nat.le_refl _)).2.2 w hw).1
        have hl := (hsort (l + 1 + 1) w).length_eq
        exact ((partitions_spec k hk1 _ _ (by
          intro h0; rw [h0] at hl; exact hwne (List.length_eq_zero_iff.1 hl.symm))
          (Nat.le_refl _)).2.2 p hp).1
      obtain ⟨g1, g2⟩ := children_occ max l _ _ es (fun p hp n hn =>
        ih 1 p max n hmax (Nat.le_refl _) (hpart p hp) hn) hes
      refine ⟨?_, g1⟩
      simp only [Node.entries, g2]
      generalize ((partitions v objs.length objs).flatMap (fun w =>
          partitions k (sort (l + 1 + 1) w).length (sort (l + 1 + 1) w))).length = T at hcount
      have hN : objs.length ≤ m * k := by
        have := Nat.lt_mul_div_succ (objs.length + m - 1) (show 0 < m by omega)
        rw [hk, Nat.mul_add, Nat.mul_one] at this
        omega
      have : T * k < (m + 1) * k := by rw [Nat.add_mul, Nat.one_mul]; omega
      have := Nat.lt_of_mul_lt_mul_right this
      omega

theorem newTree_occ (min max : Nat) (hmax : 2 ≤ max)
    (sort : Nat → List (Entry K d Obj) → List (Entry K d Obj))
    (hsort : ∀ l es, (sort l es).Perm es) (h S : Nat) (hh : 1 ≤ h) (objs : List Obj)
    (hlen : objs.length ≤ max ^ h) (t : Tree K d Obj)
    (ht : newTree bounds A min max sort h S objs = some t) : OccTree t := by
  unfold newTree at ht
  split at ht
  · rw [foldl_insert, Option.map_eq_some_iff] at ht
    obtain ⟨⟨t1, ans⟩, hr, rfl⟩ := ht
    exact run_occ A bounds _ _ _ _ (occ_empty min max hmax) hr
  · rename_i hgt
    obtain ⟨l, rfl⟩ : ∃ l, h = l + 1 := ⟨h - 1, by omega⟩
    unfold bulkLoad at ht
    simp only [Nat.add_sub_cancel, Option.map_eq_some_iff] at ht
    obtain ⟨root, hr, rfl⟩ := ht
    refine ⟨by simp, hmax, ?_⟩
    have hpow : 1 ≤ max ^ l := Nat.one_le_pow _ _ (by omega)
    refine omt_occ max (by omega) sort hsort l S _ _ root ?_ ?_ ?_ hr
    · rw [Nat.le_div_iff_mul_le (by omega)]; omega
    · rw [Nat.div_le_iff_le_mul_add_pred (by omega)]
      rw [Nat.pow_succ] at hlen
      omega
    · intro h0
      have := (hsort (l + 1 + 1) (objs.map fun o => (bounds o, Node.obj (K := K) (d := d) o))).length_eq
      rw [h0] at this
      simp at this
      omega

end

/-! ### The k nearest neighbours of a tree -/

section
variable {K : Type} [Field K] [LinearOrder K] [IsStrictOrderedRing K] {d : Nat} {Obj : Type}

theorem kNearest_of_holds (bounds : Obj → Rect K d)
    (hv : ∀ o i, (bounds o i).1 ≤ (bounds o i).2) (t : Tree K d Obj) (bag : List Obj)
    (h : Holds bounds t bag) (p : Fin d → K) (k : Nat) (refused : List (Obj → Bool))
    (sort : List (Entry K d Obj) → List (Entry K d Obj)) (hsort : SortsByDist p sort)
    (res : List Obj)
    (hres : kNearest k p (refused.map fun q _ o => (q o, false)) sort t = some res) :
    KNearest bounds p k res (notRefused refused bag) := by
  obtain ⟨l, hl, hw, hp⟩ := h
  unfold kNearest at hres
  rw [Option.map_eq_some_iff] at hres
  obtain ⟨r, hr, rfl⟩ := hres
  rw [hl] at hr
  obtain ⟨_, hb⟩ := nearestNeighbors_spec bounds p refused k hv sort (fun es => (hsort es).1)
    (fun es => (hsort es).2) l _ t.root [] [] r hw (Best.nil _ _) hr
  rw [List.append_nil] at hb
  obtain ⟨h1, h2, h3, rest, h4, h5⟩ := hb.perm (b := notRefused refused bag) (hp.filter _)
  beta_reduce at h2 h5
  refine ⟨?_, by rw [List.length_map]; exact h3, rest, h4, ?_⟩
  · rw [List.pairwise_map]
    refine h1.imp_of_mem ?_
    intro a b ha hb hab
    rw [noFarther_iff p _ _ (hv _) (hv _), ← h2 a ha, ← h2 b hb]
    exact hab
  · intro a ha b hb
    rw [List.mem_map] at ha
    obtain ⟨x, hx, rfl⟩ := ha
    rw [noFarther_iff p _ _ (hv _) (hv _), ← h2 x hx]
    exact h5 x hx b hb

theorem kNearest_isSome (bounds : Obj → Rect K d)
    (hv : ∀ o i, (bounds o i).1 ≤ (bounds o i).2) (t : Tree K d Obj) (bag : List Obj)
    (h : Holds bounds t bag) (ho : OccTree t) (p : Fin d → K) (k : Nat) (hk : 1 ≤ k)
    (refused : List (Obj → Bool)) (sort : List (Entry K d Obj) → List (Entry K d Obj))
    (hsort : SortsByDist p sort) :
    ∃ res, kNearest k p (refused.map fun q _ o => (q o, false)) sort t = some res := by
  obtain ⟨l, hl, hw, _⟩ := h
  obtain ⟨_, _, ho⟩ := ho
  rw [hl] at ho
  obtain ⟨r, hr⟩ := knn_isSome bounds p refused k t.max hk hv sort (fun es => (hsort es).1)
    (fun es => (hsort es).2) l (t.max * t.height) t.root [] [] hw ho
    (Nat.mul_le_mul_left _ (by omega)) (Best.nil _ _)
  unfold kNearest
  rw [hl] at hr ⊢
  exact ⟨_, by rw [show refused.map (fun q _ o => (q o, false)) = refusing refused from rfl, hr]; rfl⟩

/-- Sorting by insertion is one of the sorts meant. -/
theorem insertionSort_sorts (p : Fin d → K) :
    SortsByDist (Obj := Obj) p
      (fun es => es.insertionSort fun a b => minDist p a.1 ≤ minDist p b.1) := by
  intro es
  have : Std.Total (fun a b : Entry K d Obj => minDist p a.1 ≤ minDist p b.1) :=
    ⟨fun a b => le_total _ _⟩
  have : IsTrans (Entry K d Obj) (fun a b : Entry K d Obj => minDist p a.1 ≤ minDist p b.1) :=
    ⟨fun a b c => le_trans⟩
  exact ⟨List.perm_insertionSort _ _, List.pairwise_insertionSort _ _⟩

end

end Verif.RTree
