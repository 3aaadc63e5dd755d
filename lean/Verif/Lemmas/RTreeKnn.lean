/-
Helper lemmas about the search for several nearest neighbours in the R-tree.
-/
import Verif.Spec.RTreeNearest
import Verif.Lemmas.RTreeNearest

set_option linter.unusedSectionVars false

namespace Verif.RTree

open Verif.RTreeSpec

variable {K : Type} [Field K] [LinearOrder K] [IsStrictOrderedRing K] {d : Nat} {Obj : Type}

/-! ### Distance of boxes -/

/-- The nearest point of a box. -/
def clamp (p : Fin d → K) (r : Rect K d) (i : Fin d) : K :=
  if p i < (r i).1 then (r i).1 else if (r i).2 < p i then (r i).2 else p i

theorem clamp_in (p : Fin d → K) (r : Rect K d) (hv : Valid r) : InRect r (clamp p r) := by
  intro i
  have := hv i
  unfold clamp
  split
  · exact ⟨le_refl _, this⟩
  split
  · exact ⟨this, le_refl _⟩
  · exact ⟨not_lt.1 ‹_›, not_lt.1 ‹_›⟩

theorem clamp_dist (p : Fin d → K) (r : Rect K d) : ptDist2 p (clamp p r) = minDist p r := by
  unfold ptDist2 minDist clamp
  refine Finset.sum_congr rfl fun i _ => ?_
  split
  · ring
  split
  · ring
  · ring

theorem minDist_le_pt (p : Fin d → K) (r : Rect K d) (y : Fin d → K) (h : InRect r y) :
    minDist p r ≤ ptDist2 p y := by
  rw [minDist_eq, ptDist2]
  refine Finset.sum_le_sum fun i _ => ?_
  rw [pow_two]
  exact axisDist_le (p i) (y i) (r i) (h i).1 (h i).2

theorem noFarther_iff (p : Fin d → K) (r s : Rect K d) (hr : Valid r) (hs : Valid s) :
    NoFarther p r s ↔ minDist p r ≤ minDist p s := by
  constructor
  · intro h
    obtain ⟨x, hx, hle⟩ := h _ (clamp_in p s hs)
    rw [clamp_dist] at hle
    exact le_trans (minDist_le_pt p r x hx) hle
  · intro h y hy
    refine ⟨clamp p r, clamp_in p r hr, ?_⟩
    rw [clamp_dist]
    exact le_trans h (minDist_le_pt p s y hy)

/-! ### The list of the best -/

/-- `st` holds the `k` best of `seen`. -/
def Best (dist : Obj → K) (k : Nat) (st : List (K × Obj)) (seen : List Obj) : Prop :=
  st.Pairwise (fun a b => a.1 ≤ b.1) ∧ (∀ x ∈ st, x.1 = dist x.2) ∧
  st.length = min k seen.length ∧
  ∃ rest, (st.map Prod.snd ++ rest).Perm seen ∧ ∀ a ∈ st, ∀ o ∈ rest, a.1 ≤ dist o

theorem Best.nil (dist : Obj → K) (k : Nat) : Best dist k [] [] :=
  ⟨List.Pairwise.nil, by simp, by simp, [], by simp, by simp⟩

theorem Best.perm {dist : Obj → K} {k : Nat} {st : List (K × Obj)} {a b : List Obj}
    (h : Best dist k st a) (hp : a.Perm b) : Best dist k st b := by
  obtain ⟨h1, h2, h3, rest, h4, h5⟩ := h
  exact ⟨h1, h2, by rw [h3, hp.length_eq], rest, h4.trans hp, h5⟩

/-- With `k` results, objects no nearer than the last do not matter. -/
theorem Best.skip {dist : Obj → K} {k : Nat} {st : List (K × Obj)} {seen far : List Obj}
    (h : Best dist k st seen) (hk : k ≤ st.length)
    (hfar : ∀ a ∈ st, ∀ o ∈ far, a.1 ≤ dist o) : Best dist k st (far ++ seen) := by
  obtain ⟨h1, h2, h3, rest, h4, h5⟩ := h
  refine ⟨h1, h2, ?_, far ++ rest, ?_, ?_⟩
  · rw [List.length_append]; omega
  · refine List.Perm.trans ?_ (h4.append_left far)
    rw [← List.append_assoc, ← List.append_assoc]
    exact List.Perm.append_right _ List.perm_append_comm
  · intro a ha o ho
    rcases List.mem_append.1 ho with h | h
    · exact hfar a ha o h
    · exact h5 a ha o h

theorem takeWhile_two (st : List (K × Obj)) (c : K) :
    let i0 := (st.takeWhile fun x => decide (x.1 < c)).length
    i0 + ((st.drop i0).takeWhile fun x => decide (x.1 ≤ c)).length =
      (st.takeWhile fun x => decide (x.1 ≤ c)).length := by
  induction st with
  | nil => simp
  | cons x xs ih =>
    by_cases h : x.1 < c
    · have h' : x.1 ≤ c := le_of_lt h
      simp only [List.takeWhile_cons, h, h', decide_true, if_true, List.length_cons,
        List.drop_succ_cons] at ih ⊢
      omega
    · simp [List.takeWhile_cons, h]

theorem takeWhile_take {α : Type} (p : α → Bool) (l : List α) :
    l.take (l.takeWhile p).length = l.takeWhile p ∧ l.drop (l.takeWhile p).length = l.dropWhile p := by
  have := List.takeWhile_append_dropWhile (p := p) (l := l)
  constructor
  · conv => lhs; arg 2; rw [← this]
    rw [List.take_left]
  · conv => lhs; arg 2; rw [← this]
    rw [List.drop_left]

theorem dropWhile_gt (st : List (K × Obj)) (c : K) (hs : st.Pairwise (fun a b => a.1 ≤ b.1)) :
    ∀ x ∈ st.dropWhile (fun x => decide (x.1 ≤ c)), c < x.1 := by
  induction st with
  | nil => simp
  | cons y ys ih =>
    rw [List.pairwise_cons] at hs
    by_cases h : y.1 ≤ c
    · rw [List.dropWhile_cons_of_pos (by simpa using h)]
      exact ih hs.2
    · rw [List.dropWhile_cons_of_neg (by simpa using h)]
      intro x hx
      rcases List.mem_cons.1 hx with rfl | hx
      · exact not_le.1 h
      · exact lt_of_lt_of_le (not_le.1 h) (hs.1 x hx)

theorem takeWhile_le (st : List (K × Obj)) (c : K) :
    ∀ x ∈ st.takeWhile (fun x => decide (x.1 ≤ c)), x.1 ≤ c := by
  induction st with
  | nil => simp
  | cons y ys ih =>
    intro x hx
    by_cases h : y.1 ≤ c
    · rw [List.takeWhile_cons_of_pos (by simpa using h)] at hx
      rcases List.mem_cons.1 hx with rfl | hx
      · exact h
      · exact ih x hx
    · rw [List.takeWhile_cons_of_neg (by simpa using h)] at hx
      simp at hx

/-- The filters that refuse objects without looking at the results. -/
def refusing (ps : List (Obj → Bool)) : List (Filter Obj) := ps.map fun p _ o => (p o, false)

theorem applyFilters_refusing (ps : List (Obj → Bool)) (results : List Obj) (o : Obj) :
    applyFilters results o (refusing ps) = (ps.any fun p => p o, false) := by
  induction ps with
  | nil => rfl
  | cons p ps ih =>
    simp only [refusing, List.map_cons, applyFilters, List.any_cons] at ih ⊢
    cases h : p o with
    | true => simp
    | false => simpa using ih

theorem sorted_insert (a b : List (K × Obj)) (c : K) (o : Obj)
    (hs : (a ++ b).Pairwise (fun a b => a.1 ≤ b.1)) (ha : ∀ x ∈ a, x.1 ≤ c)
    (hb : ∀ x ∈ b, c ≤ x.1) : (a ++ (c, o) :: b).Pairwise (fun a b => a.1 ≤ b.1) := by
  rw [List.pairwise_append] at hs ⊢
  refine ⟨hs.1, ?_, ?_⟩
  · rw [List.pairwise_cons]
    exact ⟨fun x hx => hb x hx, hs.2.1⟩
  · intro x hx y hy
    rcases List.mem_cons.1 hy with rfl | hy
    · exact ha x hx
    · exact hs.2.2 x hx y hy

theorem insertNearest_spec (dist : Obj → K) (k : Nat) (st : List (K × Obj)) (seen : List Obj)
    (ps : List (Obj → Bool)) (o : Obj) (h : Best dist k st seen) :
    (insertNearest k st (dist o) o (refusing ps)).2 = false ∧
    Best dist k (insertNearest k st (dist o) o (refusing ps)).1
      ([o].filter (fun o => !ps.any fun p => p o) ++ seen) := by
  unfold insertNearest
  have htw := takeWhile_two st (dist o)
  simp only at htw
  simp only [htw, applyFilters_refusing]
  obtain ⟨ht, hd⟩ := takeWhile_take (fun x : K × Obj => decide (x.1 ≤ dist o)) st
  have hcat := List.takeWhile_append_dropWhile (p := fun x : K × Obj => decide (x.1 ≤ dist o)) (l := st)
  have hgt := dropWhile_gt st (dist o) h.1
  have hle := takeWhile_le st (dist o)
  rw [ht, hd]
  generalize st.takeWhile (fun x => decide (x.1 ≤ dist o)) = a at *
  generalize st.dropWhile (fun x => decide (x.1 ≤ dist o)) = b at *
  subst hcat
  clear ht hd htw
  obtain ⟨h1, h2, h3, rest, h4, h5⟩ := h
  by_cases hr : (ps.any fun p => p o) = true
  · have hf : [o].filter (fun o => !ps.any fun p => p o) = [] := by
      rw [List.filter_cons_of_neg (by simp [hr])]; rfl
    rw [hf, List.nil_append]
    have hb : Best dist k (a ++ b) seen := ⟨h1, h2, h3, rest, h4, h5⟩
    split
    · exact ⟨rfl, hb⟩
    · simp only [hr, Bool.true_or, if_true]
      exact ⟨trivial, hb⟩
  · have hf : [o].filter (fun o => !ps.any fun p => p o) = [o] := by
      rw [List.filter_cons_of_pos (by simpa using hr)]; rfl
    rw [hf]
    have hlen : (a ++ b).length = a.length + b.length := List.length_append
    split
    · rename_i hk
      have hb0 : b = [] := by
        apply List.length_eq_zero_iff.1
        omega
      subst hb0
      refine ⟨rfl, Best.skip (st := a ++ []) ⟨h1, h2, h3, rest, h4, h5⟩ (by simpa using hk) ?_⟩
      intro x hx u hu
      simp only [List.mem_singleton] at hu
      subst hu
      rw [List.append_nil] at hx
      exact hle x hx
    · rename_i hk
      rw [Bool.not_eq_true] at hr
      simp only [hr, Bool.or_self, Bool.false_eq_true, if_false]
      split
      · rename_i hk2
        have hrest : rest = [] := by
          apply List.length_eq_zero_iff.1
          have := h4.length_eq
          rw [List.length_append, List.length_map] at this
          omega
        subst hrest
        refine ⟨rfl, sorted_insert a b _ o h1 hle (fun x hx => (hgt x hx).le), ?_, ?_, [], ?_, by simp⟩
        · intro x hx
          rcases List.mem_append.1 hx with hx | hx
          · exact h2 x (by simp [hx])
          rcases List.mem_cons.1 hx with rfl | hx
          · rfl
          · exact h2 x (by simp [hx])
        · rw [List.length_append, List.length_cons, List.length_append, List.length_singleton]
          omega
        · rw [List.append_nil] at h4 ⊢
          rw [List.map_append, List.map_cons]
          refine List.perm_middle.trans ?_
          rw [← List.map_append]
          exact h4.cons o
      · rename_i hk2
        have hbne : b ≠ [] := by
          rintro rfl
          simp only [List.append_nil] at *
          omega
        obtain ⟨b', z, rfl⟩ : ∃ b' z, b = b' ++ [z] :=
          ⟨b.dropLast, b.getLast hbne, (List.dropLast_append_getLast hbne).symm⟩
        rw [List.dropLast_concat]
        have hs' : (a ++ b').Pairwise (fun a b => a.1 ≤ b.1) := by
          rw [← List.append_assoc] at h1
          exact (List.pairwise_append.1 h1).1
        have hz : ∀ x ∈ a ++ b', x.1 ≤ z.1 := by
          rw [← List.append_assoc] at h1
          intro x hx
          exact (List.pairwise_append.1 h1).2.2 x hx z (by simp)
        have hzd : z.1 = dist z.2 := h2 z (by simp)
        refine ⟨rfl, sorted_insert a b' _ o hs' hle (fun x hx => (hgt x (by simp [hx])).le), ?_, ?_,
          z.2 :: rest, ?_, ?_⟩
        · intro x hx
          rcases List.mem_append.1 hx with hx | hx
          · exact h2 x (by simp [hx])
          rcases List.mem_cons.1 hx with rfl | hx
          · rfl
          · exact h2 x (by simp [hx])
        · simp only [List.length_append, List.length_cons, List.length_nil] at *
          omega
        · refine List.Perm.trans ?_ (h4.cons o)
          simp only [List.map_append, List.map_cons, List.map_nil, List.append_assoc,
            List.cons_append, List.nil_append]
          exact List.perm_middle
        · intro x hx u hu
          have hxz : x.1 ≤ z.1 := by
            rcases List.mem_append.1 hx with hx | hx
            · exact hz x (by simp [hx])
            rcases List.mem_cons.1 hx with rfl | hx
            · exact (hgt z (by simp)).le
            · exact hz x (by simp [hx])
          rcases List.mem_cons.1 hu with rfl | hu
          · rw [← hzd]; exact hxz
          · exact le_trans hxz (h5 z (by simp) u hu)

/-! ### The search -/

section knn
variable (bounds : Obj → Rect K d) (p : Fin d → K) (ps : List (Obj → Bool))

/-- The objects no filter refuses. -/
def accepted (l : List Obj) : List Obj := l.filter fun o => !ps.any fun q => q o

theorem accepted_append (a b : List Obj) : accepted ps (a ++ b) = accepted ps a ++ accepted ps b :=
  List.filter_append _ _

theorem knnLeaf_spec (k : Nat) : ∀ (es : List (Entry K d Obj)) (st : List (K × Obj))
    (seen : List Obj), WfEs bounds 0 es → Best (fun o => minDist p (bounds o)) k st seen →
    (knnLeaf k p (refusing ps) es st).2 = false ∧
    Best (fun o => minDist p (bounds o)) k (knnLeaf k p (refusing ps) es st).1
      (accepted ps (itemsEs 0 es) ++ seen) := by
  intro es
  induction es with
  | nil => intro st seen _ h; exact ⟨rfl, by simpa [itemsEs, accepted, knnLeaf] using h⟩
  | cons e es ih =>
    intro st seen hes h
    obtain ⟨⟨o, ho⟩, hb⟩ := hes e (by simp)
    have hr : e.1 = bounds o := by rw [ho] at hb; exact hb
    have hi : itemsEs 0 (e :: es) = [o] ++ itemsEs 0 es := by simp [itemsEs, ho, items]
    rw [hi, accepted_append, knnLeaf, ho, hr]
    obtain ⟨h1, h2⟩ := insertNearest_spec (fun o => minDist p (bounds o)) k st seen ps o h
    simp only [h1, Bool.false_eq_true, if_false]
    obtain ⟨h3, h4⟩ := ih _ _ (fun e he => hes e (by simp [he])) h2
    refine ⟨h3, h4.perm ?_⟩
    rw [List.append_assoc]
    show (accepted ps (itemsEs 0 es) ++ (accepted ps [o] ++ seen)).Perm _
    rw [← List.append_assoc, ← List.append_assoc]
    exact List.Perm.append_right _ List.perm_append_comm

theorem knnPrune_spec (k l : Nat) (st : List (K × Obj)) (seen : List Obj)
    (es br : List (Entry K d Obj)) (hv : ∀ o, Valid (bounds o)) (hes : WfEs bounds l es)
    (hsorted : es.Pairwise fun a b => minDist p a.1 ≤ minDist p b.1)
    (h : Best (fun o => minDist p (bounds o)) k st seen) (hbr : knnPrune k p st es = some br) :
    ∃ rest, es = br ++ rest ∧
      Best (fun o => minDist p (bounds o)) k st (accepted ps (itemsEs l rest) ++ seen) := by
  unfold knnPrune at hbr
  split at hbr
  · rename_i hk
    split at hbr
    · simp at hbr
    · rename_i x hx
      simp only [Option.some.injEq] at hbr
      subst hbr
      refine ⟨es.dropWhile fun e => !decide (x.1 < minDist p e.1),
        List.takeWhile_append_dropWhile.symm, h.skip hk ?_⟩
      intro a ha o ho
      have hax : a.1 ≤ x.1 := by
        obtain ⟨ys, rfl⟩ := List.getLast?_eq_some_iff.1 hx
        rcases List.mem_append.1 ha with ha | ha
        · exact (List.pairwise_append.1 h.1).2.2 a ha x (by simp)
        · simp only [List.mem_singleton] at ha
          rw [ha]
      have hfar : ∀ es : List (Entry K d Obj),
          (es.Pairwise fun a b => minDist p a.1 ≤ minDist p b.1) →
          ∀ e ∈ es.dropWhile (fun e => !decide (x.1 < minDist p e.1)), x.1 < minDist p e.1 := by
        intro es
        induction es with
        | nil => simp
        | cons y ys ih =>
          intro hs
          rw [List.pairwise_cons] at hs
          by_cases hy : x.1 < minDist p y.1
          · rw [List.dropWhile_cons_of_neg (by simpa using hy)]
            intro e he
            rcases List.mem_cons.1 he with rfl | he
            · exact hy
            · exact lt_of_lt_of_le hy (hs.1 e he)
          · rw [List.dropWhile_cons_of_pos (by simpa using hy)]
            exact ih hs.2
      have ho' := (List.mem_filter.1 ho).1
      rw [itemsEs, List.mem_flatMap] at ho'
      obtain ⟨e, he, ho'⟩ := ho'
      have hee : e ∈ es := (List.dropWhile_sublist _).subset he
      have h1 := minDist_mono p (box_cont bounds l e.2 e.1 (hes e hee).1 (hes e hee).2 o ho') (hv o)
      have h2 := hfar es hsorted e he
      linarith
  · simp only [Option.some.injEq] at hbr
    subst hbr
    exact ⟨[], by simp, by simpa [itemsEs, accepted] using h⟩

theorem nearestNeighbors_spec (k : Nat) (hv : ∀ o, Valid (bounds o))
    (sort : List (Entry K d Obj) → List (Entry K d Obj)) (hperm : ∀ es, (sort es).Perm es)
    (hsorted : ∀ es, (sort es).Pairwise fun a b => minDist p a.1 ≤ minDist p b.1) :
    ∀ (l buf : Nat) (n : Node K d Obj) (st : List (K × Obj)) (seen : List Obj)
      (r : List (K × Obj) × Bool), Wf bounds (l + 1) n →
    Best (fun o => minDist p (bounds o)) k st seen →
    nearestNeighbors k p (refusing ps) sort (l + 1) buf n st = some r →
    r.2 = false ∧ Best (fun o => minDist p (bounds o)) k r.1
      (accepted ps (items (l + 1) n) ++ seen) := by
  intro l
  induction l with
  | zero =>
    intro buf n st seen r hw h hr
    rw [nearestNeighbors, if_pos rfl] at hr
    simp only [Option.some.injEq] at hr
    subst hr
    rw [items_succ]
    exact knnLeaf_spec bounds p ps k n.entries st seen (wf_succ.1 hw).2 h
  | succ l ih =>
    intro buf n st seen r hw h hr
    rw [nearestNeighbors, if_neg (by omega)] at hr
    split at hr
    · simp at hr
    simp only [Option.bind_eq_bind, Option.bind_eq_some_iff] at hr
    obtain ⟨br, hbr, hr⟩ := hr
    have hes : WfEs bounds (l + 1) (sort n.entries) := (wf_succ.1 hw).2.perm (hperm _)
    obtain ⟨rest, hcat, hb⟩ := knnPrune_spec bounds p ps k (l + 1) st seen _ br hv hes
      (hsorted _) h hbr
    have key : ∀ (es : List (Entry K d Obj)) (st : List (K × Obj)) (seen : List Obj),
        WfEs bounds (l + 1) es → Best (fun o => minDist p (bounds o)) k st seen →
        knnLoop (nearestNeighbors k p (refusing ps) sort (l + 1) (buf - n.entries.length)) es st =
          some r →
        r.2 = false ∧ Best (fun o => minDist p (bounds o)) k r.1
          (accepted ps (itemsEs (l + 1) es) ++ seen) := by
      intro es
      induction es with
      | nil =>
        intro st seen _ h hr
        simp only [knnLoop, Option.some.injEq] at hr
        subst hr
        exact ⟨rfl, by simpa [itemsEs, accepted] using h⟩
      | cons e es ihes =>
        intro st seen hes h hr
        simp only [knnLoop, Option.bind_eq_bind, Option.bind_eq_some_iff] at hr
        obtain ⟨r1, hr1, hr⟩ := hr
        obtain ⟨h1, h2⟩ := ih _ e.2 st seen r1 (hes e (by simp)).1 h hr1
        rw [if_neg (by simp [h1])] at hr
        obtain ⟨h3, h4⟩ := ihes r1.1 _ (fun e he => hes e (by simp [he])) h2 hr
        refine ⟨h3, h4.perm ?_⟩
        have hi : itemsEs (l + 1) (e :: es) = items (l + 1) e.2 ++ itemsEs (l + 1) es := by
          simp [itemsEs]
        rw [hi, accepted_append, ← List.append_assoc]
        exact List.Perm.append_right _ List.perm_append_comm
    rw [hcat] at hes
    obtain ⟨h1, h2⟩ := key br st _ hes.left hb hr
    refine ⟨h1, h2.perm ?_⟩
    rw [← List.append_assoc, ← accepted_append, ← itemsEs_append, ← hcat, items_succ]
    exact List.Perm.append_right _ ((itemsEs_perm (l + 1) (hperm _)).filter _)

end knn

/-! ### No panic -/

/-- No node has more than `max` entries. -/
def Occ (max : Nat) : Nat → Node K d Obj → Prop
  | 0, _ => True
  | l + 1, n => n.entries.length ≤ max ∧ ∀ e ∈ n.entries, Occ max l e.2

theorem knn_isSome (bounds : Obj → Rect K d) (p : Fin d → K) (ps : List (Obj → Bool)) (k max : Nat)
    (hk : 1 ≤ k) (hv : ∀ o, Valid (bounds o))
    (sort : List (Entry K d Obj) → List (Entry K d Obj)) (hperm : ∀ es, (sort es).Perm es)
    (hsorted : ∀ es, (sort es).Pairwise fun a b => minDist p a.1 ≤ minDist p b.1) :
    ∀ (l buf : Nat) (n : Node K d Obj) (st : List (K × Obj)) (seen : List Obj),
    Wf bounds (l + 1) n → Occ max (l + 1) n → max * l ≤ buf →
    Best (fun o => minDist p (bounds o)) k st seen →
    ∃ r, nearestNeighbors k p (refusing ps) sort (l + 1) buf n st = some r := by
  intro l
  induction l with
  | zero =>
    intro buf n st seen _ _ _ _
    rw [nearestNeighbors, if_pos rfl]
    exact ⟨_, rfl⟩
  | succ l ih =>
    intro buf n st seen hw hocc hbuf h
    have hlen := hocc.1
    have hmul : max * (l + 1) = max * l + max := by ring
    rw [nearestNeighbors, if_neg (by omega), if_neg (by omega)]
    have hes : WfEs bounds (l + 1) (sort n.entries) := (wf_succ.1 hw).2.perm (hperm _)
    have hp : ∃ br, knnPrune k p st (sort n.entries) = some br := by
      unfold knnPrune
      split
      · cases hg : st.getLast? with
        | none =>
          rw [List.getLast?_eq_none_iff] at hg
          subst hg
          simp at *
          omega
        | some x => exact ⟨_, rfl⟩
      · exact ⟨_, rfl⟩
    obtain ⟨br, hbr⟩ := hp
    obtain ⟨rest, hcat, hb⟩ := knnPrune_spec bounds p ps k (l + 1) st seen _ br hv hes
      (hsorted _) h hbr
    have key : ∀ (es : List (Entry K d Obj)) (st : List (K × Obj)) (seen : List Obj),
        WfEs bounds (l + 1) es → (∀ e ∈ es, Occ max (l + 1) e.2) →
        Best (fun o => minDist p (bounds o)) k st seen →
        ∃ r, knnLoop (nearestNeighbors k p (refusing ps) sort (l + 1)
          (buf - n.entries.length)) es st = some r := by
      intro es
      induction es with
      | nil => intro st seen _ _ _; exact ⟨_, rfl⟩
      | cons e es ihes =>
        intro st seen hes hoc h
        obtain ⟨r1, hr1⟩ := ih (buf - n.entries.length) e.2 st seen (hes e (by simp)).1
          (hoc e (by simp)) (by omega) h
        obtain ⟨h1, h2⟩ := nearestNeighbors_spec bounds p ps k hv sort hperm hsorted l _ e.2 st
          seen r1 (hes e (by simp)).1 h hr1
        simp only [knnLoop, hr1, Option.bind_eq_bind, Option.bind_some, h1, Bool.false_eq_true,
          if_false]
        exact ihes r1.1 _ (fun e he => hes e (by simp [he])) (fun e he => hoc e (by simp [he])) h2
    simp only [hbr, Option.bind_eq_bind, Option.bind_some]
    have hocs : ∀ e ∈ br ++ rest, Occ max (l + 1) e.2 := by
      rw [← hcat]
      intro e he
      exact hocc.2 e ((hperm _).subset he)
    rw [hcat] at hes
    exact key br st _ hes.left (fun e he => hocs e (by simp [he])) hb

/-! ### Filters that abort -/

/-- A search with room for all goes on until an object makes a filter abort. -/
theorem knnLeaf_abort (k : Nat) (p : Fin d → K) (stop : Obj → Bool) (b : Rect K d) (o : Obj)
    (es2 : List (Entry K d Obj)) (ho : stop o = true) :
    ∀ (es1 : List (Rect K d × Obj)) (st : List (K × Obj)), st.length + es1.length < k →
      (∀ x ∈ es1, stop x.2 = false) →
      knnLeaf k p [fun _ o => (false, stop o)] (es1.map (fun x => (x.1, Node.obj x.2)) ++ (b, .obj o) :: es2) st =
        ((knnLeaf k p [] (es1.map fun x => (x.1, Node.obj x.2)) st).1, true)
  | [], st, hk, _ => by
    have hi : ∀ q r : K × Obj → Bool, (st.takeWhile q).length + ((st.drop (st.takeWhile q).length).takeWhile r).length
        < k := by
      intro q r
      have h1 := (List.takeWhile_prefix r (l := st.drop (st.takeWhile q).length)).length_le
      have h2 := (List.takeWhile_prefix q (l := st)).length_le
      rw [List.length_drop] at h1
      simp only [List.length_nil] at hk
      omega
    simp only [List.map_nil, List.nil_append, knnLeaf, insertNearest, applyFilters, ho]
    rw [if_neg (not_le.2 (hi _ _))]
    simp
  | x :: es1, st, hk, hs => by
    have hx := hs x List.mem_cons_self
    simp only [List.map_cons, List.cons_append]
    rw [knnLeaf, knnLeaf]
    simp only
    have hi : ∀ q r : K × Obj → Bool, (st.takeWhile q).length + ((st.drop (st.takeWhile q).length).takeWhile r).length
        < k := by
      intro q r
      have h1 := (List.takeWhile_prefix r (l := st.drop (st.takeWhile q).length)).length_le
      have h2 := (List.takeWhile_prefix q (l := st)).length_le
      rw [List.length_drop] at h1
      omega
    have hst : st.length < k := by omega
    have e1 : ∀ fs : List (Filter Obj), applyFilters (st.map Prod.snd) x.2 fs = (false, false) →
        insertNearest k st (minDist p x.1) x.2 fs =
          (insertNearest k st (minDist p x.1) x.2 []) := by
      intro fs h
      unfold insertNearest
      simp only [h, applyFilters]
      rfl
    have e2 : (insertNearest k st (minDist p x.1) x.2 []).2 = false ∧
        (insertNearest k st (minDist p x.1) x.2 []).1.length = st.length + 1 := by
      unfold insertNearest
      simp only [applyFilters]
      rw [if_neg (not_le.2 (hi _ _))]
      simp only [Bool.or_self, Bool.false_eq_true, if_false, hst, if_true, true_and, List.length_append,
        List.length_cons, List.length_take, List.length_drop]
      have h1 := (List.takeWhile_prefix (fun y : K × Obj => decide (y.1 < minDist p x.1)) (l := st)).length_le
      have h2 := (List.takeWhile_prefix (fun y : K × Obj => decide (y.1 ≤ minDist p x.1))
        (l := st.drop (st.takeWhile fun y : K × Obj => decide (y.1 < minDist p x.1)).length)).length_le
      rw [List.length_drop] at h2
      omega
    rw [e1 [fun _ o => (false, stop o)] (by simp [applyFilters, hx]), e2.1]
    simp only [Bool.false_eq_true, if_false]
    refine knnLeaf_abort k p stop b o es2 ho es1 _ ?_ fun y hy => hs y (List.mem_cons_of_mem _ hy)
    rw [e2.2]
    simp only [List.length_cons] at hk
    omega

end Verif.RTree
