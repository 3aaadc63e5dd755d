/-
Helper lemmas about nearest neighbour search in the R-tree.
-/
import Verif.Model.RTreeNearest
import Verif.Lemmas.RTree
import Mathlib.Tactic.Linarith
import Mathlib.Tactic.Ring
import Mathlib.Algebra.Order.BigOperators.Group.Finset

set_option linter.unusedSectionVars false

namespace Verif.RTree

open Verif.RTreeSpec

variable {K : Type} [Field K] [LinearOrder K] [IsStrictOrderedRing K] {d : Nat} {Obj : Type}

/-! ### Distances -/

/-- The lower end is not above the upper end in any dimension. -/
def Valid (r : Rect K d) : Prop := ∀ i, (r i).1 ≤ (r i).2

/-- The summand of `minDist`. -/
def axisDist (x : K) (r : K × K) : K :=
  if x < r.1 then (x - r.1) * (x - r.1) else if r.2 < x then (x - r.2) * (x - r.2) else 0

theorem minDist_eq (p : Fin d → K) (r : Rect K d) : minDist p r = ∑ i, axisDist (p i) (r i) := rfl

theorem sq_le (a b : K) (h1 : 0 ≤ a) (h2 : a ≤ b) : a * a ≤ b * b :=
  mul_self_le_mul_self h1 h2

/-- The distance is at most that to any point of the interval. -/
theorem axisDist_le (x y : K) (r : K × K) (h1 : r.1 ≤ y) (h2 : y ≤ r.2) :
    axisDist x r ≤ (x - y) * (x - y) := by
  unfold axisDist
  split
  · have := sq_le (r.1 - x) (y - x) (by linarith) (by linarith)
    nlinarith
  split
  · have := sq_le (x - r.2) (x - y) (by linarith) (by linarith)
    nlinarith
  · exact mul_self_nonneg _

theorem axisDist_mono (x : K) (r s : K × K) (h1 : r.1 ≤ s.1) (h2 : s.2 ≤ r.2) (hs : s.1 ≤ s.2) :
    axisDist x r ≤ axisDist x s := by
  by_cases a : x < s.1
  · have : axisDist x s = (x - s.1) * (x - s.1) := by simp [axisDist, a]
    rw [this]
    exact axisDist_le x s.1 r h1 (by linarith)
  · by_cases b : s.2 < x
    · have : axisDist x s = (x - s.2) * (x - s.2) := by simp [axisDist, a, b]
      rw [this]
      exact axisDist_le x s.2 r (by linarith) h2
    · have : axisDist x s = 0 := by simp [axisDist, a, b]
      rw [this]
      have := axisDist_le x x r (by linarith [not_lt.1 a]) (by linarith [not_lt.1 b])
      simpa using this

theorem minDist_mono (p : Fin d → K) {r s : Rect K d} (h : Cont r s) (hs : Valid s) :
    minDist p r ≤ minDist p s := by
  rw [minDist_eq, minDist_eq]
  exact Finset.sum_le_sum fun i _ => axisDist_mono (p i) (r i) (s i) (h i).1 (h i).2 (hs i)

theorem axisDist_le_far (p : Fin d → K) (r : Rect K d) (i : Fin d) (s : K × K)
    (h1 : (r i).1 ≤ s.1) (h2 : s.2 ≤ (r i).2) (hs : s.1 ≤ s.2) :
    axisDist (p i) s ≤ (p i - rM p r i) * (p i - rM p r i) := by
  have key : ∀ y, s.1 ≤ y → y ≤ s.2 → (p i - y) * (p i - y) ≤ (p i - rM p r i) * (p i - rM p r i) := by
    intro y hy1 hy2
    unfold rM
    split
    · rename_i hm
      have h2p : (r i).1 + (r i).2 ≤ 2 * p i := by linarith
      have : |p i - y| ≤ |p i - (r i).1| := by
        rw [abs_of_nonneg (show 0 ≤ p i - (r i).1 by linarith), abs_le]
        constructor <;> linarith
      have := mul_self_le_mul_self (abs_nonneg _) this
      rwa [abs_mul_abs_self, abs_mul_abs_self] at this
    · rename_i hm
      have h2p : 2 * p i < (r i).1 + (r i).2 := by linarith
      have : |p i - y| ≤ |p i - (r i).2| := by
        rw [abs_of_nonpos (show p i - (r i).2 ≤ 0 by linarith), abs_le]
        constructor <;> linarith
      have := mul_self_le_mul_self (abs_nonneg _) this
      rwa [abs_mul_abs_self, abs_mul_abs_self] at this
  exact le_trans (axisDist_le (p i) s.1 s (le_refl _) hs) (key s.1 (le_refl _) hs)

theorem foldl_min_mem {α : Type} (f : α → K) (l : List α) : ∀ m : Option K,
    let r := l.foldl (fun m k => if ltTop (some (f k)) m then some (f k) else m) m
    r = m ∨ ∃ k ∈ l, r = some (f k) := by
  induction l with
  | nil => intro m; exact Or.inl rfl
  | cons x xs ih =>
    intro m
    simp only [List.foldl_cons]
    rcases ih (if ltTop (some (f x)) m then some (f x) else m) with h | ⟨k, hk, h⟩
    · rw [h]
      split
      · exact Or.inr ⟨x, by simp, rfl⟩
      · exact Or.inl rfl
    · exact Or.inr ⟨k, by simp [hk], h⟩

theorem minMaxDist_some (p : Fin d → K) (r : Rect K d) (v : K) (h : minMaxDist p r = some v) :
    ∃ k, v = (∑ i, (p i - rM p r i) * (p i - rM p r i)) -
      (p k - rM p r k) * (p k - rM p r k) + (p k - rm p r k) * (p k - rm p r k) := by
  unfold minMaxDist at h
  have := foldl_min_mem (fun k => (∑ i, (p i - rM p r i) * (p i - rM p r i)) -
      (p k - rM p r k) * (p k - rM p r k) + (p k - rm p r k) * (p k - rm p r k))
      (List.finRange d) none
  simp only at this h
  rw [h] at this
  rcases this with h | ⟨k, _, h⟩
  · simp at h
  · exact ⟨k, by simpa using h⟩

/-- Bounds that touch the face chosen by `minMaxDist` are within that
distance. -/
theorem minDist_le_face (p : Fin d → K) (r s : Rect K d) (k : Fin d) (hc : Cont r s)
    (hs : Valid s)
    (hface : axisDist (p k) (s k) ≤ (p k - rm p r k) * (p k - rm p r k)) :
    minDist p s ≤ (∑ i, (p i - rM p r i) * (p i - rM p r i)) -
      (p k - rM p r k) * (p k - rM p r k) + (p k - rm p r k) * (p k - rm p r k) := by
  rw [minDist_eq, ← Finset.add_sum_erase _ _ (Finset.mem_univ k),
    ← Finset.add_sum_erase (f := fun i => (p i - rM p r i) * (p i - rM p r i)) _
      (Finset.mem_univ k)]
  have : ∑ x ∈ Finset.univ.erase k, axisDist (p x) (s x) ≤
      ∑ x ∈ Finset.univ.erase k, (p x - rM p r x) * (p x - rM p r x) :=
    Finset.sum_le_sum fun i _ => axisDist_le_far p r i (s i) (hc i).1 (hc i).2 (hs i)
  linarith

/-! ### Boxes are tight -/

theorem bb_tight (a b : Rect K d) (k : Fin d) :
    ((boundingBox a b k).1 = (a k).1 ∨ (boundingBox a b k).1 = (b k).1) ∧
    ((boundingBox a b k).2 = (a k).2 ∨ (boundingBox a b k).2 = (b k).2) := by
  unfold boundingBox
  refine ⟨?_, ?_⟩ <;> (dsimp only; split <;> simp)

theorem foldl_tight (rs : List (Rect K d)) (k : Fin d) : ∀ a : Rect K d,
    (∃ s ∈ a :: rs, (rs.foldl boundingBox a k).1 = (s k).1) ∧
    (∃ s ∈ a :: rs, (rs.foldl boundingBox a k).2 = (s k).2) := by
  induction rs with
  | nil => intro a; exact ⟨⟨a, by simp, rfl⟩, ⟨a, by simp, rfl⟩⟩
  | cons x xs ih =>
    intro a
    obtain ⟨⟨s, hs, h1⟩, ⟨t, ht, h2⟩⟩ := ih (boundingBox a x)
    have hb := bb_tight a x k
    refine ⟨?_, ?_⟩
    · rw [List.foldl_cons]
      rcases List.mem_cons.1 hs with rfl | hs
      · rcases hb.1 with hb | hb
        · exact ⟨a, by simp, by rw [h1, hb]⟩
        · exact ⟨x, by simp, by rw [h1, hb]⟩
      · exact ⟨s, by simp [hs], h1⟩
    · rw [List.foldl_cons]
      rcases List.mem_cons.1 ht with rfl | ht
      · rcases hb.2 with hb | hb
        · exact ⟨a, by simp, by rw [h2, hb]⟩
        · exact ⟨x, by simp, by rw [h2, hb]⟩
      · exact ⟨t, by simp [ht], h2⟩

theorem boundingBoxN_tight {rs : List (Rect K d)} {r : Rect K d} (h : boundingBoxN rs = some r)
    (k : Fin d) : (∃ s ∈ rs, (r k).1 = (s k).1) ∧ (∃ s ∈ rs, (r k).2 = (s k).2) := by
  match rs, h with
  | [x], h =>
    simp only [boundingBoxN, Option.some.injEq] at h
    subst h
    exact ⟨⟨x, by simp, rfl⟩, ⟨x, by simp, rfl⟩⟩
  | x :: y :: rs, h =>
    simp only [boundingBoxN, Option.some.injEq] at h
    subst h
    exact foldl_tight (y :: rs) k x

theorem box_tight (bounds : Obj → Rect K d) (k : Fin d) :
    ∀ (l : Nat) (n : Node K d Obj) (r : Rect K d), Wf bounds l n → BoxOf bounds r n →
    (∃ o ∈ items l n, (bounds o k).1 = (r k).1) ∧ (∃ o ∈ items l n, (bounds o k).2 = (r k).2) := by
  intro l
  induction l with
  | zero =>
    rintro n r ⟨o, rfl⟩ hb
    simp only [BoxOf] at hb
    subst hb
    exact ⟨⟨o, by simp [items], rfl⟩, ⟨o, by simp [items], rfl⟩⟩
  | succ l ih =>
    rintro n r ⟨es, rfl, hes⟩ hb
    obtain ⟨⟨s, hs, h1⟩, ⟨t, ht, h2⟩⟩ := boundingBoxN_tight hb k
    rw [List.mem_map] at hs ht
    obtain ⟨e, he, rfl⟩ := hs
    obtain ⟨f, hf, rfl⟩ := ht
    obtain ⟨⟨o, ho, h3⟩, _⟩ := ih e.2 e.1 (hes e he).1 (hes e he).2
    obtain ⟨_, ⟨o', ho', h4⟩⟩ := ih f.2 f.1 (hes f hf).1 (hes f hf).2
    refine ⟨⟨o, ?_, by rw [h3, h1]⟩, ⟨o', ?_, by rw [h4, h2]⟩⟩
    · simp only [items, Node.entries, List.mem_flatMap]; exact ⟨e, he, ho⟩
    · simp only [items, Node.entries, List.mem_flatMap]; exact ⟨f, hf, ho'⟩

/-- Below every entry there is an object within `minMaxDist`. -/
theorem exists_within (bounds : Obj → Rect K d) (hv : ∀ o, Valid (bounds o)) (p : Fin d → K)
    (l : Nat) (n : Node K d Obj) (r : Rect K d) (hw : Wf bounds l n) (hb : BoxOf bounds r n)
    (v : K) (h : minMaxDist p r = some v) : ∃ o ∈ items l n, minDist p (bounds o) ≤ v := by
  obtain ⟨k, rfl⟩ := minMaxDist_some p r v h
  obtain ⟨⟨o, ho, h1⟩, ⟨o', ho', h2⟩⟩ := box_tight bounds k l n r hw hb
  by_cases hm : p k ≤ ((r k).1 + (r k).2) / 2
  · refine ⟨o, ho, minDist_le_face p r _ k (box_cont bounds l n r hw hb o ho) (hv o) ?_⟩
    have : rm p r k = (bounds o k).1 := by simp [rm, hm, h1]
    rw [this]
    exact axisDist_le _ _ _ (le_refl _) (hv o k)
  · refine ⟨o', ho', minDist_le_face p r _ k (box_cont bounds l n r hw hb o' ho') (hv o') ?_⟩
    have : rm p r k = (bounds o' k).2 := by simp [rm, hm, h2]
    rw [this]
    exact axisDist_le _ _ _ (hv o' k) (le_refl _)

/-! ### The nearest neighbour -/

/-- What a search makes of its state when it has looked at `items`. -/
def Proc (dist : Obj → K) (its : List Obj) (st st' : Option Obj × Option K) : Prop :=
  (st' = st ∧ ∀ o ∈ its, ltTop (some (dist o)) st.2 = false) ∨
  (∃ o ∈ its, st' = (some o, some (dist o)) ∧ ltTop (some (dist o)) st.2 = true ∧
    ∀ o' ∈ its, dist o ≤ dist o')

theorem ltTop_trans {a b c : Option K} (h1 : ltTop a b = true) (h2 : ltTop b c = true) :
    ltTop a c = true := by
  match a, b, c, h1, h2 with
  | some a, some b, some c, h1, h2 =>
    simp only [ltTop, decide_eq_true_eq] at *
    exact lt_trans h1 h2
  | some a, some b, none, _, _ => rfl

theorem ltTop_false_of_le {a b : K} {c : Option K} (h1 : a ≤ b) (h2 : ltTop (some a) c = false) :
    ltTop (some b) c = false := by
  match c, h2 with
  | some c, h2 =>
    simp only [ltTop, decide_eq_false_iff_not, not_lt] at *
    exact le_trans h2 h1

theorem Proc.nil (dist : Obj → K) (st : Option Obj × Option K) : Proc dist [] st st :=
  Or.inl ⟨rfl, by simp⟩

theorem Proc.append {dist : Obj → K} {a b : List Obj} {st st1 st2 : Option Obj × Option K}
    (h1 : Proc dist a st st1) (h2 : Proc dist b st1 st2) : Proc dist (a ++ b) st st2 := by
  rcases h1 with ⟨rfl, h1⟩ | ⟨o, ho, rfl, h1, h1'⟩
  · rcases h2 with ⟨rfl, h2⟩ | ⟨o, ho, rfl, h2, h2'⟩
    · refine Or.inl ⟨rfl, ?_⟩
      intro o ho
      rcases List.mem_append.1 ho with h | h
      · exact h1 o h
      · exact h2 o h
    · refine Or.inr ⟨o, by simp [ho], rfl, h2, ?_⟩
      intro o' ho'
      rcases List.mem_append.1 ho' with h | h
      · by_contra hlt
        have hf := ltTop_false_of_le (le_of_lt (not_le.1 hlt)) (h1 o' h)
        rw [h2] at hf
        exact absurd hf (by simp)
      · exact h2' o' h
  · rcases h2 with ⟨rfl, h2⟩ | ⟨u, hu, rfl, h2, h2'⟩
    · refine Or.inr ⟨o, by simp [ho], rfl, h1, ?_⟩
      intro o' ho'
      rcases List.mem_append.1 ho' with h | h
      · exact h1' o' h
      · have := h2 o' h
        simpa [ltTop] using this
    · refine Or.inr ⟨u, by simp [hu], rfl, ltTop_trans h2 h1, ?_⟩
      intro o' ho'
      rcases List.mem_append.1 ho' with h | h
      · have : dist u < dist o := by simpa [ltTop] using h2
        exact le_trans this.le (h1' o' h)
      · exact h2' o' h

/-- Leaving out objects that are no nearer than some object kept. -/
theorem Proc.weaken {dist : Obj → K} {a b : List Obj} {st st' : Option Obj × Option K}
    (h : Proc dist a st st') (hsub : ∀ o ∈ a, o ∈ b) (hdom : ∀ o ∈ b, ∃ o' ∈ a, dist o' ≤ dist o) :
    Proc dist b st st' := by
  rcases h with ⟨rfl, h⟩ | ⟨o, ho, rfl, h, h'⟩
  · refine Or.inl ⟨rfl, ?_⟩
    intro o ho
    obtain ⟨o', ho', hle⟩ := hdom o ho
    exact ltTop_false_of_le hle (h o' ho')
  · refine Or.inr ⟨o, hsub o ho, rfl, h, ?_⟩
    intro u hu
    obtain ⟨o', ho', hle⟩ := hdom u hu
    exact le_trans (h' o' ho') hle

theorem Proc.improved {dist : Obj → K} {a : List Obj} {st st' : Option Obj × Option K}
    (h : Proc dist a st st') : (if ltTop st'.2 st.2 then st' else st) = st' := by
  rcases h with ⟨rfl, _⟩ | ⟨o, _, rfl, h, _⟩
  · simp
  · simp [h]

theorem prune_foldl (p : Fin d → K) (es : List (Entry K d Obj)) : ∀ m : Option K,
    let r := es.foldl (fun m e => if ltTop (minMaxDist p e.1) m then minMaxDist p e.1 else m) m
    r = m ∨ ∃ e ∈ es, r = minMaxDist p e.1 := by
  induction es with
  | nil => intro m; exact Or.inl rfl
  | cons x xs ih =>
    intro m
    simp only [List.foldl_cons]
    rcases ih (if ltTop (minMaxDist p x.1) m then minMaxDist p x.1 else m) with h | ⟨e, he, h⟩
    · rw [h]
      split
      · exact Or.inr ⟨x, by simp, rfl⟩
      · exact Or.inl rfl
    · exact Or.inr ⟨e, by simp [he], h⟩

/-- Whatever `pruneEntries` drops is no nearer than something it keeps. -/
theorem prune_dom (bounds : Obj → Rect K d) (hv : ∀ o, Valid (bounds o)) (p : Fin d → K) (l : Nat)
    (es : List (Entry K d Obj)) (hes : WfEs bounds l es) (o : Obj) (ho : o ∈ itemsEs l es) :
    ∃ o' ∈ itemsEs l (pruneEntries p es), minDist p (bounds o') ≤ minDist p (bounds o) := by
  unfold pruneEntries
  have hf := prune_foldl p es none
  simp only at hf
  generalize es.foldl (fun m e => if ltTop (minMaxDist p e.1) m then minMaxDist p e.1 else m)
    none = mm at hf
  have hmm := hf
  clear hf
  simp only
  rw [itemsEs, List.mem_flatMap] at ho
  obtain ⟨e, he, ho⟩ := ho
  have hle := minDist_mono p (box_cont bounds l e.2 e.1 (hes e he).1 (hes e he).2 o ho) (hv o)
  by_cases hk : ltTop mm (some (minDist p e.1)) = true
  · rcases hmm with rfl | ⟨f, hf, rfl⟩
    · simp [ltTop] at hk
    · cases hmv : minMaxDist p f.1 with
      | none => rw [hmv] at hk; simp [ltTop] at hk
      | some v =>
        rw [hmv] at hk
        simp only [ltTop, decide_eq_true_eq] at hk
        obtain ⟨o', ho', hd⟩ := exists_within bounds hv p l f.2 f.1 (hes f hf).1 (hes f hf).2 v hmv
        refine ⟨o', ?_, by linarith⟩
        rw [itemsEs, List.mem_flatMap]
        refine ⟨f, ?_, ho'⟩
        rw [List.mem_filter]
        refine ⟨hf, ?_⟩
        have := minDist_mono p (box_cont bounds l f.2 f.1 (hes f hf).1 (hes f hf).2 o' ho') (hv o')
        simp only [ltTop, Bool.not_eq_true', decide_eq_false_iff_not, not_lt]
        linarith
  · refine ⟨o, ?_, le_refl _⟩
    rw [itemsEs, List.mem_flatMap]
    refine ⟨e, ?_, ho⟩
    rw [List.mem_filter]
    exact ⟨he, by simpa using hk⟩

theorem nearestNeighbor_spec (bounds : Obj → Rect K d) (hv : ∀ o, Valid (bounds o))
    (p : Fin d → K) (sort : List (Entry K d Obj) → List (Entry K d Obj))
    (hsort : ∀ es, (sort es).Perm es) :
    ∀ (l : Nat) (n : Node K d Obj) (st : Option Obj × Option K), Wf bounds (l + 1) n →
    Proc (fun o => minDist p (bounds o)) (items (l + 1) n) st
      (nearestNeighbor p sort (l + 1) n st) := by
  intro l
  induction l with
  | zero =>
    intro n st hw
    have hes := (wf_succ.1 hw).2
    rw [nearestNeighbor, if_pos rfl, items_succ]
    generalize n.entries = es at hes
    induction es generalizing st with
    | nil => exact Proc.nil _ _
    | cons e es ih =>
      obtain ⟨⟨o, ho⟩, hb⟩ := hes e (by simp)
      have hr : e.1 = bounds o := by rw [ho] at hb; exact hb
      have hi : itemsEs 0 (e :: es) = [o] ++ itemsEs 0 es := by simp [itemsEs, ho, items]
      rw [List.foldl_cons, hi]
      refine Proc.append ?_ (ih _ (fun e he => hes e (by simp [he])))
      rw [ho, hr]
      dsimp only
      split
      · rename_i h
        exact Or.inr ⟨o, by simp, rfl, h, by simp⟩
      · rename_i h
        exact Or.inl ⟨rfl, by simpa using h⟩
  | succ l ih =>
    intro n st hw
    have hes : WfEs bounds (l + 1) (sort n.entries) := (wf_succ.1 hw).2.perm (hsort _)
    rw [nearestNeighbor, if_neg (by omega)]
    have hsub : ∀ o ∈ itemsEs (l + 1) (pruneEntries p (sort n.entries)),
        o ∈ itemsEs (l + 1) (sort n.entries) := by
      intro o ho
      rw [itemsEs, List.mem_flatMap] at ho ⊢
      obtain ⟨e, he, ho⟩ := ho
      exact ⟨e, (List.mem_filter.1 he).1, ho⟩
    have hperm := itemsEs_perm (l + 1) (hsort n.entries)
    have key : ∀ (es : List (Entry K d Obj)) (st : Option Obj × Option K), WfEs bounds (l + 1) es →
        Proc (fun o => minDist p (bounds o)) (itemsEs (l + 1) es) st
          (es.foldl (fun st e =>
            let r := nearestNeighbor p sort (l + 1) e.2 st
            if ltTop r.2 st.2 then r else st) st) := by
      intro es
      induction es with
      | nil => intro st _; exact Proc.nil _ _
      | cons e es ihes =>
        intro st hes
        have hi : itemsEs (l + 1) (e :: es) = items (l + 1) e.2 ++ itemsEs (l + 1) es := by
          simp [itemsEs]
        have h1 := ih e.2 st (hes e (by simp)).1
        rw [List.foldl_cons, hi]
        refine Proc.append h1 ?_
        simp only [h1.improved]
        exact ihes _ (fun e he => hes e (by simp [he]))
    refine Proc.weaken (a := itemsEs (l + 1) (pruneEntries p (sort n.entries))) (key _ _ ?_) ?_ ?_
    · intro e he
      exact hes e (List.mem_filter.1 he).1
    · intro o ho
      rw [items_succ]
      exact hperm.subset (hsub o ho)
    · intro o ho
      rw [items_succ] at ho
      exact prune_dom bounds hv p (l + 1) _ hes o (hperm.symm.subset ho)

end Verif.RTree
