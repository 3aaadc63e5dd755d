import Verif.Lemmas.Extent
import Verif.Model.Traverse
import Verif.Spec.Traverse

namespace Verif.Geom
open Verif Verif.Spec.Extent Verif.Spec.Traverse

theorem lineSegs_eq {α : Type} (v : List (Pt α)) : lineSegs v = pathEdges v := by
  induction v with
  | nil => rfl
  | cons a t ih =>
    cases t with
    | nil => rfl
    | cons b t => rw [lineSegs, ih]; rfl

theorem pathEdges_concat {β : Type} (v : List β) (l x : β) (h : v.getLast? = some l) :
    pathEdges (v ++ [x]) = pathEdges v ++ [(l, x)] := by
  induction v with
  | nil => simp at h
  | cons a t ih =>
    cases t with
    | nil => simp at h; subst h; rfl
    | cons b t =>
      have h' : (b :: t).getLast? = some l := by simpa using h
      have := ih h'
      simp only [pathEdges, List.cons_append, List.tail_cons, List.zip_cons_cons] at this ⊢
      rw [this]

theorem ringSegs_eq (r : List (Pt F64)) : ringSegs r = pathEdges (closed r) := by
  unfold ringSegs
  match r with
  | [] => rfl
  | [a] => rfl
  | [a, b] => simp [lineSegs_eq, closed]
  | a :: b :: c :: t =>
    have hl : (a :: b :: c :: t).getLast? = some ((c :: t).getLast (by simp)) := by
      simp [List.getLast?_eq_some_getLast]
    have hr : isRing (a :: b :: c :: t) = samePt a ((c :: t).getLast (by simp)) := by
      simp only [isRing, List.head?_cons, hl, samePt]
      simp
    simp only [hl, List.head?_cons, hr, lineSegs_eq]
    simp only [closed]
    cases h : samePt a ((c :: t).getLast (by simp)) with
    | true => simp
    | false =>
      simp only [Bool.false_eq_true, if_false]
      rw [pathEdges_concat _ _ _ hl]
      simp

theorem extract_known (g : Geom F64) : known g = true → g.extract = (edgesOf g, false) := by
  induction g using Geom.induct with
  | collection gs ih =>
    have key : ∀ gs : List (Geom F64), (∀ g ∈ gs, known g = true → g.extract = (edgesOf g, false)) →
        knownAll gs = true → Geom.extractAll gs = (edgesOfAll gs, false) := by
      intro gs
      induction gs with
      | nil => intro _ _; rfl
      | cons g gs ihg =>
        intro h hk
        rw [knownAll, Bool.and_eq_true] at hk
        rw [Geom.extractAll, h g (by simp) hk.1]
        simp [ihg (fun g' h' => h g' (by simp [h'])) hk.2, edgesOfAll]
    intro hk
    rw [known] at hk
    rw [Geom.extract, key gs ih hk, edgesOf]
  | other => intro h; simp [known] at h
  | point p => intro _; rfl
  | multiPoint p => intro _; rfl
  | lineString v => intro _; simp [extract, edgesOf, lineSegs_eq]
  | multiLineString v =>
    intro _; simp [extract, edgesOf, List.flatMap_def, funext (lineSegs_eq (α := F64))]
  | polygon v => intro _; simp [extract, edgesOf, List.flatMap_def, funext ringSegs_eq]
  | multiPolygon ps =>
    intro _
    simp only [extract, edgesOf, List.flatMap_def, funext ringSegs_eq, Prod.mk.injEq, and_true]
    induction ps with
    | nil => rfl
    | cons p ps ih => rw [List.map_cons, List.flatten_cons, ih rfl]; simp

theorem extract_err (g : Geom F64) : g.extract.2 = !known g := by
  induction g using Geom.induct with
  | collection gs ih =>
    have key : ∀ gs : List (Geom F64), (∀ g ∈ gs, g.extract.2 = !known g) →
        (Geom.extractAll gs).2 = !knownAll gs := by
      intro gs
      induction gs with
      | nil => intro _; rfl
      | cons g gs ihg =>
        intro h
        have h0 := h g (by simp)
        have h1 := ihg (fun g' h' => h g' (by simp [h']))
        rw [Geom.extractAll]
        split
        · rename_i hc; rw [hc] at h0; simp at h0; simp [knownAll, h0]
        · rename_i hc; rw [hc] at h0; simp at h0; simp [knownAll, h0, h1]
    rw [Geom.extract, key gs ih, known]
  | _ => rfl

theorem connected_pathEdges {β : Type} (v : List β) : Connected (pathEdges v) := by
  intro i h
  simp only [pathEdges, List.getElem_zip, List.getElem_tail]

theorem ringLoop_eq {α : Type} (prev : Pt α) (r : List (Pt α)) :
    ringLoop prev r = pathEdges (prev :: r) := by
  induction r generalizing prev with
  | nil => rfl
  | cons a t ih => rw [ringLoop, ih]; rfl

theorem lsSegments_eq {α : Type} (v : List (Pt α)) (h : v.length ≠ 1) :
    lsSegments v = some (pathEdges v) := by
  match v with
  | [] => rfl
  | [a] => simp at h
  | [a, b] => rfl
  | a :: b :: c :: t => rw [lsSegments, lineSegs_eq] <;> simp

/-! ## applyList -/

/-- Running a stateful step over a list, stopping at the first failure. -/
theorem applyList_append {σ β : Type} (g : σ → β → Option β × σ) (a b : List β) (s : σ) :
    applyList g s (a ++ b) =
      match applyList g s a with
      | (none, s') => (none, s')
      | (some ys, s') =>
        match applyList g s' b with
        | (none, s'') => (none, s'')
        | (some zs, s'') => (some (ys ++ zs), s'') := by
  induction a generalizing s with
  | nil =>
    simp only [List.nil_append, applyList]
    rcases applyList g s b with ⟨_ | y, s'⟩ <;> rfl
  | cons x a ih =>
    simp only [List.cons_append, applyList]
    rcases g s x with ⟨_ | y, s'⟩
    · rfl
    · simp only [ih]
      rcases applyList g s' a with ⟨_ | ys, s1⟩
      · rfl
      · simp only []
        rcases applyList g s1 b with ⟨_ | zs, s2⟩ <;> rfl

theorem applyList_flatten {σ β : Type} (g : σ → β → Option β × σ) (ls : List (List β)) (s : σ) :
    applyList g s ls.flatten =
    ((applyList (applyList g) s ls).1.map List.flatten, (applyList (applyList g) s ls).2) := by
  induction ls generalizing s with
  | nil => rfl
  | cons l ls ih =>
    rw [List.flatten_cons, applyList_append]
    simp only [applyList]
    rcases applyList g s l with ⟨_ | y, s'⟩
    · rfl
    · simp only [ih]
      rcases applyList (applyList g) s' ls with ⟨_ | y, s'⟩ <;> rfl

theorem applyList_map {σ β : Type} (g : σ → β → Option β × σ) (h : β → β)
    (hg : ∀ s x, (g s x).1 = some (h x)) (xs : List β) (s : σ) :
    (applyList g s xs).1 = some (xs.map h) := by
  induction xs generalizing s with
  | nil => rfl
  | cons x xs ih =>
    have h0 := hg s x
    rw [applyList]
    rcases hgx : g s x with ⟨_ | y, s'⟩
    · simp [hgx] at h0
    · rw [hgx] at h0
      simp only [Option.some.injEq] at h0
      have := ih s'
      simp only []
      rcases hr : applyList g s' xs with ⟨_ | ys, s''⟩
      · simp [hr] at this
      · rw [hr] at this
        simp only [Option.some.injEq] at this
        simp [h0, this]

/-- What the step preserves is preserved elementwise. -/
theorem applyList_shape {σ β γ : Type} (g : σ → β → Option β × σ) (k : β → γ)
    (hg : ∀ s x y s', g s x = (some y, s') → k x = k y) (xs : List β) (s : σ) (ys s')
    (h : applyList g s xs = (some ys, s')) : xs.map k = ys.map k := by
  induction xs generalizing s ys s' with
  | nil =>
    simp only [applyList, Prod.mk.injEq, Option.some.injEq] at h
    obtain ⟨rfl, _⟩ := h
    rfl
  | cons x xs ih =>
    rw [applyList] at h
    rcases hgx : g s x with ⟨_ | y, s1⟩
    · simp [hgx] at h
    · rw [hgx] at h
      simp only [] at h
      rcases hr : applyList g s1 xs with ⟨_ | zs, s2⟩
      · simp [hr] at h
      · rw [hr] at h
        simp only [Prod.mk.injEq, Option.some.injEq] at h
        obtain ⟨rfl, _⟩ := h
        rw [List.map_cons, List.map_cons, hg _ _ _ _ hgx, ih _ _ _ hr]

end Verif.Geom
