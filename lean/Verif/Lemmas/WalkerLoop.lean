import Verif.Lemmas.WalkerTurn
import Mathlib.Data.List.Nodup
import Mathlib.Data.List.Count

/-! Helper lemmas for the walker: the loop. -/

set_option linter.unusedSectionVars false
set_option linter.unusedSimpArgs false

namespace Verif.Lemmas.Walker
open Verif.Walker Verif.Spec.Walker
open Verif.Spec.Winding (area2 cross)
open Verif.Planar (isPointOnLine)
open Verif.Winding (area2_rotate area2_cons area2_short)
open Verif.Simplify (Ctx)

/-! ## Rings whose neighbours differ -/

/-- `NeighboursDiffer` without indices. -/
def Cyc {P : Type} (l : List P) : Prop :=
  List.IsChain (· ≠ ·) l ∧ (2 ≤ l.length → l.getLast? ≠ l.head?)

theorem cyc_iff {P : Type} (l : List P) : NeighboursDiffer l ↔ Cyc l := by
  unfold NeighboursDiffer Cyc
  rw [List.isChain_iff_getElem]
  constructor
  · intro h
    refine ⟨fun i hi => ?_, fun h2 => ?_⟩
    · have := h i (by omega) (by omega)
      rw [Nat.mod_eq_of_lt hi, List.getElem?_eq_getElem hi, List.getElem?_eq_getElem (by omega)] at this
      exact fun hc => this (congrArg some hc)
    · have := h (l.length - 1) h2 (by omega)
      rw [show l.length - 1 + 1 = l.length by omega, Nat.mod_self] at this
      rwa [List.getLast?_eq_getElem?, List.head?_eq_getElem?]
  · rintro ⟨h1, h2⟩ i hl hi
    by_cases h : i + 1 < l.length
    · rw [Nat.mod_eq_of_lt h, List.getElem?_eq_getElem h, List.getElem?_eq_getElem (by omega)]
      exact fun hc => h1 i h (Option.some.inj hc)
    · have e : i = l.length - 1 := by omega
      have := h2 hl
      rw [List.getLast?_eq_getElem?, List.head?_eq_getElem?] at this
      rw [e, show l.length - 1 + 1 = l.length by omega, Nat.mod_self]
      exact this

theorem cyc_rotate {P : Type} (a b : List P) (h : Cyc (a ++ b)) : Cyc (b ++ a) := by
  rcases List.eq_nil_or_concat a with rfl | ⟨a', x, rfl⟩
  · simpa using h
  rcases List.eq_nil_or_concat b with rfl | ⟨b', y, rfl⟩
  · simpa using h
  obtain ⟨h1, h2⟩ := h
  rw [List.concat_eq_append, List.concat_eq_append] at *
  rw [List.isChain_append] at h1
  obtain ⟨ha, hb, hab⟩ := h1
  refine ⟨?_, ?_⟩
  · rw [List.isChain_append]
    refine ⟨hb, ha, ?_⟩
    intro u hu v hv huv
    apply h2 (by simp; omega)
    rw [List.getLast?_append, List.head?_append]
    simp only [Option.mem_def] at hu hv
    rw [hu, hv, huv]; rfl
  · intro _ hc
    rw [List.getLast?_append, List.head?_append] at hc
    cases hh : (b' ++ [y]).head? with
    | none => simp at hh
    | some z =>
      refine hab x (by simp) z hh ?_
      rw [hh] at hc
      simpa using hc

/-! ## The loop -/

section loop
variable {K : Type} [Field K] [LinearOrder K]

theorem turns_ind (feq : K → K → Bool) (ctx : Ctx) (I Q : PSt K → Prop) (B : Prop) (μ : PSt K → Nat)
    (hstep : ∀ s p, I s → s.rng[s.i]? = some p →
      match turn feq s p with
      | .panic => B
      | .stop s' => Q s'
      | .next s' => I s' ∧ μ s' < μ s)
    (hend : ∀ s, I s → s.rng.length ≤ s.i → Q s) :
    ∀ f n s, I s → μ s < f → (turns feq ctx f n s = .panic ∧ B) ∨
      (turns feq ctx f n s = .nil ∧ ∃ k, ctx k = true) ∨
      ∃ s', Q s' ∧ turns feq ctx f n s = finish s' := by
  intro f
  induction f with
  | zero => intro n s _ h; omega
  | succ f ih =>
    intro n s hI hμ
    unfold turns
    cases hp : s.rng[s.i]? with
    | none => exact Or.inr (Or.inr ⟨s, hend s hI (by simpa using hp), rfl⟩)
    | some p =>
      simp only
      by_cases hc : ctx n = true
      · rw [if_pos hc]; exact Or.inr (Or.inl ⟨rfl, n, hc⟩)
      · rw [if_neg hc]
        have := hstep s p hI hp
        cases ht : turn feq s p with
        | panic => rw [ht] at this; exact Or.inl ⟨rfl, this⟩
        | stop s' => rw [ht] at this; exact Or.inr (Or.inr ⟨s', this, rfl⟩)
        | next s' =>
          rw [ht] at this
          exact ih (n + 1) s' this.1 (by have := this.2; omega)

end loop

variable {K : Type} [Field K] [LinearOrder K] [IsStrictOrderedRing K]

/-- The index says where points are. -/
def IndexOk (s : PSt K) : Prop := ∀ e ∈ s.index, e.2 < s.i ∧ s.rng[e.2]? = some e.1

/-- What a found point means. -/
theorem found_split {s : PSt K} (hI : IndexOk s) {p : Pt K} (hp : s.rng[s.i]? = some p) {q : Pt K} {idx : Nat}
    (hf : s.index.find? (fun e => decide (e.1 = p)) = some (q, idx)) :
    ∃ A X C, s.rng = A ++ p :: (X ++ p :: C) ∧ s.i = A.length + X.length + 1 ∧ idx = A.length := by
  have hq : q = p := by simpa using List.find?_some hf
  subst hq
  obtain ⟨h1, h2⟩ := hI _ (List.mem_of_find?_eq_some hf)
  simp only at h1 h2
  have hil : s.i < s.rng.length := (List.getElem?_eq_some_iff.1 hp).1
  obtain ⟨a, b, c, hr, ha, hb⟩ := split3 s.rng (s := idx) (e := s.i) (by omega) (by omega)
  rw [hr, List.append_assoc, List.getElem?_append_right (by omega), ha, Nat.sub_self] at h2
  rw [hr, List.getElem?_append_right (by simp; omega)] at hp
  have : s.i - (a ++ b).length = 0 := by simp; omega
  rw [this] at hp
  rcases b with _ | ⟨b0, X⟩
  · simp at hb; omega
  rcases c with _ | ⟨c0, C⟩
  · simp at hp
  simp only [List.cons_append, List.getElem?_cons_zero, Option.some.injEq] at h2 hp
  subst h2
  have hc : c0 = b0 := hp
  subst hc
  exact ⟨a, X, C, by rw [hr]; simp, by rw [← hb]; simp; omega, ha.symm⟩

/-- A turn that finds nothing. -/
theorem turn_new {s : PSt K} {p : Pt K} (feq : K → K → Bool)
    (hf : s.index.find? (fun e => decide (e.1 = p)) = none) :
    turn feq s p = .next { s with index := (p, s.i) :: s.index, i := s.i + 1 } := by
  unfold turn; rw [hf]

/-- Index entries that survive lie before the bubble. -/
theorem index_keep {s : PSt K} (hI : IndexOk s) {A X C : List (Pt K)} {p : Pt K}
    (hr : s.rng = A ++ p :: (X ++ p :: C)) (hi : s.i = A.length + X.length + 1)
    {e : Pt K × Nat} (he : e ∈ s.index.filter (fun e => decide (e.1 ∉ p :: X ++ [p]))) :
    e.2 < A.length ∧ A[e.2]? = some e.1 := by
  rw [List.mem_filter] at he
  obtain ⟨he, hn⟩ := he
  obtain ⟨h1, h2⟩ := hI e he
  rw [hr] at h2
  by_cases h : e.2 < A.length
  · rw [List.getElem?_append_left h] at h2
    exact ⟨h, h2⟩
  · exfalso
    rw [List.getElem?_append_right (by omega), show p :: (X ++ p :: C) = (p :: X) ++ (p :: C) by simp,
      List.getElem?_append_left (by simp; omega)] at h2
    have := List.mem_of_getElem? h2
    simp only [decide_eq_true_eq] at hn
    exact hn (List.mem_append_left _ this)

/-- What holds in every turn: `V` is the ring given. -/
structure Inv (V : List (Pt K)) (s : PSt K) : Prop where
  idx : IndexOk s
  area : area2 s.rng + (s.holes.map area2).sum = area2 V
  three : ∀ h ∈ s.holes, 3 ≤ h.length
  mem : ∀ x ∈ s.rng, x ∈ V
  hmem : ∀ h ∈ s.holes, ∀ x ∈ h, x ∈ V
  cyc : Cyc V → Cyc s.rng
  left : ∀ h ∈ s.holes, ∃ l, h = rotateLeftMost l

theorem mem_rot (l : List (Pt K)) (x : Pt K) : x ∈ rotateLeftMost l ↔ x ∈ l := by
  unfold rotateLeftMost
  rw [List.mem_append, or_comm, ← List.mem_append, List.take_append_drop]

theorem length_rot (l : List (Pt K)) : (rotateLeftMost l).length = l.length := by
  unfold rotateLeftMost
  rw [List.length_append, Nat.add_comm, ← List.length_append, List.take_append_drop]

theorem addRing_mem (holes : List (List (Pt K))) (sl h : List (Pt K)) (hh : h ∈ addRing holes sl) :
    h ∈ holes ∨ (3 ≤ sl.length ∧ h = rotateLeftMost sl) := by
  unfold addRing at hh
  split at hh
  · rename_i h3
    rcases List.mem_append.1 hh with hh | hh
    · exact Or.inl hh
    · exact Or.inr ⟨h3, List.mem_singleton.1 hh⟩
  · exact Or.inl hh

/-- A bubble `ab…ba` taken out of the ring. -/
theorem type1_facts {A X C : List (Pt K)} {p a : Pt K} {rest : List (Pt K)} (h : Type1 A C a rest) :
    area2 (A ++ p :: (X ++ p :: C)) = area2 rest + area2 (X ++ [p]) ∧
    (∀ x ∈ rest, x ∈ A ++ C) ∧
    (Cyc (A ++ p :: (X ++ p :: C)) → Cyc rest) ∧
    2 * rest.length - ((A.length - 1) + 1)
      < 2 * (A ++ p :: (X ++ p :: C)).length - (A.length + X.length + 1) := by
  have key : ∀ (D : List (Pt K)), area2 (a :: p :: (X ++ p :: a :: D)) = area2 (a :: D) + area2 (X ++ [p]) := by
    intro D
    have e1 : area2 (a :: p :: (X ++ p :: a :: D)) = area2 (p :: X ++ p :: (a :: D ++ [a])) := by
      have := area2_rotate [a] (p :: (X ++ p :: a :: D))
      rw [List.singleton_append] at this
      rw [← this]; congr 1; simp
    rw [e1, area_split]
    have e2 : area2 (p :: (a :: D ++ [a])) = area2 (a :: D) := by
      have := area2_rotate [p] (a :: D ++ [a])
      rw [List.singleton_append] at this
      rw [← this, show a :: D ++ [a] ++ [p] = (a :: D) ++ a :: [p] by simp, area_split,
        area2_short [a, p] (by simp), add_zero]
    rw [e2, add_comm]
    congr 1
    have := area2_rotate [p] X
    simpa using this.symm
  rcases h with ⟨A', C', rfl, rfl, rfl⟩ | ⟨C', rfl, rfl, rfl⟩ | ⟨A', rfl, rfl, rfl⟩
  · refine ⟨?_, by simp, ?_, by simp; omega⟩
    · rw [show A' ++ [a] ++ p :: (X ++ p :: a :: C') = A' ++ (a :: p :: (X ++ p :: a :: C')) by simp,
        ← area2_rotate A', ← area2_rotate A',
        show a :: p :: (X ++ p :: a :: C') ++ A' = a :: p :: (X ++ p :: a :: (C' ++ A')) by simp, key]
      simp
    · rintro ⟨h1, h2⟩
      refine ⟨?_, ?_⟩
      · rw [List.append_assoc, List.isChain_append] at h1
        obtain ⟨ha, hb, hab⟩ := h1
        rw [List.isChain_append]
        refine ⟨ha, ?_, ?_⟩
        · rw [show [a] ++ p :: (X ++ p :: a :: C') = (a :: p :: (X ++ [p])) ++ (a :: C') by simp,
            List.isChain_append] at hb
          exact hb.2.1
        · simpa using hab
      · intro hl hc
        apply h2 (by simp; omega)
        rw [show A' ++ [a] ++ p :: (X ++ p :: a :: C') = A' ++ (a :: p :: (X ++ [p])) ++ (a :: C') by simp,
          List.getLast?_append, List.head?_append, List.head?_append]
        rw [List.getLast?_append, List.head?_append] at hc
        cases hl1 : (a :: C').getLast? with
        | none => simp at hl1
        | some z =>
          rw [hl1] at hc
          cases hh : A'.head? with
          | none => rw [hh] at hc; simpa using hc
          | some w => rw [hh] at hc; simpa using hc
  · refine ⟨?_, by simp; tauto, ?_, by simp; omega⟩
    · rw [List.nil_append, show p :: (X ++ p :: (a :: C' ++ [a])) = (p :: (X ++ p :: a :: C')) ++ [a] by simp,
        area2_rotate]
      exact key C'
    · rintro ⟨h1, h2⟩
      rw [show ([] : List (Pt K)) ++ p :: (X ++ p :: (a :: C' ++ [a])) = (p :: (X ++ [p])) ++ ((a :: C') ++ [a]) by simp,
        List.isChain_append] at h1
      have h3 := h1.2.1
      rw [List.isChain_append] at h3
      refine ⟨h3.1, ?_⟩
      intro _ hc
      rw [List.head?_cons] at hc
      exact h3.2.2 a hc a (by simp) rfl
  · refine ⟨?_, by intro x hx; simp at hx ⊢; tauto, ?_, by simp; omega⟩
    · rw [show a :: A' ++ [a] ++ p :: (X ++ p :: []) = (a :: A') ++ (a :: p :: (X ++ [p])) by simp, area2_rotate,
        show a :: p :: (X ++ [p]) ++ a :: A' = a :: p :: (X ++ p :: a :: A') by simp]
      exact key A'
    · rintro ⟨h1, h2⟩
      rw [List.append_assoc, List.isChain_append] at h1
      refine ⟨h1.1, ?_⟩
      intro _ hc
      rw [List.head?_cons] at hc
      exact h1.2.2 a hc a (by simp) rfl

theorem pred_succ_area {A C : List (Pt K)} {a c p : Pt K} (hp : Pred A C a) (hs : Succ A C c)
    (hac : a ≠ c ∨ A ++ C = [a]) (hl : isPointOnLine feqx p a c = true) :
    area2 (A ++ p :: C) = area2 (A ++ C) := by
  by_cases h1 : A ++ C = [a]
  · rw [area2_short (A ++ C) (by rw [h1]; simp), area2_short]
    have := congrArg List.length h1
    simp at this ⊢; omega
  · have hne : a ≠ c := hac.resolve_right h1
    have ha := online_area a p c hne hl
    have e1 : area2 (A ++ p :: C) = area2 (p :: C ++ A) := area2_rotate _ _
    have e2 : area2 (A ++ C) = area2 (C ++ A) := area2_rotate _ _
    rw [e1, e2]
    have hhead : (C ++ A).head? = some c := by rw [List.head?_append]; exact hs
    have hlast : (C ++ A).getLast? = some a := by rw [List.getLast?_append]; exact hp
    rw [List.cons_append]
    generalize C ++ A = L at hhead hlast
    rcases List.eq_nil_or_concat L with rfl | ⟨L', z, rfl⟩
    · simp at hhead
    rw [List.concat_eq_append] at *
    have hz : z = a := by simpa using hlast
    subst hz
    rcases L' with _ | ⟨w, L''⟩
    · exfalso; apply hne; simpa using hhead
    have hw : w = c := by simpa using hhead
    subst hw
    rw [show p :: (w :: L'' ++ [z]) = (p :: w :: L'') ++ [z] by simp, area2_rotate [z], area2_rotate [z]]
    exact area_drop z p w L'' ha

theorem pred_succ_cyc {A X C : List (Pt K)} {a c p : Pt K} (hp : Pred A C a) (hs : Succ A C c)
    (hac : a ≠ c ∨ A ++ C = [a]) (h : Cyc (A ++ p :: (X ++ p :: C))) :
    Cyc (A ++ C) ∧ Cyc (A ++ p :: C) := by
  -- round from the bubble
  have h' : Cyc (p :: (X ++ [p]) ++ (C ++ A)) := by
    have := cyc_rotate A (p :: (X ++ p :: C)) h
    simpa using this
  have hhead : (C ++ A).head? = some c := by rw [List.head?_append]; exact hs
  have hlast : (C ++ A).getLast? = some a := by rw [List.getLast?_append]; exact hp
  have h1 : Cyc (C ++ A) := by
    rw [Cyc, List.isChain_append] at h'
    refine ⟨h'.1.2.1, fun hl hc => ?_⟩
    rw [hhead, hlast] at hc
    rcases hac with hac | hac
    · exact hac (Option.some.inj hc)
    · have := congrArg List.length hac
      simp at this hl; omega
  refine ⟨cyc_rotate C A h1, ?_⟩
  apply cyc_rotate (p :: C) A
  rw [List.cons_append]
  generalize C ++ A = L at *
  rw [Cyc] at h'
  obtain ⟨h2, h3⟩ := h'
  rw [show p :: (X ++ [p]) ++ L = (p :: X) ++ (p :: L) by simp, List.isChain_append] at h2
  refine ⟨h2.2.1, ?_⟩
  intro hl hc
  apply h3 (by simp; omega)
  rw [List.getLast?_append, hlast]
  rw [List.getLast?_cons, hlast] at hc
  simpa using hc

theorem inv_step (V : List (Pt K)) (s : PSt K) (p : Pt K) (hI : Inv V s) (hp : s.rng[s.i]? = some p) :
    match turn feqx s p with
    | .panic => ¬ Cyc V
    | .stop s' => Inv V s'
    | .next s' => Inv V s' ∧ 2 * s'.rng.length - s'.i < 2 * s.rng.length - s.i := by
  cases hf : s.index.find? (fun e => decide (e.1 = p)) with
  | none =>
    rw [turn_new feqx hf]
    have hil : s.i < s.rng.length := (List.getElem?_eq_some_iff.1 hp).1
    refine ⟨⟨?_, hI.area, hI.three, hI.mem, hI.hmem, hI.cyc, hI.left⟩, by simp only; omega⟩
    intro e he
    rcases List.mem_cons.1 he with rfl | he
    · exact ⟨by simp, hp⟩
    · have := hI.idx e he
      exact ⟨by simp only; omega, this.2⟩
  | some e =>
    obtain ⟨q, idx⟩ := e
    obtain ⟨A, X, C, hr, hi, rfl⟩ := found_split hI.idx hp hf
    have hmem : ∀ x ∈ A ++ p :: (X ++ p :: C), x ∈ V := hr ▸ hI.mem
    rcases turn_found s A X C p q hr hi hf with ⟨rfl, rfl, ht⟩ | ⟨a, rest, h1, ht⟩ | ⟨a, c, sl, hpr, hsu, hac, hsl, ht⟩
    · rw [ht]
      intro hc
      have := (hI.cyc hc).2
      rw [hr, List.nil_append, List.head?_cons, ← List.cons_append, List.getLast?_append] at this
      simp at this
    · rw [ht]
      obtain ⟨f1, f2, f3, f4⟩ := type1_facts (p := p) (X := X) h1
      refine ⟨⟨?_, ?_, ?_, ?_, ?_, ?_, ?_⟩, ?_⟩
      · intro e he
        simp only at he ⊢
        rw [List.mem_filter] at he
        obtain ⟨he, hea⟩ := he
        obtain ⟨g1, g2⟩ := index_keep hI.idx hr hi he
        simp only [decide_eq_true_eq] at hea
        rcases h1 with ⟨A', C', rfl, rfl, rfl⟩ | ⟨C', rfl, rfl, rfl⟩ | ⟨A', rfl, rfl, rfl⟩
        · have g3 : e.2 < A'.length := by
            by_contra hge
            rw [List.getElem?_append_right (by omega)] at g2
            have : e.1 = a := by simpa using List.mem_of_getElem? g2
            exact hea this
          rw [List.getElem?_append_left g3] at g2
          exact ⟨by simp; omega, by rw [List.getElem?_append_left g3]; exact g2⟩
        · simp at g1
        · have g3 : e.2 < (a :: A').length := by
            by_contra hge
            rw [List.getElem?_append_right (by omega)] at g2
            have : e.1 = a := by simpa using List.mem_of_getElem? g2
            exact hea this
          rw [List.getElem?_append_left g3] at g2
          exact ⟨by simp at g3 ⊢; omega, g2⟩
      · rw [addRing_area _ _ (X ++ [p]) rot_area rfl, ← hI.area, hr, f1]; ring
      · intro h hh
        rcases addRing_mem _ _ _ hh with hh | ⟨hh3, rfl⟩
        · exact hI.three h hh
        · rw [length_rot]; exact hh3
      · intro x hx
        apply hmem
        have := f2 x hx
        simp only [List.mem_append, List.mem_cons] at this ⊢
        tauto
      · intro h hh x hx
        rcases addRing_mem _ _ _ hh with hh | ⟨hh3, rfl⟩
        · exact hI.hmem h hh x hx
        · rw [mem_rot] at hx
          apply hmem
          simp only [List.mem_append, List.mem_cons, List.not_mem_nil, or_false] at hx ⊢
          tauto
      · intro hc
        have := hI.cyc hc
        rw [hr] at this
        exact f3 this
      · intro h hh
        rcases addRing_mem _ _ _ hh with hh | ⟨hh3, rfl⟩
        · exact hI.left h hh
        · exact ⟨_, rfl⟩
      · rw [hr, hi]; exact f4
    · obtain ⟨sl', hsl', harea, hsub⟩ := removeBridge_spec (p :: X) (by simp)
      rw [hsl'] at hsl
      have hss : sl' = sl := Option.some.inj hsl
      subst hss
      have hidx : ∀ rng i, (∀ j x, j < A.length → A[j]? = some x → rng[j]? = some x) → A.length ≤ i →
          IndexOk ({ rng := rng, index := s.index.filter (fun e => decide (e.1 ∉ p :: X ++ [p])), i := i,
                     holes := addRing s.holes sl' } : PSt K) := by
        intro rng i h1 h2 e he
        obtain ⟨g1, g2⟩ := index_keep hI.idx hr hi he
        exact ⟨by simp only; omega, h1 _ _ g1 g2⟩
      have hthree : ∀ h ∈ addRing s.holes sl', 3 ≤ h.length := by
        intro h hh
        rcases addRing_mem _ _ _ hh with hh | ⟨hh3, rfl⟩
        · exact hI.three h hh
        · rw [length_rot]; exact hh3
      have hhm : ∀ h ∈ addRing s.holes sl', ∀ x ∈ h, x ∈ V := by
        intro h hh x hx
        rcases addRing_mem _ _ _ hh with hh | ⟨hh3, rfl⟩
        · exact hI.hmem h hh x hx
        · rw [mem_rot] at hx
          apply hmem
          have := hsub.subset hx
          simp only [List.mem_append, List.mem_cons] at this ⊢
          tauto
      have hleft : ∀ h ∈ addRing s.holes sl', ∃ l, h = rotateLeftMost l := by
        intro h hh
        rcases addRing_mem _ _ _ hh with hh | ⟨hh3, rfl⟩
        · exact hI.left h hh
        · exact ⟨_, rfl⟩
      have hareaB : area2 (A ++ p :: C) + ((addRing s.holes sl').map area2).sum = area2 V := by
        rw [addRing_area _ _ (p :: X) rot_area harea, ← hI.area, hr]
        have e1 : area2 (A ++ p :: (X ++ p :: C)) = area2 (p :: X) + area2 (A ++ p :: C) := by
          rw [← area2_rotate A, show p :: (X ++ p :: C) ++ A = p :: X ++ p :: (C ++ A) by simp, area_split,
            ← List.cons_append, area2_rotate (p :: C) A]
        rw [e1]; ring
      have hcut : isPointOnLine feqx p a c = true → ∀ i, A.length ≤ i →
          Inv V ({ rng := A ++ C, index := s.index.filter (fun e => decide (e.1 ∉ p :: X ++ [p])), i := i,
                   holes := addRing s.holes sl' } : PSt K) := by
        intro hl i hi'
        refine ⟨hidx _ _ ?_ hi', ?_, hthree, ?_, hhm, ?_, hleft⟩
        · intro j x hj hx; rw [List.getElem?_append_left hj]; exact hx
        · simp only; rw [← pred_succ_area hpr hsu hac hl]; exact hareaB
        · intro x hx
          apply hmem
          simp only [List.mem_append, List.mem_cons] at hx ⊢
          tauto
        · intro hc
          have := hI.cyc hc
          rw [hr] at this
          exact (pred_succ_cyc hpr hsu hac this).1
      rw [ht]
      by_cases hl : isPointOnLine feqx p a c = true
      · rw [if_pos hl]
        by_cases hA : A = []
        · rw [if_pos hA]; exact hcut hl _ le_rfl
        · rw [if_neg hA]
          refine ⟨hcut hl _ le_rfl, ?_⟩
          rw [hr, hi]; simp; omega
      · rw [if_neg hl]
        refine ⟨⟨hidx _ _ ?_ (by omega), hareaB, hthree, ?_, hhm, ?_, hleft⟩, ?_⟩
        · intro j x hj hx; rw [List.getElem?_append_left hj]; exact hx
        · intro x hx
          apply hmem
          simp only [List.mem_append, List.mem_cons] at hx ⊢
          tauto
        · intro hc
          have := hI.cyc hc
          rw [hr] at this
          exact (pred_succ_cyc hpr hsu hac this).2
        · rw [hr, hi]; simp; omega

theorem rot_cyc (l : List (Pt K)) (h : Cyc l) : Cyc (rotateLeftMost l) := by
  unfold rotateLeftMost
  apply cyc_rotate
  rwa [List.take_append_drop]

/-- The whole function. -/
theorem polygonForRing_all (ctx : Ctx) (V : List (Pt K)) :
    (polygonForRing feqx ctx V = .panic ∧ ¬ Cyc V) ∨ polygonForRing feqx ctx V = .nil ∨
      ∃ s, Inv V s ∧ 3 ≤ s.rng.length ∧
        polygonForRing feqx ctx V = .poly (rotateLeftMost s.rng :: s.holes) := by
  unfold polygonForRing
  by_cases h : V.length ≤ 2
  · rw [if_pos h]; exact Or.inr (Or.inl rfl)
  · rw [if_neg h]
    have hI : Inv V { rng := rotateLeftMost V, index := [], i := 0, holes := [] } :=
      ⟨by intro e he; simp at he, by simp [rot_area], by simp, fun x hx => (mem_rot V x).1 hx, by simp,
        rot_cyc V, by simp⟩
    rcases turns_ind feqx ctx (Inv V) (Inv V) (¬ Cyc V) (fun s => 2 * s.rng.length - s.i)
      (inv_step V) (fun s h _ => h) (2 * V.length + 1) 0 _ hI (by simp [length_rot]) with h1 | h1 | ⟨s, hs, h1⟩
    · exact Or.inl h1
    · exact Or.inr (Or.inl h1.1)
    · rw [h1]
      unfold finish
      by_cases h2 : s.rng.length ≤ 2
      · rw [if_pos h2]; exact Or.inr (Or.inl rfl)
      · rw [if_neg h2]; exact Or.inr (Or.inr ⟨s, hs, by omega, rfl⟩)

end Verif.Lemmas.Walker
