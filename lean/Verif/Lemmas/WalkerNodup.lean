import Verif.Lemmas.WalkerLoop

/-! Helper lemmas for the walker: rings without repeated points, and where rings begin. -/

set_option linter.unusedSectionVars false
set_option linter.unusedSimpArgs false

namespace Verif.Lemmas.Walker
open Verif.Walker Verif.Spec.Walker
open Verif.Planar (isPointOnLine)
open Verif.Simplify (Ctx)

variable {K : Type} [Field K] [LinearOrder K] [IsStrictOrderedRing K]

/-! ## The leftmost point -/

theorem xyLess_iff (p q : Pt K) : xyLess p q = true ↔ p.1 < q.1 ∨ (p.1 = q.1 ∧ p.2 < q.2) := by
  unfold xyLess
  split
  · rename_i h; simp [h]
  · rename_i h; simp at h; simp [h]

/-- At least as far left. -/
def XyLe (p q : Pt K) : Prop := q = p ∨ p.1 < q.1 ∨ (p.1 = q.1 ∧ p.2 < q.2)

theorem xyLe_of_not {p q : Pt K} (h : xyLess p q ≠ true) : XyLe q p := by
  rw [Ne, xyLess_iff, not_or, not_and] at h
  obtain ⟨h1, h2⟩ := h
  rcases lt_or_eq_of_le (not_lt.1 h1) with h3 | h3
  · exact Or.inr (Or.inl h3)
  · rcases lt_or_eq_of_le (not_lt.1 (h2 h3.symm)) with h4 | h4
    · exact Or.inr (Or.inr ⟨h3, h4⟩)
    · exact Or.inl (Prod.ext h3.symm h4.symm)

theorem xyLe_trans {p q r : Pt K} (h1 : XyLe p q) (h2 : XyLe q r) : XyLe p r := by
  rcases h1 with rfl | h1
  · exact h2
  rcases h2 with rfl | h2
  · exact Or.inr h1
  refine Or.inr ?_
  rcases h1 with h1 | ⟨h1, h1'⟩ <;> rcases h2 with h2 | ⟨h2, h2'⟩
  · exact Or.inl (h1.trans h2)
  · exact Or.inl (h2 ▸ h1)
  · exact Or.inl (h1 ▸ h2)
  · exact Or.inr ⟨h1.trans h2, h1'.trans h2'⟩

theorem minLoop_spec (ps : List (Pt K)) : ∀ (pre : List (Pt K)) (min : Nat) (m : Pt K),
    pre[min]? = some m → (∀ q ∈ pre, XyLe m q) →
    ∃ m', (pre ++ ps)[minLoop pre.length min m ps]? = some m' ∧ ∀ q ∈ pre ++ ps, XyLe m' q := by
  induction ps with
  | nil => intro pre min m h1 h2; exact ⟨m, by simpa [minLoop] using h1, by simpa using h2⟩
  | cons p ps ih =>
    intro pre min m h1 h2
    unfold minLoop
    by_cases h : xyLess p m = true
    · rw [if_pos h]
      have := ih (pre ++ [p]) pre.length p (by simp) (by
        intro q hq
        rcases List.mem_append.1 hq with hq | hq
        · exact xyLe_trans (Or.inr ((xyLess_iff _ _).1 h)) (h2 q hq)
        · exact Or.inl (List.mem_singleton.1 hq))
      simpa using this
    · rw [if_neg h]
      have := ih (pre ++ [p]) min m (by
        rw [List.getElem?_append_left (List.getElem?_eq_some_iff.1 h1).1]; exact h1) (by
        intro q hq
        rcases List.mem_append.1 hq with hq | hq
        · exact h2 q hq
        · rw [List.mem_singleton.1 hq]; exact xyLe_of_not h)
      simpa using this

theorem rot_head (l : List (Pt K)) (h : l ≠ []) :
    ∃ m, (rotateLeftMost l).head? = some m ∧ LeftMost m (rotateLeftMost l) := by
  rcases l with _ | ⟨p, ps⟩
  · exact absurd rfl h
  have := minLoop_spec ps [p] 0 p (by simp) (by simp [XyLe])
  obtain ⟨m, h1, h2⟩ := this
  simp only [List.length_singleton, List.singleton_append] at h1 h2
  refine ⟨m, ?_, ?_⟩
  · unfold rotateLeftMost minIdx
    rw [List.head?_append, List.head?_drop, h1]; rfl
  · intro q hq
    exact h2 q ((mem_rot _ q).1 hq)

/-! ## No point twice -/

/-- What holds in every turn if no point comes more than twice and the first point once. -/
structure Once (m : Pt K) (s : PSt K) : Prop where
  idx : IndexOk s
  nodup : (s.rng.take s.i).Nodup
  known : ∀ q ∈ s.rng.take s.i, (∃ j, (q, j) ∈ s.index) ∨ s.rng.count q ≤ 1
  two : ∀ q, s.rng.count q ≤ 2
  head : s.rng.head? = some m
  one : s.rng.count m = 1
  holes : ∀ h ∈ s.holes, h.Nodup

theorem rot_nodup {l : List (Pt K)} (h : l.Nodup) : (rotateLeftMost l).Nodup := by
  unfold rotateLeftMost
  rw [List.nodup_append_comm, List.take_append_drop]; exact h

theorem addRing_nodup {holes : List (List (Pt K))} {sl : List (Pt K)} (h1 : ∀ h ∈ holes, h.Nodup)
    (h2 : sl.Nodup) : ∀ h ∈ addRing holes sl, h.Nodup := by
  intro h hh
  rcases addRing_mem _ _ _ hh with hh | ⟨-, rfl⟩
  · exact h1 h hh
  · exact rot_nodup h2

theorem one_of_sub {m : Pt K} {l l' : List (Pt K)} (h : List.Sublist l l') (h1 : l'.count m = 1)
    (hh : l.head? = some m) : l.count m = 1 := by
  have := h.count_le m
  have h2 : m ∈ l := List.mem_of_mem_head? hh
  have := List.count_pos_iff.2 h2
  omega

theorem once_step (m : Pt K) (s : PSt K) (p : Pt K) (hI : Once m s) (hp : s.rng[s.i]? = some p) :
    match turn feqx s p with
    | .panic => False
    | .stop _ => False
    | .next s' => Once m s' ∧ 2 * s'.rng.length - s'.i < 2 * s.rng.length - s.i := by
  have hil : s.i < s.rng.length := (List.getElem?_eq_some_iff.1 hp).1
  cases hf : s.index.find? (fun e => decide (e.1 = p)) with
  | none =>
    rw [turn_new feqx hf]
    have htake : s.rng.take (s.i + 1) = s.rng.take s.i ++ [p] := by
      rw [List.take_add_one, hp]; rfl
    have hpn : p ∉ s.rng.take s.i := by
      intro hin
      rcases hI.known p hin with ⟨j, hj⟩ | h
      · have := List.find?_eq_none.1 hf _ hj
        simp at this
      · have h1 := List.count_pos_iff.2 hin
        have h2 : 0 < (s.rng.drop s.i).count p := List.count_pos_iff.2 (by
          rw [List.drop_eq_getElem_cons hil]
          rw [List.getElem?_eq_getElem hil] at hp
          simp [Option.some.inj hp])
        have h3 : s.rng.count p = (s.rng.take s.i).count p + (s.rng.drop s.i).count p := by
          rw [← List.count_append, List.take_append_drop]
        omega
    refine ⟨⟨?_, ?_, ?_, hI.two, hI.head, hI.one, hI.holes⟩, by simp only; omega⟩
    · intro e he
      rcases List.mem_cons.1 he with rfl | he
      · exact ⟨by simp, hp⟩
      · have := hI.idx e he
        exact ⟨by simp only; omega, this.2⟩
    · simp only
      rw [htake, List.nodup_append]
      exact ⟨hI.nodup, by simp, by intro a ha b hb; rw [List.mem_singleton.1 hb]; rintro rfl; exact hpn ha⟩
    · simp only
      intro q hq
      rw [htake] at hq
      rcases List.mem_append.1 hq with hq | hq
      · exact (hI.known q hq).imp_left (fun ⟨j, hj⟩ => ⟨j, List.mem_cons_of_mem _ hj⟩)
      · rw [List.mem_singleton.1 hq]; exact Or.inl ⟨s.i, by simp⟩
  | some e =>
    obtain ⟨q, idx⟩ := e
    obtain ⟨A, X, C, hr, hi, rfl⟩ := found_split hI.idx hp hf
    have htake : s.rng.take s.i = A ++ p :: X := by
      rw [hr, hi, show A ++ p :: (X ++ p :: C) = (A ++ p :: X) ++ (p :: C) by simp,
        show A.length + X.length + 1 = (A ++ p :: X).length by simp; omega, List.take_left]
    have hnd := hI.nodup
    rw [htake] at hnd
    have hX : (p :: X).Nodup := (List.nodup_append.1 hnd).2.1
    have hAX : ∀ x ∈ A, x ∉ p :: X := fun x hx hx' => (List.nodup_append.1 hnd).2.2 x hx x hx' rfl
    have hA : A ≠ [] := by
      rintro rfl
      have h1 := hI.head
      have h2 := hI.one
      rw [hr] at h1 h2
      simp at h1
      subst h1
      simp at h2
    have hgone : ∀ x ∈ A, x ∉ p :: X ++ [p] := by
      intro x hx hx'
      have : x ∈ p :: X := by simp at hx' ⊢; tauto
      exact hAX x hx this
    have hknown : ∀ x ∈ A, (∃ j, (x, j) ∈ s.index.filter (fun e => decide (e.1 ∉ p :: X ++ [p]))) ∨
        s.rng.count x ≤ 1 := by
      intro x hx
      refine (hI.known x (by rw [htake]; simp [hx])).imp_left ?_
      rintro ⟨j, hj⟩
      exact ⟨j, by rw [List.mem_filter]; exact ⟨hj, by simpa using hgone x hx⟩⟩
    obtain ⟨a0, A0, hA0⟩ : ∃ a0 A0, A = a0 :: A0 := by
      cases A with
      | nil => exact absurd rfl hA
      | cons a0 A0 => exact ⟨_, _, rfl⟩
    have hm : a0 = m := by
      have h1 := hI.head
      rw [hr, hA0] at h1
      simpa using h1
    rcases turn_found s A X C p q hr hi hf with ⟨h0, -, -⟩ | ⟨a, rest, h1, ht⟩ | ⟨a, c, sl, hpr, hsu, hac, hsl, ht⟩
    · exact absurd h0 hA
    · rw [ht]
      have f4 := (type1_facts (p := p) (X := X) h1).2.2.2
      rcases h1 with ⟨A', C', h2, rfl, rfl⟩ | ⟨C', h2, -, -⟩ | ⟨A', h2, -, -⟩
      · have hsub : List.Sublist (A' ++ a :: C') s.rng := by
          rw [hr, h2, List.append_assoc]
          refine List.Sublist.append (List.Sublist.refl _) ?_
          rw [show [a] ++ p :: (X ++ p :: a :: C') = (a :: p :: (X ++ [p])) ++ (a :: C') by simp]
          exact List.sublist_append_right _ _
        have hca : (A' ++ a :: C').count a + 1 ≤ s.rng.count a := by
          rw [hr, h2]; simp [List.count_append, List.count_cons]; omega
        have hca' := hI.two a
        have hA' : A' ≠ [] := by
          rintro rfl
          have : a = m := by rw [← hm]; rw [hA0] at h2; simp at h2; exact h2.1.symm
          have h3 := hI.one
          rw [this] at hca
          have : 0 < ([] ++ m :: C').count m := by simp
          omega
        have hhead : (A' ++ a :: C').head? = some m := by
          have h3 := hI.head
          rw [hr, h2] at h3
          cases A' with
          | nil => exact absurd rfl hA'
          | cons => simpa using h3
        have htk : (A' ++ a :: C').take (A.length - 1 + 1) = A := by
          rw [h2, show (A' ++ [a]).length - 1 + 1 = (A' ++ [a]).length by simp,
            show A' ++ a :: C' = (A' ++ [a]) ++ C' by simp, List.take_left]
        refine ⟨⟨?_, ?_, ?_, ?_, hhead, one_of_sub hsub hI.one hhead, ?_⟩, ?_⟩
        · intro e he
          simp only at he ⊢
          rw [List.mem_filter] at he
          obtain ⟨he, hea⟩ := he
          obtain ⟨g1, g2⟩ := index_keep hI.idx hr hi he
          simp only [decide_eq_true_eq] at hea
          rw [h2] at g2
          have g3 : e.2 < A'.length := by
            by_contra hge
            rw [List.getElem?_append_right (by omega)] at g2
            have : e.1 = a := by simpa using List.mem_of_getElem? g2
            exact hea this
          rw [List.getElem?_append_left g3] at g2
          exact ⟨by omega, by rw [List.getElem?_append_left g3]; exact g2⟩
        · simp only
          rw [htk]
          exact (List.nodup_append.1 hnd).1
        · simp only
          intro x hx
          rw [htk] at hx
          by_cases hxa : x = a
          · right; rw [hxa]; omega
          · rcases hknown x hx with ⟨j, hj⟩ | h
            · exact Or.inl ⟨j, by rw [List.mem_filter]; exact ⟨hj, by simpa using hxa⟩⟩
            · exact Or.inr (le_trans (hsub.count_le x) h)
        · intro x; exact le_trans (hsub.count_le x) (hI.two x)
        · refine addRing_nodup hI.holes ?_
          have : (X ++ [p]).Perm (p :: X) := List.perm_append_comm (l₁ := X) (l₂ := [p])
          exact this.nodup_iff.2 hX
        · rw [hr, hi]; exact f4
      · exact absurd h2 hA
      · exfalso
        have := (List.nodup_append.1 hnd).1
        rw [h2] at this
        simp at this
    · obtain ⟨sl', hsl', -, hsl2⟩ := removeBridge_spec (p :: X) (by simp)
      rw [hsl'] at hsl
      have hss : sl' = sl := Option.some.inj hsl
      subst hss
      have hho := addRing_nodup hI.holes (List.Nodup.sublist hsl2 hX)
      have hsubB : List.Sublist (A ++ p :: C) s.rng := by
        rw [hr]
        refine List.Sublist.append (List.Sublist.refl _) ?_
        rw [show p :: (X ++ p :: C) = (p :: X) ++ (p :: C) by simp]
        exact List.sublist_append_right _ _
      have hsubA : List.Sublist (A ++ C) s.rng :=
        (List.Sublist.append (List.Sublist.refl A) (List.sublist_cons_self p C)).trans hsubB
      have hidx : ∀ rng i, (∀ j x, j < A.length → A[j]? = some x → rng[j]? = some x) → A.length ≤ i →
          IndexOk ({ rng := rng, index := s.index.filter (fun e => decide (e.1 ∉ p :: X ++ [p])), i := i,
                     holes := addRing s.holes sl' } : PSt K) := by
        intro rng i h1 h2 e he
        obtain ⟨g1, g2⟩ := index_keep hI.idx hr hi he
        exact ⟨by simp only; omega, h1 _ _ g1 g2⟩
      rw [ht]
      by_cases hl : isPointOnLine feqx p a c = true
      · rw [if_pos hl, if_neg hA]
        have hhead : (A ++ C).head? = some m := by rw [hA0, ← hm]; simp
        refine ⟨⟨hidx _ _ ?_ le_rfl, ?_, ?_, ?_, hhead, one_of_sub hsubA hI.one hhead, hho⟩, ?_⟩
        · intro j x hj hx; rw [List.getElem?_append_left hj]; exact hx
        · simp only; rw [List.take_left]; exact (List.nodup_append.1 hnd).1
        · simp only
          intro x hx
          rw [List.take_left] at hx
          exact (hknown x hx).imp_right (le_trans (hsubA.count_le x))
        · intro x; exact le_trans (hsubA.count_le x) (hI.two x)
        · rw [hr, hi]; simp; omega
      · rw [if_neg hl]
        have hhead : (A ++ p :: C).head? = some m := by rw [hA0, ← hm]; simp
        have htk : (A ++ p :: C).take (A.length + 1) = A ++ [p] := by
          rw [show A ++ p :: C = (A ++ [p]) ++ C by simp, show A.length + 1 = (A ++ [p]).length by simp,
            List.take_left]
        refine ⟨⟨hidx _ _ ?_ (by omega), ?_, ?_, ?_, hhead, one_of_sub hsubB hI.one hhead, hho⟩, ?_⟩
        · intro j x hj hx; rw [List.getElem?_append_left hj]; exact hx
        · simp only
          rw [htk]
          refine List.Nodup.sublist ?_ hnd
          exact List.Sublist.append (List.Sublist.refl _) (by simp)
        · simp only
          intro x hx
          rw [htk] at hx
          rcases List.mem_append.1 hx with hx | hx
          · exact (hknown x hx).imp_right (le_trans (hsubB.count_le x))
          · right
            rw [List.mem_singleton.1 hx]
            have h1 : (A ++ p :: C).count p + 1 ≤ s.rng.count p := by
              rw [hr]; simp [List.count_append, List.count_cons]
            have := hI.two p
            omega
        · intro x; exact le_trans (hsubB.count_le x) (hI.two x)
        · rw [hr, hi]; simp; omega

theorem count_rot (l : List (Pt K)) (x : Pt K) : (rotateLeftMost l).count x = l.count x := by
  unfold rotateLeftMost
  rw [List.count_append, Nat.add_comm, ← List.count_append, List.take_append_drop]

/-- Rings of points that come at most twice, the leftmost once. -/
theorem polygonForRing_once (ctx : Ctx) (V : List (Pt K)) (h2 : ∀ q, V.count q ≤ 2)
    (h1 : ∀ m ∈ V, LeftMost m V → V.count m = 1) :
    polygonForRing feqx ctx V = .nil ∨
      ∃ rings, polygonForRing feqx ctx V = .poly rings ∧ ∀ r ∈ rings, r.Nodup := by
  unfold polygonForRing
  by_cases h : V.length ≤ 2
  · rw [if_pos h]; exact Or.inl rfl
  · rw [if_neg h]
    obtain ⟨m, hm, hml⟩ := rot_head V (by rintro rfl; simp at h)
    have hmV : m ∈ V := (mem_rot V m).1 (List.mem_of_mem_head? hm)
    have hI : Once m { rng := rotateLeftMost V, index := [], i := 0, holes := [] } :=
      ⟨by intro e he; simp at he, by simp, by simp, by simpa [count_rot] using h2, hm,
        by rw [count_rot]; exact h1 m hmV (fun q hq => hml q ((mem_rot V q).2 hq)), by simp⟩
    rcases turns_ind feqx ctx (Once m) (fun s => Once m s ∧ s.rng.length ≤ s.i) False
      (fun s => 2 * s.rng.length - s.i)
      (by
        intro s p hs hp
        have := once_step m s p hs hp
        revert this
        cases turn feqx s p <;> simp)
      (fun s h h' => ⟨h, h'⟩) (2 * V.length + 1) 0 _ hI (by simp [length_rot]) with h1 | h1 | ⟨s, ⟨hs, hlen⟩, h1⟩
    · exact absurd h1.2 id
    · exact Or.inl h1.1
    · rw [h1]
      unfold finish
      by_cases h2 : s.rng.length ≤ 2
      · rw [if_pos h2]; exact Or.inl rfl
      · rw [if_neg h2]
        refine Or.inr ⟨_, rfl, ?_⟩
        intro r hr
        rcases List.mem_cons.1 hr with rfl | hr
        · apply rot_nodup
          have := hs.nodup
          rwa [List.take_of_length_le hlen] at this
        · exact hs.holes r hr

/-- Rings without repeated points. -/
theorem polygonForRing_nodup (ctx : Ctx) (hctx : ∀ n, ctx n = false) (V : List (Pt K)) (hV : V.Nodup)
    (h3 : 3 ≤ V.length) : polygonForRing feqx ctx V = .poly [rotateLeftMost (rotateLeftMost V)] := by
  unfold polygonForRing
  rw [if_neg (by omega)]
  rcases turns_ind feqx ctx (fun s => s.rng = rotateLeftMost V ∧ s.holes = [] ∧ IndexOk s)
      (fun s => s.rng = rotateLeftMost V ∧ s.holes = []) False
      (fun s => 2 * s.rng.length - s.i)
      (by
        rintro s p ⟨hs1, hs2, hs3⟩ hp
        cases hf : s.index.find? (fun e => decide (e.1 = p)) with
        | none =>
          rw [turn_new feqx hf]
          have hil : s.i < s.rng.length := (List.getElem?_eq_some_iff.1 hp).1
          refine ⟨⟨hs1, hs2, ?_⟩, by simp only; omega⟩
          intro e he
          rcases List.mem_cons.1 he with rfl | he
          · exact ⟨by simp, hp⟩
          · have := hs3 e he
            exact ⟨by simp only; omega, this.2⟩
        | some e =>
          exfalso
          obtain ⟨A, X, C, hr, -, -⟩ := found_split hs3 hp hf
          have := rot_nodup hV
          rw [← hs1, hr, List.nodup_append] at this
          simp at this)
      (fun s h _ => ⟨h.1, h.2.1⟩) (2 * V.length + 1) 0
      { rng := rotateLeftMost V, index := [], i := 0, holes := [] }
      ⟨rfl, rfl, by intro e he; simp at he⟩ (by simp [length_rot]) with h1 | h1 | ⟨s, ⟨hs1, hs2⟩, h1⟩
  · exact absurd h1.2 id
  · obtain ⟨-, k, hk⟩ := h1
    rw [hctx] at hk; simp at hk
  · rw [h1]
    unfold finish
    rw [hs1, hs2, if_neg (by rw [length_rot]; omega)]

end Verif.Lemmas.Walker
