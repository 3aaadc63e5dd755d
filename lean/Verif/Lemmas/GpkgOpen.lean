import Verif.Model.GpkgOpen
import Mathlib.Data.List.Nodup
import Mathlib.Data.List.Perm.Basic
import Mathlib.Data.List.Induction
import Mathlib.Tactic.Push

/-! # Lemmas about opening GeoPackage files -/

namespace Verif.GpkgOpen
open Verif Verif.GpkgDb

variable {G B : Type}

/-- There is nothing left to do for a statement. -/
def Done (c : Content G B) : Stmt → Prop
  | .pragmaApp => c.appId = applicationID
  | .pragmaVersion => c.version = userVersion
  | .create m => m ∈ c.metas
  | .insert srss => ∀ s ∈ srss, ∃ r ∈ c.db.srs, r.id = s.id

theorem insert_sub (l acc : List Srs) : ∀ r ∈ acc, r ∈ l.foldl insertSrs acc := by
  induction l generalizing acc with
  | nil => intro r h; exact h
  | cons s l ih =>
    intro r h
    rw [List.foldl_cons]
    apply ih
    unfold insertSrs
    split_ifs
    · exact h
    · exact List.mem_append_left _ h

theorem insert_has (l acc : List Srs) : ∀ s ∈ l, ∃ r ∈ l.foldl insertSrs acc, r.id = s.id := by
  induction l generalizing acc with
  | nil => simp
  | cons s l ih =>
    rw [List.forall_mem_cons, List.foldl_cons]
    refine ⟨?_, ih _⟩
    by_cases hs : acc.any (fun r => decide (r.id = s.id)) = true
    · have h1 : insertSrs acc s = acc := by unfold insertSrs; rw [if_pos hs]
      rw [h1]
      rw [List.any_eq_true] at hs
      obtain ⟨r, hr, he⟩ := hs
      exact ⟨r, insert_sub _ _ r hr, of_decide_eq_true he⟩
    · have h1 : insertSrs acc s = acc ++ [s] := by unfold insertSrs; rw [if_neg hs]
      rw [h1]
      exact ⟨s, insert_sub _ _ s (by simp), rfl⟩

theorem insert_done (l acc : List Srs) (h : ∀ s ∈ l, ∃ r ∈ acc, r.id = s.id) : l.foldl insertSrs acc = acc := by
  induction l with
  | nil => rfl
  | cons s l ih =>
    rw [List.forall_mem_cons] at h
    obtain ⟨⟨r, hr, he⟩, h⟩ := h
    rw [List.foldl_cons]
    have h1 : insertSrs acc s = acc := by
      unfold insertSrs
      rw [if_pos (List.any_eq_true.2 ⟨r, hr, decide_eq_true he⟩)]
    rw [h1, ih h]

theorem run_of_done {c : Content G B} {s : Stmt} (h : Done c s) : Stmt.run c s = c := by
  cases s with
  | pragmaApp => simp only [Done] at h; simp only [Stmt.run, ← h]
  | pragmaVersion => simp only [Done] at h; simp only [Stmt.run, ← h]
  | create m => exact if_pos h
  | insert l =>
    show { c with db := { c.db with srs := l.foldl insertSrs c.db.srs } } = c
    rw [insert_done l _ h]

theorem done_run (c : Content G B) (s : Stmt) : Done (Stmt.run c s) s := by
  cases s with
  | pragmaApp => rfl
  | pragmaVersion => rfl
  | create m =>
    simp only [Done, Stmt.run]
    split_ifs with h
    · exact h
    · simp
  | insert l => exact insert_has l c.db.srs

theorem done_mono {c : Content G B} {s : Stmt} (h : Done c s) (t : Stmt) : Done (Stmt.run c t) s := by
  have hm : ∀ m ∈ c.metas, m ∈ (Stmt.run c t).metas := by
    intro m hm
    cases t with
    | create m' =>
      simp only [Stmt.run]
      split_ifs
      · exact hm
      · exact List.mem_append_left _ hm
    | _ => exact hm
  have hs : ∀ r ∈ c.db.srs, r ∈ (Stmt.run c t).db.srs := by
    intro r hr
    cases t with
    | insert l => exact insert_sub l _ r hr
    | create m' =>
      simp only [Stmt.run]
      split_ifs <;> exact hr
    | _ => exact hr
  cases s with
  | pragmaApp =>
    cases t with
    | create m => simp only [Stmt.run]; split_ifs <;> exact h
    | pragmaApp => rfl
    | _ => exact h
  | pragmaVersion =>
    cases t with
    | create m => simp only [Stmt.run]; split_ifs <;> exact h
    | pragmaVersion => rfl
    | _ => exact h
  | create m => exact hm m h
  | insert l =>
    intro a ha
    obtain ⟨r, hr, he⟩ := h a ha
    exact ⟨r, hs r hr, he⟩

theorem done_mono_all {c : Content G B} {s : Stmt} (h : Done c s) (l : List Stmt) : Done (l.foldl Stmt.run c) s := by
  induction l generalizing c with
  | nil => exact h
  | cons t l ih => exact ih (done_mono h t)

theorem done_all (l : List Stmt) (c : Content G B) : ∀ s ∈ l, Done (l.foldl Stmt.run c) s := by
  induction l generalizing c with
  | nil => simp
  | cons t l ih =>
    rw [List.forall_mem_cons]
    exact ⟨done_mono_all (done_run c t) l, ih _⟩

theorem run_done (l : List Stmt) (c : Content G B) (h : ∀ s ∈ l, Done c s) : l.foldl Stmt.run c = c := by
  induction l with
  | nil => rfl
  | cons t l ih =>
    rw [List.forall_mem_cons] at h
    rw [List.foldl_cons, run_of_done h.1, ih h.2]

theorem run_again (l : List Stmt) (n : Nat) (c : Content G B) :
    l.foldl Stmt.run ((l.take n).foldl Stmt.run c) = l.foldl Stmt.run c := by
  have e : ∀ c : Content G B, l.foldl Stmt.run c = (l.drop n).foldl Stmt.run ((l.take n).foldl Stmt.run c) := by
    intro c
    rw [← List.foldl_append, List.take_append_drop]
  rw [e, e c, run_done (l.take n) _ (done_all (l.take n) c)]

theorem take_statements {known known' : List Srs} {n : Nat} (hn : n < 7) :
    (statements known).take n = (statements known').take n := by
  unfold statements
  rcases n with _ | _ | _ | _ | _ | _ | _ | n
  all_goals first | rfl | omega

theorem done_statements (known known' : List Srs) (h : ∀ s ∈ known', ∃ q ∈ known, q.id = s.id) (c : Content G B) :
    ∀ s ∈ statements known', Done ((statements known).foldl Stmt.run c) s := by
  have h1 := done_all (statements known) c
  intro s hs
  simp only [statements, List.mem_cons, List.not_mem_nil, or_false] at hs
  rcases hs with rfl | rfl | rfl | rfl | rfl | rfl | rfl
  iterate 6 exact h1 _ (by simp [statements])
  intro a ha
  obtain ⟨q, hq, e⟩ := h a ha
  have h2 : Done _ (.insert known) := h1 (.insert known) (by simp [statements])
  obtain ⟨r, hr, e'⟩ := h2 q hq
  exact ⟨r, hr, e'.trans e⟩

/-! ## The driver -/

theorem nodup_or_first (s : List Nat) : s.Nodup ∨ ∃ a j b, s = a ++ j :: b ∧ a.Nodup ∧ j ∈ a := by
  induction s using List.reverseRecOn with
  | nil => exact Or.inl List.nodup_nil
  | append_singleton s k ih =>
    rcases ih with h | ⟨a, j, b, rfl, h1, h2⟩
    · by_cases hk : k ∈ s
      · exact Or.inr ⟨s, k, [], rfl, h, hk⟩
      · refine Or.inl ?_
        rw [List.nodup_append]
        refine ⟨h, by simp, ?_⟩
        intro a ha b hb
        rw [List.mem_singleton] at hb
        rintro rfl
        exact hk (hb ▸ ha)
    · exact Or.inr ⟨a, j, b ++ [k], by simp, h1, h2⟩

theorem run_nodup {s : List Nat} (h : s.Nodup) : Drivers.run s = ⟨false, s, [], []⟩ := by
  have : ∀ (s t : List Nat), (t ++ s).Nodup → s.foldl Drivers.step ⟨false, t, [], []⟩ = ⟨false, t ++ s, [], []⟩ := by
    intro s
    induction s with
    | nil => intro t _; simp
    | cons i s ih =>
      intro t ht
      have hi : i ∉ t := by
        intro hi
        rw [List.nodup_append] at ht
        exact ht.2.2 i hi i (List.mem_cons_self ..) rfl
      rw [List.foldl_cons]
      have e : Drivers.step ⟨false, t, [], []⟩ i = ⟨false, t ++ [i], [], []⟩ := by
        simp [Drivers.step, hi]
      rw [e, ih (t ++ [i]) (by simpa using ht)]
      simp
  exact this s [] (by simpa using h)

theorem run_first {a b : List Nat} {j : Nat} (h : a.Nodup) (hj : j ∈ a) :
    Drivers.run (a ++ j :: b) = b.foldl Drivers.step ⟨true, a.filter (· ≠ j), [j], []⟩ := by
  have e := run_nodup h
  unfold Drivers.run at e ⊢
  rw [List.foldl_append, e, List.foldl_cons]
  congr 1
  simp [Drivers.step, hj]

/-- The sets of a state have nothing in common. -/
def Apart (s : Drivers) : Prop :=
  (∀ i ∈ s.looked, i ∉ s.returned ∧ i ∉ s.panicked) ∧ ∀ i ∈ s.panicked, i ∉ s.returned

theorem apart_step {s : Drivers} (h : Apart s) (i : Nat) : Apart (s.step i) := by
  obtain ⟨h1, h2⟩ := h
  unfold Drivers.step
  split_ifs with c1 c2 c3 c4
  · exact ⟨h1, h2⟩
  · push Not at c1
    refine ⟨?_, ?_⟩
    · intro k hk
      simp only [List.mem_filter, decide_eq_true_eq] at hk
      refine ⟨(h1 k hk.1).1, ?_⟩
      simp only [List.mem_append, List.mem_singleton, not_or]
      exact ⟨(h1 k hk.1).2, hk.2⟩
    · intro k hk
      simp only [List.mem_append, List.mem_singleton] at hk
      rcases hk with hk | rfl
      · exact h2 k hk
      · exact c1.1
  · push Not at c1
    refine ⟨?_, ?_⟩
    · intro k hk
      simp only [List.mem_filter, decide_eq_true_eq] at hk
      refine ⟨?_, (h1 k hk.1).2⟩
      simp only [List.mem_append, List.mem_singleton, not_or]
      exact ⟨(h1 k hk.1).1, hk.2⟩
    · intro k hk
      simp only [List.mem_append, List.mem_singleton, not_or]
      refine ⟨h2 k hk, ?_⟩
      rintro rfl
      exact c1.2 hk
  · push Not at c1
    refine ⟨?_, ?_⟩
    · intro k hk
      refine ⟨?_, (h1 k hk).2⟩
      simp only [List.mem_append, List.mem_singleton, not_or]
      refine ⟨(h1 k hk).1, ?_⟩
      rintro rfl
      exact c2 hk
    · intro k hk
      simp only [List.mem_append, List.mem_singleton, not_or]
      refine ⟨h2 k hk, ?_⟩
      rintro rfl
      exact c1.2 hk
  · push Not at c1
    refine ⟨?_, h2⟩
    intro k hk
    simp only [List.mem_append, List.mem_singleton] at hk
    rcases hk with hk | rfl
    · exact h1 k hk
    · exact c1

theorem disjoint_run (schedule : List Nat) :
    ∀ k ∈ (Drivers.run schedule).panicked, k ∉ (Drivers.run schedule).returned := by
  have : ∀ (l : List Nat) (s : Drivers), Apart s → Apart (l.foldl Drivers.step s) := by
    intro l
    induction l with
    | nil => intro s h; exact h
    | cons i l ih => intro s h; exact ih _ (apart_step h i)
  exact (this schedule Drivers.init ⟨by simp [Drivers.init], by simp [Drivers.init]⟩).2

theorem panicked_iff (s : Drivers) (b : List Nat) (i : Nat) (hr : s.registered = true) (ha : Apart s) :
    i ∈ (b.foldl Drivers.step s).panicked ↔ i ∈ s.panicked ∨ (i ∈ s.looked ∧ i ∈ b) := by
  induction b generalizing s with
  | nil => simp
  | cons k b ih =>
    rw [List.foldl_cons]
    have hr' : (s.step k).registered = true := by
      unfold Drivers.step
      split_ifs <;> exact hr
    rw [ih _ hr' (apart_step ha k)]
    obtain ⟨h1, h2⟩ := ha
    unfold Drivers.step
    by_cases c1 : k ∈ s.returned ∨ k ∈ s.panicked
    · rw [if_pos c1]
      have : k ∉ s.looked := fun h => c1.elim (h1 k h).1 (h1 k h).2
      constructor
      · rintro (h | ⟨h, h'⟩)
        · exact Or.inl h
        · exact Or.inr ⟨h, List.mem_cons_of_mem _ h'⟩
      · rintro (h | ⟨h, h'⟩)
        · exact Or.inl h
        · rcases List.mem_cons.1 h' with rfl | h'
          · exact absurd h this
          · exact Or.inr ⟨h, h'⟩
    · rw [if_neg c1]
      by_cases c2 : k ∈ s.looked
      · rw [if_pos c2, if_pos hr]
        simp only [List.mem_append, List.mem_filter, decide_eq_true_eq, List.mem_cons]
        by_cases e : i = k
        · subst e; simp [c2]
        · simp [e]
      · rw [if_neg c2, if_pos hr]
        simp only [List.mem_cons]
        by_cases e : i = k
        · subst e; simp [c2]
        · simp [e]

end Verif.GpkgOpen
