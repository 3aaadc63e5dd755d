import Verif.Spec.GpkgDb
import Mathlib.Data.List.Nodup
import Mathlib.Data.List.Perm.Basic

/-!
# Lemmas for the index triggers
-/

namespace Verif.Lemmas.GpkgDb
open Verif Verif.GpkgDb Verif.Spec.GpkgDb

variable {G B : Type}

theorem foldl_none {α τ : Type} (f : α → τ → α) (h : ∀ a t, f a t = a) (l : List τ) (a : α) :
    l.foldl f a = a := by
  induction l generalizing a with
  | nil => rfl
  | cons x l ih => rw [List.foldl_cons, h, ih]

/-- Of the triggers only one does something, and it is there once. -/
theorem foldl_one {α τ : Type} [DecidableEq τ] (f : α → τ → α) (k : τ) (h : ∀ a t, t ≠ k → f a t = a)
    {l : List τ} (hn : l.Nodup) (hk : k ∈ l) (a : α) : l.foldl f a = f a k := by
  induction l generalizing a with
  | nil => simp at hk
  | cons x l ih =>
    rw [List.foldl_cons]
    rw [List.nodup_cons] at hn
    by_cases hx : x = k
    · subst hx
      have hno : ∀ (l : List τ) (a : α), x ∉ l → l.foldl f a = a := by
        intro l
        induction l with
        | nil => intros; rfl
        | cons y l ih =>
          intro a hy
          simp only [List.mem_cons, not_or] at hy
          rw [List.foldl_cons, h _ _ (Ne.symm hy.1), ih _ hy.2]
      exact hno l _ hn.1
    · rw [h _ _ hx]
      exact ih hn.2 ((List.mem_cons.1 hk).resolve_left (Ne.symm hx)) a

theorem watched_nodup {ix : Index B} (h : Watched ix) : ix.trigs.Nodup :=
  (List.Perm.nodup_iff h).2 (by decide)

theorem watched_mem {ix : Index B} (h : Watched ix) (t : Trig) : t ∈ ix.trigs := by
  rw [h.mem_iff]; cases t <;> decide

theorem solid_some {isEmpty : G → Bool} {v : Option G} {g : G} (h : solid isEmpty v = some g) :
    v = some g ∧ isEmpty g = false := by
  unfold solid at h
  rw [Option.filter_eq_some_iff] at h
  simpa using h

theorem visible_iff {isEmpty : G → Bool} {c : String} {r : Row G} :
    Visible isEmpty c r ↔ ∃ g, solid isEmpty (r.get c) = some g := by
  unfold Visible solid
  simp [Option.filter_eq_some_iff]

theorem not_visible_iff {isEmpty : G → Bool} {c : String} {r : Row G} :
    ¬ Visible isEmpty c r ↔ solid isEmpty (r.get c) = none := by
  rw [visible_iff, not_exists, Option.eq_none_iff_forall_ne_some]

/-- The entry a row has to have. -/
def entryOf (isEmpty : G → Bool) (box : G → B) (c : String) (r : Row G) : Option (Int × B) :=
  (solid isEmpty (r.get c)).map fun g => (r.id, box g)

theorem inStep_iff {isEmpty : G → Bool} {box : G → B} {rows : List (Row G)} {ix : Index B} :
    InStep isEmpty box rows ix ↔ (ix.entries.map (·.1)).Nodup ∧
      ∀ e, e ∈ ix.entries ↔ ∃ r ∈ rows, entryOf isEmpty box ix.column r = some e := by
  unfold InStep
  refine and_congr_right fun _ => ?_
  rw [Prod.forall]
  refine forall_congr' fun i => forall_congr' fun b => ?_
  refine iff_congr Iff.rfl (exists_congr fun r => and_congr_right fun _ => ?_)
  unfold entryOf solid
  rw [Option.map_eq_some_iff]
  simp only [Option.filter_eq_some_iff, Prod.mk.injEq, Bool.not_eq_true']
  constructor
  · rintro ⟨h1, g, h2, h3, rfl⟩; exact ⟨g, ⟨h2, h3⟩, h1, rfl⟩
  · rintro ⟨g, ⟨h2, h3⟩, h1, rfl⟩; exact ⟨h1, g, h2, h3, rfl⟩

theorem entryOf_fst {isEmpty : G → Bool} {box : G → B} {c : String} {r : Row G} {e : Int × B}
    (h : entryOf isEmpty box c r = some e) : e.1 = r.id := by
  unfold entryOf at h
  rw [Option.map_eq_some_iff] at h
  obtain ⟨g, _, rfl⟩ := h; rfl

theorem mem_putEntry {i : Int} {b : B} {es : List (Int × B)} {e : Int × B} :
    e ∈ putEntry i b es ↔ (e ∈ es ∧ e.1 ≠ i) ∨ e = (i, b) := by
  simp [putEntry, List.mem_filter]

theorem mem_dropEntry {i : Int} {es : List (Int × B)} {e : Int × B} :
    e ∈ dropEntry i es ↔ e ∈ es ∧ e.1 ≠ i := by
  simp [dropEntry, List.mem_filter]

theorem nodup_dropEntry {i : Int} {es : List (Int × B)} (h : (es.map (·.1)).Nodup) :
    ((dropEntry i es).map (·.1)).Nodup :=
  h.sublist (List.Sublist.map _ List.filter_sublist)

theorem nodup_putEntry {i : Int} {b : B} {es : List (Int × B)} (h : (es.map (·.1)).Nodup) :
    ((putEntry i b es).map (·.1)).Nodup := by
  unfold putEntry
  rw [List.map_append, List.nodup_append]
  refine ⟨h.sublist (List.Sublist.map _ List.filter_sublist), by simp, ?_⟩
  intro x hx y hy
  simp only [List.map_cons, List.map_nil, List.mem_singleton] at hy
  obtain ⟨e, he, rfl⟩ := List.mem_map.1 hx
  rw [List.mem_filter] at he
  subst hy
  simpa using he.2

theorem key_unique {rows : List (Row G)} (h : UniqueKeys rows) {r q : Row G} (hr : r ∈ rows) (hq : q ∈ rows)
    (hk : r.id = q.id) : r = q := List.inj_on_of_nodup_map h hr hq hk

theorem lookup_filter_ne {c : String} (p : String → Bool) (hp : p c = true) (vals : List (String × G)) :
    (vals.filter fun v => p v.1).lookup c = vals.lookup c := by
  induction vals with
  | nil => rfl
  | cons v vals ih =>
    obtain ⟨k, g⟩ := v
    by_cases hk : p k = true
    · rw [List.filter_cons_of_pos (by simpa using hk), List.lookup_cons, List.lookup_cons, ih]
    · have hck : (c == k) = false := by
        rw [beq_eq_false_iff_ne]; rintro rfl; exact hk hp
      rw [List.filter_cons_of_neg (by simpa using hk), List.lookup_cons, ih, hck]

/-- A column that is not set keeps its value. -/
theorem get_updated {r : Row G} {newId : Option Int} {set : List (String × Option G)} {c : String}
    (h : c ∉ set.map (·.1)) : (updated r newId set).get c = r.get c := by
  unfold updated Row.get setVals
  simp only
  have h1 : (set.filterMap (fun s => s.2.map fun g => (s.1, g))).lookup c = none := by
    rw [List.lookup_eq_none_iff]
    intro p hp
    rw [List.mem_filterMap] at hp
    obtain ⟨s, hs, hsp⟩ := hp
    rw [Option.map_eq_some_iff] at hsp
    obtain ⟨g, _, rfl⟩ := hsp
    rw [bne_iff_ne]
    rintro rfl
    exact h (List.mem_map.2 ⟨s, hs, rfl⟩)
  rw [List.lookup_append, h1, Option.none_or]
  exact lookup_filter_ne (fun k => decide (k ∉ set.map (·.1))) (by simpa using h) r.vals

theorem find_key {rows : List (Row G)} {i : Int} :
    (rows.find? (fun r => decide (r.id = i)) = none ↔ ∀ r ∈ rows, r.id ≠ i) := by
  rw [List.find?_eq_none]; simp

theorem find_key_some {rows : List (Row G)} {i : Int} {old : Row G}
    (h : rows.find? (fun r => decide (r.id = i)) = some old) : old ∈ rows ∧ old.id = i := by
  exact ⟨List.mem_of_find?_eq_some h, by simpa using List.find?_some h⟩

/-! ## Insert -/

theorem fire_insert {isEmpty : G → Bool} {box : G → B} {row : Row G} {ix : Index B} (hw : Watched ix) :
    ix.trigs.foldl (fun es tr => onInsert isEmpty box row ix.column es tr) ix.entries =
      onInsert isEmpty box row ix.column ix.entries .insert := by
  refine foldl_one _ .insert ?_ (watched_nodup hw) (watched_mem hw _) _
  intro a t ht
  cases t <;> first | rfl | exact absurd rfl ht

theorem insert_inStep {isEmpty : G → Bool} {box : G → B} {rows : List (Row G)} {ix : Index B}
    {row : Row G} (hs : InStep isEmpty box rows ix) :
    InStep isEmpty box (rows.filter (fun r => decide (r.id ≠ row.id)) ++ [row])
      { ix with entries := onInsert isEmpty box row ix.column ix.entries .insert } ↔
    ¬ (¬ Visible isEmpty ix.column row ∧ ∃ r ∈ rows, r.id = row.id ∧ Visible isEmpty ix.column r) := by
  rw [inStep_iff] at hs ⊢
  obtain ⟨hn, hm⟩ := hs
  simp only [onInsert]
  cases hv : solid isEmpty (row.get ix.column) with
  | some g =>
    have hvis : Visible isEmpty ix.column row := visible_iff.2 ⟨g, hv⟩
    have he : entryOf isEmpty box ix.column row = some (row.id, box g) := by simp [entryOf, hv]
    simp only [hvis, not_true_eq_false, false_and, not_false_eq_true, iff_true]
    refine ⟨nodup_putEntry hn, fun e => ?_⟩
    rw [mem_putEntry, hm]
    constructor
    · rintro (⟨⟨r, hr, hre⟩, hne⟩ | rfl)
      · have := entryOf_fst hre
        exact ⟨r, by simp [List.mem_filter, hr, ← this, hne], hre⟩
      · exact ⟨row, by simp, he⟩
    · rintro ⟨r, hr, hre⟩
      rcases List.mem_append.1 hr with hr | hr
      · rw [List.mem_filter] at hr
        refine Or.inl ⟨⟨r, hr.1, hre⟩, ?_⟩
        rw [entryOf_fst hre]; simpa using hr.2
      · rw [List.mem_singleton] at hr
        subst hr
        rw [he] at hre
        exact Or.inr (Option.some.inj hre).symm
  | none =>
    have hvis : ¬ Visible isEmpty ix.column row := not_visible_iff.2 hv
    have he : entryOf isEmpty box ix.column row = none := by simp [entryOf, hv]
    simp only [hvis, not_false_eq_true, true_and]
    constructor
    · rintro ⟨_, h⟩ ⟨r, hr, hk, hrv⟩
      obtain ⟨g, hg⟩ := visible_iff.1 hrv
      have hre : entryOf isEmpty box ix.column r = some (r.id, box g) := by simp [entryOf, hg]
      obtain ⟨q, hq, hqe⟩ := (h _).1 ((hm _).2 ⟨r, hr, hre⟩)
      rcases List.mem_append.1 hq with hq | hq
      · rw [List.mem_filter] at hq
        have := entryOf_fst hqe
        simp only at this
        have h2 := hq.2
        simp only [decide_eq_true_eq] at h2
        exact h2 (this ▸ hk)
      · rw [List.mem_singleton] at hq
        subst hq
        rw [he] at hqe; cases hqe
    · intro h
      refine ⟨hn, fun e => ?_⟩
      rw [hm]
      constructor
      · rintro ⟨r, hr, hre⟩
        refine ⟨r, List.mem_append_left _ ?_, hre⟩
        rw [List.mem_filter]
        refine ⟨hr, ?_⟩
        simp only [decide_eq_true_eq]
        intro hk
        refine h ⟨r, hr, hk, visible_iff.2 ?_⟩
        unfold entryOf at hre
        rw [Option.map_eq_some_iff] at hre
        obtain ⟨g, hg, _⟩ := hre
        exact ⟨g, hg⟩
      · rintro ⟨r, hr, hre⟩
        rcases List.mem_append.1 hr with hr | hr
        · exact ⟨r, List.mem_of_mem_filter hr, hre⟩
        · rw [List.mem_singleton] at hr
          subst hr
          rw [he] at hre; cases hre

/-! ## Delete -/

theorem fire_delete {row : Row G} {ix : Index B} (hw : Watched ix) :
    ix.trigs.foldl (fun es tr => onDelete row ix.column es tr) ix.entries =
      onDelete row ix.column ix.entries .delete := by
  refine foldl_one _ .delete ?_ (watched_nodup hw) (watched_mem hw _) _
  intro a t ht
  cases t <;> first | rfl | exact absurd rfl ht

theorem delete_inStep {isEmpty : G → Bool} {box : G → B} {rows : List (Row G)} {ix : Index B}
    {old : Row G} (hu : UniqueKeys rows) (ho : old ∈ rows) (hs : InStep isEmpty box rows ix) :
    InStep isEmpty box (rows.filter (fun r => decide (r.id ≠ old.id)))
      { ix with entries := onDelete old ix.column ix.entries .delete } := by
  rw [inStep_iff] at hs ⊢
  obtain ⟨hn, hm⟩ := hs
  have key : ∀ e : Int × B, (∃ r ∈ rows.filter (fun r => decide (r.id ≠ old.id)),
      entryOf isEmpty box ix.column r = some e) ↔ e ∈ ix.entries ∧ e.1 ≠ old.id := by
    intro e
    rw [hm]
    constructor
    · rintro ⟨r, hr, hre⟩
      rw [List.mem_filter] at hr
      exact ⟨⟨r, hr.1, hre⟩, by rw [entryOf_fst hre]; simpa using hr.2⟩
    · rintro ⟨⟨r, hr, hre⟩, hne⟩
      refine ⟨r, ?_, hre⟩
      rw [List.mem_filter, ← entryOf_fst hre]
      exact ⟨hr, by simpa using hne⟩
  simp only [onDelete]
  cases hv : old.get ix.column with
  | some g =>
    refine ⟨nodup_dropEntry hn, fun e => ?_⟩
    rw [mem_dropEntry]
    exact (key e).symm
  | none =>
    refine ⟨hn, fun e => ?_⟩
    refine Iff.trans ?_ (key e).symm
    refine ⟨fun he => ⟨he, ?_⟩, fun h => h.1⟩
    intro hk
    obtain ⟨r, hr, hre⟩ := (hm e).1 he
    have : r = old := key_unique hu hr ho (by rw [← entryOf_fst hre, hk])
    subst this
    simp [entryOf, hv, solid] at hre

/-! ## Update -/

theorem fire_update {isEmpty : G → Bool} {box : G → B} {old new : Row G} {set : List String} {ix : Index B}
    (hw : Watched ix) :
    ix.trigs.foldl (fun es tr => onUpdate isEmpty box old new set ix.column es tr) ix.entries =
      if old.id = new.id then
        if ix.column ∈ set then
          match solid isEmpty (new.get ix.column) with
          | some g => putEntry new.id (box g) ix.entries
          | none => dropEntry old.id ix.entries
        else ix.entries
      else
        match solid isEmpty (new.get ix.column) with
        | some g => if ix.column ∈ set then putEntry new.id (box g) (dropEntry old.id ix.entries) else ix.entries
        | none => dropEntry new.id (dropEntry old.id ix.entries) := by
  have hn := watched_nodup hw
  have one := fun k (h : ∀ a t, t ≠ k → onUpdate isEmpty box old new set ix.column a t = a) =>
    foldl_one (fun es tr => onUpdate isEmpty box old new set ix.column es tr) k h hn (watched_mem hw k) ix.entries
  by_cases hi : old.id = new.id
  · rw [if_pos hi]
    by_cases hc : ix.column ∈ set
    · rw [if_pos hc]
      cases hv : solid isEmpty (new.get ix.column) with
      | some g =>
        rw [one .update1]
        · simp [onUpdate, hi, hc, hv]
        · intro a t ht
          cases t <;> simp [onUpdate, hi, hc, hv] at ht ⊢
      | none =>
        rw [one .update2]
        · simp [onUpdate, hi, hc, hv]
        · intro a t ht
          cases t <;> simp [onUpdate, hi, hc, hv] at ht ⊢
    · rw [if_neg hc]
      refine foldl_none _ ?_ _ _
      intro a t
      cases t <;> simp [onUpdate, hi, hc]
  · rw [if_neg hi]
    cases hv : solid isEmpty (new.get ix.column) with
    | some g =>
      by_cases hc : ix.column ∈ set
      · rw [one .update3]
        · simp [onUpdate, hi, hc, hv]
        · intro a t ht
          cases t <;> simp [onUpdate, hi, hc, hv] at ht ⊢
      · simp only [if_neg hc]
        refine foldl_none _ ?_ _ _
        intro a t
        cases t <;> simp [onUpdate, hi, hc, hv]
    | none =>
      rw [one .update4]
      · simp [onUpdate, hi, hv]
      · intro a t ht
        cases t <;> simp [onUpdate, hi, hv] at ht ⊢

theorem mem_replaced {rows : List (Row G)} {old new : Row G} (ho : old ∈ rows) {r : Row G} :
    r ∈ (rows.map fun r => if r.id = old.id then new else r) ↔ (r ∈ rows ∧ r.id ≠ old.id) ∨ r = new := by
  rw [List.mem_map]
  constructor
  · rintro ⟨q, hq, rfl⟩
    split
    · exact Or.inr rfl
    · rename_i h; exact Or.inl ⟨hq, h⟩
  · rintro (⟨hr, hk⟩ | rfl)
    · exact ⟨r, hr, by rw [if_neg hk]⟩
    · exact ⟨old, ho, by simp⟩

theorem update_inStep {isEmpty : G → Bool} {box : G → B} {rows : List (Row G)} {ix : Index B}
    {old : Row G} {newId : Option Int} {set : List (String × Option G)} (hw : Watched ix)
    (hu : UniqueKeys rows) (ho : old ∈ rows)
    (hf : (updated old newId set).id = old.id ∨ ∀ r ∈ rows, r.id ≠ (updated old newId set).id)
    (hs : InStep isEmpty box rows ix) :
    InStep isEmpty box (rows.map fun r => if r.id = old.id then updated old newId set else r)
      { ix with entries := ix.trigs.foldl (fun es tr => onUpdate isEmpty box old (updated old newId set)
          (set.map (·.1)) ix.column es tr) ix.entries } ↔
    ¬ ((updated old newId set).id ≠ old.id ∧ ix.column ∉ set.map (·.1) ∧ Visible isEmpty ix.column old) := by
  rw [fire_update hw]
  rw [inStep_iff] at hs ⊢
  obtain ⟨hn, hm⟩ := hs
  generalize hnew : updated old newId set = new at *
  have hget : ix.column ∉ set.map (·.1) → new.get ix.column = old.get ix.column := by
    intro h; rw [← hnew]; exact get_updated h
  -- the entries of the other rows
  have key : ∀ e : Int × B, (∃ r, (r ∈ rows ∧ r.id ≠ old.id) ∧ entryOf isEmpty box ix.column r = some e) ↔
      e ∈ ix.entries ∧ e.1 ≠ old.id := by
    intro e
    rw [hm]
    constructor
    · rintro ⟨r, hr, hre⟩
      exact ⟨⟨r, hr.1, hre⟩, by rw [entryOf_fst hre]; exact hr.2⟩
    · rintro ⟨⟨r, hr, hre⟩, hne⟩
      exact ⟨r, ⟨hr, by rw [← entryOf_fst hre]; exact hne⟩, hre⟩
  have goal : ∀ e : Int × B, (∃ r ∈ (rows.map fun r => if r.id = old.id then new else r),
      entryOf isEmpty box ix.column r = some e) ↔
      (e ∈ ix.entries ∧ e.1 ≠ old.id) ∨ entryOf isEmpty box ix.column new = some e := by
    intro e
    rw [← key]
    constructor
    · rintro ⟨r, hr, hre⟩
      rcases (mem_replaced ho).1 hr with h | rfl
      · exact Or.inl ⟨r, h, hre⟩
      · exact Or.inr hre
    · rintro (⟨r, h, hre⟩ | hre)
      · exact ⟨r, (mem_replaced ho).2 (Or.inl h), hre⟩
      · exact ⟨new, (mem_replaced ho).2 (Or.inr rfl), hre⟩
  have free : new.id ≠ old.id → ∀ e ∈ ix.entries, e.1 ≠ new.id := by
    intro hi e he hk
    obtain ⟨r, hr, hre⟩ := (hm e).1 he
    rcases hf with h | h
    · exact hi h
    · exact h r hr (by rw [← entryOf_fst hre, hk])
  by_cases hi : old.id = new.id
  · simp only [if_pos hi]
    have : ¬ (new.id ≠ old.id ∧ ix.column ∉ set.map (·.1) ∧ Visible isEmpty ix.column old) :=
      fun h => h.1 hi.symm
    simp only [this, not_false_eq_true, iff_true]
    by_cases hc : ix.column ∈ set.map (·.1)
    · simp only [if_pos hc]
      cases hv : solid isEmpty (new.get ix.column) with
      | some g =>
        refine ⟨nodup_putEntry hn, fun e => ?_⟩
        rw [mem_putEntry, goal, ← hi]
        have : entryOf isEmpty box ix.column new = some (old.id, box g) := by simp [entryOf, hv, hi]
        rw [this, Option.some.injEq, eq_comm (a := e)]
      | none =>
        refine ⟨nodup_dropEntry hn, fun e => ?_⟩
        rw [mem_dropEntry, goal]
        have : entryOf isEmpty box ix.column new = none := by simp [entryOf, hv]
        simp [this]
    · simp only [if_neg hc]
      refine ⟨hn, fun e => ?_⟩
      rw [goal]
      have he : entryOf isEmpty box ix.column new = entryOf isEmpty box ix.column old := by
        simp [entryOf, hget hc, hi]
      rw [he]
      constructor
      · intro h
        by_cases hk : e.1 = old.id
        · right
          obtain ⟨r, hr, hre⟩ := (hm e).1 h
          have : r = old := key_unique hu hr ho (by rw [← entryOf_fst hre, hk])
          rw [← this]; exact hre
        · exact Or.inl ⟨h, hk⟩
      · rintro (h | h)
        · exact h.1
        · exact (hm e).2 ⟨old, ho, h⟩
  · simp only [if_neg hi]
    have hi' : new.id ≠ old.id := fun h => hi h.symm
    cases hv : solid isEmpty (new.get ix.column) with
    | some g =>
      have hent : entryOf isEmpty box ix.column new = some (new.id, box g) := by simp [entryOf, hv]
      simp only
      by_cases hc : ix.column ∈ set.map (·.1)
      · simp only [hc, if_true, not_true_eq_false, false_and, and_false, not_false_eq_true, iff_true]
        refine ⟨nodup_putEntry (nodup_dropEntry hn), fun e => ?_⟩
        rw [mem_putEntry, mem_dropEntry, goal, hent, Option.some.injEq, eq_comm (a := (new.id, box g))]
        constructor
        · rintro (h | h)
          · exact Or.inl h.1
          · exact Or.inr h
        · rintro (h | h)
          · exact Or.inl ⟨h, free hi' e h.1⟩
          · exact Or.inr h
      · have hvo : Visible isEmpty ix.column old := visible_iff.2 ⟨g, by rw [← hget hc]; exact hv⟩
        simp only [if_neg hc, hi', hc, hvo, ne_eq, not_false_eq_true, true_and, not_true_eq_false, iff_false]
        rintro ⟨_, h⟩
        have h1 : (new.id, box g) ∈ ix.entries := (h _).2 ((goal _).2 (Or.inr hent))
        exact free hi' _ h1 rfl
    | none =>
      have hent : entryOf isEmpty box ix.column new = none := by simp [entryOf, hv]
      simp only
      have : ¬ (new.id ≠ old.id ∧ ix.column ∉ set.map (·.1) ∧ Visible isEmpty ix.column old) := by
        rintro ⟨_, hc, hvo⟩
        rw [visible_iff] at hvo
        obtain ⟨g, hg⟩ := hvo
        rw [hget hc, hg] at hv; cases hv
      simp only [this, not_false_eq_true, iff_true]
      refine ⟨nodup_dropEntry (nodup_dropEntry hn), fun e => ?_⟩
      rw [mem_dropEntry, mem_dropEntry, goal, hent]
      simp only [reduceCtorEq, or_false]
      exact ⟨fun h => h.1, fun h => ⟨h, free hi' e h.1⟩⟩

/-! ## Keys -/

theorem exec_keys {isEmpty : G → Bool} {box : G → B} {t : Table G B} (hu : UniqueKeys t.rows) (op : Op G) :
    UniqueKeys (t.exec isEmpty box op).rows := by
  cases op with
  | insert replace row =>
    simp only [Table.exec]
    split
    · exact hu
    · unfold UniqueKeys
      simp only [List.map_append, List.map_cons, List.map_nil]
      rw [List.nodup_append]
      refine ⟨hu.sublist (List.Sublist.map _ List.filter_sublist), by simp, ?_⟩
      intro x hx y hy
      rw [List.mem_singleton] at hy
      obtain ⟨r, hr, rfl⟩ := List.mem_map.1 hx
      rw [List.mem_filter] at hr
      subst hy
      simpa using hr.2
  | delete id =>
    simp only [Table.exec]
    split
    · exact hu
    · exact hu.sublist (List.Sublist.map _ List.filter_sublist)
  | update id newId set =>
    simp only [Table.exec]
    split
    · exact hu
    · rename_i old hold
      obtain ⟨ho, hk⟩ := find_key_some hold
      split
      · exact hu
      · rename_i hc
        have hf : (updated old newId set).id = old.id ∨ ∀ r ∈ t.rows, r.id ≠ (updated old newId set).id := by
          by_cases h : (updated old newId set).id = old.id
          · exact Or.inl h
          · refine Or.inr fun r hr he => hc ⟨h, ?_⟩
            rw [List.any_eq_true]
            exact ⟨r, hr, by simpa using he⟩
        unfold UniqueKeys at hu ⊢
        rw [List.map_map]
        have hu' := hu
        refine List.Nodup.map_on ?_ (List.Nodup.of_map _ hu)
        intro r hr q hq h
        simp only [Function.comp] at h
        by_cases h1 : r.id = id <;> by_cases h2 : q.id = id
        · exact List.inj_on_of_nodup_map hu' hr hq (h1.trans h2.symm)
        · rw [if_pos h1, if_neg h2] at h
          rcases hf with hf | hf
          · exact absurd (by rw [← h, hf, hk]) h2
          · exact absurd h.symm (hf q hq)
        · rw [if_neg h1, if_pos h2] at h
          rcases hf with hf | hf
          · exact absurd (by rw [h, hf, hk]) h1
          · exact absurd h (hf r hr)
        · rw [if_neg h1, if_neg h2] at h
          exact List.inj_on_of_nodup_map hu' hr hq h

theorem fire_get {f : String → List (Int × B) → Trig → List (Int × B)} {ixs : List (Index B)} {k : Nat}
    {ix : Index B} (h : ixs[k]? = some ix) :
    (fire f ixs)[k]? = some { ix with entries := ix.trigs.foldl (f ix.column) ix.entries } := by
  unfold fire
  rw [List.getElem?_map, h]; rfl

/-- One statement: an index in step stays so unless the statement slips. -/
theorem exec_inStep {isEmpty : G → Bool} {box : G → B} {t : Table G B} (hu : UniqueKeys t.rows) (op : Op G)
    {k : Nat} {ix : Index B} (hk : t.indexes[k]? = some ix) (hw : Watched ix)
    (hs : InStep isEmpty box t.rows ix) :
    ∃ ix', (t.exec isEmpty box op).indexes[k]? = some ix' ∧ ix'.column = ix.column ∧ Watched ix' ∧
      (InStep isEmpty box (t.exec isEmpty box op).rows ix' ↔ ¬ Slips isEmpty ix.column t.rows op) := by
  cases op with
  | insert replace row =>
    simp only [Table.exec]
    split
    · rename_i h
      refine ⟨ix, hk, rfl, hw, ?_⟩
      simp only [Bool.and_eq_true, Bool.not_eq_true'] at h
      simp [hs, Slips, h.2]
    · rename_i h
      refine ⟨_, fire_get (f := fun c es tr => onInsert isEmpty box row c es tr) hk, ?_⟩
      refine ⟨rfl, hw, ?_⟩
      simp only [fire_insert hw]
      rw [insert_inStep hs]
      refine not_congr ?_
      unfold Slips
      constructor
      · rintro ⟨h1, r, hr, hk, hv⟩
        refine ⟨?_, h1, r, hr, hk, hv⟩
        simp only [Bool.and_eq_true, Bool.not_eq_true', not_and, Bool.not_eq_false] at h
        refine h ?_
        rw [List.any_eq_true]
        exact ⟨r, hr, by simpa using hk⟩
      · rintro ⟨_, h1, h2⟩; exact ⟨h1, h2⟩
  | delete id =>
    simp only [Table.exec]
    split
    · exact ⟨ix, hk, rfl, hw, by simp [hs, Slips]⟩
    · rename_i old hold
      obtain ⟨ho, hi⟩ := find_key_some hold
      refine ⟨_, fire_get (f := fun c es tr => onDelete old c es tr) hk, ?_⟩
      refine ⟨rfl, hw, ?_⟩
      simp only [fire_delete hw]
      subst hi
      simp only [Slips, not_false_eq_true, iff_true]
      exact delete_inStep hu ho hs
  | update id newId set =>
    simp only [Table.exec]
    split
    · rename_i hnone
      refine ⟨ix, hk, rfl, hw, ?_⟩
      simp only [hs, true_iff]
      rintro ⟨j, _, _, _, _, r, hr, hi, _⟩
      exact find_key.1 hnone r hr hi
    · rename_i old hold
      obtain ⟨ho, hi⟩ := find_key_some hold
      subst hi
      have hid : (updated old newId set).id = newId.getD old.id := rfl
      split
      · rename_i hc
        refine ⟨ix, hk, rfl, hw, ?_⟩
        simp only [hs, true_iff]
        rintro ⟨j, rfl, _, _, hfree, _⟩
        obtain ⟨h1, h2⟩ := hc
        rw [List.any_eq_true] at h2
        obtain ⟨r, hr, hrk⟩ := h2
        refine hfree r hr ?_
        simpa [hid] using hrk
      · rename_i hc
        have hf : (updated old newId set).id = old.id ∨ ∀ r ∈ t.rows, r.id ≠ (updated old newId set).id := by
          by_cases h : (updated old newId set).id = old.id
          · exact Or.inl h
          · refine Or.inr fun r hr he => hc ⟨h, ?_⟩
            rw [List.any_eq_true]
            exact ⟨r, hr, by simpa using he⟩
        refine ⟨_, fire_get (f := fun c es tr => onUpdate isEmpty box old (updated old newId set) (set.map (·.1)) c es tr) hk, ?_⟩
        refine ⟨rfl, hw, ?_⟩
        rw [update_inStep hw hu ho hf hs]
        refine not_congr ?_
        unfold Slips
        constructor
        · rintro ⟨h1, h2, h3⟩
          cases hn : newId with
          | none => rw [hid, hn] at h1; exact absurd rfl h1
          | some j =>
            rw [hid, hn] at h1
            refine ⟨j, rfl, h1, h2, ?_, old, ho, rfl, h3⟩
            intro r hr he
            rcases hf with hf | hf
            · rw [hid, hn] at hf; exact h1 hf
            · exact hf r hr (by rw [hid, hn]; exact he)
        · rintro ⟨j, rfl, h1, h2, _, r, hr, hrk, hv⟩
          have : r = old := key_unique hu hr ho hrk
          subst this
          exact ⟨by rw [hid]; exact h1, h2, hv⟩

end Verif.Lemmas.GpkgDb
