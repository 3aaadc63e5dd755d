import Verif.Lemmas.GpkgOpen

/-!
# Properties C176 and C177: making and opening GeoPackage files

`New` and `Open` of `encoding/gpkg`: what becomes of the files, also if another process or a crash comes in between,
and calls from several goroutines.
-/

namespace Verif.Props
open Verif Verif.GpkgDb Verif.GpkgOpen

variable {G B : Type}

/-- The numbers of version 1.2.1 of the standard and the four tables. -/
def IsGpkg (c : Content G B) : Prop :=
  c.appId = 1196444487 ∧ c.version = 10201 ∧ ∀ m : Meta, m ∈ c.metas

/-- **C176 in full**: whatever happens on the disk while `New` runs, it does not panic, and a file with something in it
at the time it is opened is not changed. -/
def C176_full : Prop :=
  ∀ (G B : Type) (known : List Srs), known.Perm knownSRS → ∀ x y : Node G B,
    (newFile known x y).2 ≠ .panic ∧ ((y = .other ∨ ∃ c, y = .database c) → (newFile known x y).1 = y)

/-- C176 fails: a name that cannot be looked up, as one below a file, makes `New` panic. -/
theorem C176_violated : ¬ C176_full := by
  intro h
  exact (h Nat Nat knownSRS (List.Perm.refl _) .hidden .hidden).1 rfl

/-- C176 fails in the second half too: a database made by another process after the look is opened and changed. -/
theorem C176_violated_race : ∃ (y : Node Nat Nat), (∃ c, y = .database c) ∧
    (newFile knownSRS .missing y).1 ≠ y ∧ (newFile knownSRS .missing y).2 = .ok :=
  ⟨.database ⟨7, 3, [], ⟨[], [], [], [], []⟩⟩, ⟨_, rfl⟩, by decide +kernel, rfl⟩

/-- C176, what `New` does if no one else is there: the answer for every kind of file.  A file that has something in it
is refused and left alone; where there is nothing a GeoPackage is made, with the known reference systems and nothing
else in it. -/
theorem C176_new_partial (known : List Srs) (hk : known.Perm knownSRS) (x : Node G B) :
    ((newFile known x x).2 = .exist ↔ x = .other ∨ ∃ c, x = .database c) ∧
    ((newFile known x x).2 = .ok ↔ x = .missing ∨ x = .empty) ∧
    ((newFile known x x).2 = .failed ↔ x = .dir) ∧
    ((newFile known x x).2 = .panic ↔ x = .hidden) ∧
    ((newFile known x x).2 ≠ .ok → (newFile known x x).1 = x) ∧
    ((newFile known x x).2 = .ok → ∃ c, (newFile known x x).1 = .database c ∧ IsGpkg c ∧ c.db.srs.Perm knownSRS ∧
      c.db.contents = [] ∧ c.db.geomCols = [] ∧ c.db.extensions = [] ∧ c.db.tables = []) := by
  have hok : ∃ c, openCut (G := G) (B := B) known (statements known).length .missing = .database c ∧ IsGpkg c ∧
      c.db.srs.Perm knownSRS ∧ c.db.contents = [] ∧ c.db.geomCols = [] ∧ c.db.extensions = [] ∧ c.db.tables = [] := by
    refine ⟨_, rfl, ⟨rfl, rfl, ?_⟩, ?_, rfl, rfl, rfl, rfl⟩
    · intro m; cases m <;> simp [GpkgOpen.statements, Stmt.run, blank]
    · show (known.foldl insertSrs []).Perm knownSRS
      have hnd : (known.map (·.id)).Nodup := (hk.map (·.id)).nodup_iff.2 (by decide)
      have : ∀ (l acc : List Srs), ((acc ++ l).map (·.id)).Nodup → l.foldl insertSrs acc = acc ++ l := by
        intro l
        induction l with
        | nil => intro acc _; simp
        | cons s l ih =>
          intro acc hn
          rw [List.foldl_cons]
          have h1 : insertSrs acc s = acc ++ [s] := by
            unfold insertSrs
            rw [if_neg]
            rw [List.any_eq_true]
            rintro ⟨r, hr, he⟩
            rw [List.map_append, List.nodup_append] at hn
            exact hn.2.2 r.id (List.mem_map_of_mem hr) s.id (by simp) (of_decide_eq_true he)
          rw [h1, ih (acc ++ [s]) (by simpa using hn)]
          simp
      rw [this known [] (by simpa using hnd)]
      exact hk
  cases x with
  | missing => exact ⟨by simp [newFile, nonZeroFileExists, openFile], by simp [newFile, nonZeroFileExists, openFile],
      by simp [newFile, nonZeroFileExists, openFile], by simp [newFile, nonZeroFileExists, openFile],
      fun h => absurd rfl h, fun _ => hok⟩
  | empty => exact ⟨by simp [newFile, nonZeroFileExists, openFile], by simp [newFile, nonZeroFileExists, openFile],
      by simp [newFile, nonZeroFileExists, openFile], by simp [newFile, nonZeroFileExists, openFile],
      fun h => absurd rfl h, fun _ => hok⟩
  | hidden => exact ⟨by simp [newFile, nonZeroFileExists], by simp [newFile, nonZeroFileExists],
      by simp [newFile, nonZeroFileExists], by simp [newFile, nonZeroFileExists], fun _ => rfl, fun h => by cases h⟩
  | dir => exact ⟨by simp [newFile, nonZeroFileExists, openFile], by simp [newFile, nonZeroFileExists, openFile],
      by simp [newFile, nonZeroFileExists, openFile], by simp [newFile, nonZeroFileExists, openFile],
      fun _ => rfl, fun h => by cases h⟩
  | other => exact ⟨by simp [newFile, nonZeroFileExists], by simp [newFile, nonZeroFileExists],
      by simp [newFile, nonZeroFileExists], by simp [newFile, nonZeroFileExists], fun _ => rfl, fun h => by cases h⟩
  | database c => exact ⟨by simp [newFile, nonZeroFileExists], by simp [newFile, nonZeroFileExists],
      by simp [newFile, nonZeroFileExists], by simp [newFile, nonZeroFileExists], fun _ => rfl, fun h => by cases h⟩

example : (newFile (G := Nat) (B := Nat) knownSRS.reverse .missing .missing).2 = .ok ∧
    knownSRS.reverse.Perm knownSRS := ⟨rfl, List.reverse_perm _⟩

/-- C176, what `Open` does: it takes a database, and makes one where there is nothing; of a database it keeps every row
and adds only known reference systems with new ids, but the two numbers are written over. -/
theorem C176_open_partial (known : List Srs) (x : Node G B) :
    ((openFile known x).2 = .ok ↔ x = .missing ∨ x = .empty ∨ ∃ c, x = .database c) ∧
    ((openFile known x).2 ≠ .panic) ∧
    ((openFile known x).2 ≠ .ok → (openFile known x).1 = x) ∧
    ∀ c, x = .database c → ∃ c', (openFile known x).1 = .database c' ∧ IsGpkg c' ∧
      (∀ m ∈ c.metas, m ∈ c'.metas) ∧ c'.db = { c.db with srs := c'.db.srs } ∧
      ∃ new, c'.db.srs = c.db.srs ++ new ∧ (∀ s ∈ new, s ∈ known ∧ ∀ r ∈ c.db.srs, r.id ≠ s.id) ∧
        ∀ s ∈ known, ∃ r ∈ c'.db.srs, r.id = s.id := by
  refine ⟨by cases x <;> simp [openFile], by cases x <;> simp [openFile], ?_, ?_⟩
  · intro h
    cases x with
    | missing => exact absurd rfl h
    | empty => exact absurd rfl h
    | database c => exact absurd rfl h
    | _ => rfl
  · rintro c rfl
    have cr : ∀ (c : Content G B) (m m' : Meta), m ∈ c.metas → m ∈ (Stmt.run c (.create m')).metas := by
      intro c m m' h
      unfold Stmt.run
      dsimp only
      split_ifs
      · exact h
      · exact List.mem_append_left _ h
    have cr' : ∀ (c : Content G B) (m : Meta), m ∈ (Stmt.run c (.create m)).metas := by
      intro c m
      unfold Stmt.run
      dsimp only
      split_ifs with h
      · exact h
      · simp
    have keep : ∀ (c : Content G B) (m : Meta), (Stmt.run c (.create m)).appId = c.appId ∧
        (Stmt.run c (.create m)).version = c.version ∧ (Stmt.run c (.create m)).db = c.db := by
      intro c m
      unfold Stmt.run
      dsimp only
      split_ifs <;> exact ⟨rfl, rfl, rfl⟩
    have ins : ∀ (l acc : List Srs), ∃ new, l.foldl insertSrs acc = acc ++ new ∧
        (∀ s ∈ new, s ∈ l ∧ ∀ r ∈ acc, r.id ≠ s.id) ∧ ∀ s ∈ l, ∃ r ∈ l.foldl insertSrs acc, r.id = s.id := by
      intro l
      induction l with
      | nil => intro acc; exact ⟨[], by simp, by simp, by simp⟩
      | cons s l ih =>
        intro acc
        rw [List.foldl_cons]
        by_cases hs : acc.any (fun r => decide (r.id = s.id)) = true
        · have h1 : insertSrs acc s = acc := by unfold insertSrs; rw [if_pos hs]
          rw [h1]
          obtain ⟨new, e, h2, h3⟩ := ih acc
          refine ⟨new, e, fun t ht => ⟨List.mem_cons_of_mem _ (h2 t ht).1, (h2 t ht).2⟩, ?_⟩
          rw [List.forall_mem_cons]
          refine ⟨?_, h3⟩
          rw [List.any_eq_true] at hs
          obtain ⟨r, hr, he⟩ := hs
          exact ⟨r, by rw [e]; exact List.mem_append_left _ hr, of_decide_eq_true he⟩
        · have h1 : insertSrs acc s = acc ++ [s] := by unfold insertSrs; rw [if_neg hs]
          rw [h1]
          obtain ⟨new, e, h2, h3⟩ := ih (acc ++ [s])
          refine ⟨s :: new, by rw [e]; simp, ?_, ?_⟩
          · rw [List.forall_mem_cons]
            refine ⟨⟨List.mem_cons_self .., ?_⟩, ?_⟩
            · intro r hr he
              exact hs (List.any_eq_true.2 ⟨r, hr, decide_eq_true he⟩)
            · intro t ht
              exact ⟨List.mem_cons_of_mem _ (h2 t ht).1, fun r hr => (h2 t ht).2 r (List.mem_append_left _ hr)⟩
          · rw [List.forall_mem_cons]
            exact ⟨⟨s, by rw [e]; simp, rfl⟩, h3⟩
    obtain ⟨new, e, h2, h3⟩ := ins known c.db.srs
    let c0 : Content G B := { c with appId := applicationID, version := userVersion }
    let c1 := Stmt.run c0 (.create .srs)
    let c2 := Stmt.run c1 (.create .contents)
    let c3 := Stmt.run c2 (.create .geomCols)
    let c4 := Stmt.run c3 (.create .extensions)
    have k1 := keep c0 .srs
    have k2 := keep c1 .contents
    have k3 := keep c2 .geomCols
    have k4 := keep c3 .extensions
    have hdb : c4.db = c.db := k4.2.2.trans (k3.2.2.trans (k2.2.2.trans k1.2.2))
    refine ⟨Stmt.run c4 (.insert known), rfl, ⟨?_, ?_, ?_⟩, ?_, ?_, new, ?_, h2, ?_⟩
    · exact k4.1.trans (k3.1.trans (k2.1.trans k1.1))
    · exact k4.2.1.trans (k3.2.1.trans (k2.2.1.trans k1.2.1))
    · intro m
      show m ∈ c4.metas
      cases m with
      | srs => exact cr _ _ _ (cr _ _ _ (cr _ _ _ (cr' c0 _)))
      | contents => exact cr _ _ _ (cr _ _ _ (cr' c1 _))
      | geomCols => exact cr _ _ _ (cr' c2 _)
      | extensions => exact cr' c3 _
    · intro m hm
      exact cr _ _ _ (cr _ _ _ (cr _ _ _ (cr c0 _ _ hm)))
    · show updateSRS c4.db known = { c.db with srs := (updateSRS c4.db known).srs }
      rw [hdb]; rfl
    · show (updateSRS c4.db known).srs = _
      rw [hdb]; exact e
    · show ∀ s ∈ known, ∃ r ∈ (updateSRS c4.db known).srs, r.id = s.id
      rw [hdb]; exact h3

/-- A file of version 1.3 comes out as 1.2.1. -/
example : (openFile (G := Nat) (B := Nat) knownSRS (.database ⟨applicationID, 10300, [.srs], ⟨[], [], [], [], []⟩⟩)).1 =
    .database ⟨1196444487, 10201, [.srs, .contents, .geomCols, .extensions], ⟨knownSRS, [], [], [], []⟩⟩ := by
  decide +kernel

/-- C176, a crash: if a call of `Open` (or of `New`, from its look on) is stopped after any number of statements, `Open`
does the rest, as if the first call had not been; but if that had done all, nothing is left to do. -/
theorem C176_crash_partial (known known' : List Srs) (hk : known.Perm knownSRS) (hk' : known'.Perm knownSRS) (n : Nat)
    (x : Node G B) :
    openFile known' (openCut known n x) = if n < 7 then openFile known' x else openFile known x := by
  split_ifs with hn
  · have ht : (GpkgOpen.statements known).take n = (GpkgOpen.statements known').take n := take_statements hn
    have e : ∀ c : Content G B, (GpkgOpen.statements known').foldl Stmt.run
        (((GpkgOpen.statements known').take n).foldl Stmt.run c) = (GpkgOpen.statements known').foldl Stmt.run c :=
      fun c => run_again _ n c
    cases x with
    | missing =>
      by_cases h0 : n = 0
      · simp only [openCut, if_pos h0]
      · simp only [openCut, if_neg h0, openFile, ht, List.take_length, e]
        rfl
    | empty =>
      by_cases h0 : n = 0
      · simp only [openCut, if_pos h0]
      · simp only [openCut, if_neg h0, openFile, ht, List.take_length, e]
        rfl
    | database c => simp only [openCut, openFile, ht, List.take_length, e]
    | _ => rfl
  · have ht : (GpkgOpen.statements known).take n = GpkgOpen.statements known :=
      List.take_of_length_le (by simpa [GpkgOpen.statements] using hn)
    have e : ∀ c : Content G B, (GpkgOpen.statements known').foldl Stmt.run
        ((GpkgOpen.statements known).foldl Stmt.run c) = (GpkgOpen.statements known).foldl Stmt.run c := by
      intro c
      apply run_done
      intro s hs
      apply done_statements known known' _ c s hs
      intro a ha
      exact ⟨a, hk.mem_iff.2 (hk'.mem_iff.1 ha), rfl⟩
    have h0 : n ≠ 0 := by omega
    cases x with
    | missing => simp only [openCut, if_neg h0, openFile, ht, List.take_length, e]; rfl
    | empty => simp only [openCut, if_neg h0, openFile, ht, List.take_length, e]; rfl
    | database c => simp only [openCut, openFile, ht, List.take_length, e]
    | _ => rfl

example : openCut (G := Nat) (B := Nat) knownSRS 3 .missing =
    .database ⟨1196444487, 10201, [.srs], ⟨[], [], [], [], []⟩⟩ := by decide +kernel

/-- **C176 in full, crashes**: a call of `New` stopped by a crash can be made again. -/
def C176_full_crash : Prop :=
  ∀ (G B : Type) (known : List Srs), known.Perm knownSRS → ∀ n : Nat, 
    (newFile (G := G) (B := B) known (openCut known n .missing) (openCut known n .missing)).2 = .ok

/-- C176 fails for crashes: after the first statement the file has something in it, and `New` refuses it. -/
theorem C176_violated_crash : ¬ C176_full_crash := by
  intro h
  have := h Nat Nat knownSRS (List.Perm.refl _) 1
  revert this
  decide +kernel

/-! ## C177: the driver -/

/-- **C177 in full**: `Open` can be called from any number of goroutines at once without a panic. -/
def C177_full : Prop := ∀ schedule : List Nat, (Drivers.run schedule).panicked = []

/-- C177 fails: two goroutines both look before one of them registers the driver. -/
theorem C177_violated : ¬ C177_full := by
  intro h
  have := h [0, 1, 0, 1]
  revert this
  decide

/-- C177, just which goroutines panic, for every schedule: those that have looked before the first goroutine registered
the driver, and go on after that. -/
theorem C177_panics_partial (schedule : List Nat) (i : Nat) :
    i ∈ (Drivers.run schedule).panicked ↔
      ∃ a j b, schedule = a ++ j :: b ∧ a.Nodup ∧ j ∈ a ∧ i ∈ a ∧ i ≠ j ∧ i ∈ b := by
  constructor
  · intro h
    rcases nodup_or_first schedule with hn | ⟨a, j, b, rfl, hn, hj⟩
    · rw [run_nodup hn] at h
      cases h
    · rw [run_first hn hj, panicked_iff _ b i rfl ⟨by simp, by simp⟩] at h
      rcases h with h | ⟨h, hb⟩
      · cases h
      · simp only [List.mem_filter, decide_eq_true_eq] at h
        exact ⟨a, j, b, rfl, hn, hj, h.1, h.2, hb⟩
  · rintro ⟨a, j, b, rfl, hn, hj, hi, hne, hb⟩
    rw [run_first hn hj, panicked_iff _ b i rfl ⟨by simp, by simp⟩]
    exact Or.inr ⟨by simp [hi, hne], hb⟩

example : (Drivers.run [4, 7, 9, 7, 4, 9, 9]).panicked = [4, 9] := by decide

/-- C177, when it is safe: once one goroutine has been through, whatever the others do; and in any schedule the goroutine
that registers the driver does not panic, nor one that looks later. -/
theorem C177_safe_partial (i : Nat) (schedule : List Nat) :
    (Drivers.run (i :: i :: schedule)).panicked = [] ∧
    ∀ k ∈ (Drivers.run schedule).panicked, k ∉ (Drivers.run schedule).returned := by
  constructor
  · rw [List.eq_nil_iff_forall_not_mem]
    intro k hk
    rw [C177_panics_partial] at hk
    obtain ⟨a, j, b, e, hn, hj, hi, hne, hb⟩ := hk
    cases a with
    | nil => cases hj
    | cons x a =>
      rw [List.cons_append, List.cons.injEq] at e
      obtain ⟨rfl, e⟩ := e
      cases a with
      | nil =>
        rw [List.mem_singleton] at hi hj
        exact hne (hi.trans hj.symm)
      | cons y a =>
        rw [List.cons_append, List.cons.injEq] at e
        obtain ⟨rfl, e⟩ := e
        simp at hn
  · exact disjoint_run schedule

example : (Drivers.run [3, 3, 1, 2, 2, 1]).returned = [3, 1, 2] := by decide

end Verif.Props
