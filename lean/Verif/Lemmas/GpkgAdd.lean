import Verif.Lemmas.GpkgTables

/-!
# Lemmas for AddGeometryTable as a whole
-/

namespace Verif.Lemmas.GpkgDb
open Verif Verif.GpkgDb Verif.Spec.GpkgDb

variable {G B : Type}

theorem run_none_iff (s : Db G B → Except Err (Db G B)) (ss : List (Db G B → Except Err (Db G B))) (db : Db G B) :
    (run (s :: ss) db).2 = none ↔ ∃ db1, s db = .ok db1 ∧ (run ss db1).2 = none := by
  rw [run]
  cases s db with
  | error e => simp
  | ok db1 => simp

/-! ## The steps when they succeed -/

/-- The file after the first step. -/
def withSrs (d : Desc) (db : Db G B) : List Srs :=
  match db.srs.find? (fun r => decide (r.id = d.srs)), knownSRS.find? (fun r => decide (r.id = d.srs)) with
  | none, some s => db.srs ++ [s]
  | _, _ => db.srs

/-- The contents after `AddGeometryTable`. -/
def withContents (d : Desc) (l : List Contents) : List Contents :=
  if l.any (fun r => decide (r.tableName = d.name)) then l
  else l ++ [contentsRow d]

/-- The geometry columns after `AddGeometryTable`. -/
def withColumn (d : Desc) (l : List GeomCol) : List GeomCol :=
  if l.any (fun r => decide (r.tableName = d.name)) then l
  else l ++ [geomColRow d]

theorem srsStep_eq {d : Desc} {db : Db G B} (h : HasSrs db d.srs ∨ ∃ s ∈ knownSRS, s.id = d.srs) :
    srsStep d db = .ok { db with srs := withSrs d db } := by
  unfold srsStep
  split
  · rename_i ha
    rw [List.any_eq_true] at ha
    obtain ⟨r, hr, hk⟩ := ha
    have : ∃ q, db.srs.find? (fun r => decide (r.id = d.srs)) = some q := by
      rw [← Option.isSome_iff_exists, List.find?_isSome]
      exact ⟨r, hr, hk⟩
    obtain ⟨q, hq⟩ := this
    simp [withSrs, hq]
  · rename_i ha
    have hf : db.srs.find? (fun r => decide (r.id = d.srs)) = none := by
      rw [List.find?_eq_none]
      intro r hr hk
      exact ha (List.any_eq_true.2 ⟨r, hr, hk⟩)
    split
    · rename_i hn
      exfalso
      rcases h with h | ⟨s, hs, hi⟩
      · rw [hasSrs_iff] at h
        exact ha h
      · rw [List.find?_eq_none] at hn
        exact hn s hs (by simpa using hi)
    · rename_i s hs
      have hsi := List.find?_some hs
      simp only [decide_eq_true_eq] at hsi
      simp only [withSrs, hf, hs, updateSRS, List.foldl_cons, List.foldl_nil, insertSrs]
      rw [hsi, if_neg ha]

theorem contentsStep_eq {d : Desc} {db : Db G B}
    (h : (∃ r ∈ db.contents, r.tableName = d.name) ∨ ∀ r ∈ db.contents, r.identifier ≠ d.shortName) :
    contentsStep d db = .ok { db with contents := withContents d db.contents } := by
  unfold contentsStep withContents
  split
  · rfl
  · rename_i ha
    split
    · rename_i hb
      exfalso
      rw [List.any_eq_true] at hb
      obtain ⟨q, hq, hqi⟩ := hb
      rcases h with ⟨r, hr, hk⟩ | h
      · exact ha (List.any_eq_true.2 ⟨r, hr, by simpa using hk⟩)
      · exact h q hq (by simpa using hqi)
    · rfl

theorem geomColStep_eq (d : Desc) (db : Db G B) :
    geomColStep d db = .ok { db with geomCols := withColumn d db.geomCols } := by
  unfold geomColStep withColumn
  split <;> rfl

/-- A new index on the column, with some of the triggers. -/
def withIndex (d : Desc) (trs : List Trig) (ts : List (Table G B)) : List (Table G B) :=
  ts.map fun t => if t.name = d.name then { t with indexes := t.indexes ++ [⟨d.geometryField, [], trs⟩] } else t

/-- Nothing has the name of the index. -/
def Unused (d : Desc) (ts : List (Table G B)) : Prop :=
  ∀ t ∈ ts, t.name ≠ rtreeName d.name d.geometryField ∧
    ∀ ix ∈ t.indexes, rtreeName t.name ix.column ≠ rtreeName d.name d.geometryField

theorem rtreeStep_eq {d : Desc} {db : Db G B} (h : Unused d db.tables) :
    rtreeStep d db = .ok { db with tables := withIndex d [] db.tables } := by
  unfold rtreeStep
  simp only
  split
  · rename_i ha
    exfalso
    rw [List.any_eq_true] at ha
    obtain ⟨t, ht, hk⟩ := ha
    rw [Bool.or_eq_true] at hk
    rcases hk with hk | hk
    · exact (h t ht).1 (by simpa using hk)
    · rw [List.any_eq_true] at hk
      obtain ⟨ix, hix, hn⟩ := hk
      exact (h t ht).2 ix hix (by simpa using hn)
  · rfl

/-- Both names can stand without quotes. -/
def Plain (d : Desc) : Prop :=
  (∀ c ∈ d.name.toList, plainChar c = true) ∧ ∀ c ∈ d.geometryField.toList, plainChar c = true

theorem plain_iff (d : Desc) :
    Plain d ↔ (d.name.toList.all plainChar && d.geometryField.toList.all plainChar) = true := by
  simp [Plain, List.all_eq_true]

theorem trigStep_eq {d : Desc} {db : Db G B} {ts : List (Table G B)} {trs : List Trig} {tr : Trig}
    (hu : Unused d ts) (hp : Plain d) (hn : tr ∉ trs) :
    trigStep d tr { db with tables := withIndex d trs ts } =
      .ok { db with tables := withIndex d (trs ++ [tr]) ts } := by
  unfold trigStep
  rw [(plain_iff d).1 hp]
  simp only [Bool.not_true, Bool.false_eq_true, if_false]
  split
  · rename_i ha
    exfalso
    rw [List.any_eq_true] at ha
    obtain ⟨t, ht, hk⟩ := ha
    rw [List.any_eq_true] at hk
    obtain ⟨ix, hix, hk⟩ := hk
    simp only [Bool.and_eq_true, decide_eq_true_eq] at hk
    obtain ⟨q, hq, rfl⟩ := List.mem_map.1 ht
    split at hix
    · rename_i hqn
      simp only [hqn, if_true] at hk
      rcases List.mem_append.1 hix with hix | hix
      · exact (hu q hq).2 ix hix (by rw [hqn]; exact hk.1)
      · rw [List.mem_singleton] at hix
        subst hix
        exact hn hk.2
    · rename_i hqn
      simp only [hqn, if_false] at hk
      exact (hu q hq).2 ix hix hk.1
  · simp only [Db.mapTable, withIndex, List.map_map, Except.ok.injEq, Db.mk.injEq, true_and]
    refine List.map_congr_left fun t ht => ?_
    simp only [Function.comp]
    by_cases hq : t.name = d.name
    · simp only [hq, if_true, List.map_append, List.map_cons, List.map_nil]
      congr 2
      conv_rhs => rw [← List.map_id t.indexes]
      refine List.map_congr_left fun ix hix => ?_
      have : ix.column ≠ d.geometryField := by
        intro hc
        exact (hu t ht).2 ix hix (by rw [hq, hc])
      simp [this]
    · simp [hq]

/-- The extensions after `AddGeometryTable`. -/
def withExtension (d : Desc) (l : List Extension) : List Extension :=
  if l.any (fun r => decide (r.tableName = d.name) && decide (r.columnName = d.geometryField) &&
      decide (r.extensionName = "gpkg_rtree_index")) then l
  else l ++ [⟨d.name, d.geometryField, "gpkg_rtree_index",
      "http://www.geopackage.org/spec120/#extension_rtree", "write-only"⟩]

theorem extensionStep_eq (d : Desc) (db : Db G B) :
    extensionStep d db = .ok { db with extensions := withExtension d db.extensions } := by
  unfold extensionStep withExtension
  split <;> rfl

/-! ## The whole call -/

/-- What `AddGeometryTable` asks for. -/
structure Asks (d : Desc) (db : Db G B) : Prop where
  srs : HasSrs db d.srs ∨ ∃ s ∈ knownSRS, s.id = d.srs
  table : ∃ t, db.table? d.name = some t ∧ d.geometryField ∈ t.columns ∧ t.pk.isSome = true
  identifier : (∃ r ∈ db.contents, r.tableName = d.name) ∨ ∀ r ∈ db.contents, r.identifier ≠ d.shortName
  unused : Unused d db.tables
  plain : Plain d

/-- The file after `AddGeometryTable`. -/
def finished (d : Desc) (db : Db G B) : Db G B :=
  ⟨withSrs d db, withContents d db.contents, withColumn d db.geomCols, withExtension d db.extensions,
    withIndex d [.insert, .update1, .update2, .update3, .update4, .delete] db.tables⟩

theorem add_eq {d : Desc} {db : Db G B} (h : Asks d db) : addGeometryTable d db = (finished d db, none) := by
  obtain ⟨t, ht, hf, hpk⟩ := h.table
  have e1 : ∀ (db' : Db G B), db'.tables = db.tables → fieldStep d db' = .ok db' := by
    intro db' hd
    have : db'.table? d.name = some t := by rw [← ht]; unfold Db.table?; rw [hd]
    simp [fieldStep, this, hf]
  have e4 : ∀ (db' : Db G B), db'.tables = db.tables → pkStep d db' = .ok db' := by
    intro db' hd
    have : db'.table? d.name = some t := by rw [← ht]; unfold Db.table?; rw [hd]
    simp [pkStep, this, hpk]
  have et : ∀ trs tr, tr ∉ trs → trigStep d tr
      ⟨withSrs d db, withContents d db.contents, withColumn d db.geomCols, db.extensions, withIndex d trs db.tables⟩ =
      .ok ⟨withSrs d db, withContents d db.contents, withColumn d db.geomCols, db.extensions,
        withIndex d (trs ++ [tr]) db.tables⟩ := fun trs tr hn =>
    trigStep_eq (db := ⟨withSrs d db, withContents d db.contents, withColumn d db.geomCols, db.extensions, []⟩) h.unused h.plain hn
  unfold addGeometryTable statements
  rw [run, srsStep_eq h.srs]
  simp only
  rw [run, e1 _ (by rfl)]
  simp only
  rw [run, contentsStep_eq (by exact h.identifier)]
  simp only
  rw [run, geomColStep_eq]
  simp only
  rw [run, e4 _ (by rfl)]
  simp only
  rw [run, rtreeStep_eq (by exact h.unused)]
  simp only
  rw [run, et [] .insert (by simp)]
  simp only
  rw [run, et _ _ (by simp)]
  simp only
  rw [run, et _ _ (by simp)]
  simp only
  rw [run, et _ _ (by simp)]
  simp only
  rw [run, et _ _ (by simp)]
  simp only
  rw [run, et _ _ (by simp)]
  simp only
  rw [run, extensionStep_eq]
  rfl

theorem srsStep_error {d : Desc} {db db' : Db G B} (h : srsStep d db = .ok db') :
    (HasSrs db d.srs ∨ ∃ s ∈ knownSRS, s.id = d.srs) ∧ db'.contents = db.contents ∧ db'.tables = db.tables ∧
      db'.geomCols = db.geomCols ∧ db'.extensions = db.extensions := by
  obtain ⟨-, l, rfl⟩ := srsStep_ok h
  refine ⟨?_, rfl, rfl, rfl, rfl⟩
  unfold srsStep at h
  split at h
  · rename_i ha
    exact Or.inl ((hasSrs_iff _ _).2 ha)
  · split at h
    · cases h
    · rename_i s hs
      have hsi := List.find?_some hs
      exact Or.inr ⟨s, List.mem_of_find?_eq_some hs, by simpa using hsi⟩

theorem add_asks {d : Desc} {db : Db G B} (h : (addGeometryTable d db).2 = none) : Asks d db := by
  unfold addGeometryTable statements at h
  obtain ⟨d1, h1, h⟩ := (run_none_iff _ _ _).1 h
  obtain ⟨d2, h2, h⟩ := (run_none_iff _ _ _).1 h
  obtain ⟨d3, h3, h⟩ := (run_none_iff _ _ _).1 h
  obtain ⟨d4, h4, h⟩ := (run_none_iff _ _ _).1 h
  obtain ⟨d5, h5, h⟩ := (run_none_iff _ _ _).1 h
  obtain ⟨d6, h6, h⟩ := (run_none_iff _ _ _).1 h
  obtain ⟨d7, h7, -⟩ := (run_none_iff _ _ _).1 h
  obtain ⟨a1, c1, t1, -, -⟩ := srsStep_error h1
  obtain ⟨rfl, t, ht, hf⟩ := fieldStep_ok h2
  have t3 : d3.tables = d2.tables ∧
      ((∃ r ∈ d2.contents, r.tableName = d.name) ∨ ∀ r ∈ d2.contents, r.identifier ≠ d.shortName) := by
    rcases contentsStep_ok h3 with ⟨hx, rfl⟩ | ⟨-, hx, rfl⟩
    · exact ⟨rfl, Or.inl hx⟩
    · exact ⟨rfl, Or.inr hx⟩
  have t4 : d4.tables = d3.tables := by
    rcases geomColStep_ok h4 with ⟨-, rfl⟩ | ⟨-, rfl⟩ <;> rfl
  obtain ⟨rfl, q, hq, hpk⟩ := pkStep_ok h5
  have hu := (rtreeStep_ok h6).1
  obtain ⟨p1, p2, -⟩ := trigStep_ok h7
  have ht5 : d5.tables = db.tables := by rw [t4, t3.1, t1]
  refine ⟨a1, ⟨t, ?_, hf, ?_⟩, ?_, ?_, p1, p2⟩
  · unfold Db.table? at ht ⊢; rw [← t1]; exact ht
  · have : q = t := by
      unfold Db.table? at ht hq
      rw [t4, t3.1, ht, Option.some.injEq] at hq
      exact hq.symm
    rw [← this]; exact hpk
  · rw [← c1]; exact t3.2
  · intro t ht
    exact hu t (by rw [ht5]; exact ht)

theorem add_none_iff (d : Desc) (db : Db G B) : (addGeometryTable d db).2 = none ↔ Asks d db :=
  ⟨add_asks, fun h => by rw [add_eq h]⟩

/-! ## Again after a stop -/

/-- Nothing is left to do for the first `k` statements. -/
def Settled (d : Desc) (k : Nat) (db : Db G B) : Prop :=
  ∀ i, i < k → ∀ s, (statements (G := G) (B := B) d)[i]? = some s → s db = .ok db

theorem settled_run {d : Desc} {k : Nat} {db : Db G B} (h : Settled d k db) :
    run (statements d) db = run ((statements d).drop k) db := by
  have : ∀ (ss : List (Db G B → Except Err (Db G B))) (k : Nat),
      (∀ i, i < k → ∀ s, ss[i]? = some s → s db = .ok db) → run ss db = run (ss.drop k) db := by
    intro ss
    induction ss with
    | nil => intro k _; simp
    | cons s ss ih =>
      intro k hk
      cases k with
      | zero => rfl
      | succ k =>
        rw [run, hk 0 (by omega) s rfl, List.drop_succ_cons]
        exact ih k (fun i hi t ht => hk (i + 1) (by omega) t (by simpa using ht))
  exact this _ _ h

theorem settled_srs {d : Desc} {db : Db G B} (h : HasSrs db d.srs) : srsStep d db = .ok db := by
  rw [hasSrs_iff] at h
  simp [srsStep, h]

theorem settled_contents {d : Desc} {db : Db G B} (h : ∃ r ∈ db.contents, r.tableName = d.name) :
    contentsStep d db = .ok db := by
  obtain ⟨r, hr, hk⟩ := h
  have : db.contents.any (fun r => decide (r.tableName = d.name)) = true :=
    List.any_eq_true.2 ⟨r, hr, by simpa using hk⟩
  simp [contentsStep, this]

theorem settled_column {d : Desc} {db : Db G B} (h : ∃ r ∈ db.geomCols, r.tableName = d.name) :
    geomColStep d db = .ok db := by
  obtain ⟨r, hr, hk⟩ := h
  have : db.geomCols.any (fun r => decide (r.tableName = d.name)) = true :=
    List.any_eq_true.2 ⟨r, hr, by simpa using hk⟩
  simp [geomColStep, this]

theorem settled_iff (d : Desc) (k : Nat) (hk : k ≤ 5) (db : Db G B) : Settled d k db ↔
    (1 ≤ k → srsStep d db = .ok db) ∧ (2 ≤ k → fieldStep d db = .ok db) ∧ (3 ≤ k → contentsStep d db = .ok db) ∧
    (4 ≤ k → geomColStep d db = .ok db) ∧ (5 ≤ k → pkStep d db = .ok db) := by
  constructor
  · intro h
    exact ⟨fun hi => h 0 (by omega) _ rfl, fun hi => h 1 (by omega) _ rfl, fun hi => h 2 (by omega) _ rfl,
      fun hi => h 3 (by omega) _ rfl, fun hi => h 4 (by omega) _ rfl⟩
  · rintro ⟨h0, h1, h2, h3, h4⟩ i hi s hs
    match i with
    | 0 => cases hs; exact h0 (by omega)
    | 1 => cases hs; exact h1 (by omega)
    | 2 => cases hs; exact h2 (by omega)
    | 3 => cases hs; exact h3 (by omega)
    | 4 => cases hs; exact h4 (by omega)
    | n + 5 => omega

theorem field_tables {d : Desc} {db db' : Db G B} (h : db'.tables = db.tables) (hf : fieldStep d db = .ok db) :
    fieldStep d db' = .ok db' := by
  obtain ⟨-, t, ht, hc⟩ := fieldStep_ok hf
  have : db'.table? d.name = some t := by rw [← ht]; unfold Db.table?; rw [h]
  simp [fieldStep, this, hc]

theorem pk_tables {d : Desc} {db db' : Db G B} (h : db'.tables = db.tables) (hf : pkStep d db = .ok db) :
    pkStep d db' = .ok db' := by
  obtain ⟨-, t, ht, hc⟩ := pkStep_ok hf
  have : db'.table? d.name = some t := by rw [← ht]; unfold Db.table?; rw [h]
  simp [pkStep, this, hc]

/-- Each of the first five statements leaves nothing to do for it and those before. -/
theorem settled_step {d : Desc} {i : Nat} (hi : i < 5) {s : Db G B → Except Err (Db G B)}
    (hs : (statements d)[i]? = some s) {db db' : Db G B} (h : Settled d i db) (ho : s db = .ok db') :
    Settled d (i + 1) db' := by
  rw [settled_iff d i (by omega)] at h
  rw [settled_iff d (i + 1) (by omega)]
  obtain ⟨h0, h1, h2, h3, h4⟩ := h
  match i with
  | 0 =>
    cases hs
    exact ⟨fun _ => settled_srs (srsStep_ok ho).1, fun h => by omega, fun h => by omega, fun h => by omega,
      fun h => by omega⟩
  | 1 =>
    cases hs
    obtain ⟨rfl, -⟩ := fieldStep_ok ho
    exact ⟨fun _ => h0 (by omega), fun _ => ho, fun h => by omega, fun h => by omega, fun h => by omega⟩
  | 2 =>
    cases hs
    rcases contentsStep_ok ho with ⟨hex, rfl⟩ | ⟨hn, hid, rfl⟩
    · exact ⟨fun _ => h0 (by omega), fun _ => h1 (by omega), fun _ => ho, fun h => by omega, fun h => by omega⟩
    · exact ⟨fun _ => settled_srs (srsStep_ok (h0 (by omega))).1, fun _ => field_tables (db := db) rfl (h1 (by omega)),
        fun _ => settled_contents ⟨contentsRow d, by simp, rfl⟩, fun h => by omega, fun h => by omega⟩
  | 3 =>
    cases hs
    rcases geomColStep_ok ho with ⟨hex, rfl⟩ | ⟨hn, rfl⟩
    · exact ⟨fun _ => h0 (by omega), fun _ => h1 (by omega), fun _ => h2 (by omega), fun _ => ho, fun h => by omega⟩
    · refine ⟨fun _ => settled_srs (srsStep_ok (h0 (by omega))).1, fun _ => field_tables (db := db) rfl (h1 (by omega)),
        fun _ => ?_, fun _ => settled_column ⟨geomColRow d, by simp, rfl⟩, fun h => by omega⟩
      rcases contentsStep_ok (h2 (by omega)) with ⟨hex, -⟩ | ⟨-, -, he⟩
      · exact settled_contents hex
      · have := congrArg (fun db => db.contents.length) he
        simp at this
  | 4 =>
    cases hs
    obtain ⟨rfl, -⟩ := pkStep_ok ho
    exact ⟨fun _ => h0 (by omega), fun _ => h1 (by omega), fun _ => h2 (by omega), fun _ => h3 (by omega),
      fun _ => ho⟩

theorem settled_cut (d : Desc) (n : Nat) (hn : n ≤ 5) (db : Db G B) :
    run (statements d) (run ((statements d).take n) db).1 = run (statements d) db := by
  have key : ∀ m k, k + m = n → ∀ db' : Db G B, Settled d k db' →
      run (statements d) (run (((statements d).drop k).take m) db').1 =
        run ((statements d).drop k) db' := by
    intro m
    induction m with
    | zero =>
      intro k hk db' hs
      rw [List.take_zero, run]
      exact settled_run hs
    | succ m ih =>
      intro k hk db' hs
      have hlen : k < (statements (G := G) (B := B) d).length := by
        have : (statements (G := G) (B := B) d).length = 13 := rfl
        omega
      rw [List.drop_eq_getElem_cons hlen, List.take_succ_cons, run, run]
      cases ho : (statements d)[k] db' with
      | error e =>
        simp only
        rw [settled_run hs, List.drop_eq_getElem_cons hlen, run, ho]
      | ok db1 =>
        simp only
        exact ih (k + 1) (by omega) db1
          (settled_step (by omega) (List.getElem?_eq_getElem hlen) hs ho)
  exact key n 0 (by omega) db (fun i hi => by omega)

/-- What stays once the index was made: the call cannot be repeated. -/
def Taken (d : Desc) (db : Db G B) : Prop :=
  Settled d 5 db ∧ rtreeStep d db = .error .nameExists

theorem taken_add {d : Desc} {db : Db G B} (h : Taken d db) :
    addGeometryTable d db = (db, some .nameExists) := by
  unfold addGeometryTable
  rw [settled_run h.1]
  simp only [statements, List.drop_succ_cons, List.drop_zero]
  rw [run, h.2]

theorem run_keep (P : Db G B → Prop) (ss : List (Db G B → Except Err (Db G B)))
    (h : ∀ s ∈ ss, ∀ db db', P db → s db = .ok db' → P db') (db : Db G B) (h0 : P db) : P (run ss db).1 := by
  induction ss generalizing db with
  | nil => exact h0
  | cons s ss ih =>
    rw [run]
    cases hs : s db with
    | error e => exact h0
    | ok db1 =>
      exact ih (fun t ht => h t (by simp [ht])) db1 (h s (by simp) db db1 h0 hs)

theorem table_map {db : Db G B} {name : String} {f : Table G B → Table G B} (hf : ∀ t, (f t).name = t.name)
    {t : Table G B} (h : db.table? name = some t) : (db.mapTable name f).table? name = some (f t) := by
  unfold Db.table? Db.mapTable at *
  simp only
  rw [List.find?_map]
  have : ((fun t : Table G B => decide (t.name = name)) ∘ fun t => if t.name = name then f t else t) =
      fun t => decide (t.name = name) := by
    funext q
    simp only [Function.comp]
    split
    · rw [hf]
    · rfl
  rw [this, h]
  have hn := List.find?_some h
  simp only [decide_eq_true_eq] at hn
  simp [hn]

theorem taken_iff {d : Desc} {db : Db G B} : Taken d db ↔
    HasSrs db d.srs ∧ (∃ r ∈ db.contents, r.tableName = d.name) ∧ (∃ r ∈ db.geomCols, r.tableName = d.name) ∧
    (∃ t, db.table? d.name = some t ∧ d.geometryField ∈ t.columns ∧ t.pk.isSome = true) ∧
    ∃ t ∈ db.tables, t.name = rtreeName d.name d.geometryField ∨
      ∃ ix ∈ t.indexes, rtreeName t.name ix.column = rtreeName d.name d.geometryField := by
  unfold Taken
  rw [settled_iff d 5 (by omega)]
  constructor
  · rintro ⟨⟨h0, h1, h2, h3, h4⟩, h5⟩
    obtain ⟨-, t, ht, hf⟩ := fieldStep_ok (h1 (by omega))
    obtain ⟨-, q, hq, hpk⟩ := pkStep_ok (h4 (by omega))
    have : q = t := by rw [ht, Option.some.injEq] at hq; exact hq.symm
    subst this
    refine ⟨(srsStep_ok (h0 (by omega))).1, ?_, ?_, ⟨q, hq, hf, hpk⟩, ?_⟩
    · rcases contentsStep_ok (h2 (by omega)) with ⟨hex, -⟩ | ⟨-, -, he⟩
      · exact hex
      · have := congrArg (fun db => db.contents.length) he
        simp at this
    · rcases geomColStep_ok (h3 (by omega)) with ⟨hex, -⟩ | ⟨-, he⟩
      · exact hex
      · have := congrArg (fun db => db.geomCols.length) he
        simp at this
    · by_contra hc
      have : Unused d db.tables := by
        intro t ht
        refine ⟨fun he => hc ⟨t, ht, Or.inl he⟩, fun ix hix he => hc ⟨t, ht, Or.inr ⟨ix, hix, he⟩⟩⟩
      rw [rtreeStep_eq this] at h5
      cases h5
  · rintro ⟨h0, h1, h2, ⟨t, ht, hf, hpk⟩, q, hq, hn⟩
    refine ⟨⟨fun _ => settled_srs h0, fun _ => by simp [fieldStep, ht, hf], fun _ => settled_contents h1,
      fun _ => settled_column h2, fun _ => by simp [pkStep, ht, hpk]⟩, ?_⟩
    unfold rtreeStep
    simp only
    rw [if_pos]
    refine List.any_eq_true.2 ⟨q, hq, ?_⟩
    rw [Bool.or_eq_true]
    rcases hn with hn | ⟨ix, hix, hn⟩
    · exact Or.inl (by simpa using hn)
    · exact Or.inr (List.any_eq_true.2 ⟨ix, hix, by simpa using hn⟩)

theorem taken_map {d : Desc} {db : Db G B} {f : Table G B → Table G B} (hf : ∀ t, (f t).name = t.name)
    (hc : ∀ t, (f t).columns = t.columns) (hp : ∀ t, (f t).pk = t.pk)
    (hi : ∀ t, ∀ ix ∈ t.indexes, ∃ ix' ∈ (f t).indexes, ix'.column = ix.column) (h : Taken d db) :
    Taken d (db.mapTable d.name f) := by
  rw [taken_iff] at h ⊢
  obtain ⟨h0, h1, h2, ⟨t, ht, hcol, hpk⟩, q, hq, hn⟩ := h
  refine ⟨h0, h1, h2, ⟨f t, table_map hf ht, by rw [hc]; exact hcol, by rw [hp]; exact hpk⟩,
    _, List.mem_map.2 ⟨q, hq, rfl⟩, ?_⟩
  split
  · rcases hn with hn | ⟨ix, hix, hn⟩
    · exact Or.inl (by rw [hf]; exact hn)
    · obtain ⟨ix', hix', hcc⟩ := hi q ix hix
      exact Or.inr ⟨ix', hix', by rw [hf, hcc]; exact hn⟩
  · exact hn

theorem taken_cut {d : Desc} {n : Nat} (hn : 6 ≤ n) {db : Db G B} (h : Asks d db) :
    Taken d (addGeometryTableCut d n db) := by
  obtain ⟨m, rfl⟩ := Nat.exists_eq_add_of_le hn
  unfold addGeometryTableCut
  rw [List.take_add, run_append]
  have e6 : run ((statements d).take 6) db =
      (⟨withSrs d db, withContents d db.contents, withColumn d db.geomCols, db.extensions, withIndex d [] db.tables⟩, none) := by
    obtain ⟨t, ht, hf, hpk⟩ := h.table
    have e1 : ∀ (db' : Db G B), db'.tables = db.tables → fieldStep d db' = .ok db' := by
      intro db' hd
      have : db'.table? d.name = some t := by rw [← ht]; unfold Db.table?; rw [hd]
      simp [fieldStep, this, hf]
    have e4 : ∀ (db' : Db G B), db'.tables = db.tables → pkStep d db' = .ok db' := by
      intro db' hd
      have : db'.table? d.name = some t := by rw [← ht]; unfold Db.table?; rw [hd]
      simp [pkStep, this, hpk]
    simp only [statements, List.take_succ_cons, List.take_zero]
    rw [run, srsStep_eq h.srs]
    simp only
    rw [run, e1 _ (by rfl)]
    simp only
    rw [run, contentsStep_eq (by exact h.identifier)]
    simp only
    rw [run, geomColStep_eq]
    simp only
    rw [run, e4 _ (by rfl)]
    simp only
    rw [run, rtreeStep_eq (by exact h.unused)]
    rfl
  rw [e6]
  simp only
  refine run_keep (Taken d) _ ?_ _ ?_
  · intro s hs db db' ht ho
    have hs' := List.mem_of_mem_take hs
    simp only [statements, List.drop_succ_cons, List.drop_zero, List.mem_cons, List.not_mem_nil, or_false] at hs'
    have trig : ∀ tr, trigStep d tr db = .ok db' → Taken d db' := by
      intro tr ho
      rw [(trigStep_ok ho).2.2]
      refine taken_map (fun _ => rfl) (fun _ => rfl) (fun _ => rfl) (fun t ix hix => ?_) ht
      refine ⟨_, List.mem_map.2 ⟨ix, hix, rfl⟩, ?_⟩
      split <;> rfl
    rcases hs' with rfl | rfl | rfl | rfl | rfl | rfl | rfl
    · exact trig _ ho
    · exact trig _ ho
    · exact trig _ ho
    · exact trig _ ho
    · exact trig _ ho
    · exact trig _ ho
    · rw [taken_iff] at ht ⊢
      rcases extensionStep_ok ho with rfl | ⟨-, r, -, rfl⟩
      · exact ht
      · exact ht
  · rw [taken_iff]
    obtain ⟨t, ht, hf, hpk⟩ := h.table
    have hmem := List.mem_of_find?_eq_some ht
    have hname := List.find?_some ht
    simp only [decide_eq_true_eq] at hname
    refine ⟨?_, ?_, ?_, ?_, ?_⟩
    · have := (srsStep_ok (srsStep_eq h.srs)).1
      exact this
    · simp only [withContents]
      split
      · rename_i ha
        rw [List.any_eq_true] at ha
        obtain ⟨r, hr, hk⟩ := ha
        exact ⟨r, hr, by simpa using hk⟩
      · exact ⟨contentsRow d, by simp, rfl⟩
    · simp only [withColumn]
      split
      · rename_i ha
        rw [List.any_eq_true] at ha
        obtain ⟨r, hr, hk⟩ := ha
        exact ⟨r, hr, by simpa using hk⟩
      · exact ⟨geomColRow d, by simp, rfl⟩
    · exact ⟨_, table_map (db := ⟨withSrs d db, withContents d db.contents, withColumn d db.geomCols, db.extensions, db.tables⟩)
        (f := fun t => { t with indexes := t.indexes ++ [⟨d.geometryField, [], []⟩] }) (fun _ => rfl) ht, hf, hpk⟩
    · refine ⟨_, List.mem_map.2 ⟨t, hmem, rfl⟩, Or.inr ⟨⟨d.geometryField, [], []⟩, ?_, ?_⟩⟩
      · simp [hname]
      · simp [hname]

end Verif.Lemmas.GpkgDb
