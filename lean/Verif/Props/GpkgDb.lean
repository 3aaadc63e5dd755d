import Verif.Lemmas.GpkgAdd
import Verif.Lemmas.GpkgExtent
import Verif.Props.Extent

/-!
# GeoPackage files (C144–C151)

`isEmpty` and `box` stand for the SQL functions `ST_IsEmpty` and `ST_MinX` … of the
triggers; all theorems hold whatever they are.
-/

namespace Verif.Props
open Verif Verif.GpkgDb Verif.Spec.GpkgDb Verif.Lemmas.GpkgDb Verif.Spec.Extent

variable {G B : Type}

/-! ## C144: the spatial index follows the rows -/

/-- C144 in full: whatever the user does to the rows, an index with all its triggers
that is in step with them stays so. -/
def C144_full : Prop :=
  ∀ (G B : Type) (isEmpty : G → Bool) (box : G → B) (t : Table G B) (ops : List (Op G)) (k : Nat) (ix : Index B),
    UniqueKeys t.rows → t.indexes[k]? = some ix → Watched ix → InStep isEmpty box t.rows ix →
    ∃ ix', (ops.foldl (Table.exec isEmpty box) t).indexes[k]? = some ix' ∧ ix'.column = ix.column ∧
      InStep isEmpty box (ops.foldl (Table.exec isEmpty box) t).rows ix'

/-- C144, one statement: the index is in step afterwards just if the statement is
none of the two kinds of `Slips`. -/
theorem C144_statement_partial (isEmpty : G → Bool) (box : G → B) (t : Table G B) (op : Op G) (k : Nat)
    (ix : Index B) (hu : UniqueKeys t.rows) (hk : t.indexes[k]? = some ix) (hw : Watched ix)
    (hs : InStep isEmpty box t.rows ix) :
    ∃ ix', (t.exec isEmpty box op).indexes[k]? = some ix' ∧ ix'.column = ix.column ∧ Watched ix' ∧
      (InStep isEmpty box (t.exec isEmpty box op).rows ix' ↔ ¬ Slips isEmpty ix.column t.rows op) :=
  exec_inStep hu op hk hw hs

/-- A table of the examples: numbers as geometries, the odd ones not empty, each its
own box. -/
def sampleTable : Table Nat Nat :=
  ⟨"roads", ["fid", "geom", "name"], some "fid",
    [⟨1, [("geom", 11), ("name", 5)]⟩, ⟨2, [("name", 6)]⟩, ⟨3, [("geom", 4)]⟩, ⟨4, [("geom", 13)]⟩],
    [⟨"geom", [(1, 11), (4, 13)], [.insert, .update1, .update2, .update3, .update4, .delete]⟩]⟩

/-- The empty ones of the numbers. -/
def even (n : Nat) : Bool := n % 2 == 0

theorem sampleTable_inStep : UniqueKeys sampleTable.rows ∧
    ∃ ix, sampleTable.indexes[0]? = some ix ∧ Watched ix ∧ InStep even id sampleTable.rows ix := by
  refine ⟨by unfold UniqueKeys; decide, _, rfl, by unfold Watched; decide, by decide, ?_⟩
  intro i b
  simp only [sampleTable, List.mem_cons, List.not_mem_nil, or_false, Prod.mk.injEq, exists_eq_or_imp,
    exists_eq_left, Row.get, even, id]
  constructor
  · rintro (⟨rfl, rfl⟩ | ⟨rfl, rfl⟩)
    · exact Or.inl ⟨rfl, 11, rfl, rfl, rfl⟩
    · exact Or.inr (Or.inr (Or.inr ⟨rfl, 13, rfl, rfl, rfl⟩))
  · rintro (⟨rfl, g, hg, -, rfl⟩ | ⟨rfl, g, hg, -, rfl⟩ | ⟨rfl, g, hg, he, rfl⟩ | ⟨rfl, g, hg, -, rfl⟩)
    · left; cases hg; exact ⟨rfl, rfl⟩
    · cases hg
    · cases hg; cases he
    · right; cases hg; exact ⟨rfl, rfl⟩

example : ¬ Slips even "geom" sampleTable.rows (.update 1 (some 9) [("geom", some 15)]) ∧
    ((sampleTable.exec even id (.update 1 (some 9) [("geom", some 15)])).indexes.map (·.entries)) =
      [[(4, 13), (9, 15)]] := by
  refine ⟨?_, by decide⟩
  rintro ⟨j, -, -, h, -⟩
  simp at h

/-- C144, a history: as long as no statement is one of the two kinds of `Slips` at
its time, the index stays in step. -/
theorem C144_history_partial (isEmpty : G → Bool) (box : G → B) (t : Table G B) (ops : List (Op G)) (k : Nat)
    (ix : Index B) (hu : UniqueKeys t.rows) (hk : t.indexes[k]? = some ix) (hw : Watched ix)
    (hs : InStep isEmpty box t.rows ix) (hc : Careful isEmpty box ix.column t ops) :
    ∃ ix', (ops.foldl (Table.exec isEmpty box) t).indexes[k]? = some ix' ∧ ix'.column = ix.column ∧ Watched ix' ∧
      InStep isEmpty box (ops.foldl (Table.exec isEmpty box) t).rows ix' := by
  induction ops generalizing t ix with
  | nil => exact ⟨ix, hk, rfl, hw, hs⟩
  | cons op ops ih =>
    obtain ⟨h1, h2⟩ := hc
    obtain ⟨ix1, k1, c1, w1, s1⟩ := exec_inStep hu op hk hw hs
    obtain ⟨ix2, k2, c2, w2, s2⟩ := ih _ ix1 (exec_keys hu op) k1 w1 (s1.2 h1) (by rw [c1]; exact h2)
    exact ⟨ix2, k2, c2.trans c1, w2, s2⟩

example : Careful even id "geom" sampleTable [.insert false ⟨7, [("geom", 21)]⟩, .delete 1, .delete 99,
    .insert false ⟨4, []⟩, .update 3 none [("geom", some 5), ("name", none)]] := by
  refine ⟨?_, ?_, ?_, ?_, ?_, trivial⟩
  · rintro ⟨h, -⟩; cases h
  · exact id
  · exact id
  · rintro ⟨h, -⟩; cases h
  · rintro ⟨j, h, -⟩; cases h

/-- C144 fails: `UPDATE roads SET fid = 9 WHERE fid = 1` leaves the entry of the old
key in the index and makes none for the new one, because the trigger for this case
is `AFTER UPDATE OF` the geometry column (gpkg.go:400). -/
theorem C144_violated : ¬ C144_full := by
  intro h
  obtain ⟨hu, ix, hk, hw, hs⟩ := sampleTable_inStep
  obtain ⟨ix', hk', -, -, hin⟩ := h Nat Nat even id sampleTable [.update 1 (some 9) []] 0 ix hu hk hw hs
  have : ix' = ⟨"geom", [(1, 11), (4, 13)], [.insert, .update1, .update2, .update3, .update4, .delete]⟩ := by
    have he : (([.update 1 (some 9) []] : List (Op Nat)).foldl (Table.exec even id) sampleTable).indexes[0]? =
      some ⟨"geom", [(1, 11), (4, 13)], [.insert, .update1, .update2, .update3, .update4, .delete]⟩ := by decide
    rw [he] at hk'
    cases hk'
    rfl
  subst this
  obtain ⟨r, hr, hi, -⟩ := (hin 1 11).1 (by decide)
  have hall : ∀ r ∈ (([.update 1 (some 9) []] : List (Op Nat)).foldl (Table.exec even id) sampleTable).rows,
      r.id ≠ 1 := by decide
  exact hall r hr hi

/-- C144 fails in the other case as well: `INSERT OR REPLACE` of a row without a
geometry leaves the entry of the row it replaces. -/
theorem C144_replace_violated :
    ∃ ix', (sampleTable.exec even id (.insert true ⟨4, []⟩)).indexes[0]? = some ix' ∧
      (4, 13) ∈ ix'.entries ∧
      ∀ r ∈ (sampleTable.exec even id (.insert true ⟨4, []⟩)).rows, r.id = 4 → r.get "geom" = none :=
  ⟨_, rfl, by decide, by decide⟩

/-! ## C145: what AddGeometryTable leaves behind -/

/-- The one index that `AddGeometryTable` makes. -/
def newIndex (d : Desc) : Index B :=
  ⟨d.geometryField, [], [.insert, .update1, .update2, .update3, .update4, .delete]⟩

/-- C145 in full: a successful call leaves the table with its rows and an index that
is in step with them, and the metadata say of the table what was given. -/
def C145_full : Prop :=
  ∀ (G B : Type) (isEmpty : G → Bool) (box : G → B) (d : Desc) (db db' : Db G B) (t : Table G B),
    db.table? d.name = some t → addGeometryTable d db = (db', none) →
    (∃ t' ix, db'.table? d.name = some t' ∧ t'.rows = t.rows ∧ ix ∈ t'.indexes ∧ ix.column = d.geometryField ∧
      Watched ix ∧ InStep isEmpty box t'.rows ix) ∧
    (∃ r ∈ db'.contents, r.tableName = d.name ∧ r.identifier = d.shortName ∧ r.description = d.description ∧
      r.srsId = d.srs) ∧
    ∃ r ∈ db'.geomCols, r.tableName = d.name ∧ r.columnName = d.geometryField ∧ r.srsId = d.srs ∧
      r.geometryType = geometryTypeName d.geometryType ∧ r.z = d.z ∧ r.m = d.m

/-- C145, the tables: the table of that name gets one index with all six triggers
and no entries; nothing else about the tables changes. -/
theorem C145_tables_partial (d : Desc) (db db' : Db G B) (h : addGeometryTable d db = (db', none)) :
    db'.tables = db.tables.map (fun t =>
      if t.name = d.name then { t with indexes := t.indexes ++ [newIndex d] } else t) ∧
    ∀ t ∈ db.tables, t.name = d.name → ∀ ix ∈ t.indexes, ix.column ≠ d.geometryField := by
  have ha : Asks d db := (add_none_iff d db).1 (by rw [h])
  rw [add_eq ha] at h
  cases h
  refine ⟨rfl, fun t ht hn ix hix hc => ?_⟩
  exact (ha.unused t ht).2 ix hix (by rw [hn, hc])

/-- C145, the index: it is in step with the rows just if none of them has a geometry
that is not empty. -/
theorem C145_index_partial (isEmpty : G → Bool) (box : G → B) (d : Desc) (db db' : Db G B) (t : Table G B)
    (ht : db.table? d.name = some t) (h : addGeometryTable d db = (db', none)) :
    ∃ t', db'.table? d.name = some t' ∧ t'.rows = t.rows ∧ t'.indexes[t.indexes.length]? = some (newIndex d) ∧
      Watched (newIndex (B := B) d) ∧
      (InStep isEmpty box t'.rows (newIndex d) ↔ ∀ r ∈ t.rows, ¬ Visible isEmpty d.geometryField r) := by
  have ha : Asks d db := (add_none_iff d db).1 (by rw [h])
  rw [add_eq ha] at h
  cases h
  have htab := table_map (f := fun t : Table G B => { t with indexes := t.indexes ++ [newIndex d] })
    (fun _ => rfl) ht
  refine ⟨_, htab, rfl, by simp, List.Perm.refl _, ?_⟩
  constructor
  · rintro ⟨-, hin⟩ r hr ⟨g, hg, he⟩
    have := (hin r.id (box g)).2 ⟨r, hr, rfl, g, hg, he, rfl⟩
    simp [newIndex] at this
  · intro hv
    refine ⟨List.nodup_nil, fun i b => ⟨fun hm => by simp [newIndex] at hm, ?_⟩⟩
    rintro ⟨r, hr, -, g, hg, he, -⟩
    exact absurd ⟨g, hg, he⟩ (hv r hr)

/-- C145, the metadata: they say what was given if the table was not in them
before, and what they said before otherwise. -/
theorem C145_metadata_partial (d : Desc) (db db' : Db G B) (h : addGeometryTable d db = (db', none)) :
    db'.contents = db.contents ++ (if ∃ r ∈ db.contents, r.tableName = d.name then [] else
      [⟨d.name, "features", d.shortName, d.description, none, none, none, none, d.srs⟩]) ∧
    db'.geomCols = db.geomCols ++ (if ∃ r ∈ db.geomCols, r.tableName = d.name then [] else
      [⟨d.name, d.geometryField, geometryTypeName d.geometryType, d.srs, d.z, d.m⟩]) ∧
    (∃ r ∈ db'.extensions, r.tableName = d.name ∧ r.columnName = d.geometryField ∧
      r.extensionName = "gpkg_rtree_index") ∧
    HasSrs db' d.srs := by
  have ha : Asks d db := (add_none_iff d db).1 (by rw [h])
  rw [add_eq ha] at h
  cases h
  refine ⟨?_, ?_, ?_, ?_⟩
  · simp only [finished, withContents, List.any_eq_true, decide_eq_true_eq]
    split
    · simp
    · rfl
  · simp only [finished, withColumn, List.any_eq_true, decide_eq_true_eq]
    split
    · simp
    · rfl
  · simp only [finished, withExtension]
    split
    · rename_i hx
      rw [List.any_eq_true] at hx
      obtain ⟨r, hr, hk⟩ := hx
      simp only [Bool.and_eq_true, decide_eq_true_eq] at hk
      exact ⟨r, hr, hk.1.1, hk.1.2, hk.2⟩
    · exact ⟨_, List.mem_append_right _ (List.mem_singleton.2 rfl), rfl, rfl, rfl⟩
  · exact (srsStep_ok (srsStep_eq ha.srs)).1

/-- The file of the examples: a table with geometries and no metadata yet. -/
def sampleDb : Db Nat Nat :=
  initHandle knownSRS ⟨[], [], [], [], [⟨"roads", ["fid", "geom", "alt"], some "fid",
    [⟨1, [("geom", 11)]⟩, ⟨2, []⟩], []⟩, ⟨"rail", ["fid", "geom"], some "fid", [], []⟩]⟩

/-- A description that fits. -/
def roads : Desc := ⟨"roads", "roads", "all roads", "geom", 2, 4326, 0, 0⟩

/-- A description that fits as well. -/
def rail : Desc := ⟨"rail", "rail", "all rails", "geom", 2, 3857, 0, 0⟩

example : (addGeometryTable rail sampleDb).2 = none ∧ (addGeometryTable roads sampleDb).2 = none := by
  decide +kernel

/-- C145 fails: the geometries that are in the table already do not get into the
index. -/
theorem C145_violated : ¬ C145_full := by
  intro h
  have hadd : (addGeometryTable roads sampleDb).2 = none := by decide +kernel
  obtain ⟨⟨t', ix, ht', hrows, hix, -, -, hin⟩, -⟩ := h Nat Nat even id roads sampleDb (addGeometryTable roads sampleDb).1
    ⟨"roads", ["fid", "geom", "alt"], some "fid", [⟨1, [("geom", 11)]⟩, ⟨2, []⟩], []⟩ (by decide +kernel)
    (by rw [← hadd])
  have he : (addGeometryTable roads sampleDb).1.table? roads.name = some
      ⟨"roads", ["fid", "geom", "alt"], some "fid", [⟨1, [("geom", 11)]⟩, ⟨2, []⟩],
        [⟨"geom", [], [.insert, .update1, .update2, .update3, .update4, .delete]⟩]⟩ := by decide +kernel
  rw [he] at ht'
  cases ht'
  rw [List.mem_singleton] at hix
  subst hix
  have := (hin.2 1 11).2 ⟨⟨1, [("geom", 11)]⟩, by decide, rfl, 11, rfl, rfl, rfl⟩
  simp at this

/-- C145 fails for a second geometry column as well: the call succeeds, but the
metadata go on naming the first column only. -/
theorem C145_second_column_violated :
    let db := (addGeometryTable roads sampleDb).1
    (addGeometryTable { roads with geometryField := "alt" } db).2 = none ∧
    ∀ r ∈ (addGeometryTable { roads with geometryField := "alt" } db).1.geomCols,
      r.tableName = "roads" → r.columnName = "geom" := by
  decide +kernel

/-- C145 and C144 together: a table without geometries at the time of the call,
and filled with care afterwards, has an index in step with its rows. -/
theorem C145_index_lasts_partial (isEmpty : G → Bool) (box : G → B) (d : Desc) (db db' : Db G B) (t : Table G B)
    (ops : List (Op G)) (ht : db.table? d.name = some t) (h : addGeometryTable d db = (db', none))
    (hu : UniqueKeys t.rows) (hv : ∀ r ∈ t.rows, ¬ Visible isEmpty d.geometryField r) :
    ∃ t', db'.table? d.name = some t' ∧ (Careful isEmpty box d.geometryField t' ops →
      ∃ ix ∈ (ops.foldl (Table.exec isEmpty box) t').indexes, ix.column = d.geometryField ∧
        InStep isEmpty box (ops.foldl (Table.exec isEmpty box) t').rows ix) := by
  obtain ⟨t', h1, h2, h3, h4, h5⟩ := C145_index_partial isEmpty box d db db' t ht h
  refine ⟨t', h1, fun hc => ?_⟩
  obtain ⟨ix, k1, c1, -, s1⟩ := C144_history_partial isEmpty box t' ops _ _ (by rw [h2]; exact hu) h3 h4
    (h5.2 hv) hc
  exact ⟨ix, List.mem_of_getElem? k1, c1, s1⟩

example : sampleDb.table? rail.name = some ⟨"rail", ["fid", "geom"], some "fid", [], []⟩ ∧
    Careful even id "geom" ⟨"rail", ["fid", "geom"], some "fid", [], [newIndex rail]⟩
      [.insert false ⟨7, [("geom", 21)]⟩, .delete 7] := by
  refine ⟨by decide +kernel, ?_, ?_, trivial⟩
  · rintro ⟨h, -⟩; cases h
  · exact id

/-! ## C146: when AddGeometryTable succeeds -/

/-- The description fits the file: the system is there or known, the table has the
column and a primary key, and the table is not registered yet. -/
def Fitting (d : Desc) (db : Db G B) : Prop :=
  (HasSrs db d.srs ∨ ∃ s ∈ knownSRS, s.id = d.srs) ∧
  (∃ t, db.table? d.name = some t ∧ d.geometryField ∈ t.columns ∧ t.pk.isSome = true ∧ t.indexes = []) ∧
  (∀ r ∈ db.contents, r.tableName ≠ d.name) ∧ (∀ r ∈ db.contents, r.identifier ≠ d.shortName) ∧
  ∀ r ∈ db.geomCols, r.tableName ≠ d.name

/-- C146 in full: the call succeeds for every description that fits. -/
def C146_full : Prop :=
  ∀ (G B : Type) (d : Desc) (db : Db G B), Fitting d db → (addGeometryTable d db).2 = none

/-- C146, exactly when: besides what it should ask for, the call needs names without
letters that want quotes and that no table or index has the name of the new one. -/
theorem C146_succeeds_iff_partial (d : Desc) (db : Db G B) :
    (addGeometryTable d db).2 = none ↔
      (HasSrs db d.srs ∨ ∃ s ∈ knownSRS, s.id = d.srs) ∧
      (∃ t, db.table? d.name = some t ∧ d.geometryField ∈ t.columns ∧ t.pk.isSome = true) ∧
      ((∃ r ∈ db.contents, r.tableName = d.name) ∨ ∀ r ∈ db.contents, r.identifier ≠ d.shortName) ∧
      (∀ t ∈ db.tables, t.name ≠ "rtree_" ++ d.name ++ "_" ++ d.geometryField ∧ ∀ ix ∈ t.indexes,
        "rtree_" ++ t.name ++ "_" ++ ix.column ≠ "rtree_" ++ d.name ++ "_" ++ d.geometryField) ∧
      ∀ c ∈ d.name.toList ++ d.geometryField.toList, plainChar c = true := by
  rw [add_none_iff]
  constructor
  · rintro ⟨h1, h2, h3, h4, h5⟩
    refine ⟨h1, h2, h3, h4, ?_⟩
    intro c hc
    rcases List.mem_append.1 hc with hc | hc
    · exact h5.1 c hc
    · exact h5.2 c hc
  · rintro ⟨h1, h2, h3, h4, h5⟩
    exact ⟨h1, h2, h3, h4, fun c hc => h5 c (List.mem_append_left _ hc), fun c hc => h5 c (List.mem_append_right _ hc)⟩

/-- C146 fails: a table named with a space is refused. -/
theorem C146_violated : ¬ C146_full := by
  intro h
  let db : Db Nat Nat := initHandle knownSRS ⟨[], [], [], [], [⟨"my roads", ["fid", "geom"], some "fid", [], []⟩]⟩
  have := h Nat Nat { roads with name := "my roads" } db ⟨Or.inr ?_, ?_, by decide +kernel, by decide +kernel, by decide +kernel⟩
  · revert this; decide +kernel
  · decide +kernel
  · exact ⟨⟨"my roads", ["fid", "geom"], some "fid", [], []⟩, by decide +kernel⟩

/-- C146 fails for plain names as well: column `c` of table `a_b` and column `b_c`
of table `a` have indexes of the same name, so that the second call is refused. -/
theorem C146_clash_violated :
    let db : Db Nat Nat := initHandle knownSRS ⟨[], [], [], [],
      [⟨"a_b", ["fid", "c"], some "fid", [], []⟩, ⟨"a", ["fid", "b_c"], some "fid", [], []⟩]⟩
    let d1 : Desc := ⟨"a_b", "first", "", "c", 1, 0, 0, 0⟩
    let d2 : Desc := ⟨"a", "second", "", "b_c", 1, 0, 0, 0⟩
    (addGeometryTable d1 db).2 = none ∧ (addGeometryTable d2 db).2 = none ∧
      (addGeometryTable d2 (addGeometryTable d1 db).1).2 = some .nameExists := by
  decide +kernel

/-! ## C147: again after a crash -/

/-- C147 in full: a call that was stopped by a crash can be made again. -/
def C147_full : Prop :=
  ∀ (G B : Type) (d : Desc) (n : Nat) (db : Db G B), (addGeometryTable d db).2 = none →
    addGeometryTable d (addGeometryTableCut d n db) = addGeometryTable d db

/-- C147, stopped before the index was made: the second call does what the first
would have done, errors included. -/
theorem C147_early_partial (d : Desc) (n : Nat) (hn : n ≤ 5) (db : Db G B) :
    addGeometryTable d (addGeometryTableCut d n db) = addGeometryTable d db :=
  settled_cut d n hn db

example : addGeometryTableCut roads 3 sampleDb ≠ sampleDb := by decide +kernel

/-- C147, stopped later, or not at all: every further call fails and changes
nothing, so the file keeps the index with those triggers it has. -/
theorem C147_late_partial (d : Desc) (n : Nat) (hn : 6 ≤ n) (db : Db G B)
    (h : (addGeometryTable d db).2 = none) :
    addGeometryTable d (addGeometryTableCut d n db) = (addGeometryTableCut d n db, some .nameExists) :=
  taken_add (taken_cut hn ((add_none_iff d db).1 h))

example : ((addGeometryTableCut rail 8 sampleDb).table? "rail").map (fun t => t.indexes.map (·.trigs)) =
    some [[.insert, .update1]] := by decide +kernel

/-- C147 fails: after a stop in the middle of the triggers no call finishes the
work. -/
theorem C147_violated : ¬ C147_full := by
  intro h
  have hadd : (addGeometryTable rail sampleDb).2 = none := by decide +kernel
  have h1 := h Nat Nat rail 8 sampleDb hadd
  rw [C147_late_partial rail 8 (by decide) sampleDb hadd] at h1
  rw [← h1] at hadd
  cases hadd

/-! ## C148: the metadata tables stay consistent -/

/-- C148: in a file made by the package, after any actions and crashes, the
references of the metadata tables lead to rows that exist, and their keys and
identifiers are unique. -/
theorem C148_metadata_sound (isEmpty : G → Bool) (box : G → B) (known : List Srs) (tables : List (Table G B))
    (actions : List (Action G B)) :
    Sound (actions.foldl (perform isEmpty box) (initHandle known ⟨[], [], [], [], tables⟩)) := by
  have h0 : Sound (initHandle known (⟨[], [], [], [], tables⟩ : Db G B)) := by
    refine Sound.updateSRS ?_ known
    constructor <;> simp
  revert h0
  generalize initHandle known (⟨[], [], [], [], tables⟩ : Db G B) = db
  intro h0
  induction actions generalizing db with
  | nil => exact h0
  | cons a actions ih =>
    refine ih _ ?_
    cases a with
    | updateSRS srss => exact h0.updateSRS srss
    | addGeometryTable d => exact add_sound d h0
    | addGeometryTableCut d n => exact cut_sound d n h0
    | updateGeometryExtent name e => exact extent_sound name e h0
    | createTable t => exact h0.tables _
    | row name op => exact h0.tables _

example : ([.addGeometryTable roads, .addGeometryTableCut rail 9, .updateSRS [⟨"x", 7, "x", 7, "", ""⟩],
    .row "roads" (.delete 1)].foldl (perform even id) sampleDb).geomCols.length = 2 := by decide +kernel

/-! ## C149: UpdateSRS -/

/-- C149 in full ("UpdateSRS will insert or update"): afterwards the file has what
was given. -/
def C149_full : Prop :=
  ∀ (G B : Type) (db : Db G B) (srss : List Srs), (srss.map (·.id)).Nodup →
    ∀ s ∈ srss, s ∈ (updateSRS db srss).srs

/-- C149: what the file has for a number afterwards is what it had before, or else
the first that was given for it; nothing but the systems changes. -/
theorem C149_first_wins_partial (db : Db G B) (srss : List Srs) (i : Int) :
    (updateSRS db srss).srs.find? (fun r => decide (r.id = i)) =
      (db.srs.find? (fun r => decide (r.id = i))).or (srss.find? fun r => decide (r.id = i)) :=
  foldl_insertSrs_find srss db.srs i

/-- C149: the systems in the file stay as they are, in their order. -/
theorem C149_kept_partial (db : Db G B) (srss : List Srs) :
    db.srs <+: (updateSRS db srss).srs ∧
    { updateSRS db srss with srs := db.srs } = db :=
  ⟨foldl_insertSrs_sub srss db.srs, rfl⟩

/-- C149: opening a file again, in whatever order the known systems come, changes
nothing. -/
theorem C149_open_again_partial (known known' : List Srs) (db : Db G B) (h : ∀ s ∈ known', ∃ q ∈ known, q.id = s.id) :
    initHandle known' (initHandle known db) = initHandle known db := by
  have key : ∀ (l : List Srs) (rows : List Srs), (∀ s ∈ l, ∃ q ∈ rows, q.id = s.id) → l.foldl insertSrs rows = rows := by
    intro l
    induction l with
    | nil => intro rows _; rfl
    | cons s l ih =>
      intro rows hr
      obtain ⟨q, hq, hi⟩ := hr s (by simp)
      have : insertSrs rows s = rows := by
        rw [insertSrs, if_pos (List.any_eq_true.2 ⟨q, hq, by simpa using hi⟩)]
      rw [List.foldl_cons, this]
      exact ih rows (fun s hs => hr s (by simp [hs]))
  have hin : ∀ (l rows : List Srs), ∀ s ∈ l, ∃ q ∈ l.foldl insertSrs rows, q.id = s.id := by
    intro l
    induction l with
    | nil => intro rows s hs; cases hs
    | cons a l ih =>
      intro rows s hs
      rcases List.mem_cons.1 hs with rfl | hs
      · obtain ⟨q, hq, hi⟩ := insertSrs_has rows s
        exact ⟨q, (foldl_insertSrs_sub l _).subset hq, hi⟩
      · exact ih _ s hs
  unfold initHandle updateSRS
  simp only
  rw [key known' (known.foldl insertSrs db.srs)]
  intro s hs
  obtain ⟨q, hq, hi⟩ := h s hs
  obtain ⟨q', hq', hi'⟩ := hin known db.srs q hq
  exact ⟨q', hq', hi'.trans hi⟩

example : ∀ s ∈ knownSRS.reverse, ∃ q ∈ knownSRS, q.id = s.id := by decide

/-- C149 fails: a system that is in the file already is not updated. -/
theorem C149_violated : ¬ C149_full := by
  intro h
  have := h Nat Nat sampleDb [⟨"WGS 84", 4326, "epsg", 4326, "better", ""⟩] (by decide) _ (List.mem_singleton.2 rfl)
  revert this
  decide +kernel

/-! ## C150: UpdateGeometryExtent -/

/-- C150: after any calls with extents in order, a table without bounds at first has
the least box around the extents given for it, or still no bounds if there are none;
its other columns are as before. -/
theorem C150_extent_is_union (db : Db G B) (calls : List (String × Option Ext)) (name : String) (r : Contents)
    (hr : db.contents.find? (fun r => decide (r.tableName = name)) = some r)
    (hnull : r.minX = none ∧ r.minY = none ∧ r.maxX = none ∧ r.maxY = none)
    (hv : ∀ e ∈ given calls name, (Ext.box e).valid) :
    ∃ r', (calls.foldl (fun db c => (updateGeometryExtent c.1 c.2 db).1) db).contents.find?
        (fun r => decide (r.tableName = name)) = some r' ∧
      r' = { r with minX := r'.minX, minY := r'.minY, maxX := r'.maxX, maxY := r'.maxY } ∧
      (given calls name = [] → r' = r) ∧
      (given calls name ≠ [] → ∃ b, bounds r' = some b ∧ b.valid ∧
        ∀ B, b.within B ↔ ∀ e ∈ given calls name, (Ext.box e).within B) := by
  obtain ⟨r', h1, h2, h3, h4⟩ := history_holds calls name db [] hv hr (Or.inl ⟨rfl, hnull⟩)
  refine ⟨r', h1, h2, h3, fun hne => ?_⟩
  rcases h4 with ⟨h, -⟩ | h
  · exact absurd (by simpa using h) hne
  · simpa using h

example : given [("roads", some ⟨f1, f1, f2, f3⟩), ("rail", none), ("roads", some ⟨F64.zero, f2, f2, f2⟩)] "roads" =
    [⟨f1, f1, f2, f3⟩, ⟨F64.zero, f2, f2, f2⟩] := by decide

/-- C150: bounds that were there before are kept in the box. -/
theorem C150_extent_grows (db : Db G B) (calls : List (String × Option Ext)) (name : String) (r : Contents)
    (b0 : Box) (hr : db.contents.find? (fun r => decide (r.tableName = name)) = some r)
    (hb : bounds r = some b0) (hb0 : b0.valid) (hv : ∀ e ∈ given calls name, (Ext.box e).valid) :
    ∃ r' b, (calls.foldl (fun db c => (updateGeometryExtent c.1 c.2 db).1) db).contents.find?
        (fun r => decide (r.tableName = name)) = some r' ∧ bounds r' = some b ∧
      ∀ B, b.within B ↔ b0.within B ∧ ∀ e ∈ given calls name, (Ext.box e).within B := by
  obtain ⟨r', h1, -, -, h4⟩ := history_holds calls name db [⟨b0.left, b0.bottom, b0.right, b0.top⟩] hv hr
    (Or.inr ⟨b0, hb, hb0, fun B => by simp [Ext.box]⟩)
  rcases h4 with ⟨h, -⟩ | ⟨b, hb, -, hw⟩
  · simp at h
  · refine ⟨r', b, h1, hb, fun B => ?_⟩
    rw [hw B]
    simp [Ext.box]

example : bounds ⟨"roads", "features", "roads", "", some f1, some f1, some f2, some f3, 0⟩ = some ⟨f1, f1, f2, f3⟩ ∧
    (⟨f1, f1, f2, f3⟩ : Box).valid := ⟨rfl, by decide⟩

/-- C150: a nil extent is no error and changes nothing; a table that is not in the
metadata is an error and changes nothing; otherwise the call succeeds, and the rest
of the file is as before. -/
theorem C150_call (db : Db G B) (name : String) (e : Option Ext) :
    { (updateGeometryExtent name e db).1 with contents := db.contents } = db ∧
    (e = none → updateGeometryExtent name e db = (db, none)) ∧
    (∀ x, e = some x → (∀ r ∈ db.contents, r.tableName ≠ name) →
      updateGeometryExtent name e db = (db, some .noRows)) ∧
    ((∃ r ∈ db.contents, r.tableName = name) → (updateGeometryExtent name e db).2 = none) ∧
    ∀ other, other ≠ name → (updateGeometryExtent name e db).1.contents.find? (fun r => decide (r.tableName = other)) =
      db.contents.find? (fun r => decide (r.tableName = other)) := by
  refine ⟨?_, ?_, ?_, ?_, ?_⟩
  · unfold updateGeometryExtent
    split
    · rfl
    · split <;> rfl
  · rintro rfl; rfl
  · rintro x rfl hn
    have : db.contents.find? (fun r => decide (r.tableName = name)) = none := by
      rw [List.find?_eq_none]
      intro r hr
      simpa using hn r hr
    simp [updateGeometryExtent, this]
  · rintro ⟨r, hr, hk⟩
    unfold updateGeometryExtent
    split
    · rfl
    · split
      · rename_i hf
        rw [List.find?_eq_none] at hf
        exact absurd hk (by simpa using hf r hr)
      · rfl
  · intro other ho
    rw [find_update]
    cases e with
    | none => simp
    | some e => simp [ho]

example : (updateGeometryExtent "nowhere" (some ⟨f1, f1, f2, f3⟩) sampleDb).2 = some .noRows := by decide +kernel

/-- C150: a table without bounds gets each of the bounds of the extent as it is, but a
bound that is not a number is left null. -/
theorem C150_nan (db : Db G B) (name : String) (e : Ext) (r : Contents)
    (hr : db.contents.find? (fun r => decide (r.tableName = name)) = some r) (hnull : r.minX = none) :
    ∃ r', (updateGeometryExtent name (some e) db).1.contents.find? (fun r => decide (r.tableName = name)) = some r' ∧
      ∀ f, (r'.minX = some f ↔ f = e.minx ∧ f.isNaN = false) ∧ (r'.minY = some f ↔ f = e.miny ∧ f.isNaN = false) ∧
        (r'.maxX = some f ↔ f = e.maxx ∧ f.isNaN = false) ∧ (r'.maxY = some f ↔ f = e.maxy ∧ f.isNaN = false) := by
  have hs : ∀ a f : F64, stored a = some f ↔ f = a ∧ f.isNaN = false := by
    intro a f
    unfold stored
    split_ifs with h
    · refine ⟨fun h => (by cases h), ?_⟩
      rintro ⟨rfl, h'⟩
      rw [h] at h'; cases h'
    · rw [Option.some.injEq]
      constructor
      · rintro rfl; exact ⟨rfl, by simpa using h⟩
      · rintro ⟨rfl, _⟩; rfl
  refine ⟨rewritten r e, ?_, fun f => ⟨hs _ _, hs _ _, hs _ _, hs _ _⟩⟩
  rw [find_update, hr]
  simp [grown, hnull]

example : ((updateGeometryExtent "roads" (some ⟨0x7FF8000000000001#64, f1, f2, f3⟩)
    ({ sampleDb with contents := [⟨"roads", "features", "roads", "", none, none, none, none, 0⟩] })).1.contents.map
      fun r => (r.minX, r.minY)) = [(none, some f1)] := by decide +kernel

/-! ## C151: CalculateGeometryExtent -/

/-- C151 in full: the extent is the tightest box around the numeric vertices of the
geometries of the table that can be read, and nil if there are none. -/
def C151_full : Prop :=
  ∀ (B : Type) (name : String) (db : Db (List Byte) B) (r : GeomCol) (t : Table (List Byte) B),
    db.geomCols.find? (fun r => decide (r.tableName = name)) = some r → db.table? name = some t →
    r.columnName ∈ t.columns →
    ∃ x, calculateGeometryExtent name db = .ok x ∧
      (x = none ↔ points (readable (t.rows.map (·.get r.columnName))) = []) ∧
      ∀ e, x = some e → Tight (Ext.box e) (points (readable (t.rows.map (·.get r.columnName))))

/-- C151 for tables none of whose geometries has both numbers and NaN in its
vertices: rows that are NULL or no geometry do no harm, though the error of reading
them is dropped and the geometry before them looked at again. -/
theorem C151_extent_partial (name : String) (db : Db (List Byte) B) (r : GeomCol) (t : Table (List Byte) B)
    (hr : db.geomCols.find? (fun r => decide (r.tableName = name)) = some r) (ht : db.table? name = some t)
    (hc : r.columnName ∈ t.columns)
    (hn : ∀ g ∈ readable (t.rows.map (·.get r.columnName)), (∃ p ∈ verticesOf g, numPt p) →
      ∀ p ∈ verticesOf g, numPt p) :
    ∃ x, calculateGeometryExtent name db = .ok x ∧
      (x = none ↔ points (readable (t.rows.map (·.get r.columnName))) = []) ∧
      ∀ e, x = some e → Tight (Ext.box e) (points (readable (t.rows.map (·.get r.columnName)))) := by
  refine ⟨extentLoop none none (t.rows.map fun row => row.get r.columnName),
    by simp only [calculateGeometryExtent, hr, ht, hc, if_true], ?_⟩
  have hfit := extentLoop_fits (t.rows.map fun row => row.get r.columnName) none none [] (Or.inl ⟨rfl, rfl⟩)
    (by intro g hg; cases hg) (by
      intro g hg he
      refine hn g hg ?_
      by_contra hno
      push Not at hno
      have hk : known g = true := by
        rw [readable, List.mem_filterMap] at hg
        obtain ⟨v, -, hv⟩ := hg
        cases v with
        | none => cases hv
        | some bytes =>
          simp only [Option.bind_some] at hv
          cases hd : Gpkg.decodeGeometry bytes with
          | error e => rw [hd] at hv; cases hv
          | ok b =>
            rw [hd] at hv
            have : b.geometry = g := by simpa [Except.toOption] using hv
            rw [← this]
            exact decode_known hd
      rw [(Gpkg.isEmptyGeo_iff g hk).2 hno] at he
      cases he)
  rw [List.nil_append] at hfit
  constructor
  · rcases hfit with ⟨h1, h2⟩ | ⟨e, h1, h2, -⟩
    · simp [h1, h2]
    · simp [h1, h2]
  · intro e he
    rw [he] at hfit
    exact fits_tight hfit

/-- A point as it is stored in a file: header and WKB. -/
def storedPoint (x y : List Byte) : List Byte :=
  [0x47#8, 0x50#8, 0#8, 1#8, 0#8, 0#8, 0#8, 0#8, 1#8, 1#8, 0#8, 0#8, 0#8] ++ x ++ y

/-- The bytes of 1. -/
def oneBytes : List Byte := [0#8, 0#8, 0#8, 0#8, 0#8, 0#8, 0xF0#8, 0x3F#8]

/-- The bytes of NaN. -/
def nanBytes : List Byte := [0#8, 0#8, 0#8, 0#8, 0#8, 0#8, 0xF8#8, 0x7F#8]

/-- A table with a point, a NULL and a text in its geometry column. -/
def sampleFile (v : List Byte) : Db (List Byte) Nat :=
  ⟨knownSRS, [⟨"pois", "features", "pois", "", none, none, none, none, 0⟩], [⟨"pois", "geom", "GEOMETRY", 0, 0, 0⟩], [],
    [⟨"pois", ["fid", "geom"], some "fid", [⟨1, [("geom", v)]⟩, ⟨2, []⟩, ⟨3, [("geom", [0x41#8])]⟩], []⟩]⟩

example : (match calculateGeometryExtent "pois" (sampleFile (storedPoint oneBytes oneBytes)) with
    | .ok x => x
    | .error _ => none) = some ⟨f1, f1, f1, f1⟩ := by decide +kernel

/-- Two points, one of them NaN, 1. -/
def storedNaN : List Byte :=
  [0x47#8, 0x50#8, 0#8, 1#8, 0#8, 0#8, 0#8, 0#8, 1#8, 2#8, 0#8, 0#8, 0#8, 2#8, 0#8, 0#8, 0#8] ++
    oneBytes ++ oneBytes ++ nanBytes ++ oneBytes

/-- C151 fails: one vertex that is not a number makes the extent of the table NaN. -/
theorem C151_violated : ¬ C151_full := by
  intro h
  obtain ⟨x, h1, -, h3⟩ := h Nat "pois" (sampleFile storedNaN) ⟨"pois", "geom", "GEOMETRY", 0, 0, 0⟩
    ⟨"pois", ["fid", "geom"], some "fid", [⟨1, [("geom", storedNaN)]⟩, ⟨2, []⟩, ⟨3, [("geom", [0x41#8])]⟩], []⟩
    (by decide +kernel) (by decide +kernel) (by decide +kernel)
  have hx : (match calculateGeometryExtent "pois" (sampleFile storedNaN) with
      | .ok x => x.map (·.minx.isNaN)
      | .error _ => none) = some true := by decide +kernel
  rw [h1] at hx
  cases x with
  | none => cases hx
  | some e =>
    have hp : (f1, f1) ∈ points (readable ([⟨1, [("geom", storedNaN)]⟩, ⟨2, []⟩, ⟨3, [("geom", [0x41#8])]⟩].map
        (fun r : Row (List Byte) => r.get "geom"))) := by decide +kernel
    have := ((h3 e rfl).1 _ hp).1
    rw [F64.le_iff] at this
    simp only [Option.map_some, Option.some.injEq] at hx
    simp only [Ext.box] at this
    rw [hx] at this
    cases this.1

/-- C151: a table that is not in the metadata is an error. -/
theorem C151_unknown (name : String) (db : Db (List Byte) B) (h : ∀ r ∈ db.geomCols, r.tableName ≠ name) :
    calculateGeometryExtent name db = .error .noRows := by
  have : db.geomCols.find? (fun r => decide (r.tableName = name)) = none := by
    rw [List.find?_eq_none]
    intro r hr
    simpa using h r hr
  simp [calculateGeometryExtent, this]

example : ∀ r ∈ (sampleFile []).geomCols, r.tableName ≠ "roads" := by decide

end Verif.Props
