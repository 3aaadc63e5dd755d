import Verif.Model.GpkgDb
import Verif.Spec.Extent

/-!
# What is expected of a GeoPackage file
-/

namespace Verif.Spec.GpkgDb
open Verif Verif.GpkgDb

variable {G B : Type}

/-- The row has a geometry in the column that is not empty. -/
def Visible (isEmpty : G → Bool) (c : String) (r : Row G) : Prop :=
  ∃ g, r.get c = some g ∧ isEmpty g = false

/-- The index has just one entry for each row with a geometry that is not empty: the
key of the row with the box of its geometry. -/
def InStep (isEmpty : G → Bool) (box : G → B) (rows : List (Row G)) (ix : Index B) : Prop :=
  (ix.entries.map (·.1)).Nodup ∧
  ∀ i b, (i, b) ∈ ix.entries ↔
    ∃ r ∈ rows, r.id = i ∧ ∃ g, r.get ix.column = some g ∧ isEmpty g = false ∧ b = box g

/-- The keys of the rows are all different. -/
def UniqueKeys (rows : List (Row G)) : Prop := (rows.map (·.id)).Nodup

/-- All six triggers are there, in any order. -/
def Watched (ix : Index B) : Prop :=
  ix.trigs.Perm [.insert, .update1, .update2, .update3, .update4, .delete]

/-- The two kinds of statements the triggers do not keep up with: one that changes
the key of a row with a non-empty geometry without naming the geometry column, and
one that replaces such a row by one without a geometry. -/
def Slips (isEmpty : G → Bool) (c : String) (rows : List (Row G)) : Op G → Prop
  | .insert replace row =>
    replace = true ∧ ¬ Visible isEmpty c row ∧ ∃ r ∈ rows, r.id = row.id ∧ Visible isEmpty c r
  | .update id newId set =>
    ∃ j, newId = some j ∧ j ≠ id ∧ c ∉ set.map (·.1) ∧ (∀ r ∈ rows, r.id ≠ j) ∧
      ∃ r ∈ rows, r.id = id ∧ Visible isEmpty c r
  | .delete _ => False

/-- No statement of the history slips at its time. -/
def Careful (isEmpty : G → Bool) (box : G → B) (c : String) : Table G B → List (Op G) → Prop
  | _, [] => True
  | t, op :: ops => ¬ Slips isEmpty c t.rows op ∧ Careful isEmpty box c (t.exec isEmpty box op) ops

/-- The system with that number is in the file. -/
def HasSrs (db : Db G B) (i : Int) : Prop := ∃ s ∈ db.srs, s.id = i

/-- The rules of the metadata tables: the references lead somewhere and the keys are
different. -/
structure Sound (db : Db G B) : Prop where
  contentsSrs : ∀ r ∈ db.contents, HasSrs db r.srsId
  columnsContents : ∀ r ∈ db.geomCols, ∃ q ∈ db.contents, q.tableName = r.tableName
  columnsSrs : ∀ r ∈ db.geomCols, HasSrs db r.srsId
  srsKeys : (db.srs.map (·.id)).Nodup
  contentsKeys : (db.contents.map (·.tableName)).Nodup
  identifiers : (db.contents.map (·.identifier)).Nodup
  columnKeys : (db.geomCols.map (·.tableName)).Nodup
  extensionKeys : (db.extensions.map fun r => (r.tableName, r.columnName, r.extensionName)).Nodup

/-! ## Histories -/

/-- What can happen to a file: the calls of the package, a call that a crash stopped
after some of its statements, and what the user does. -/
inductive Action (G B : Type) where
  | updateSRS (srss : List Srs)
  | addGeometryTable (d : Desc)
  | addGeometryTableCut (d : Desc) (n : Nat)
  | updateGeometryExtent (name : String) (e : Option Ext)
  /-- The user makes a table. -/
  | createTable (t : Table G B)
  /-- The user changes a row of a table. -/
  | row (name : String) (op : Op G)

/-- One action. -/
def perform (isEmpty : G → Bool) (box : G → B) (db : Db G B) : Action G B → Db G B
  | .updateSRS srss => GpkgDb.updateSRS db srss
  | .addGeometryTable d => (GpkgDb.addGeometryTable d db).1
  | .addGeometryTableCut d n => GpkgDb.addGeometryTableCut d n db
  | .updateGeometryExtent name e => (GpkgDb.updateGeometryExtent name e db).1
  | .createTable t => { db with tables := db.tables ++ [t] }
  | .row name op => db.mapTable name fun t => t.exec isEmpty box op

/-! ## Extents -/

/-- The four bounds of a table, if none is NULL. -/
def bounds (r : Contents) : Option Spec.Extent.Box :=
  match r.minX, r.minY, r.maxX, r.maxY with
  | some a, some b, some c, some d => some ⟨a, b, c, d⟩
  | _, _, _, _ => none

/-- The extents given for a table in a series of calls. -/
def given (calls : List (String × Option Ext)) (name : String) : List Ext :=
  calls.filterMap fun c => if c.1 = name then c.2 else none

/-- The geometries of a column that can be read. -/
def readable (vs : List (Option (List Byte))) : List (Geom F64) :=
  vs.filterMap fun v => v.bind fun bytes => ((Gpkg.decodeGeometry bytes).toOption).map (·.geometry)

/-- The points of geometries whose coordinates are numbers. -/
def points (gs : List (Geom F64)) : List (Pt F64) :=
  gs.flatMap fun g => (Spec.Extent.verticesOf g).filter fun p => !p.1.isNaN && !p.2.isNaN

end Verif.Spec.GpkgDb
