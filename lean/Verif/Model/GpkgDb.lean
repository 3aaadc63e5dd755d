import Verif.Model.Gpkg
import Verif.Model.Extent

/-!
# GeoPackage files (encoding/gpkg/gpkg.go)

What the SQL statements of `Handle` do to the tables of the file.  SQLite and
SpatiaLite are not modelled beyond what the comments of the definitions say: names
are compared letter by letter, every statement outside of a transaction takes
effect as a whole and at once, `recursive_triggers` is off (the default), and the
functions `ST_IsEmpty` and `ST_MinX` … are the parameters `isEmpty` and `box`.
Errors of the operating system and of SQLite other than those named are not
modelled; a stop between two statements is (`addGeometryTableCut`).
-/

namespace Verif.GpkgDb
open Verif

/-- `SpatialReferenceSystem` (gpkg.go:120-127), a row of `gpkg_spatial_ref_sys`
(gpkg.go:33-42). -/
structure Srs where
  name : String
  id : Int
  organization : String
  organizationId : Int
  definition : String
  description : String
  deriving DecidableEq, Repr

/-- `TableDescription` (gpkg_no_cgo.go:126-135). -/
structure Desc where
  name : String
  shortName : String
  description : String
  geometryField : String
  geometryType : Nat
  srs : Int
  z : Int
  m : Int
  deriving DecidableEq, Repr

/-- A row of `gpkg_contents` (gpkg.go:46-61).  `last_change` is left out.  A NULL
bound is `none`. -/
structure Contents where
  tableName : String
  dataType : String
  identifier : String
  description : String
  minX : Option F64
  minY : Option F64
  maxX : Option F64
  maxY : Option F64
  srsId : Int
  deriving DecidableEq, Repr

/-- A row of `gpkg_geometry_columns` (gpkg.go:66-79). -/
structure GeomCol where
  tableName : String
  columnName : String
  geometryType : String
  srsId : Int
  z : Int
  m : Int
  deriving DecidableEq, Repr

/-- A row of `gpkg_extensions` (gpkg.go:82-91). -/
structure Extension where
  tableName : String
  columnName : String
  extensionName : String
  definition : String
  scope : String
  deriving DecidableEq, Repr

/-- The six triggers of the template (gpkg.go:358-431). -/
inductive Trig where
  | insert | update1 | update2 | update3 | update4 | delete
  deriving DecidableEq, Repr

/-- The virtual table `rtree_T_C` (gpkg.go:353) of a column: its rows, and the
triggers made for it so far. -/
structure Index (B : Type) where
  column : String
  entries : List (Int × B)
  trigs : List Trig
  deriving DecidableEq, Repr

/-- A row of a table of the user (gpkg.go:297-299): the value of its integer primary
key and the values that are not NULL by column. -/
structure Row (G : Type) where
  id : Int
  vals : List (String × G)
  deriving DecidableEq, Repr

/-- The value in a column (`NEW."C"`, gpkg.go:362), `none` for NULL. -/
def Row.get {G : Type} (r : Row G) (c : String) : Option G := r.vals.lookup c

/-- A table of the user (the argument of `AddGeometryTable`, gpkg.go:297-299): its
columns, the name of the primary key column if it has one, the rows, and the
indexes made for it. -/
structure Table (G B : Type) where
  name : String
  columns : List String
  pk : Option String
  rows : List (Row G)
  indexes : List (Index B)
  deriving DecidableEq, Repr

/-- The file: the tables of gpkg.go:31-92 and those of the user. -/
structure Db (G B : Type) where
  srs : List Srs
  contents : List Contents
  geomCols : List GeomCol
  extensions : List Extension
  tables : List (Table G B)
  deriving DecidableEq, Repr

/-- The errors of gpkg.go:299-648 told apart. -/
inductive Err where
  | unknownSrs
  | unknownTableOrField
  | identifierTaken
  | noRows
  | nameExists
  | syntax
  deriving DecidableEq, Repr

variable {G B : Type}

/-! ## Spatial reference systems -/

/-- One row of the insert of `UpdateSRS` (gpkg.go:505-516):
`ON CONFLICT(srs_id) DO NOTHING`. -/
def insertSrs (rows : List Srs) (s : Srs) : List Srs :=
  if rows.any (fun r => decide (r.id = s.id)) then rows else rows ++ [s]

/-- `Handle.UpdateSRS` (gpkg.go:502-547).  SQLite's limit on the number of variables
of a statement is not modelled. -/
def updateSRS (db : Db G B) (srss : List Srs) : Db G B :=
  { db with srs := srss.foldl insertSrs db.srs }

/-- `KnownSRS` (gpkg.go:129-196); the two long definitions are shortened to their
names. -/
def knownSRS : List Srs :=
  [⟨"any", -1, "none", -1, "", "any"⟩, ⟨"any", 0, "none", 0, "", "any"⟩,
   ⟨"WGS 84", 4326, "epsg", 4326, "GEOGCS[WGS 84]", "World Geodetic System: WGS 84"⟩,
   ⟨"WebMercator", 3857, "epsg", 3857, "PROJCS[WGS 84 / Pseudo-Mercator]", "WGS83 / Web Mercator"⟩]

/-- `initHandle` (gpkg.go:275-295): the tables are made if they are not there, and
the known systems added in the order `known` in which the map is walked. -/
def initHandle (known : List Srs) (db : Db G B) : Db G B := updateSRS db known

/-! ## AddGeometryTable -/

/-- `GeometryType.String` (gpkg_no_cgo.go:59-80). -/
def geometryTypeName : Nat → String
  | 0 => "GEOMETRY"
  | 1 => "POINT"
  | 2 => "LINESTRING"
  | 3 => "POLYGON"
  | 4 => "MULTIPOINT"
  | 5 => "MULTILINESTRING"
  | 6 => "MULTIPOLYGON"
  | 7 => "GEOMETRYCOLLECTION"
  | _ => "UNKNOWN"

/-- gpkg.go:438-452: the system of the table must be in the file or be known. -/
def srsStep (d : Desc) (db : Db G B) : Except Err (Db G B) :=
  if db.srs.any (fun r => decide (r.id = d.srs)) then .ok db
  else
    match knownSRS.find? (fun r => decide (r.id = d.srs)) with
    | none => .error .unknownSrs
    | some s => .ok (updateSRS db [s])

/-- The table of that name (the FROM clause of gpkg.go:308-312, 614). -/
def Db.table? (db : Db G B) (name : String) : Option (Table G B) :=
  db.tables.find? (fun t => decide (t.name = name))

/-- gpkg.go:453-457: the table and the column must exist.  (SQLite may take a quoted
name that is no column for a string, in which case any column name passes; this is
not modelled.) -/
def fieldStep (d : Desc) (db : Db G B) : Except Err (Db G B) :=
  match db.table? d.name with
  | none => .error .unknownTableOrField
  | some t => if d.geometryField ∈ t.columns then .ok db else .error .unknownTableOrField

/-- gpkg.go:458-461 with 313-323: nothing if the table has a row; an error if the
identifier is that of another table (`identifier TEXT UNIQUE`, line 50). -/
def contentsStep (d : Desc) (db : Db G B) : Except Err (Db G B) :=
  if db.contents.any (fun r => decide (r.tableName = d.name)) then .ok db
  else if db.contents.any (fun r => decide (r.identifier = d.shortName)) then .error .identifierTaken
  else .ok { db with contents := db.contents ++
      [⟨d.name, "features", d.shortName, d.description, none, none, none, none, d.srs⟩] }

/-- gpkg.go:462-465 with 324-335: nothing if the table has a row. -/
def geomColStep (d : Desc) (db : Db G B) : Except Err (Db G B) :=
  if db.geomCols.any (fun r => decide (r.tableName = d.name)) then .ok db
  else .ok { db with geomCols := db.geomCols ++
      [⟨d.name, d.geometryField, geometryTypeName d.geometryType, d.srs, d.z, d.m⟩] }

/-- gpkg.go:467-470: the name of the primary key, or `sql.ErrNoRows`. -/
def pkStep (d : Desc) (db : Db G B) : Except Err (Db G B) :=
  match db.table? d.name with
  | none => .error .noRows
  | some t => if t.pk.isSome then .ok db else .error .noRows

/-- The name of the index table of a column (gpkg.go:353). -/
def rtreeName (t c : String) : String := "rtree_" ++ t ++ "_" ++ c

/-- Change the table of that name (as in gpkg.go:481-494). -/
def Db.mapTable (db : Db G B) (name : String) (f : Table G B → Table G B) : Db G B :=
  { db with tables := db.tables.map fun t => if t.name = name then f t else t }

/-- gpkg.go:481-486: `CREATE VIRTUAL TABLE` fails if a table of that name exists,
be it an index or a table of the user. -/
def rtreeStep (d : Desc) (db : Db G B) : Except Err (Db G B) :=
  let name := rtreeName d.name d.geometryField
  if db.tables.any (fun t => decide (t.name = name) ||
      t.indexes.any (fun ix => decide (rtreeName t.name ix.column = name))) then .error .nameExists
  else .ok (db.mapTable d.name fun t => { t with indexes := t.indexes ++ [⟨d.geometryField, [], []⟩] })

/-- A letter that can stand in a name without quotes (as in gpkg.go:361-431). -/
def plainChar (c : Char) : Bool := c.isAlphanum || c = '_' || c = '$' || decide (127 < c.toNat)

/-- gpkg.go:488-494 for one trigger of the template: its name and that of the index
stand in the statement without quotes (gpkg.go:361-431), so that other letters make
it a syntax error; a trigger of that name must not exist.  go-sqlite3 runs the
statements of one `Exec` one after the other. -/
def trigStep (d : Desc) (tr : Trig) (db : Db G B) : Except Err (Db G B) :=
  if !(d.name.toList.all plainChar && d.geometryField.toList.all plainChar) then .error .syntax
  else if db.tables.any (fun t => t.indexes.any (fun ix =>
      decide (rtreeName t.name ix.column = rtreeName d.name d.geometryField) && decide (tr ∈ ix.trigs))) then
    .error .nameExists
  else .ok (db.mapTable d.name fun t => { t with indexes := t.indexes.map fun ix =>
    if ix.column = d.geometryField then { ix with trigs := ix.trigs ++ [tr] } else ix })

/-- gpkg.go:496-497 with 337-347. -/
def extensionStep (d : Desc) (db : Db G B) : Except Err (Db G B) :=
  if db.extensions.any (fun r => decide (r.tableName = d.name) && decide (r.columnName = d.geometryField) &&
      decide (r.extensionName = "gpkg_rtree_index")) then .ok db
  else .ok { db with extensions := db.extensions ++ [⟨d.name, d.geometryField, "gpkg_rtree_index",
      "http://www.geopackage.org/spec120/#extension_rtree", "write-only"⟩] }

/-- The statements of `AddGeometryTable` in their order (gpkg.go:438-497). -/
def statements (d : Desc) : List (Db G B → Except Err (Db G B)) :=
  [srsStep d, fieldStep d, contentsStep d, geomColStep d, pkStep d, rtreeStep d,
   trigStep d .insert, trigStep d .update1, trigStep d .update2, trigStep d .update3,
   trigStep d .update4, trigStep d .delete, extensionStep d]

/-- Run statements up to the first error (`if err != nil { return err }`,
gpkg.go:440-497): the file then, and the error. -/
def run : List (Db G B → Except Err (Db G B)) → Db G B → Db G B × Option Err
  | [], db => (db, none)
  | s :: ss, db =>
    match s db with
    | .error e => (db, some e)
    | .ok db => run ss db

/-- `Handle.AddGeometryTable` (gpkg.go:299-499).  Table and column names without
quotation marks are assumed. -/
def addGeometryTable (d : Desc) (db : Db G B) : Db G B × Option Err := run (statements d) db

/-- `AddGeometryTable` (gpkg.go:299-499) stopped, by a crash, after `n` statements:
there is no transaction around them. -/
def addGeometryTableCut (d : Desc) (n : Nat) (db : Db G B) : Db G B :=
  (run ((statements d).take n) db).1

/-! ## Rows of the user and the triggers -/

/-- `INSERT OR REPLACE INTO rtree_T_C VALUES …` (gpkg.go:364-368, 378-382, 405-409). -/
def putEntry (i : Int) (b : B) (es : List (Int × B)) : List (Int × B) :=
  es.filter (fun e => decide (e.1 ≠ i)) ++ [(i, b)]

/-- `DELETE FROM rtree_T_C WHERE id = …` (gpkg.go:392, 404, 428). -/
def dropEntry (i : Int) (es : List (Int × B)) : List (Int × B) := es.filter (fun e => decide (e.1 ≠ i))

/-- The value if it is neither NULL nor an empty geometry (the WHEN clauses of the
template, gpkg.go:362, 376, 390, 402, 418). -/
def solid (isEmpty : G → Bool) (v : Option G) : Option G := v.filter (fun g => !isEmpty g)

/-- What a trigger does on an insert (gpkg.go:361-369). -/
def onInsert (isEmpty : G → Bool) (box : G → B) (new : Row G) (c : String) (es : List (Int × B)) :
    Trig → List (Int × B)
  | .insert =>
    match solid isEmpty (new.get c) with
    | some g => putEntry new.id (box g) es
    | none => es
  | _ => es

/-- What a trigger does on an update (gpkg.go:374-421); `set` are the columns named
in the SET clause, which is what `AFTER UPDATE OF` looks at. -/
def onUpdate (isEmpty : G → Bool) (box : G → B) (old new : Row G) (set : List String) (c : String)
    (es : List (Int × B)) : Trig → List (Int × B)
  | .update1 =>
    if c ∈ set ∧ old.id = new.id then
      match solid isEmpty (new.get c) with
      | some g => putEntry new.id (box g) es
      | none => es
    else es
  | .update2 =>
    if c ∈ set ∧ old.id = new.id then
      match solid isEmpty (new.get c) with
      | some _ => es
      | none => dropEntry old.id es
    else es
  | .update3 =>
    if c ∈ set ∧ old.id ≠ new.id then
      match solid isEmpty (new.get c) with
      | some g => putEntry new.id (box g) (dropEntry old.id es)
      | none => es
    else es
  | .update4 =>
    if old.id ≠ new.id then
      match solid isEmpty (new.get c) with
      | some _ => es
      | none => dropEntry new.id (dropEntry old.id es)
    else es
  | _ => es

/-- What a trigger does on a delete (gpkg.go:425-429). -/
def onDelete (old : Row G) (c : String) (es : List (Int × B)) : Trig → List (Int × B)
  | .delete =>
    match old.get c with
    | some _ => dropEntry old.id es
    | none => es
  | _ => es

/-- What the user can do to a row of the table the triggers of gpkg.go:358-431 are
on.  A statement on several rows does so to one after the other. -/
inductive Op (G : Type) where
  /-- `INSERT` or, with `replace`, `INSERT OR REPLACE`. -/
  | insert (replace : Bool) (row : Row G)
  /-- `UPDATE … SET pk = newId, column = value, … WHERE pk = id`; `none` for the
  key leaves it out of the SET clause, `none` for a value is NULL. -/
  | update (id : Int) (newId : Option Int) (set : List (String × Option G))
  /-- `DELETE … WHERE pk = id`. -/
  | delete (id : Int)

/-- The values (`NEW` in gpkg.go:374-421) after a SET clause. -/
def setVals (vals : List (String × G)) (set : List (String × Option G)) : List (String × G) :=
  set.filterMap (fun s => s.2.map fun g => (s.1, g)) ++
    vals.filter (fun v => decide (v.1 ∉ set.map (·.1)))

/-- The row (`NEW` in gpkg.go:374-421) after an update. -/
def updated (r : Row G) (newId : Option Int) (set : List (String × Option G)) : Row G :=
  ⟨newId.getD r.id, setVals r.vals set⟩

/-- Run the triggers of the indexes of a table (gpkg.go:358-431). -/
def fire (f : String → List (Int × B) → Trig → List (Int × B)) (ixs : List (Index B)) : List (Index B) :=
  ixs.map fun ix => { ix with entries := ix.trigs.foldl (f ix.column) ix.entries }

/-- One row of a statement of the user with the triggers of the table
(gpkg.go:358-431); a statement that breaks the primary key does nothing, and one
with `OR REPLACE` takes out the row in the way without running its delete
trigger. -/
def Table.exec (isEmpty : G → Bool) (box : G → B) (t : Table G B) : Op G → Table G B
  | .insert replace row =>
    if t.rows.any (fun r => decide (r.id = row.id)) && !replace then t
    else { t with
      rows := t.rows.filter (fun r => decide (r.id ≠ row.id)) ++ [row]
      indexes := fire (fun c es tr => onInsert isEmpty box row c es tr) t.indexes }
  | .update id newId set =>
    match t.rows.find? (fun r => decide (r.id = id)) with
    | none => t
    | some old =>
      let new := updated old newId set
      if new.id ≠ old.id ∧ t.rows.any (fun r => decide (r.id = new.id)) = true then t
      else { t with
        rows := t.rows.map fun r => if r.id = id then new else r
        indexes := fire (fun c es tr => onUpdate isEmpty box old new (set.map (·.1)) c es tr) t.indexes }
  | .delete id =>
    match t.rows.find? (fun r => decide (r.id = id)) with
    | none => t
    | some old => { t with
        rows := t.rows.filter (fun r => decide (r.id ≠ id))
        indexes := fire (fun c es tr => onDelete old c es tr) t.indexes }

/-! ## The extent of a table -/

/-- A bound as it is stored by gpkg.go:597: SQLite stores a NaN as NULL. -/
def stored (f : F64) : Option F64 := if f.isNaN then none else some f

/-- The new bounds of `UpdateGeometryExtent` (gpkg.go:591-596). -/
def grown (r : Contents) (e : Ext) : Ext :=
  match r.minX, r.minY, r.maxX, r.maxY with
  | some a, some b, some c, some d =>
    match Ext.add (Ext.newExtent [(a, b), (c, d)]) e with
    | some x => x
    | none => e
  | _, _, _, _ => e

/-- `Handle.UpdateGeometryExtent` (gpkg.go:551-600); `none` is a nil extent. -/
def updateGeometryExtent (name : String) (e : Option Ext) (db : Db G B) : Db G B × Option Err :=
  match e with
  | none => (db, none)
  | some e =>
    match db.contents.find? (fun r => decide (r.tableName = name)) with
    | none => (db, some .noRows)
    | some r =>
      let x := grown r e
      ({ db with contents := db.contents.map fun r => if r.tableName = name then
          { r with minX := stored x.minx, minY := stored x.miny, maxX := stored x.maxx, maxY := stored x.maxy }
          else r }, none)

/-- The loop of `CalculateGeometryExtent` (gpkg.go:633-646): the geometry scanned
last and the extent so far.  A value that is NULL or no geometry leaves the
geometry of the row before in place, because the error of `Scan` is dropped. -/
def extentLoop : Option (Geom F64) → Option Ext → List (Option (List Byte)) → Option Ext
  | _, ext, [] => ext
  | sb, ext, v :: vs =>
    let sb := match v with
      | none => sb
      | some bytes =>
        match Gpkg.decodeGeometry bytes with
        | .error _ => sb
        | .ok b => some b.geometry
    match sb with
    | none => extentLoop sb ext vs
    | some g =>
      if Cmp.isEmptyGeo g then extentLoop sb ext vs
      else
        match ext with
        | none =>
          match Ext.newExtentFromGeometry g with
          | none => extentLoop sb none vs
          | some e => extentLoop sb e vs
        | some e => extentLoop sb (Ext.addGeometry (some e) g).1 vs

/-- `Handle.CalculateGeometryExtent` (gpkg.go:604-648): the column comes from
`gpkg_geometry_columns`. -/
def calculateGeometryExtent (name : String) (db : Db (List Byte) B) : Except Err (Option Ext) :=
  match db.geomCols.find? (fun r => decide (r.tableName = name)) with
  | none => .error .noRows
  | some r =>
    match db.table? name with
    | none => .error .unknownTableOrField
    | some t =>
      if r.columnName ∈ t.columns then .ok (extentLoop none none (t.rows.map fun row => row.get r.columnName))
      else .error .unknownTableOrField

end Verif.GpkgDb
