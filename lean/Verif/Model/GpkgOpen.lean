import Verif.Model.GpkgDb

/-!
# Opening GeoPackage files (encoding/gpkg/gpkg.go:198-295)

What `New` and `Open` do to the files of the disk, statement by statement, and the registration of the driver by
goroutines that run side by side.  SQLite is modelled as far as the comments say.  A file that is a database has the
tables of gpkg.go:31-92 in their right shape if it has tables of these names.
-/

namespace Verif.GpkgOpen
open Verif Verif.GpkgDb

variable {G B : Type}

/-- The four tables made by `initHandle` (gpkg.go:282). -/
inductive Meta where
  | srs | contents | geomCols | extensions
  deriving DecidableEq, Repr

/-- A database file: the numbers of the two pragmas (gpkg.go:102-110), which of the tables of gpkg.go:282 there are,
and the rows. -/
structure Content (G B : Type) where
  appId : Nat
  version : Nat
  metas : List Meta
  db : Db G B
  deriving DecidableEq, Repr

/-- What is found under a name by `os.Stat` (gpkg.go:201) and by SQLite (gpkg.go:252, 277): nothing, a name that cannot
be looked up (a part of the path is a file or may not be searched), a directory, an empty file, a file that is no
database, or a database. -/
inductive Node (G B : Type) where
  | missing
  | hidden
  | dir
  | empty
  | other
  | database (c : Content G B)
  deriving DecidableEq, Repr

/-- What a call returns: a handle, `os.ErrExist` (gpkg.go:268), another error, or it panics. -/
inductive Outcome where
  | ok | exist | failed | panic
  deriving DecidableEq, Repr

/-- gpkg.go:200-209 `nonZeroFileExists`; `none` is a panic: `info` is nil if the name cannot be looked up. -/
def nonZeroFileExists : Node G B → Option Bool
  | .missing => some false
  | .hidden => none
  | .dir => some false
  | .empty => some false
  | .other => some true
  | .database _ => some true

/-- gpkg.go:26, `ApplicationID`. -/
def applicationID : Nat := 0x47504B47

/-- gpkg.go:31, `UserVersion`. -/
def userVersion : Nat := 0x27D9

/-- A database without anything: an empty file to SQLite (gpkg.go:277). -/
def blank : Content G B := ⟨0, 0, [], ⟨[], [], [], [], []⟩⟩

/-- The statements of `initHandle` (gpkg.go:277, 282, 294). -/
inductive Stmt where
  | pragmaApp
  | pragmaVersion
  | create (m : Meta)
  | insert (srss : List Srs)
  deriving DecidableEq, Repr

/-- gpkg.go:275-295 `initHandle`: its statements in order; `known` is the order in which the map `KnownSRS` is
walked. -/
def statements (known : List Srs) : List Stmt :=
  [.pragmaApp, .pragmaVersion, .create .srs, .create .contents, .create .geomCols, .create .extensions, .insert known]

/-- What a statement does (gpkg.go:103-107, 34-91, 505-516). -/
def Stmt.run (c : Content G B) : Stmt → Content G B
  | .pragmaApp => { c with appId := applicationID }
  | .pragmaVersion => { c with version := userVersion }
  | .create m => if m ∈ c.metas then c else { c with metas := c.metas ++ [m] }
  | .insert srss => { c with db := updateSRS c.db srss }

/-- gpkg.go:249-261 `Open`, stopped by a crash after `n` statements (or not at all); what becomes of the file.
`sql.Open` does not touch the file. -/
def openCut (known : List Srs) (n : Nat) : Node G B → Node G B
  | .missing => if n = 0 then .missing else .database (((statements known).take n).foldl Stmt.run blank)
  | .empty => if n = 0 then .empty else .database (((statements known).take n).foldl Stmt.run blank)
  | .database c => .database (((statements known).take n).foldl Stmt.run c)
  | .hidden => .hidden
  | .dir => .dir
  | .other => .other

/-- gpkg.go:249-261 `Open`: what becomes of the file and what is returned. -/
def openFile (known : List Srs) (x : Node G B) : Node G B × Outcome :=
  (openCut known (statements known).length x,
    match x with
    | .missing | .empty | .database _ => .ok
    | .hidden | .dir | .other => .failed)

/-- gpkg.go:264-271 `New`, if `x` is under the name when it is looked up (gpkg.go:267) and `y` when SQLite opens it
(gpkg.go:270): other processes may have been there in between. -/
def newFile (known : List Srs) (x y : Node G B) : Node G B × Outcome :=
  match nonZeroFileExists x with
  | none => (y, .panic)
  | some true => (y, .exist)
  | some false => openFile known y

/-! ## The driver -/

/-- Goroutines that have called `drivername` (gpkg.go:212-246): whether the driver is registered, which of them have
looked for it in vain (gpkg.go:227-231) and not gone on, which have returned, and which have panicked:
`sql.Register` panics if the name is taken. -/
structure Drivers where
  registered : Bool
  looked : List Nat
  returned : List Nat
  panicked : List Nat
  deriving DecidableEq, Repr

/-- Before any call (gpkg.go:212). -/
def Drivers.init : Drivers := ⟨false, [], [], []⟩

/-- Goroutine `i` goes on: it looks for the driver (gpkg.go:227-231) if it has not yet, or else registers it
(gpkg.go:233-242).  Either is done as a whole, under a lock of `database/sql`.  A goroutine that is done stays
as it is. -/
def Drivers.step (s : Drivers) (i : Nat) : Drivers :=
  if i ∈ s.returned ∨ i ∈ s.panicked then s
  else if i ∈ s.looked then
    if s.registered then { s with looked := s.looked.filter (· ≠ i), panicked := s.panicked ++ [i] }
    else { s with registered := true, looked := s.looked.filter (· ≠ i), returned := s.returned ++ [i] }
  else if s.registered then { s with returned := s.returned ++ [i] }
  else { s with looked := s.looked ++ [i] }

/-- Calls side by side (gpkg.go:249-252): the goroutine that goes on, time after time. -/
def Drivers.run (schedule : List Nat) : Drivers := schedule.foldl Drivers.step Drivers.init

end Verif.GpkgOpen
