import Verif.Model.Gpkg
import Verif.Model.GpkgDb
import Verif.Model.GeoEqual

/-!
# Geometries as values of a database, and types of geometry columns (encoding/gpkg)
-/

namespace Verif.Gpkg
open Verif Verif.Wkb

/-- `StandardBinary` as a caller may fill it in (binary_header.go:293-297): the header may be nil; a nil geometry is
`other`. -/
structure Std where
  header : Option Header
  srsid : BitVec 32
  geometry : Geom F64

/-- What a driver hands to `Scan` (binary_header.go:380; package database/sql): bytes, or one of the other types, nil
among them. -/
inductive Src where
  | null
  | bytes (bs : List Byte)
  | text (s : String)
  | int (i : Int)
  | float (f : F64)
  | bool (b : Bool)
  | time

/-- The errors of `Value` and `Scan` (binary_header.go:373-396; errors.go). -/
inductive ScanErr where
  | nilStandardBinary
  | notBytes
  | envelopeMismatch
  | encode
  | decode (e : Err)
  deriving DecidableEq, Repr

/-- `(*BinaryHeader).EncodeTo` (binary_header.go:256-275): for a nil header `NewBinaryHeader` is called with no numbers
for the envelope type "invalid" (208-213), which is a mismatch. -/
def encodeHeaderTo : Option Header → Except ScanErr (List Byte)
  | none =>
    match newHeader .big 0#32 [] 5#8 false true with
    | none => .error .envelopeMismatch
    | some h => .ok h.encode
  | some h => .ok h.encode

/-- `StandardBinary.Encode` (binary_header.go:316-328); the byte order of a nil header is big endian (284-289). -/
def Std.encode (sb : Std) : Except ScanErr (List Byte) :=
  match encodeHeaderTo sb.header with
  | .error e => .error e
  | .ok hs =>
    match Wkb.encode (match sb.header with | none => .big | some h => flagEndian h.flags) sb.geometry with
    | none => .error .encode
    | some w => .ok (hs ++ w)

/-- `(*StandardBinary).Value` (binary_header.go:373-378); `none` is a nil pointer. -/
def value : Option Std → Except ScanErr (List Byte)
  | none => .error .nilStandardBinary
  | some sb => sb.encode

/-- `(*StandardBinary).Scan` (binary_header.go:380-396): the error, and what the receiver points to afterwards. -/
def scan (recv : Option Std) (v : Src) : Option ScanErr × Option Std :=
  match recv with
  | none => (some .nilStandardBinary, none)
  | some sb =>
    match v with
    | .bytes data =>
      match decodeGeometry data with
      | .error e => (some (.decode e), some sb)
      | .ok sb1 => (none, some ⟨some sb1.header, sb1.srsid, sb1.geometry⟩)
    | _ => (some .notBytes, some sb)

/-- `(*StandardBinary).Extent` (binary_header.go:359-371); `none` is nil. -/
def extentOf : Option Std → Option Ext
  | none => none
  | some sb =>
    if Cmp.isEmptyGeo sb.geometry then none
    else
      match Ext.newExtentFromGeometry sb.geometry with
      | none => none
      | some e => e

/-- `TypeForGeometry` (gpkg_no_cgo.go:84-103): the type switch, in its order; a nil pointer of a type satisfies the
interface as well. -/
def typeForGeometry : Cmp.Geo → Nat
  | .collection _ | .nilCollection => 7
  | .multiPolygon _ | .nilMultiPolygon => 6
  | .multiLine _ | .nilMultiLine => 5
  | .multiPoint _ | .nilMultiPoint => 4
  | .polygoner _ => 3
  | .lineStringer _ => 2
  | .pointer _ => 1
  | .other => 0

/-- `GeometryType.Empty` (gpkg_no_cgo.go:105-123); `none` is the error. -/
def emptyOf (t : Nat) : Option (Geom F64) :=
  if t = 1 then some (.point (F64.nan, F64.nan))
  else if t = 2 then some (.lineString [])
  else if t = 3 then some (.polygon [])
  else if t = 5 then some (.multiLineString [])
  else if t = 6 then some (.multiPolygon [])
  else if t = 7 then some (.collection [])
  else none

end Verif.Gpkg
