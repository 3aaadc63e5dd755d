import Verif.Model.Geom
import Verif.Model.F64
import Verif.Model.GeoEqual

/-!
# Specification vocabulary for types of geometry columns
-/

namespace Verif.Spec.GpkgScan
open Verif

/-- The number that the GeoPackage standard has for the type of a geometry, which is that of WKB; 0 is any geometry. -/
def standardType : Geom F64 → Nat
  | .point _ => 1
  | .lineString _ => 2
  | .polygon _ => 3
  | .multiPoint _ => 4
  | .multiLineString _ => 5
  | .multiPolygon _ => 6
  | .collection _ => 7
  | .other => 0

/-- The name that the standard has for it. -/
def standardName : Geom F64 → String
  | .point _ => "POINT"
  | .lineString _ => "LINESTRING"
  | .polygon _ => "POLYGON"
  | .multiPoint _ => "MULTIPOINT"
  | .multiLineString _ => "MULTILINESTRING"
  | .multiPolygon _ => "MULTIPOLYGON"
  | .collection _ => "GEOMETRYCOLLECTION"
  | .other => "GEOMETRY"

/-- A geometry of the library with plain slices, as a value for the type switch. -/
def plain : Geom F64 → Cmp.Geo
  | .point p => .pointer (.point p)
  | .multiPoint ps => .multiPoint ps
  | .lineString ps => .lineStringer (.lineString ps)
  | .multiLineString ls => .multiLine ls
  | .polygon rs => .polygoner (.polygon rs)
  | .multiPolygon ps => .multiPolygon ps
  | .collection gs => .collection (gs.map plain)
  | .other => .other

end Verif.Spec.GpkgScan
