import Verif.Model.F64
import Verif.Model.Geom

/-!
# Emptiness tests (cmp/empty.go)
-/

namespace Verif.Cmp
open Verif

/-- `IsEmptyPoint` (cmp/empty.go:7-9): `pt != pt`, true exactly with a NaN. -/
def isEmptyPoint (p : Pt F64) : Bool := !(p.1.eq p.1 && p.2.eq p.2)

/-- `IsEmptyPoints` (cmp/empty.go:11-19). -/
def isEmptyPoints : List (Pt F64) → Bool
  | [] => true
  | p :: ps => if !isEmptyPoint p then false else isEmptyPoints ps

/-- `IsEmptyLines` (cmp/empty.go:21-29). -/
def isEmptyLines : List (List (Pt F64)) → Bool
  | [] => true
  | l :: ls => if !isEmptyPoints l then false else isEmptyLines ls

/-- The polygon loop (cmp/empty.go:87-93, 100-106). -/
def isEmptyPolys : List (List (List (Pt F64))) → Bool
  | [] => true
  | l :: ls => if !isEmptyLines l then false else isEmptyPolys ls

mutual
/-- `IsEmptyGeo` (cmp/empty.go:31-141).  Simplifications: `.other` is a value of
an unknown type, not nil (nil is empty, lines 32-34); raw `[2]float64` and
`[][2]float64` arguments behave as point and multipoint. -/
def isEmptyGeo : Geom F64 → Bool
  | .point p => isEmptyPoint p
  | .multiPoint ps => isEmptyPoints ps
  | .lineString ps => isEmptyPoints ps
  | .multiLineString ls => isEmptyLines ls
  | .polygon rs => isEmptyLines rs
  | .multiPolygon ps => isEmptyPolys ps
  | .collection gs => isEmptyGeos gs
  | .other => false
/-- Member loop (cmp/empty.go:111-118). -/
def isEmptyGeos : List (Geom F64) → Bool
  | [] => true
  | g :: gs => if !isEmptyGeo g then false else isEmptyGeos gs
end

end Verif.Cmp
