import Verif.Spec.Extent
import Verif.Spec.Winding
import Mathlib.Algebra.Order.Ring.Int

/-!
# Specification vocabulary for MVT geometries
-/

namespace Verif.Spec.Mvt
open Verif Verif.Spec.Extent Verif.Spec.Winding

/-- The difference of two points fits two signed 32-bit integers. -/
def step (p q : Pt Int) : Prop :=
  -2 ^ 31 ≤ q.1 - p.1 ∧ q.1 - p.1 < 2 ^ 31 ∧ -2 ^ 31 ≤ q.2 - p.2 ∧ q.2 - p.2 < 2 ^ 31

/-- All vertices, and the origin, are within 32-bit differences of each other. -/
def InRange (g : Geom Int) : Prop :=
  ∀ p ∈ (0, 0) :: verticesOf g, ∀ q ∈ (0, 0) :: verticesOf g, step p q

/-- A multi geometry with a single member is that member. -/
def single : Geom Int → Geom Int
  | .multiPoint [p] => .point p
  | .multiLineString [l] => .lineString l
  | .multiPolygon [p] => .polygon p
  | g => g

/-- The polygon as MVT wants it: first ring with positive area in tile
coordinates (clockwise on screen), the others negative; rings of no area are
left out. -/
def tilePolygon : List (List (Pt Int)) → List (List (Pt Int))
  | [] => []
  | r :: rs => turn true r :: (rs.filter (fun r => decide (area2 r ≠ 0))).map (turn false)

/-- A polygon with a proper first ring. -/
def properPolygon : List (List (Pt Int)) → Prop
  | [] => False
  | r :: _ => area2 r ≠ 0

/-- A command of an MVT geometry message, with the parameters it needs. -/
inductive Command where
  | moveTo (x y : BitVec 32)
  | lineTo (ps : List (BitVec 32 × BitVec 32))
  | closePath

/-- The words of a command: id in the low three bits, repeat count above. -/
def Command.words : Command → List (BitVec 32)
  | .moveTo x y => [9#32, x, y]
  | .lineTo ps => BitVec.ofNat 32 (2 + 8 * ps.length) :: ps.flatMap (fun p => [p.1, p.2])
  | .closePath => [15#32]

/-- A LineTo whose count fits the count field. -/
def Command.fits : Command → Prop
  | .lineTo ps => ps.length < 2 ^ 29
  | _ => True

def Command.isLineTo : Command → Bool
  | .lineTo _ => true
  | _ => false

end Verif.Spec.Mvt
