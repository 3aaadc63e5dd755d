import Verif.Model.F64
import Verif.Model.Geom

/-!
# Specification vocabulary for extents

A box is four floats; membership uses the IEEE comparisons of `F64`.
-/

namespace Verif.Spec.Extent
open Verif

/-- A float that is a number. -/
def num (f : F64) : Prop := f.isNaN = false

/-- A point with numeric coordinates. -/
def numPt (p : Pt F64) : Prop := num p.1 ∧ num p.2

/-- Four bounds. -/
structure Box where
  left : F64
  bottom : F64
  right : F64
  top : F64

/-- The point is in the closed box. -/
def Box.has (b : Box) (p : Pt F64) : Prop :=
  b.left.le p.1 ∧ p.1.le b.right ∧ b.bottom.le p.2 ∧ p.2.le b.top

/-- The point is in the open box. -/
def Box.hasInside (b : Box) (p : Pt F64) : Prop :=
  b.left.lt p.1 ∧ p.1.lt b.right ∧ b.bottom.lt p.2 ∧ p.2.lt b.top

/-- The bounds are numbers in the right order, so the box has points. -/
def Box.valid (b : Box) : Prop := b.left.le b.right ∧ b.bottom.le b.top

/-- All four bounds are numbers. -/
def Box.numeric (b : Box) : Prop := num b.left ∧ num b.bottom ∧ num b.right ∧ num b.top

/-- Every bound of `a` is at least as tight as that of `b`. -/
def Box.within (a b : Box) : Prop :=
  b.left.le a.left ∧ a.right.le b.right ∧ b.bottom.le a.bottom ∧ a.top.le b.top

/-- Equal as numbers (the two zeros are not distinguished). -/
def Box.same (a b : Box) : Prop :=
  a.left.eq b.left ∧ a.bottom.eq b.bottom ∧ a.right.eq b.right ∧ a.top.eq b.top

/-- `b` is the tightest box around the points. -/
def Tight (b : Box) (ps : List (Pt F64)) : Prop :=
  (∀ p ∈ ps, b.has p) ∧ ∀ b' : Box, (∀ p ∈ ps, b'.has p) → b.within b'

mutual
/-- The vertices of a geometry, in order. -/
def verticesOf {α : Type} : Geom α → List (Pt α)
  | .point p => [p]
  | .multiPoint ps => ps
  | .lineString ps => ps
  | .multiLineString ls => ls.flatten
  | .polygon rs => rs.flatten
  | .multiPolygon ps => ps.flatten.flatten
  | .collection gs => verticesOfAll gs
  | .other => []
def verticesOfAll {α : Type} : List (Geom α) → List (Pt α)
  | [] => []
  | g :: gs => verticesOf g ++ verticesOfAll gs
end

mutual
/-- No member is something other than the seven kinds. -/
def known {α : Type} : Geom α → Bool
  | .other => false
  | .collection gs => knownAll gs
  | _ => true
def knownAll {α : Type} : List (Geom α) → Bool
  | [] => true
  | g :: gs => known g && knownAll gs
end

end Verif.Spec.Extent
