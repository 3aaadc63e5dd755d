import Verif.Model.Geom

/-!
# Kinds of geometries that are made valid
-/

namespace Verif.Spec.Makevalid

/-- The geometry is a polygon or a multipolygon, made of these polygons. -/
def Polygonal {K : Type} (g : Geom K) (mp : List (List (List (Pt K)))) : Prop :=
  (∃ rs, g = .polygon rs ∧ mp = [rs]) ∨ g = .multiPolygon mp

/-- The geometry is a point, a line, or several of these. -/
def PointsOrLines {K : Type} : Geom K → Prop
  | .point _ | .multiPoint _ | .lineString _ | .multiLineString _ => True
  | _ => False

end Verif.Spec.Makevalid
