import Verif.Spec.Extent

/-!
# Specification vocabulary for traversals
-/

namespace Verif.Spec.Traverse
open Verif Verif.Spec.Extent

/-- The edges of a path: each vertex joined to the next. -/
def pathEdges {β : Type} (v : List β) : List (β × β) := v.zip v.tail

/-- Numerically equal points. -/
def samePt (a b : Pt F64) : Bool := a.1.eq b.1 && a.2.eq b.2

/-- The vertices of a ring with the first repeated at the end, unless it is
already there or the ring has fewer than three vertices. -/
def closed (r : List (Pt F64)) : List (Pt F64) :=
  match r with
  | a :: b :: c :: t => if samePt a ((c :: t).getLast (by simp)) then r else r ++ [a]
  | r => r

mutual
/-- The edges of a geometry: those of its paths and of its closed rings. -/
def edgesOf : Geom F64 → List (Pt F64 × Pt F64)
  | .point _ => []
  | .multiPoint _ => []
  | .lineString v => pathEdges v
  | .multiLineString ls => ls.flatMap pathEdges
  | .polygon rs => rs.flatMap (fun r => pathEdges (closed r))
  | .multiPolygon ps => ps.flatten.flatMap (fun r => pathEdges (closed r))
  | .collection gs => edgesOfAll gs
  | .other => []
def edgesOfAll : List (Geom F64) → List (Pt F64 × Pt F64)
  | [] => []
  | g :: gs => edgesOf g ++ edgesOfAll gs
end

/-- Consecutive edges meet. -/
def Connected {β : Type} (es : List (β × β)) : Prop :=
  ∀ i (h : i + 1 < es.length), (es[i]'(by omega)).2 = es[i + 1].1

/-- Apply a map to every vertex, keeping kind and shape. -/
def mapVertices {α β : Type} (f : Pt α → Pt β) : Geom α → Geom β
  | .point p => .point (f p)
  | .multiPoint ps => .multiPoint (ps.map f)
  | .lineString ps => .lineString (ps.map f)
  | .multiLineString ls => .multiLineString (ls.map (·.map f))
  | .polygon rs => .polygon (rs.map (·.map f))
  | .multiPolygon ps => .multiPolygon (ps.map (·.map (·.map f)))
  | .collection gs => .collection (gs.attach.map (fun g => mapVertices f g.1))
  | .other => .other
termination_by g => sizeOf g
decreasing_by
  have := List.sizeOf_lt_of_mem g.2
  simp; omega

/-- One of the six kinds with coordinates of its own. -/
def simple {α : Type} : Geom α → Bool
  | .collection _ => false
  | .other => false
  | _ => true

end Verif.Spec.Traverse
