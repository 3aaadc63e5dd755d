import Verif.Model.RTree

/-!
# The boxes of an R-tree (internal/rtreego/rtree.go:404-418, 654-662)
-/

namespace Verif.RTree

variable {K : Type} [LinearOrder K] {d : Nat} {Obj : Type}

/-- internal/rtreego/rtree.go:410-416, the loop of `getAllBoundingBoxes`, with what it has so far.  An entry without a
child (it holds an object) ends it. -/
def boxesLoop (rec : Node K d Obj → List (Rect K d)) : List (Entry K d Obj) → List (Rect K d) → List (Rect K d)
  | [], rects => rects
  | e :: es, rects =>
    match e.2 with
    | .obj _ => rects
    | .mk _ => boxesLoop rec es (rects ++ (rec e.2 ++ [e.1]))

/-- internal/rtreego/rtree.go:404-418 `getAllBoundingBoxes`, of a node of the given level; a node of level 1 is a leaf. -/
def nodeBoxes : Nat → Node K d Obj → List (Rect K d)
  | 0, _ => []
  | l + 1, n => if l = 0 then [] else boxesLoop (nodeBoxes l) n.entries []

/-- internal/rtreego/rtree.go:654-662 `GetAllBoundingBoxes`; the root is never nil. -/
def allBoundingBoxes (t : Tree K d Obj) : List (Rect K d) := nodeBoxes t.height t.root

end Verif.RTree
