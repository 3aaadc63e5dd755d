/-
Model of the segment index, `planar/intersect/segments.go`, on top of the
R-tree model.  Coordinates are exact; in float64 the padding can vanish beside
large coordinates (see DESIGN.md).
-/
import Verif.Model.RTree
import Verif.Model.Intersect
import Mathlib.Data.List.Sort

namespace Verif.SegIndex

open Verif.RTree (Rect Tree Arith Entry)
open Verif.Planar (Line)

variable {K : Type} [Field K] [LinearOrder K]

/-- `minAndDelta` (planar/intersect/segments.go lines 20-25); `eps` is
`smallep`. -/
def minAndDelta (eps c1 c2 : K) : K × K :=
  let c := if c2 < c1 then (c2, c1) else (c1, c2)
  (c.1, (c.2 - c.1) + eps)

/-- `rectForSegment` (planar/intersect/segments.go lines 27-36) with `NewRect`
(internal/rtreego/geom.go lines 167-183); the error case cannot happen for
positive lengths. -/
def rectForSegment (eps : K) (seg : Line K) : Rect K 2 := fun i =>
  let md := if i = 0 then minAndDelta eps seg.1.1 seg.2.1 else minAndDelta eps seg.1.2 seg.2.2
  (md.1, md.1 + md.2)

/-- The bounds of the `i`-th `segRect` (planar/intersect/segments.go lines
13-18). -/
def bounds (eps : K) (segs : List (Line K)) (i : Nat) : Rect K 2 :=
  rectForSegment eps (segs.getD i ((0, 0), (0, 0)))

/-- `NewSearchSegmentIdxs` (planar/intersect/segments.go lines 77-93); `none`
is a nil index.  `h`, `S` and `sort` are those of the bulk load. -/
def newIndex (A : Arith K 2) (sort : Nat → List (Entry K 2 Nat) → List (Entry K 2 Nat))
    (h S : Nat) (eps : K) (segs : List (Line K)) : Option (Tree K 2 Nat) :=
  if segs.length ≤ 1 then none
  else RTree.newTree (bounds eps segs) A 2 5 sort h S (List.range segs.length)

/-- `SegmentFilterFn` (planar/intersect/segments.go line 38) for a fixed
segment: refuse and abort. -/
abbrev SegFilter := List Nat → Nat → Bool × Bool

/-- The loop over the filters (planar/intersect/segments.go lines 57-64). -/
def filterLoop (idxs : List Nat) (idx : Nat) : List SegFilter → Bool → Bool × Bool
  | [], abort => (false, abort)
  | f :: fs, abort =>
    let ra := f idxs idx
    if ra.1 then (true, abort) else filterLoop idxs idx fs (abort || ra.2)

/-- The loop over the results (planar/intersect/segments.go lines 52-71): the
indices, and whether a filter aborted. -/
def resultLoop (fs : List SegFilter) : List Nat → List Nat → List Nat × Bool
  | [], idxs => (idxs, false)
  | r :: rs, idxs =>
    let ra := filterLoop idxs r fs false
    let idxs := if !ra.1 then idxs ++ [r] else idxs
    if ra.2 then (idxs, true) else resultLoop fs rs idxs

/-- `SearchIntersectIdxs` (planar/intersect/segments.go lines 44-75): the
indices are sorted unless a filter aborted. -/
def searchIdxs (eps : K) (index : Option (Tree K 2 Nat)) (seg : Line K) (fs : List SegFilter) :
    List Nat :=
  match index with
  | none => []
  | some t =>
    let r := resultLoop fs (RTree.search t (rectForSegment eps seg) []) []
    if r.2 then r.1 else r.1.insertionSort (· ≤ ·)

end Verif.SegIndex
