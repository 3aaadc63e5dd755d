import Mathlib.Order.Lattice
import Mathlib.Analysis.Real.Sqrt
import Verif.Model.Geom

/-!
# kd-tree

planar/index/kdtree.  Coordinates range over a linear order `K` (float64
without NaN is one, with the two zeros identified); the distance function is
a parameter, and `EuclideanDistance` is given over the reals.  A stored
`geom.Pointer` is any value of a type `P` with `xy : P → Pt K`.
-/

namespace Verif.KdTree

/-- bbox.go:22 `Extent` as (min, max) corners over `K`. -/
structure Box (K : Type) where
  minx : K
  miny : K
  maxx : K
  maxy : K

section Order
variable {K : Type} [LinearOrder K] {P : Type}

/-- bbox.go:176-204 `NewExtent` for one point. -/
def Box.ofPt (p : Pt K) : Box K := ⟨p.1, p.2, p.1, p.2⟩

/-- bbox.go:139-153 `Extent.AddPoints` for one point on a non-nil extent. -/
def Box.add (e : Box K) (p : Pt K) : Box K :=
  ⟨min p.1 e.minx, min p.2 e.miny, max p.1 e.maxx, max p.2 e.maxy⟩

/-- planar/index/kdtree/kdnode.go:15-21 `KdNode`; `nil` is the nil pointer, and
`KdTree` (kdtree.go:22-24) is its root. -/
inductive Tree (K P : Type) where
  | nil
  | node (p : P) (bbox : Box K) (left right : Tree K P)

/-- planar/index/kdtree/kdnode.go:24-31 `NewKdNode`. -/
def newNode (xy : P → Pt K) (p : P) : Tree K P := .node p (.ofPt (xy p)) .nil .nil

/-- The coordinate `p.XY()[d]`, `d` being 0 (`false`) or 1 (`true`):
planar/index/kdtree/kdtree.go:54. -/
def coord (d : Bool) (p : Pt K) : K := if d then p.2 else p.1

/-- What `Insert` returns: the point of the returned node, and whether the
error is `ErrDuplicateNode` (planar/index/kdtree/kdtree.go:33-77). -/
structure Res (P : Type) where
  found : P
  dup : Bool
  deriving DecidableEq

/-- planar/index/kdtree/kdtree.go:33-77 `KdTree.Insert` from a node at
dimension `d`; the loop that walks down is the recursion, its in-place
updates are the rebuilt path.  A nil child (or root, 36-39) is replaced by
the new node (55-59, 65-69); the bounding box of every node visited is grown
(46) before the duplicate test (50-51). -/
def insertAt (xy : P → Pt K) (d : Bool) : Tree K P → P → Tree K P × Res P
  | .nil, p => (newNode xy p, ⟨p, false⟩)
  | .node c bb l r, p =>
    let bb' := bb.add (xy p)
    if (xy p).1 = (xy c).1 ∧ (xy p).2 = (xy c).2 then (.node c bb' l r, ⟨c, true⟩)
    else if coord d (xy p) < coord d (xy c) then
      let (l', res) := insertAt xy (!d) l p
      (.node c bb' l' r, res)
    else
      let (r', res) := insertAt xy (!d) r p
      (.node c bb' l r', res)

/-- planar/index/kdtree/kdtree.go:33-77 `KdTree.Insert`: starts at the root
with dimension 0 (44). -/
def insert (xy : P → Pt K) (t : Tree K P) (p : P) : Tree K P × Res P :=
  insertAt xy false t p

/-- A sequence of `Insert` calls: the final tree and the results in order
(planar/index/kdtree/kdtree.go:33-77, repeated). -/
def insertAll (xy : P → Pt K) : Tree K P → List P → Tree K P × List (Res P)
  | t, [] => (t, [])
  | t, p :: ps =>
    let (t', r) := insert xy t p
    let (t'', rs) := insertAll xy t' ps
    (t'', r :: rs)

end Order

section Iter
variable {K P D : Type} [LinearOrder D]

/-- planar/index/kdtree/nearest_neighbor_iterator.go:98-105 the two heaps of
`NearestNeighborIterator`.  Simplifications: a heap is the list of its
entries in any order, see `Step`; an entry (14-17) of the node heap keeps only
the point of its node, an entry of the bbox heap only the two children of its
node, the only parts read later (164-167, 188). -/
structure It (K P D : Type) where
  nodeHeap : List (P × D)
  bboxHeap : List ((Tree K P × Tree K P) × D)

/-- planar/index/kdtree/nearest_neighbor_iterator.go:173-184 `pushNode`; `df`
is the iterator's distance function with its query point `nni.p` applied. -/
def pushNode [LinearOrder K] (xy : P → Pt K) (df : Box K → D) : Tree K P → It K P D → It K P D
  | .nil, s => s
  | .node p bb l r, s =>
    ⟨(p, df (.ofPt (xy p))) :: s.nodeHeap, ((l, r), df bb) :: s.bboxHeap⟩

/-- planar/index/kdtree/nearest_neighbor_iterator.go:134-144
`NewNearestNeighborIterator`. -/
def start [LinearOrder K] (xy : P → Pt K) (df : Box K → D) (t : Tree K P) : It K P D :=
  pushNode xy df t ⟨[], []⟩

/-- `heap.Pop` of container/heap: takes out some entry whose distance is
least (`Less` is `<` on distances, nearest_neighbor_iterator.go:32), leaving
the others; which of several least entries is taken, and the order of the
rest, is left open. -/
def Pop {E : Type} (h : List (E × D)) (e : E × D) (rest : List (E × D)) : Prop :=
  h.Perm (e :: rest) ∧ ∀ x ∈ rest, e.2 ≤ x.2

/-- `heap[0].d <= heap'[0].d` for nonempty heaps, where `heap[0]` is a least
entry: nearest_neighbor_iterator.go:156-157. -/
def TopLe {E F : Type} (h : List (E × D)) (h' : List (F × D)) : Prop :=
  ∃ e ∈ h, (∀ x ∈ h, e.2 ≤ x.2) ∧ ∃ f ∈ h', (∀ x ∈ h', f.2 ≤ x.2) ∧ e.2 ≤ f.2

/-- The condition at planar/index/kdtree/nearest_neighbor_iterator.go:156-157. -/
def NodeFirst (s : It K P D) : Prop :=
  s.nodeHeap ≠ [] ∧ ((s.bboxHeap ≠ [] ∧ TopLe s.nodeHeap s.bboxHeap) ∨ s.bboxHeap = [])

/-- planar/index/kdtree/nearest_neighbor_iterator.go:150-170 one `Next` call:
`Next s o s'` says a call on `s` can end with current value `o` (`none` for a
false return) and leave the iterator `s'`. -/
inductive Next [LinearOrder K] (xy : P → Pt K) (df : Box K → D) :
    It K P D → Option (P × D) → It K P D → Prop where
  | done : Next xy df ⟨[], []⟩ none ⟨[], []⟩
  | yield {s e rest} : NodeFirst s → Pop s.nodeHeap e rest →
      Next xy df s (some e) ⟨rest, s.bboxHeap⟩
  | expand {s e rest o s'} : ¬ (s.nodeHeap = [] ∧ s.bboxHeap = []) → ¬ NodeFirst s →
      Pop s.bboxHeap e rest →
      Next xy df (pushNode xy df e.1.2 (pushNode xy df e.1.1 ⟨s.nodeHeap, rest⟩)) o s' →
      Next xy df s o s'

/-- planar/index/kdtree/nearest_neighbor_iterator.go:151-167 one pass of the
loop in `Next` that finds something to do: take from the node heap and return,
or take from the bbox heap and go round again. -/
inductive Tick [LinearOrder K] (xy : P → Pt K) (df : Box K → D) :
    It K P D → It K P D → Prop where
  | yield {s e rest} : NodeFirst s → Pop s.nodeHeap e rest →
      Tick xy df s ⟨rest, s.bboxHeap⟩
  | expand {s e rest} : ¬ NodeFirst s → Pop s.bboxHeap e rest →
      Tick xy df s (pushNode xy df e.1.2 (pushNode xy df e.1.1 ⟨s.nodeHeap, rest⟩))

/-- The loop `for nnit.Next() { nnit.Value() }` of the documentation
(nearest_neighbor_iterator.go:126-131): the values seen until `Next` returns
false. -/
inductive Drain [LinearOrder K] (xy : P → Pt K) (df : Box K → D) :
    It K P D → List (P × D) → Prop where
  | stop {s s'} : Next xy df s none s' → Drain xy df s []
  | more {s s' e out} : Next xy df s (some e) s' → Drain xy df s' out →
      Drain xy df s (e :: out)

end Iter

/-- planar/index/kdtree/nearest_neighbor_iterator.go:57-61 `distance`. -/
noncomputable def distance (c1 c2 : Pt ℝ) : ℝ :=
  let v1 := c2.1 - c1.1
  let v2 := c2.2 - c1.2
  √(v1 * v1 + v2 * v2)

/-- bbox.go:268-275 `Extent.ContainsPoint` for a non-nil extent. -/
def Box.containsPoint (e : Box ℝ) (p : Pt ℝ) : Prop :=
  e.minx ≤ p.1 ∧ p.1 ≤ e.maxx ∧ e.miny ≤ p.2 ∧ p.2 ≤ e.maxy

open Classical in
/-- planar/index/kdtree/nearest_neighbor_iterator.go:63-96
`EuclideanDistance`, over the reals (no rounding). -/
noncomputable def euclideanDistance (p : Pt ℝ) (e : Box ℝ) : ℝ :=
  if e.containsPoint p then 0
  else if p.1 < e.minx then
    if p.2 < e.miny then distance p (e.minx, e.miny)
    else if p.2 > e.maxy then distance p (e.minx, e.maxy)
    else e.minx - p.1
  else if p.1 > e.maxx then
    if p.2 < e.miny then distance p (e.maxx, e.miny)
    else if p.2 > e.maxy then distance p (e.maxx, e.maxy)
    else p.1 - e.maxx
  else if p.2 < e.miny then e.miny - p.2
  else p.2 - e.maxy

end Verif.KdTree
