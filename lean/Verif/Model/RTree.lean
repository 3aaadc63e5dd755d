/-
Model of the R-tree, `internal/rtreego/rtree.go`, `geom.go` and `filter.go`.

Simplifications, all stated where they are made:
* a rectangle of dimension `d` is a function from `Fin d` to its pair of ends,
  so rectangles of different dimension cannot be mixed (the code panics with
  `DimError` when they are);
* coordinates are any linear order `K` (the float64 values other than NaN);
* the measure of rectangles and the float64 arithmetic on it are left open
  (`Arith`): they only steer where an object is put, and nothing proved here
  depends on the choices, whatever rounding, overflow or NaN does to them;
* nodes are values: parent pointers, and the sharing of backing arrays between
  the leaves made by a bulk load, are not here (for the latter see
  `Verif.Model.RTreeShared`);
* `none` stands for a run-time panic.
-/
import Mathlib.Order.Defs.LinearOrder

namespace Verif.RTree

/-- `Rect` (internal/rtreego/geom.go lines 124-129): the pair of ends `p[i]`,
`q[i]` in each dimension. -/
abbrev Rect (K : Type) (d : Nat) := Fin d → K × K

variable {K : Type} [LinearOrder K] {d : Nat} {Obj : Type}

/-- `boundingBox` (internal/rtreego/geom.go lines 310-332). -/
def boundingBox (r1 r2 : Rect K d) : Rect K d := fun i =>
  (if (r1 i).1 ≤ (r2 i).1 then (r1 i).1 else (r2 i).1,
   if (r1 i).2 ≤ (r2 i).2 then (r2 i).2 else (r1 i).2)

/-- `boundingBoxN` (internal/rtreego/geom.go lines 334-345); indexing panics on
an empty argument list. -/
def boundingBoxN : List (Rect K d) → Option (Rect K d)
  | [] => none
  | [r] => some r
  | r :: r' :: rs => some (rs.foldl boundingBox (boundingBox r r'))

/-- Whether `intersect` (internal/rtreego/geom.go lines 249-297) returns a
rectangle rather than nil.  The rectangle itself is never used. -/
def intersects (r1 r2 : Rect K d) : Bool :=
  decide (∀ i, ¬ ((r2 i).2 ≤ (r1 i).1 ∨ (r1 i).2 ≤ (r2 i).1))

/-- `Rect.containsRect` (internal/rtreego/geom.go lines 230-247). -/
def containsRect (r r2 : Rect K d) : Bool :=
  decide (∀ i, ¬ ((r2 i).1 < (r i).1 ∨ (r i).2 < (r2 i).2))

/-- The measure `Rect.size` (internal/rtreego/geom.go lines 185-193) and the
float64 operations used on it in rtree.go (`-`, `math.Abs`, `<`, `==`, the
constants `math.MaxFloat64`, `-1.0` and `0`).  Nothing is assumed about them. -/
structure Arith (K : Type) (d : Nat) where
  F : Type
  size : Rect K d → F
  sub : F → F → F
  abs : F → F
  lt : F → F → Bool
  eq : F → F → Bool
  maxFloat : F
  negOne : F
  zero : F

/-- `node` and the child or object of an `entry`
(internal/rtreego/rtree.go lines 207-224).  An object at the bottom counts as
a node of level 0; the level of a node is passed beside it, and a node is a
leaf exactly if its level is 1. -/
inductive Node (K : Type) (d : Nat) (Obj : Type) where
  | obj (o : Obj)
  | mk (entries : List (Rect K d × Node K d Obj))

/-- `entry` (internal/rtreego/rtree.go lines 219-224). -/
abbrev Entry (K : Type) (d : Nat) (Obj : Type) := Rect K d × Node K d Obj

/-- `node.entries` (internal/rtreego/rtree.go line 211). -/
def Node.entries : Node K d Obj → List (Entry K d Obj)
  | .obj _ => []
  | .mk es => es

/-- `Rtree` (internal/rtreego/rtree.go lines 24-31).  `height` is also the
level of the root.  `Dim` is only used by the bulk load. -/
structure Tree (K : Type) (d : Nat) (Obj : Type) where
  min : Nat
  max : Nat
  root : Node K d Obj
  size : Int
  height : Nat

/-- The empty tree at the start of `NewTree`
(internal/rtreego/rtree.go lines 36-47). -/
def empty (min max : Nat) : Tree K d Obj := ⟨min, max, .mk [], 0, 1⟩

/-- `computeBoundingBox` (internal/rtreego/rtree.go lines 346-354). -/
def bbOf (es : List (Entry K d Obj)) : Option (Rect K d) :=
  boundingBoxN (es.map Prod.fst)

section insertion
variable (A : Arith K d)

/-- The loop of `chooseNode` (internal/rtreego/rtree.go lines 290-299): the
index of the entry chosen.  The tie test dereferences `chosen.bb`, nil as long
as nothing has been chosen; nothing chosen at the end makes the recursive call
dereference a nil node. -/
def chooseLoop (bb : Rect K d) :
    List (Entry K d Obj) → Nat → A.F → Option (Nat × Rect K d) → Option Nat
  | [], _, _, chosen => chosen.map Prod.fst
  | en :: es, i, diff, chosen =>
    let dd := A.sub (A.size (boundingBox en.1 bb)) (A.size en.1)
    if A.lt dd diff then chooseLoop bb es (i + 1) dd (some (i, en.1))
    else if A.eq dd diff then
      match chosen with
      | none => none
      | some c =>
        if A.lt (A.size en.1) (A.size c.2) then
          chooseLoop bb es (i + 1) dd (some (i, en.1))
        else chooseLoop bb es (i + 1) diff chosen
    else chooseLoop bb es (i + 1) diff chosen

/-- One step down in `chooseNode` (internal/rtreego/rtree.go lines 288-301). -/
def choose (es : List (Entry K d Obj)) (bb : Rect K d) : Option Nat :=
  chooseLoop A bb es 0 A.maxFloat none

/-- The inner loop of `pickSeeds` (internal/rtreego/rtree.go lines 467-473). -/
def seedsInner (e1 : Entry K d Obj) (i : Nat) :
    List (Entry K d Obj) → Nat → A.F × Nat × Nat → A.F × Nat × Nat
  | [], _, st => st
  | e2 :: es, j, st =>
    let dd := A.sub (A.sub (A.size (boundingBox e1.1 e2.1)) (A.size e1.1)) (A.size e2.1)
    seedsInner e1 i es (j + 1) (if A.lt st.1 dd then (dd, i, j) else st)

/-- The outer loop of `pickSeeds` (internal/rtreego/rtree.go lines 466-474). -/
def seedsOuter : List (Entry K d Obj) → Nat → A.F × Nat × Nat → A.F × Nat × Nat
  | [], _, st => st
  | e1 :: es, i, st => seedsOuter es (i + 1) (seedsInner A e1 i es (i + 1) st)

/-- `pickSeeds` (internal/rtreego/rtree.go lines 462-476). -/
def pickSeeds (es : List (Entry K d Obj)) : Nat × Nat :=
  (seedsOuter A es 0 (A.negOne, 0, 1)).2

/-- The loop of `pickNext` (internal/rtreego/rtree.go lines 483-491). -/
def nextLoop (lb rb : Rect K d) : List (Entry K d Obj) → Nat → A.F × Nat → A.F × Nat
  | [], _, st => st
  | e :: es, i, st =>
    let d1 := A.sub (A.size (boundingBox lb e.1)) (A.size lb)
    let d2 := A.sub (A.size (boundingBox rb e.1)) (A.size rb)
    let dd := A.abs (A.sub d1 d2)
    nextLoop lb rb es (i + 1) (if A.lt st.1 dd then (dd, i) else st)

/-- `pickNext` (internal/rtreego/rtree.go lines 478-493). -/
def pickNext (lb rb : Rect K d) (es : List (Entry K d Obj)) : Nat :=
  (nextLoop A lb rb es 0 (A.negOne, 0)).2

/-- `assignGroup` (internal/rtreego/rtree.go lines 427-460): whether the left
group is chosen. -/
def assignLeft (e : Entry K d Obj) (lb rb : Rect K d) (nl nr : Nat) : Bool :=
  let ld := A.sub (A.size (boundingBox lb e.1)) (A.size lb)
  let rd := A.sub (A.size (boundingBox rb e.1)) (A.size rb)
  let diff := A.sub ld rd
  if A.lt diff A.zero then true
  else if A.lt A.zero diff then false
  else
    let diff2 := A.sub (A.size lb) (A.size rb)
    if A.lt diff2 A.zero then true
    else if A.lt A.zero diff2 then false
    else decide (nl ≤ nr)

/-- The loop of `split` (internal/rtreego/rtree.go lines 386-399).  `fuel` is
the length of `remaining`. -/
def splitLoop (min : Nat) : Nat → List (Entry K d Obj) → List (Entry K d Obj) →
    List (Entry K d Obj) → Option (List (Entry K d Obj) × List (Entry K d Obj))
  | _, left, right, [] => some (left, right)
  | 0, _, _, _ :: _ => none
  | fuel + 1, left, right, r :: rs => do
    let lb ← bbOf left
    let rb ← bbOf right
    let next := pickNext A lb rb (r :: rs)
    let e ← (r :: rs)[next]?
    let rest := (r :: rs).take next ++ (r :: rs).drop (next + 1)
    if (r :: rs).length + left.length ≤ min then
      splitLoop min fuel (left ++ [e]) right rest
    else if (r :: rs).length + right.length ≤ min then
      splitLoop min fuel left (right ++ [e]) rest
    else if assignLeft A e lb rb left.length right.length then
      splitLoop min fuel (left ++ [e]) right rest
    else splitLoop min fuel left (right ++ [e]) rest

/-- `split` (internal/rtreego/rtree.go lines 356-402). -/
def split (min : Nat) (es : List (Entry K d Obj)) :
    Option (List (Entry K d Obj) × List (Entry K d Obj)) := do
  let lr := pickSeeds A es
  let ls ← es[lr.1]?
  let rs ← es[lr.2]?
  splitLoop A min es.length [ls] [rs]
    (es.take lr.1 ++ (es.take lr.2).drop (lr.1 + 1) ++ es.drop (lr.2 + 1))

/-- The overflow tests of `insert` and `adjustTree`
(internal/rtreego/rtree.go lines 263-265 and 325-331): the node, and the new
sibling if it was split. -/
def overflow (min max : Nat) (es : List (Entry K d Obj)) :
    Option (Node K d Obj × Option (Node K d Obj)) :=
  if es.length > max then (split A min es).map fun lr => (.mk lr.1, some (.mk lr.2))
  else some (.mk es, none)

/-- `chooseNode`, the append of `insert`, and `adjustTree` up to this node
(internal/rtreego/rtree.go lines 253-265, 283-302, 304-332), as one descent
from a node of level `lvl` to level `target`: the node as changed, and the new
sibling if it was split. -/
def insertAt (min max target : Nat) (x : Entry K d Obj) :
    Nat → Node K d Obj → Option (Node K d Obj × Option (Node K d Obj))
  | 0, _ => none
  | lvl + 1, n =>
    if lvl + 1 = 1 ∨ lvl + 1 = target then overflow A min max (n.entries ++ [x])
    else do
      let i ← choose A n.entries x.1
      let en ← n.entries[i]?
      let res ← insertAt min max target x lvl en.2
      let bb ← bbOf res.1.entries
      let es := n.entries.set i (bb, res.1)
      match res.2 with
      | none => some (.mk es, none)
      | some nn => do
        let bb2 ← bbOf nn.entries
        overflow A min max (es ++ [(bb2, nn)])

/-- `insert` (internal/rtreego/rtree.go lines 251-281). -/
def insertEntry (t : Tree K d Obj) (x : Entry K d Obj) (target : Nat) :
    Option (Tree K d Obj) := do
  let res ← insertAt A t.min t.max target x t.height t.root
  match res.2 with
  | none => some { t with root := res.1 }
  | some nn => do
    let bb1 ← bbOf res.1.entries
    let bb2 ← bbOf nn.entries
    some { t with root := .mk [(bb1, res.1), (bb2, nn)], height := t.height + 1 }

/-- `Insert` (internal/rtreego/rtree.go lines 245-249).  `bounds` is the
`Bounds` method of the objects, assumed not to change over time. -/
def insert (bounds : Obj → Rect K d) (t : Tree K d Obj) (o : Obj) :
    Option (Tree K d Obj) :=
  (insertEntry A t (bounds o, .obj o) 1).map fun t => { t with size := t.size + 1 }

end insertion

section deletion
variable (A : Arith K d) (bounds : Obj → Rect K d) [DecidableEq Obj]

/-- Whether an entry holds the object (`cmp(e.obj, obj)` with
`defaultComparator`, internal/rtreego/rtree.go lines 17-19). -/
def holds (o : Obj) (e : Entry K d Obj) : Bool :=
  match e.2 with
  | .obj o' => decide (o' = o)
  | .mk _ => false

/-- The node at the end of a path of entry indices
(the node a pointer leads to; internal/rtreego/rtree.go:207-213). -/
def nodeAt : List Nat → Node K d Obj → Option (Node K d Obj)
  | [], n => some n
  | i :: p, n => match n.entries[i]? with
    | none => none
    | some e => nodeAt p e.2

/-- The check on the leaf found (internal/rtreego/rtree.go lines 554-558). -/
def leafHolds (o : Obj) (p : List Nat) (n : Node K d Obj) : Bool :=
  match nodeAt p n with
  | none => false
  | some l => l.entries.any (holds o)

/-- The loop of `findLeaf` (internal/rtreego/rtree.go lines 547-560) over the
entries from index `i` on; `rec` is the recursive call. -/
def findLoop (o : Obj) (rec : Node K d Obj → Option (List Nat)) :
    Nat → List (Entry K d Obj) → Option (List Nat)
  | _, [] => none
  | i, e :: es =>
    if containsRect e.1 (bounds o) then
      match rec e.2 with
      | none => findLoop o rec (i + 1) es
      | some p => if leafHolds o p e.2 then some (i :: p) else findLoop o rec (i + 1) es
    else findLoop o rec (i + 1) es

/-- `findLeaf` (internal/rtreego/rtree.go lines 541-562), for a node of the
given level: the path to the leaf returned. -/
def findLeaf (o : Obj) : Nat → Node K d Obj → Option (List Nat)
  | 0, _ => none
  | lvl + 1, n =>
    if lvl + 1 = 1 then some []
    else findLoop bounds o (findLeaf o lvl) 0 n.entries

/-- The index of the last entry holding the object
(internal/rtreego/rtree.go lines 517-522). -/
def lastIdx (o : Obj) : Nat → List (Entry K d Obj) → Option Nat → Option Nat
  | _, [], r => r
  | i, e :: es, r => lastIdx o (i + 1) es (if holds o e then some i else r)

/-- The removal of entry `ind` of the leaf at the end of the path
(internal/rtreego/rtree.go line 527) and the loop of `condenseTree` up to this
node (lines 567-590): the node as changed and the nodes in `deleted`, each with
its level. -/
def condense (min ind : Nat) : List Nat → Nat → Node K d Obj →
    Option (Node K d Obj × List (Nat × Node K d Obj))
  | [], _, n => some (.mk (n.entries.take ind ++ n.entries.drop (ind + 1)), [])
  | _ :: _, 0, _ => none
  | i :: p, lvl + 1, n => do
    let en ← n.entries[i]?
    let res ← condense min ind p lvl en.2
    if res.1.entries.length < min then
      some (.mk (n.entries.take i ++ n.entries.drop (i + 1)),
        if res.1.entries.length > 0 then res.2 ++ [(lvl, res.1)] else res.2)
    else do
      let bb ← bbOf res.1.entries
      some (.mk (n.entries.set i (bb, res.1)), res.2)

/-- The reinsertion of the deleted nodes
(internal/rtreego/rtree.go lines 592-597). -/
def reinsert : List (Nat × Node K d Obj) → Tree K d Obj → Option (Tree K d Obj)
  | [], t => some t
  | (lvl, n) :: ns, t => do
    let bb ← bbOf n.entries
    let t' ← insertEntry A t (bb, n) (lvl + 1)
    reinsert ns t'

/-- The end of `DeleteWithComparator`
(internal/rtreego/rtree.go lines 532-536). -/
def shrink (t : Tree K d Obj) : Tree K d Obj :=
  match t.root.entries with
  | [e] => if t.height = 1 then t else { t with root := e.2, height := t.height - 1 }
  | _ => t

/-- `Delete` (internal/rtreego/rtree.go lines 503-539, with
`defaultComparator`): the tree and the returned flag. -/
def delete (t : Tree K d Obj) (o : Obj) : Option (Tree K d Obj × Bool) :=
  match findLeaf bounds o t.height t.root with
  | none => some (t, false)
  | some p => do
    let l ← nodeAt p t.root
    match lastIdx o 0 l.entries none with
    | none => some (t, false)
    | some ind => do
      let res ← condense t.min ind p t.height t.root
      let t' ← reinsert A res.2 { t with root := res.1 }
      some (shrink { t' with size := t'.size - 1 }, true)

end deletion

section searching

/-- `Filter` (internal/rtreego/filter.go line 7): refuse and abort. -/
abbrev Filter (Obj : Type) := List Obj → Obj → Bool × Bool

/-- `applyFilters` (internal/rtreego/filter.go lines 13-21). -/
def applyFilters (results : List Obj) (o : Obj) : List (Filter Obj) → Bool × Bool
  | [] => (false, false)
  | f :: fs =>
    let ra := f results o
    if ra.1 || ra.2 then ra else applyFilters results o fs

/-- `LimitFilter` (internal/rtreego/filter.go lines 24-32). -/
def limitFilter (limit : Int) : Filter Obj := fun results _ =>
  if (results.length : Int) ≥ limit then (true, true) else (false, false)

/-- The loop of `searchIntersect` over a leaf
(internal/rtreego/rtree.go lines 625-643). -/
def leafLoop (q : Rect K d) (fs : List (Filter Obj)) :
    List (Entry K d Obj) → List Obj → List Obj
  | [], results => results
  | e :: es, results =>
    match e.2 with
    | .mk _ => leafLoop q fs es results
    | .obj o =>
      if !intersects e.1 q then leafLoop q fs es results
      else
        let ra := applyFilters results o fs
        let results := if !ra.1 then results ++ [o] else results
        if ra.2 then results else leafLoop q fs es results

/-- `searchIntersect` (internal/rtreego/rtree.go lines 624-645) for a node of
the given level. -/
def searchIntersect (q : Rect K d) (fs : List (Filter Obj)) :
    Nat → Node K d Obj → List Obj → List Obj
  | 0, _, results => results
  | lvl + 1, n, results =>
    if lvl + 1 = 1 then leafLoop q fs n.entries results
    else n.entries.foldl (fun results e =>
      if !intersects e.1 q then results else searchIntersect q fs lvl e.2 results) results

/-- `SearchIntersect` (internal/rtreego/rtree.go lines 605-607). -/
def search (t : Tree K d Obj) (q : Rect K d) (fs : List (Filter Obj)) : List Obj :=
  searchIntersect q fs t.height t.root []

/-- `SearchIntersectWithLimit` (internal/rtreego/rtree.go lines 615-622). -/
def searchWithLimit (t : Tree K d Obj) (k : Int) (q : Rect K d) : List Obj :=
  if k < 0 then search t q [] else search t q [limitFilter k]

end searching

section bulk
variable (bounds : Obj → Rect K d)

/-- The slices `walkPartitions` hands on (internal/rtreego/rtree.go lines
91-100), for `k > 0` and a non-empty list.  `fuel` is the length of the list.
(For an empty list or `k = 0` the code panics.) -/
def partitions (k : Nat) : Nat → List (Entry K d Obj) → List (List (Entry K d Obj))
  | 0, _ => []
  | fuel + 1, es =>
    if es.length ≤ k then [es] else es.take k :: partitions k fuel (es.drop k)

/-- The loops of `omt` collecting the children
(internal/rtreego/rtree.go lines 191-203): `child` is the recursive call. -/
def children (child : List (Entry K d Obj) → Option (Node K d Obj)) :
    List (List (Entry K d Obj)) → Option (List (Entry K d Obj))
  | [] => some []
  | part :: parts => do
    let c ← child part
    let bb ← bbOf c.entries
    let rest ← children child parts
    some ((bb, c) :: rest)

/-- `omt` (internal/rtreego/rtree.go lines 147-205).  `sort level` is
`sortByDim` in the dimension of that level: any reordering, since `sort.Sort`
is unstable and the order does not matter here.  More than `m` objects at level
1 do not occur (shown in the proofs); the model says `none` there.  The leaf
shares its entries with the slice it is made from, which is not modelled here. -/
def omt (max : Nat) (sort : Nat → List (Entry K d Obj) → List (Entry K d Obj)) :
    Nat → Nat → List (Entry K d Obj) → Nat → Option (Node K d Obj)
  | 0, _, _, _ => none
  | lvl + 1, nSlices, objs, m =>
    if objs.length ≤ m then
      if lvl + 1 > 1 then do
        let c ← omt max sort lvl nSlices objs m
        let bb ← bbOf c.entries
        some (.mk [(bb, c)])
      else some (.mk objs)
    else if lvl + 1 = 1 then none
    else do
      let k := (objs.length + m - 1) / m
      let vertSize := if nSlices > 1 then nSlices * k else objs.length
      let verts := partitions vertSize objs.length objs
      let parts := verts.flatMap fun v =>
        partitions k (sort (lvl + 1) v).length (sort (lvl + 1) v)
      let es ← children (fun part => omt max sort lvl 1 part max) parts
      some (.mk es)

/-- `bulkLoad` (internal/rtreego/rtree.go lines 106-145).  The height `h` and
the number `S` of slices come out of `math.Log2`, `math.Pow` and `math.Sqrt`;
they are parameters here, and `s` is `math.Ceil(N / nsub)` with
`nsub = MaxChildren^(h-1)`. -/
def bulkLoad (min max : Nat) (sort : Nat → List (Entry K d Obj) → List (Entry K d Obj))
    (h S : Nat) (objs : List Obj) : Option (Tree K d Obj) :=
  let es := objs.map fun o => (bounds o, Node.obj o)
  let nsub := max ^ (h - 1)
  let s := (objs.length + nsub - 1) / nsub
  (omt max sort h S (sort (h + 1) es) s).map fun root =>
    ⟨min, max, root, objs.length, h⟩

/-- `NewTree` (internal/rtreego/rtree.go lines 33-58). -/
def newTree (A : Arith K d) (min max : Nat)
    (sort : Nat → List (Entry K d Obj) → List (Entry K d Obj)) (h S : Nat)
    (objs : List Obj) : Option (Tree K d Obj) :=
  if objs.length ≤ max then
    objs.foldl (fun t o => t.bind fun t => insert A bounds t o) (some (empty min max))
  else bulkLoad bounds min max sort h S objs

end bulk

end Verif.RTree
