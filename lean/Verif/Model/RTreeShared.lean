/-
The sharing of backing arrays after a bulk load of the R-tree,
`internal/rtreego/rtree.go`.

`bulkLoad` puts all entries into one array (lines 112-118); `omt` sorts and cuts
that array in place (lines 189-193, `walkPartitions` lines 93-100) and makes
every leaf a slice `objs[a:b]` of it (lines 166-170).  The capacity of such a
slice reaches to the end of the array, so the `append` of `insert` (line 254)
writes into the place behind the leaf.
-/
import Verif.Model.RTree

namespace Verif.RTree

variable {K : Type} [LinearOrder K] {d : Nat} {Obj : Type}

/-- A node whose leaves are slices: `leaf off len` is the slice of the shared
array, `own` a leaf with an array of its own
(internal/rtreego/rtree.go lines 207-213). -/
inductive SNode (K : Type) (d : Nat) (Obj : Type) where
  | leaf (off len : Nat)
  | own (es : List (Entry K d Obj))
  | inner (es : List (Rect K d × SNode K d Obj))

/-- The entries of all leaves in order: the array after `omt` has sorted and
cut it (internal/rtreego/rtree.go lines 187-203). -/
def leavesOf : Nat → Node K d Obj → List (Entry K d Obj)
  | 0, _ => []
  | lvl + 1, n => if lvl + 1 = 1 then n.entries else n.entries.flatMap fun e => leavesOf lvl e.2

/-- The entries of an inner node turned into slices one after the other
(internal/rtreego/rtree.go lines 187-203). -/
def shareEs (rec : Node K d Obj → Nat → SNode K d Obj × Nat) :
    List (Entry K d Obj) → Nat → List (Rect K d × SNode K d Obj) × Nat
  | [], off => ([], off)
  | e :: es, off =>
    let c := rec e.2 off
    let r := shareEs rec es c.2
    ((e.1, c.1) :: r.1, r.2)

/-- The tree made by `omt` with its leaves as consecutive slices of the array
(internal/rtreego/rtree.go lines 147-205): the node and the offset behind its
last leaf. -/
def share : Nat → Node K d Obj → Nat → SNode K d Obj × Nat
  | 0, _, off => (.own [], off)
  | lvl + 1, n, off =>
    if lvl + 1 = 1 then (.leaf off n.entries.length, off + n.entries.length)
    else
      let r := shareEs (share lvl) n.entries off
      (.inner r.1, r.2)

/-- The node as it reads with the array as it is (internal/rtreego/rtree.go lines 207-213). -/
def seen (arr : List (Entry K d Obj)) : Nat → SNode K d Obj → Node K d Obj
  | 0, _ => .mk []
  | _ + 1, .leaf off len => .mk ((arr.drop off).take len)
  | _ + 1, .own es => .mk es
  | lvl + 1, .inner es => .mk (es.map fun e => (e.1, seen arr lvl e.2))

/-- A tree with a shared array (internal/rtreego/rtree.go lines 24-33). -/
structure STree (K : Type) (d : Nat) (Obj : Type) where
  min : Nat
  max : Nat
  arr : List (Entry K d Obj)
  root : SNode K d Obj
  size : Int
  height : Nat

/-- The tree as it reads (internal/rtreego/rtree.go lines 24-33). -/
def STree.seen (t : STree K d Obj) : Tree K d Obj :=
  ⟨t.min, t.max, RTree.seen t.arr t.height t.root, t.size, t.height⟩

/-- The descent of `insert` for an object
(internal/rtreego/rtree.go lines 253-265, 283-332) with the `append` of line
254 done on the slice: in place if the array goes on behind the slice.  Only
for a leaf that does not overflow; `none` otherwise. -/
def sInsertAt (A : Arith K d) (max : Nat) (x : Entry K d Obj) :
    Nat → List (Entry K d Obj) → SNode K d Obj → Option (List (Entry K d Obj) × SNode K d Obj)
  | 0, _, _ => none
  | _ + 1, arr, .leaf off len =>
    if len + 1 > max then none
    else if off + len < arr.length then some (arr.set (off + len) x, .leaf off (len + 1))
    else some (arr, .own ((arr.drop off).take len ++ [x]))
  | _ + 1, arr, .own es => if es.length + 1 > max then none else some (arr, .own (es ++ [x]))
  | lvl + 1, arr, .inner es => do
    let i ← choose A (es.map fun e => (e.1, seen arr lvl e.2)) x.1
    let en ← es[i]?
    let res ← sInsertAt A max x lvl arr en.2
    let bb ← bbOf (seen res.1 lvl res.2).entries
    some (res.1, .inner (es.set i (bb, res.2)))

/-- `Insert` (internal/rtreego/rtree.go lines 245-249) without overflow. -/
def sInsert (A : Arith K d) (bounds : Obj → Rect K d) (t : STree K d Obj) (o : Obj) :
    Option (STree K d Obj) := do
  let res ← sInsertAt A t.max (bounds o, .obj o) t.height t.arr t.root
  some { t with arr := res.1, root := res.2, size := t.size + 1 }

/-- `bulkLoad` (internal/rtreego/rtree.go lines 106-145) with the leaves as
slices. -/
def sBulkLoad (bounds : Obj → Rect K d) (min max : Nat)
    (sort : Nat → List (Entry K d Obj) → List (Entry K d Obj)) (h S : Nat)
    (objs : List Obj) : Option (STree K d Obj) :=
  (bulkLoad bounds min max sort h S objs).map fun t =>
    ⟨min, max, leavesOf t.height t.root, (share t.height t.root 0).1, t.size, t.height⟩

end Verif.RTree
