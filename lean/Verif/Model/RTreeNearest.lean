/-
Model of the nearest neighbour searches of the R-tree,
`internal/rtreego/rtree.go` and `geom.go`, in exact arithmetic: coordinates in
an ordered field.  `NearestNeighbor` compares square roots of squared distances
with each other only; the model compares the squares.  `math.MaxFloat64` as the
distance of nothing is `none`, above every distance.
-/
import Verif.Model.RTree
import Mathlib.Algebra.BigOperators.Fin
import Mathlib.Algebra.Order.Field.Basic

namespace Verif.RTree

variable {K : Type} [Field K] [LinearOrder K] {d : Nat} {Obj : Type}

/-- `minDist` (internal/rtreego/geom.go lines 47-70). -/
def minDist (p : Fin d → K) (r : Rect K d) : K :=
  ∑ i, if p i < (r i).1 then (p i - (r i).1) * (p i - (r i).1)
    else if (r i).2 < p i then (p i - (r i).2) * (p i - (r i).2)
    else 0

/-- `rm` of `minMaxDist` (internal/rtreego/geom.go lines 87-92). -/
def rm (p : Fin d → K) (r : Rect K d) (k : Fin d) : K :=
  if p k ≤ ((r k).1 + (r k).2) / 2 then (r k).1 else (r k).2

/-- `rM` of `minMaxDist` (internal/rtreego/geom.go lines 94-99). -/
def rM (p : Fin d → K) (r : Rect K d) (k : Fin d) : K :=
  if ((r k).1 + (r k).2) / 2 ≤ p k then (r k).1 else (r k).2

/-- `a < b` where `none` is `math.MaxFloat64` (internal/rtreego/geom.go lines 72-122). -/
def ltTop : Option K → Option K → Bool
  | some a, some b => decide (a < b)
  | some _, none => true
  | none, _ => false

/-- `minMaxDist` (internal/rtreego/geom.go lines 72-122). -/
def minMaxDist (p : Fin d → K) (r : Rect K d) : Option K :=
  let S := ∑ i, (p i - rM p r i) * (p i - rM p r i)
  (List.finRange d).foldl (fun m k =>
    let d1 := p k - rM p r k
    let d2 := p k - rm p r k
    let dd := S - d1 * d1 + d2 * d2
    if ltTop (some dd) m then some dd else m) none

/-- What `sortPreallocEntries` does (internal/rtreego/rtree.go lines 664-699):
the same entries, by increasing `minDist`.  `sort.Sort` is not stable, so the
order of ties is left open. -/
def SortsByDist (p : Fin d → K) (sort : List (Entry K d Obj) → List (Entry K d Obj)) : Prop :=
  ∀ es, (sort es).Perm es ∧ (sort es).Pairwise fun a b => minDist p a.1 ≤ minDist p b.1

/-- `pruneEntries` (internal/rtreego/rtree.go lines 701-717). -/
def pruneEntries (p : Fin d → K) (es : List (Entry K d Obj)) : List (Entry K d Obj) :=
  let mm := es.foldl (fun m e =>
    if ltTop (minMaxDist p e.1) m then minMaxDist p e.1 else m) (none : Option K)
  es.filter fun e => !ltTop mm (some (minDist p e.1))

/-- `nearestNeighbor` (internal/rtreego/rtree.go lines 729-751) for a node of
the given level: the nearest object so far and its distance.  `sort` is
`sortEntries` (lines 682-699). -/
def nearestNeighbor (p : Fin d → K) (sort : List (Entry K d Obj) → List (Entry K d Obj)) :
    Nat → Node K d Obj → Option Obj × Option K → Option Obj × Option K
  | 0, _, st => st
  | lvl + 1, n, st =>
    if lvl + 1 = 1 then
      n.entries.foldl (fun st e =>
        match e.2 with
        | .mk _ => st
        | .obj o => if ltTop (some (minDist p e.1)) st.2 then (some o, some (minDist p e.1)) else st) st
    else
      (pruneEntries p (sort n.entries)).foldl (fun st e =>
        let r := nearestNeighbor p sort lvl e.2 st
        if ltTop r.2 st.2 then r else st) st

/-- `NearestNeighbor` (internal/rtreego/rtree.go lines 647-652). -/
def nearest (p : Fin d → K) (sort : List (Entry K d Obj) → List (Entry K d Obj))
    (t : Tree K d Obj) : Option Obj :=
  (nearestNeighbor p sort t.height t.root (none, none)).1

/-- `insertNearest` (internal/rtreego/rtree.go lines 769-800).  The two
parallel slices `dists` and `nearest` are one list of pairs;
`sort.SearchFloat64s` is the first place not below `dist`, which is what the
binary search finds in a sorted slice. -/
def insertNearest (k : Nat) (st : List (K × Obj)) (dist : K) (o : Obj) (fs : List (Filter Obj)) :
    List (K × Obj) × Bool :=
  let i0 := (st.takeWhile fun x => decide (x.1 < dist)).length
  let i := i0 + ((st.drop i0).takeWhile fun x => decide (x.1 ≤ dist)).length
  if i ≥ k then (st, false)
  else
    let ra := applyFilters (st.map Prod.snd) o fs
    if ra.1 || ra.2 then (st, ra.2)
    else if st.length < k then (st.take i ++ (dist, o) :: st.drop i, false)
    else (st.take i ++ (dist, o) :: (st.drop i).dropLast, false)

/-- The loop of `nearestNeighbors` over a leaf
(internal/rtreego/rtree.go lines 805-811). -/
def knnLeaf (k : Nat) (p : Fin d → K) (fs : List (Filter Obj)) :
    List (Entry K d Obj) → List (K × Obj) → List (K × Obj) × Bool
  | [], st => (st, false)
  | e :: es, st =>
    match e.2 with
    | .mk _ => knnLeaf k p fs es st
    | .obj o =>
      let r := insertNearest k st (minDist p e.1) o fs
      if r.2 then r else knnLeaf k p fs es r.1

/-- The loop of `nearestNeighbors` over the branches
(internal/rtreego/rtree.go lines 818-823); `rec` is the recursive call. -/
def knnLoop (rec : Node K d Obj → List (K × Obj) → Option (List (K × Obj) × Bool)) :
    List (Entry K d Obj) → List (K × Obj) → Option (List (K × Obj) × Bool)
  | [], st => some (st, false)
  | e :: es, st => do
    let r ← rec e.2 st
    if r.2 then some r else knnLoop rec es r.1

/-- `pruneEntriesMinDist` with its call
(internal/rtreego/rtree.go lines 719-727 and 814-817); with `k = 0` and no
results the index `dists[-1]` panics. -/
def knnPrune (k : Nat) (p : Fin d → K) (st : List (K × Obj)) (es : List (Entry K d Obj)) :
    Option (List (Entry K d Obj)) :=
  if st.length ≥ k then
    match st.getLast? with
    | none => none
    | some x => some (es.takeWhile fun e => !decide (x.1 < minDist p e.1))
  else some es

/-- `nearestNeighbors` (internal/rtreego/rtree.go lines 802-826) for a node of
the given level.  `buf` is the length of the buffers `b` and `bd`; slicing them
panics if the node has more entries. -/
def nearestNeighbors (k : Nat) (p : Fin d → K) (fs : List (Filter Obj))
    (sort : List (Entry K d Obj) → List (Entry K d Obj)) :
    Nat → Nat → Node K d Obj → List (K × Obj) → Option (List (K × Obj) × Bool)
  | 0, _, _, _ => none
  | lvl + 1, buf, n, st =>
    if lvl + 1 = 1 then some (knnLeaf k p fs n.entries st)
    else if n.entries.length > buf then none
    else do
      let branches ← knnPrune k p st (sort n.entries)
      knnLoop (nearestNeighbors k p fs sort lvl (buf - n.entries.length)) branches st

/-- `NearestNeighbors` (internal/rtreego/rtree.go lines 753-767).  A negative
`k` panics in `make` and is left out. -/
def kNearest (k : Nat) (p : Fin d → K) (fs : List (Filter Obj))
    (sort : List (Entry K d Obj) → List (Entry K d Obj)) (t : Tree K d Obj) :
    Option (List Obj) :=
  (nearestNeighbors k p fs sort t.height (t.max * t.height) t.root []).map
    fun r => r.1.map Prod.snd

end Verif.RTree
