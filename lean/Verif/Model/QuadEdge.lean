/-!
# Model: the quad-edge structure (`planar/triangulate/delaunay/quadedge`)

An undirected edge of the subdivision is a quad-edge: four directed edges, number 0 and 2 being the
edge and its reverse, 1 and 3 the dual edges.  The Go code keeps them in an array and links them
with pointers.  Here the store gives each quad-edge an index (in order of allocation) and a directed
edge is an index and a number.

Not modelled: nil receivers and nil arguments (every method returns nil on a nil receiver, `Splice`
and `Delete` then do nothing), the zero value of `QuadEdge` before `Init` (`New` always calls it),
the debug switches (constant false), and `glbIdx`, which is the index of the quad-edge shared by its
four edges (`quadedge.go:27-29`), here the component `q`.
-/

namespace Verif.Quad

/-- A directed edge.  `planar/triangulate/delaunay/quadedge/edge.go:20-26` (`Edge`: `qe` is the
quad-edge, `num` the place in it). -/
structure E where
  /-- which quad-edge -/
  q : Nat
  /-- 0: the edge, 1: the dual edge to the left, 2: the reverse, 3: the dual edge to the right -/
  num : Fin 4
deriving DecidableEq, Repr

/-- The memory: how many quad-edges have been allocated, and the fields `next` and `v` of each edge.
`planar/triangulate/delaunay/quadedge/edge.go:20-26`. -/
structure Store (P : Type) where
  size : Nat
  next : E → E
  v : E → Option P

variable {P : Type}

/-- `planar/triangulate/delaunay/quadedge/quadedge.go:33-36`: the `next` pointers of a fresh
quad-edge. -/
def initNext (e : E) : E :=
  match e.num with
  | 0 => ⟨e.q, 0⟩
  | 1 => ⟨e.q, 3⟩
  | 2 => ⟨e.q, 2⟩
  | 3 => ⟨e.q, 1⟩

/-- No quad-edge yet.  What `next` and `v` say of edges that were not allocated is never looked
at; it is set here to what `Init` will store (quadedge.go:26-46). -/
def Store.empty : Store P := { size := 0, next := initNext, v := fun _ => none }

/-- The expression `e.qe.e[i]` of `edge.go:90-115`.  An index that is out of range would panic; here
it gives edge 0, and the laws of the algebra (`C43_algebra_partial`) would not hold if that ever
happened. -/
def nth (q : Nat) (i : Int) : E :=
  if i = 0 then ⟨q, 0⟩ else if i = 1 then ⟨q, 1⟩ else if i = 2 then ⟨q, 2⟩
  else if i = 3 then ⟨q, 3⟩ else ⟨q, 0⟩

/-- `planar/triangulate/delaunay/quadedge/edge.go:85-93` (`Rot`). -/
def rot (e : E) : E := if e.num = 3 then nth e.q 0 else nth e.q (e.num.val + 1)

/-- `planar/triangulate/delaunay/quadedge/edge.go:97-105` (`InvRot`). -/
def invRot (e : E) : E := if e.num = 0 then nth e.q 3 else nth e.q (e.num.val - 1)

/-- `planar/triangulate/delaunay/quadedge/edge.go:109-116` (`Sym`). -/
def sym (e : E) : E := if e.num < 2 then nth e.q (e.num.val + 2) else nth e.q (e.num.val - 2)

/-- `planar/triangulate/delaunay/quadedge/edge.go:119-124` (`ONext`). -/
def onext (s : Store P) (e : E) : E := s.next e

/-- `planar/triangulate/delaunay/quadedge/edge.go:127-129` (`OPrev`). -/
def oprev (s : Store P) (e : E) : E := rot (onext s (rot e))

/-- `planar/triangulate/delaunay/quadedge/edge.go:132-134` (`DNext`). -/
def dnext (s : Store P) (e : E) : E := sym (onext s (sym e))

/-- `planar/triangulate/delaunay/quadedge/edge.go:137-139` (`DPrev`). -/
def dprev (s : Store P) (e : E) : E := invRot (onext s (invRot e))

/-- `planar/triangulate/delaunay/quadedge/edge.go:142-144` (`LNext`). -/
def lnext (s : Store P) (e : E) : E := rot (onext s (invRot e))

/-- `planar/triangulate/delaunay/quadedge/edge.go:147-149` (`LPrev`). -/
def lprev (s : Store P) (e : E) : E := sym (onext s e)

/-- `planar/triangulate/delaunay/quadedge/edge.go:152-154` (`RNext`). -/
def rnext (s : Store P) (e : E) : E := invRot (onext s (rot e))

/-- `planar/triangulate/delaunay/quadedge/edge.go:157-159` (`RPrev`). -/
def rprev (s : Store P) (e : E) : E := onext s (sym e)

/-- `planar/triangulate/delaunay/quadedge/edge.go:50-55` (`Orig`). -/
def orig (s : Store P) (e : E) : Option P := s.v e

/-- `planar/triangulate/delaunay/quadedge/edge.go:58-60` (`Dest`). -/
def dest (s : Store P) (e : E) : Option P := orig s (sym e)

/-- `planar/triangulate/delaunay/quadedge/edge.go:222-232` (`IsEqual`, both edges not nil): the
comparison is of `e` with the edge of the same number in the other's quad-edge. -/
def isEqual (e e1 : E) : Bool := decide (e = ⟨e1.q, e.num⟩)

/-- Storing a pointer in the field `next` of one edge
(assignments as in quadedge.go:26-40, topo.go). -/
def setNext (f : E → E) (e x : E) : E → E := fun y => if y = e then x else f y

/-- Storing a pointer in the field `v` of one edge (assignments as in edge.go:63-67). -/
def setV (f : E → Option P) (e : E) (x : Option P) : E → Option P := fun y => if y = e then x else f y

/-- `planar/triangulate/delaunay/quadedge/edge.go:63-66` (`EndPoints`). -/
def endPoints (s : Store P) (e : E) (o d : Option P) : Store P :=
  { s with v := setV (setV s.v e o) (sym e) d }

/-- `planar/triangulate/delaunay/quadedge/edge.go:29-32` (`New`), with `quadedge.go:26-46`
(`Init`, `NewQEdge`): a fresh quad-edge, of which the edge number 0 is returned. -/
def new (s : Store P) : Store P × E :=
  ({ size := s.size + 1
     next := fun e => if e.q = s.size then initNext e else s.next e
     v := fun e => if e.q = s.size then none else s.v e }, ⟨s.size, 0⟩)

/-- `planar/triangulate/delaunay/quadedge/edge.go:35-39` (`NewWithEndPoints`). -/
def newWithEndPoints (s : Store P) (o d : Option P) : Store P × E :=
  let r := new s
  (endPoints r.1 r.2 o d, r.2)

/-- `planar/triangulate/delaunay/quadedge/topo.go:21-37` (`Splice`): the four pointers are read
first, then stored one after the other. -/
def splice (s : Store P) (a b : E) : Store P :=
  let alpha := rot (onext s a)
  let beta := rot (onext s b)
  let t1 := onext s b
  let t2 := onext s a
  let t3 := onext s beta
  let t4 := onext s alpha
  let n1 := setNext s.next a t1
  let n2 := setNext n1 b t2
  let n3 := setNext n2 alpha t3
  let n4 := setNext n3 beta t4
  { s with next := n4 }

/-- `planar/triangulate/delaunay/quadedge/topo.go:43-120` (`Connect`) after `bb` has been chosen.
The choice is `ResolveEdge(order, b, a.Dest())` (`topo.go:70`), whose error is only looked at when
debugging; it is nil if the destination of `a` is the origin of `b` or the walk finds nothing, and
then `bb.Orig()` is nil and the second splice does nothing (`connectNil`). -/
def connectTo (s : Store P) (a bb : E) : Store P × E :=
  let r := newWithEndPoints s (dest s a) (orig s bb)
  let s1 := splice r.1 r.2 (lnext r.1 a)
  (splice s1 (sym r.2) bb, r.2)

/-- `planar/triangulate/delaunay/quadedge/topo.go:43-120` (`Connect`) when `ResolveEdge` returned
nil. -/
def connectNil (s : Store P) (a : E) : Store P × E :=
  let r := newWithEndPoints s (dest s a) none
  (splice r.1 r.2 (lnext r.1 a), r.2)

/-- `planar/triangulate/delaunay/quadedge/topo.go:124-132` (`Swap`): note that `LNext` of the two
neighbours is taken after the first two splices, their destinations at the end. -/
def swap (s : Store P) (e : E) : Store P :=
  let a := oprev s e
  let b := oprev s (sym e)
  let s1 := splice s e a
  let s2 := splice s1 (sym e) b
  let s3 := splice s2 e (lnext s2 a)
  let s4 := splice s3 (sym e) (lnext s3 b)
  endPoints s4 e (dest s4 a) (dest s4 b)

/-- `planar/triangulate/delaunay/quadedge/topo.go:135-146` (`Delete`): `e.Sym().OPrev()` is read
after the first splice. -/
def delete (s : Store P) (e : E) : Store P :=
  let s1 := splice s e (oprev s e)
  splice s1 (sym e) (oprev s1 (sym e))

/-- `planar/triangulate/delaunay/quadedge/topo_operations.go:4-18` (`Operation`). -/
inductive Operation
  | Rot | InvRot | Sym | ONext | OPrev | DNext | DPrev | LNext | LPrev | RNext | RPrev

/-- `planar/triangulate/delaunay/quadedge/topo_operations.go:31-54`: one operation.  (A number that
is none of the eleven leaves the edge alone; not modelled.) -/
def apply1 (s : Store P) (e : E) : Operation → E
  | .Rot => rot e
  | .InvRot => invRot e
  | .Sym => sym e
  | .ONext => onext s e
  | .OPrev => oprev s e
  | .DNext => dnext s e
  | .DPrev => dprev s e
  | .LNext => lnext s e
  | .LPrev => lprev s e
  | .RNext => rnext s e
  | .RPrev => rprev s e

/-- `planar/triangulate/delaunay/quadedge/topo_operations.go:21-57` (`Apply`). -/
def apply (s : Store P) (e : E) (ops : List Operation) : E := ops.foldl (apply1 s) e

/-- `planar/triangulate/delaunay/quadedge/edge.go:209-219` (`WalkAllONext`): the edges the function
is called with, when `cont` is what it returns.  The walk ends when an edge of a quad-edge seen
before turns up.  The fuel is the number of quad-edges: each round sees a new one. -/
def walkONext (s : Store P) (cont : E → Bool) : Nat → List Nat → E → List E
  | 0, _, _ => []
  | fuel + 1, seen, e =>
    if e.q ∈ seen then []
    else if cont e then e :: walkONext s cont fuel (e.q :: seen) (onext s e)
    else [e]

/-- `planar/triangulate/delaunay/quadedge/edge.go:209-219` (`WalkAllONext`). -/
def walkAllONext (s : Store P) (cont : E → Bool) (e : E) : List E :=
  walkONext s cont s.size [] e

/-- `planar/triangulate/delaunay/quadedge/edge.go:198-208` (`WalkAllOPrev`). -/
def walkOPrev (s : Store P) (cont : E → Bool) : Nat → List Nat → E → List E
  | 0, _, _ => []
  | fuel + 1, seen, e =>
    if e.q ∈ seen then []
    else if cont e then e :: walkOPrev s cont fuel (e.q :: seen) (oprev s e)
    else [e]

/-- `planar/triangulate/delaunay/quadedge/edge.go:198-208` (`WalkAllOPrev`). -/
def walkAllOPrev (s : Store P) (cont : E → Bool) (e : E) : List E :=
  walkOPrev s cont s.size [] e

/-- `planar/triangulate/delaunay/quadedge/edge.go:171, 175`: compare the destination of an edge with
the point looked for; `hit` is the comparison (`cmp.GeomPointEqual(dest, ·)`).  `none` is the panic
on an edge without a destination. -/
def destHits (s : Store P) (hit : P → Bool) (e : E) : Option Bool := (dest s e).map hit

/-- `planar/triangulate/delaunay/quadedge/edge.go:174-178`: the loop of `FindONextDest`.  `none` is a
panic.  The fuel stands for the `for`; the number of directed edges is enough
(`C95_find_destination`). -/
def findLoop (s : Store P) (hit : P → Bool) (e : E) : Nat → E → Option (Option E)
  | 0, _ => some none
  | fuel + 1, ne =>
    if ne = e then some none
    else
      match destHits s hit ne with
      | none => none
      | some true => some (some ne)
      | some false => findLoop s hit e fuel (onext s ne)

/-- `planar/triangulate/delaunay/quadedge/edge.go:167-180` (`FindONextDest`). -/
def findONextDest (s : Store P) (hit : P → Bool) (e : E) : Option (Option E) :=
  match destHits s hit e with
  | none => none
  | some true => some (some e)
  | some false => findLoop s hit e (4 * s.size) (onext s e)

/-- `planar/triangulate/delaunay/quadedge/stack.go:7-12` (`Push`, on a stack that is not nil). -/
def push (st : List E) (e : E) : List E := st ++ [e]

/-- `planar/triangulate/delaunay/quadedge/stack.go:15-22` (`Pop`): nil (`none`) from an empty
stack. -/
def pop (st : List E) : Option E × List E := (st.getLast?, st.dropLast)

end Verif.Quad
