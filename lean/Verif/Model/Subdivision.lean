import Verif.Model.Resolve
import Verif.Model.Planar
import Verif.Model.PseudoPolygon

/-!
# Subdivisions (planar/triangulate/delaunay/subdivision/subdivision.go)

In exact arithmetic and without the tolerances of the comparer: points are equal if their coordinates
are.  `yd` is the `YPositiveDown` of the subdivision's order.  Logging and the debug build are left out.
-/

namespace Verif.Subdivision
open Verif.Quad Verif.Resolve
open Verif.Winding (orientation clockwise counterClockwise colinear)

/-! ## Walks over any points -/

section Walk
variable {P : Type}

/-- subdivision.go:629-649, the loop of `WalkAllEdges`: the edges the function is called with.  `cont` is
whether the function returns nil.  The stack has its top first.  The fuel: every round but the first pops
an edge that was pushed, and two are pushed for each quad-edge. -/
def walkEdgesLoop (s : Store P) (cont : E → Bool) : Nat → List E → List E → List E
  | 0, _, _ => []
  | _ + 1, _, [] => []
  | fuel + 1, visited, e :: stack =>
    if e ∈ visited then walkEdgesLoop s cont fuel visited stack
    else if cont e then
      e :: walkEdgesLoop s cont fuel (sym e :: e :: visited) (onext s (sym e) :: onext s e :: stack)
    else [e]

/-- subdivision.go:620-651 `WalkAllEdges`, with quadedge/stack.go:4-25. -/
def walkAllEdges (s : Store P) (cont : E → Bool) (se : E) : List E :=
  walkEdgesLoop s cont (2 * s.size + 1) [] [se]

end Walk

variable {K : Type} [Field K] [LinearOrder K]

/-! ## The vertex index -/

/-- subdivision.go:544 `VertexIndex`: a map, as the function it stands for. -/
abbrev VertexIndex (K : Type) := Pt K → Option E

/-- subdivision.go:569-574: a point is given an edge if it has none. -/
def viPut (vx : VertexIndex K) (k : Pt K) (e : E) : VertexIndex K :=
  if vx k = none then fun p => if p = k then some e else vx p else vx

/-- subdivision.go:563-575 `VertexIndex.Add`; `rnd` is `roundGeomPoint`
(subdivision_constrained.go:19-25).  `none` is the panic on an edge without end points. -/
def viAdd (rnd : Pt K → Pt K) (s : Store (Pt K)) (vx : VertexIndex K) (e : E) : Option (VertexIndex K) :=
  match orig s e, dest s e with
  | some o, some d => some (viPut (viPut vx (rnd o) e) (rnd d) (sym e))
  | _, _ => none

/-- Adding edges one after the other (subdivision.go:553-576). -/
def viAddAll (rnd : Pt K → Pt K) (s : Store (Pt K)) : List E → VertexIndex K → Option (VertexIndex K)
  | [], vx => some vx
  | e :: es, vx =>
    match viAdd rnd s vx e with
    | none => none
    | some vx1 => viAddAll rnd s es vx1

/-- subdivision.go:553-560 `NewVertexIndex`. -/
def newVertexIndex (rnd : Pt K → Pt K) (s : Store (Pt K)) (se : E) : Option (VertexIndex K) :=
  viAddAll rnd s (walkAllEdges s (fun _ => true) se) (fun _ => none)

/-- subdivision.go:578-582 `VertexIndex.Get`. -/
def viGet (rnd : Pt K → Pt K) (vx : VertexIndex K) (pt : Pt K) : Option E := vx (rnd pt)

/-- subdivision.go:598-610: one round of the loop of `Remove`, for the rounded end point `v`. -/
def viRemove1 (s : Store (Pt K)) (e : E) (vx : VertexIndex K) (v : Pt K) : VertexIndex K :=
  match vx v with
  | none => vx
  | some ve =>
    if ve = e ∨ ve = sym e ∨ ve = rot e ∨ ve = sym (rot e) then
      fun p => if p = v then (if ve ≠ onext s ve then some (onext s ve) else none) else vx p
    else vx

/-- subdivision.go:585-611 `VertexIndex.Remove`. -/
def viRemove (rnd : Pt K → Pt K) (s : Store (Pt K)) (vx : VertexIndex K) (e : E) : Option (VertexIndex K) :=
  match orig s e, dest s e with
  | some o, some d => some (viRemove1 s e (viRemove1 s e vx (rnd o)) (rnd d))
  | _, _ => none

/-! ## Finding the triangle of a point -/

/-- subdivision.go:891-896 `ptEqual`. -/
def ptEqual (x : Pt K) : Option (Pt K) → Bool
  | none => false
  | some a => decide (x = a)

/-- subdivision.go:900-942 `testEdge`. -/
def testEdge (yd : Bool) (s : Store (Pt K)) (x : Pt K) (e : E) : E × Bool :=
  if ptEqual x (orig s e) || ptEqual x (dest s e) then (e, true)
  else if rightOf yd s x e then (sym e, false)
  else if !rightOf yd s x (onext s e) then (onext s e, false)
  else if !rightOf yd s x (dprev s e) then (dprev s e, false)
  else (e, true)

/-- subdivision.go:988-1015, the loop of `locate` with a positive limit.  `none` is the return with false,
whose edge the only caller does not look at (subdivision.go:232-239).  The fuel is the limit less the
count. -/
def locateLoop (yd : Bool) (s : Store (Pt K)) (x : Pt K) (se : E) : Nat → E → Option E
  | fuel, e =>
    let r := testEdge yd s x e
    if r.2 then some r.1
    else
      match fuel with
      | 0 => none
      | fuel + 1 => if r.1 = se then none else locateLoop yd s x se fuel r.1

/-- subdivision.go:969-1017 `locate`.  If `ResolveEdge` gives nil, so does every step after it, and the walk
is back at its start in the first round. -/
def locate (yd : Bool) (s : Store (Pt K)) (se : E) (x : Pt K) (limit : Nat) : Option E :=
  match (resolveEdge (fun p q => decide (p = q)) yd s se x).candidate with
  | none => none
  | some se' => locateLoop yd s x se' limit se'

/-! ## Subdivisions -/

/-- subdivision.go:29-37 `Subdivision`, without the lock and the cache; the edges are in `store`. -/
structure Subdiv (K : Type) where
  store : Store (Pt K)
  start : E
  ptcount : Nat
  frame : Pt K × Pt K × Pt K

/-- triangle.go:34-38 `Center`. -/
def center (a b c : Pt K) : Pt K := ((a.1 + b.1 + c.1) / 3, (a.2 + b.2 + c.2) / 3)

/-- subdivision.go:42-52: the edges of `New`. -/
def newStore (a b c : Pt K) : Store (Pt K) :=
  let r1 := newWithEndPoints Store.empty (some a) (some b)
  let r2 := new r1.1
  let s1 := splice r2.1 (sym r1.2) r2.2
  let s2 := endPoints s1 r2.2 (some b) (some c)
  let r3 := newWithEndPoints s2 (some c) (some a)
  let s3 := splice r3.1 (sym r2.2) r3.2
  splice s3 (sym r3.2) r1.2

/-- subdivision.go:40-67 `New`.  `none` is the panic (or a nil starting edge, which does not come up). -/
def newSub (yd : Bool) (a b c : Pt K) : Option (Subdiv K) :=
  match resolveEdge (fun p q => decide (p = q)) yd (newStore a b c) ⟨0, 0⟩ (center a b c) with
  | .edge se => some ⟨newStore a b c, se, 3, (a, b, c)⟩
  | _ => none

/-- subdivision.go:196-198 `locate`. -/
def Subdiv.locate (yd : Bool) (sd : Subdiv K) (x : Pt K) : Option E :=
  Subdivision.locate yd sd.store sd.start x (2 * sd.ptcount)

/-- subdivision.go:204-218 `setOfThreeAreColinear`. -/
def setOfThreeAreColinear (yd : Bool) (p1 p2 p3 p4 : Pt K) : Bool :=
  orientation yd [p1, p2, p3] == colinear || orientation yd [p1, p2, p4] == colinear ||
  orientation yd [p1, p3, p4] == colinear || orientation yd [p2, p3, p4] == colinear

/-- topo.go:43-120 `Connect`. -/
def connect (yd : Bool) (s : Store (Pt K)) (a b : E) : Option (Store (Pt K) × E) :=
  match dest s a with
  | none => none
  | some p =>
    match (resolveEdge (fun p q => decide (p = q)) yd s b p).candidate with
    | none => some (connectNil s a)
    | some bb => some (connectTo s a bb)

/-- subdivision.go:312-339: connecting the corners of the face to the new point.  `none` is a panic, or that
the fuel does not suffice. -/
def connectLoop (yd : Bool) (startingEdge : E) : Nat → Store (Pt K) → E → E → Option (Store (Pt K) × E)
  | 0, _, _, _ => none
  | fuel + 1, s, base, e =>
    if lnext s e = startingEdge then some (s, e)
    else
      match connect yd s e (sym base) with
      | none => none
      | some r => connectLoop yd startingEdge fuel r.1 r.2 (oprev r.1 r.2)

/-- topo.go:149-160 `OnEdge`. -/
def onEdge (s : Store (Pt K)) (x : Pt K) (e : E) : Bool :=
  match orig s e, dest s e with
  | some o, some d => Planar.isPointOnLineSegment (fun a b => decide (a = b)) x (o, d)
  | _, _ => false

/-- subdivision.go:353-365: whether the new point is in the circle of the triangle on the other side of the
suspect edge. -/
def containsPoint (yd : Bool) (x o d td : Pt K) : Bool :=
  if setOfThreeAreColinear yd x o d td then false
  else
    match Shapes.circleFromPoints o td d with
    | .circle c first => decide (PseudoPolygon.dist2 c x ≤ PseudoPolygon.dist2 c first)
    | _ => false

/-- winding.go:250-267 `ThreePointsAreColinear`. -/
def threePointsAreColinear (p1 p2 p3 : Pt K) : Bool :=
  decide (1 / 2 * ((p1.1 - p2.1) * (p2.2 - p3.2) - (p2.1 - p3.1) * (p1.2 - p2.2)) = 0)

/-- subdivision.go:434-450: the cases after the first one. -/
def suspectNext (s : Store (Pt K)) (startingEdge e : E) : Option E :=
  if onext s e = startingEdge then none else some (lprev s (onext s e))

/-- subdivision.go:346-453: the loop over the suspect edges.  `none` is the panic of line 407, or on an edge
without end points, or that the fuel does not suffice. -/
def suspectLoop (yd : Bool) (x : Pt K) (startingEdge : E) : Nat → Store (Pt K) → E → Option (Store (Pt K))
  | 0, _, _ => none
  | fuel + 1, s, e =>
    let t := oprev s e
    match orig s e, dest s e, dest s t, dest s (oprev s (sym e)) with
    | some o, some d, some td, some bd =>
      if rightOf yd s td e && containsPoint yd x o d td then
        if td = bd then none
        else if threePointsAreColinear d td bd then
          match suspectNext s startingEdge e with
          | none => some s
          | some e' => suspectLoop yd x startingEdge fuel s e'
        else
          let s' := swap s e
          suspectLoop yd x startingEdge fuel s' (oprev s' e)
      else
        match suspectNext s startingEdge e with
        | none => some s
        | some e' => suspectLoop yd x startingEdge fuel s e'
    | _, _, _, _ => none

/-- subdivision.go:278-339: the new point is connected with the corners of the left face of `e`.  The result
is the store, the first new edge, and the suspect edge to begin with. -/
def insertIn (yd : Bool) (s : Store (Pt K)) (e : E) (x : Pt K) : Option (Store (Pt K) × E × E) :=
  let r := newWithEndPoints s (orig s e) (some x)
  let s1 := splice r.1 r.2 e
  match connect yd s1 e (sym r.2) with
  | none => none
  | some c =>
    match connectLoop yd r.2 (4 * s.size + 4) c.1 c.2 (oprev c.1 c.2) with
    | none => none
    | some l => some (l.1, r.2, l.2)

/-- subdivision.go:278-453: connecting and looking after the suspect edges. -/
def insertAt (yd : Bool) (sd : Subdiv K) (s : Store (Pt K)) (e : E) (x : Pt K) : Option (Bool × Subdiv K) :=
  match insertIn yd s e x with
  | none => none
  | some (s1, base, e1) =>
    match suspectLoop yd x base (4 * s1.size + 4) s1 e1 with
    | none => none
    | some s2 => some (true, { sd with store := s2 })

/-- subdivision.go:224-454 `InsertSite`: what is returned, and the subdivision afterwards.  `none` is a
panic, or that a loop does not end within the fuel. -/
def insertSite (yd : Bool) (sd : Subdiv K) (x : Pt K) : Option (Bool × Subdiv K) :=
  let sd := { sd with ptcount := sd.ptcount + 1 }
  match sd.locate yd x with
  | none => some (false, sd)
  | some e =>
    if ptEqual x (orig sd.store e) || ptEqual x (dest sd.store e) then some (true, sd)
    else if onEdge sd.store x e then
      let e1 := oprev sd.store e
      if ptEqual x (orig sd.store e1) || ptEqual x (dest sd.store e1) then some (true, sd)
      else insertAt yd sd (delete sd.store (onext sd.store e1)) e1 x
    else insertAt yd sd sd.store e x

/-! ## Triangles -/

/-- subdivision.go:675-684 `IsFramePoint`. -/
def isFramePoint (frame : Pt K × Pt K × Pt K) (pts : List (Pt K)) : Bool :=
  pts.any fun pt => decide (pt = frame.1) || decide (pt = frame.2.1) || decide (pt = frame.2.2)

/-- subdivision.go:735-758: the round about one vertex.  The triangles found and the stack afterwards (its
top first), `none` for a panic. -/
def trianglesRound (s : Store (Pt K)) (seen : List (Pt K)) (start : Pt K) (se : E) :
    Nat → E → List E → List (Pt K × Pt K × Pt K) → Option (List E × List (Pt K × Pt K × Pt K))
  | 0, _, _, _ => none
  | fuel + 1, w, stack, acc =>
    let nx := onext s w
    match dest s nx, dest s w with
    | some endP, some midP =>
      if endP ∈ seen ∨ midP ∈ seen then
        if nx = se then some (stack, acc) else trianglesRound s seen start se fuel nx stack acc
      else
        match findONextDest s (fun p => decide (p = endP)) (sym w) with
        | none => none
        | some f =>
          let acc' := if f = none then acc else acc ++ [(start, midP, endP)]
          if nx = se then some (sym w :: stack, acc')
          else trianglesRound s seen start se fuel nx (sym w :: stack) acc'
    | _, _ => none

/-- subdivision.go:712-760: the loop of `WalkAllTriangles`, with a function that always goes on. -/
def trianglesLoop (s : Store (Pt K)) : Nat → List (Pt K) → List E → List (Pt K × Pt K × Pt K) →
    Option (List (Pt K × Pt K × Pt K))
  | 0, _, _, _ => none
  | _ + 1, _, [], acc => some acc
  | fuel + 1, seen, e :: stack, acc =>
    match orig s e with
    | none => none
    | some p =>
      if p ∈ seen then trianglesLoop s fuel seen stack acc
      else if e = onext s e then trianglesLoop s fuel (p :: seen) stack acc
      else
        match trianglesRound s (p :: seen) p e (4 * s.size) e stack acc with
        | none => none
        | some r => trianglesLoop s fuel (p :: seen) r.1 r.2

/-- subdivision.go:686-761 `WalkAllTriangles`, with a function that always goes on. -/
def walkAllTriangles (s : Store (Pt K)) (se : E) : Option (List (Pt K × Pt K × Pt K)) :=
  trianglesLoop s (4 * s.size + 2) [] [se] []

/-- subdivision.go:468-484 `Triangles`. -/
def Subdiv.triangles (sd : Subdiv K) (includeFrame : Bool) : Option (List (Pt K × Pt K × Pt K)) :=
  (walkAllTriangles sd.store sd.start).map fun ts =>
    ts.filter fun t => !(isFramePoint sd.frame [t.1, t.2.1, t.2.2] && !includeFrame)

end Verif.Subdivision
