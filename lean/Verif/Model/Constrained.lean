import Verif.Model.Subdivision

/-!
# Edges that are asked for (planar/triangulate/delaunay/subdivision/subdivision_constrained.go)

In exact arithmetic and without the tolerances of the comparer, as Model/Subdivision.lean.  `yd` is the
`YPositiveDown` of the subdivision's order.  Logging and the debug build are left out.
-/

namespace Verif.Constrained
open Verif.Quad Verif.Resolve Verif.Subdivision

variable {K : Type} [Field K] [LinearOrder K]

/-! ## The edges that a segment crosses -/

/-- quadedge/edge.go:69-79 `AsLine`; `none` if an end point is nil, where the code has NaN. -/
def asLine (s : Store (Pt K)) (e : E) : Option (Pt K × Pt K) :=
  match orig s e, dest s e with
  | some o, some d => some (o, d)
  | _, _ => none

/-- subdivision.go:855, 867: whether `SegmentIntersect` finds a point of the edge on the line; with NaN it
does not. -/
def meets (s : Store (Pt K)) (line : Pt K × Pt K) (e : E) : Bool :=
  match asLine s e with
  | some l => (Planar.segmentIntersect line l).2
  | none => false

/-- What `FindIntersectingEdges` does: return edges, return edges and the error "infint loop", or panic
(subdivision/subdivision.go:765-889). -/
inductive Found
  | edges (l : List E)
  | infinite (l : List E)
  | panic
  deriving DecidableEq, Repr

/-- subdivision.go:835-887, the loop of `FindIntersectingEdges`; the fuel is how often `count` may be
increased yet. -/
def findLoop (s : Store (Pt K)) (line : Pt K × Pt K) (sharedEE : E) : Nat → E → List E → Found
  | 0, _, edges => .infinite edges
  | fuel + 1, w, edges =>
    let edges := if meets s line w then edges ++ [w] else edges
    if isEqual sharedEE w then .edges edges
    else if meets s line (onext s w) then findLoop s line sharedEE fuel (onext s w) edges
    else findLoop s line sharedEE fuel (onext s (sym (onext s w))) edges

/-- subdivision.go:814-887, after the edges have been resolved. -/
def findBetween (s : Store (Pt K)) (line : Pt K × Pt K) (se ee : E) : Found :=
  match dest s se, dest s ee with
  | some sd, some ed =>
    if sd = line.2 ∨ ed = line.1 then .edges []
    else findLoop s line (onext s (sym (onext s ee))) 21 (onext s (sym (onext s se))) []
  | _, _ => .panic

/-- subdivision.go:763-889 `FindIntersectingEdges`, with edges that are not nil. -/
def findIntersectingEdges (yd : Bool) (s : Store (Pt K)) (se ee : E) : Found :=
  match orig s se, orig s ee with
  | some st, some en =>
    if (en.1 - st.1) * (en.1 - st.1) + (en.2 - st.2) * (en.2 - st.2) = 0 then .edges []
    else
      match (resolveEdge (fun p q => decide (p = q)) yd s se en).candidate,
        (resolveEdge (fun p q => decide (p = q)) yd s ee st).candidate with
      | some se', some ee' => findBetween s (st, en) se' ee'
      | _, _ => .panic
  | _, _ => .panic

/-! ## Inserting an edge -/

/-- The errors of `InsertConstraint`: `ErrInvalidStartingVertex`, `ErrInvalidEndVertex` (errors.go:9-15),
"infint loop" (subdivision.go:845), those of `pseudopolygon.Triangulate` (pseudopolygon/errors.go:7-9), and
`ErrCoincidentalEdges` of `ResolveEdge`. -/
inductive Err
  | start | endd | loop | size | colinear | coincident | invalidEnd
  deriving DecidableEq, Repr

/-- What `ResolveStartingEndingEdges` returns: an error, that the edge exists, or the two edges
(subdivision/subdivision_constrained.go:27-66). -/
inductive Ends
  | err (e : Err)
  | exist
  | edges (se ee : E)
  deriving DecidableEq, Repr

/-- The error of `ResolveEdge` is `ErrPointsAreCoLinear` (quadedge/resolve_edge.go:267-272). -/
def isColinear : Resolved → Bool
  | .colinear _ => true
  | _ => false

/-- subdivision_constrained.go:27-66 `ResolveStartingEndingEdges`; `rnd` is `roundGeomPoint`
(subdivision_constrained.go:19-25).  `none` is a panic: of `FindONextDest`, or of the caller, on a nil edge. -/
def resolveEnds (rnd : Pt K → Pt K) (yd : Bool) (s : Store (Pt K)) (vx : VertexIndex K) (st en : Pt K) :
    Option Ends :=
  let st := rnd st
  let en := rnd en
  match viGet rnd vx st with
  | none => some (.err .start)
  | some se =>
    match findONextDest s (fun p => decide (p = en)) se with
    | none => none
    | some (some _) => some .exist
    | some none =>
      match viGet rnd vx en with
      | none => some (.err .endd)
      | some ee =>
        let rs := resolveEdge (fun p q => decide (p = q)) yd s se en
        let re := resolveEdge (fun p q => decide (p = q)) yd s ee st
        if isColinear rs && isColinear re then some .exist
        else
          match rs.candidate, re.candidate with
          | some se', some ee' => some (.edges se' ee')
          | _, _ => none

/-- subdivision.go:667-672 `IsHardFrameEdge`; `none` is the panic on an edge without end points. -/
def isHardFrameEdge (frame : Pt K × Pt K × Pt K) (s : Store (Pt K)) (e : E) : Option Bool :=
  match orig s e, dest s e with
  | some o, some d => some (isFramePoint frame [o] && isFramePoint frame [d])
  | _, _ => none

/-- subdivision_constrained.go:299-306 `PseudoPolygonPointCollector`: the points above and below, where
`seen` only ever has the start (subdivision_constrained.go:329-337). -/
structure Collector (K : Type) where
  upper : List (Pt K)
  lower : List (Pt K)

/-- subdivision_constrained.go:324-361 `AddPoint`. -/
def addPoint (st en : Pt K) (c : Collector K) (pt : Pt K) : Collector K :=
  let c : Collector K := ⟨if c.upper.length = 0 then [st] else c.upper, if c.lower.length = 0 then [st] else c.lower⟩
  if pt = st then c
  else
    match classify (fun p q => decide (p = q)) pt st en with
    | .left => { c with lower := c.lower ++ [pt] }
    | .right => { c with upper := c.upper ++ [pt] }
    | _ => c

/-- subdivision_constrained.go:310-320 `AddEdge`; `none` is the panic on an edge without end points. -/
def addEdge (st en : Pt K) (s : Store (Pt K)) (c : Collector K) (e : E) : Option (Collector K) :=
  match orig s e, dest s e with
  | some o, some d => some (addPoint st en (addPoint st en c o) d)
  | _, _ => none

/-- subdivision_constrained.go:372-401 `Edges`; the end has been seen only if it is the start. -/
def collectorEdges (yd : Bool) (st en : Pt K) (c : Collector K) (upper : Bool) :
    PseudoPolygon.Res (List (Pt K × Pt K)) :=
  let pts := if upper then c.upper else c.lower
  let pts := if en = st ∧ c.upper.length ≠ 0 then pts else pts ++ [en]
  if pts.length = 2 then .ok [(st, en)]
  else PseudoPolygon.triangulate yd PseudoPolygon.circleTest pts

/-- subdivision_constrained.go:220-297 `insertEdge`: the error, the store and the index afterwards.  `none` is
a panic. -/
def insertEdge (rnd : Pt K → Pt K) (yd : Bool) (s : Store (Pt K)) (vx : VertexIndex K) (st en : Pt K) :
    Option (Option Err × Store (Pt K) × VertexIndex K) :=
  let st := rnd st
  let en := rnd en
  match viGet rnd vx st with
  | none => some (some .start, s, vx)
  | some temp =>
    match findONextDest s (fun p => decide (p = en)) temp with
    | none => none
    | some (some _) => some (none, s, vx)
    | some none =>
      match resolveEdge (fun p q => decide (p = q)) yd s temp en with
      | .panic => none
      | .colinear _ => some (none, s, vx)
      | .coincident _ => some (some .coincident, s, vx)
      | .invalidEnd => some (some .invalidEnd, s, vx)
      | .nothing => some (some .start, s, vx)
      | .edge frm =>
        match viGet rnd vx en with
        | none => some (some .endd, s, vx)
        | some temp =>
          match resolveEdge (fun p q => decide (p = q)) yd s temp st with
          | .panic => none
          | .colinear _ => some (none, s, vx)
          | .coincident _ => some (some .coincident, s, vx)
          | .invalidEnd => some (some .invalidEnd, s, vx)
          | .nothing => some (some .endd, s, vx)
          | .edge upto =>
            match connect yd s (sym (onext s frm)) upto with
            | none => none
            | some r =>
              match viAdd rnd r.1 vx r.2 with
              | none => none
              | some vx' => some (none, r.1, vx')

/-- subdivision_constrained.go:143-173: the edges are taken out, save those of the frame. -/
def removeAll (rnd : Pt K → Pt K) (frame : Pt K × Pt K × Pt K) (st en : Pt K) :
    List E → Store (Pt K) → VertexIndex K → Collector K → Option (Store (Pt K) × VertexIndex K × Collector K)
  | [], s, vx, c => some (s, vx, c)
  | e :: es, s, vx, c =>
    match isHardFrameEdge frame s e with
    | none => none
    | some true => removeAll rnd frame st en es s vx c
    | some false =>
      match addEdge st en s c e, viRemove rnd s vx e with
      | some c', some vx' => removeAll rnd frame st en es (delete s e) vx' c'
      | _, _ => none

/-- subdivision_constrained.go:196-214: inserting edges one after the other, up to the first error.
`ErrDidNotFindToFrom` is not an error of `insertEdge`, so none is put off. -/
def insertAll (rnd : Pt K → Pt K) (yd : Bool) :
    List (Pt K × Pt K) → Store (Pt K) → VertexIndex K → Option (Option Err × Store (Pt K) × VertexIndex K)
  | [], s, vx => some (none, s, vx)
  | l :: ls, s, vx =>
    match insertEdge rnd yd s vx l.1 l.2 with
    | some (none, s', vx') => insertAll rnd yd ls s' vx'
    | r => r

/-- subdivision_constrained.go:179-214: one round, for the points below or above. -/
def insertSide (rnd : Pt K → Pt K) (yd : Bool) (st en : Pt K) (c : Collector K) (upper : Bool)
    (s : Store (Pt K)) (vx : VertexIndex K) : Option (Option Err × Store (Pt K) × VertexIndex K) :=
  match collectorEdges yd st en c upper with
  | .panic => none
  | .size => some (some .size, s, vx)
  | .colinear => some (some .colinear, s, vx)
  | .ok ls => insertAll rnd yd ls s vx

/-- subdivision_constrained.go:127-217: the edges found are taken out, and the two sides triangulated. -/
def retriangulate (rnd : Pt K → Pt K) (yd : Bool) (frame : Pt K × Pt K × Pt K) (st en : Pt K) (l : List E)
    (s : Store (Pt K)) (vx : VertexIndex K) : Option (Option Err × Store (Pt K) × VertexIndex K) :=
  match removeAll rnd frame st en l s vx ⟨[], []⟩ with
  | none => none
  | some (s1, vx1, c) =>
    match insertSide rnd yd st en c false s1 vx1 with
    | some (none, s2, vx2) => insertSide rnd yd st en c true s2 vx2
    | r => r

/-- subdivision_constrained.go:68-217 `InsertConstraint`, with a vertex index that is not nil: the error, and
the store and the index afterwards.  `none` is a panic. -/
def insertConstraint (rnd : Pt K → Pt K) (yd : Bool) (sd : Subdiv K) (vx : VertexIndex K) (st en : Pt K) :
    Option (Option Err × Subdiv K × VertexIndex K) :=
  match resolveEnds rnd yd sd.store vx st en with
  | none => none
  | some (.err e) => some (some e, sd, vx)
  | some .exist => some (none, sd, vx)
  | some (.edges se ee) =>
    match findIntersectingEdges yd sd.store se ee with
    | .panic => none
    | .infinite _ => some (some .loop, sd, vx)
    | .edges [] => some (none, sd, vx)
    | .edges l =>
      match retriangulate rnd yd sd.frame st en l sd.store vx with
      | none => none
      | some (e, s, vx') => some (e, { sd with store := s }, vx')

/-- `InsertConstraint` with a nil vertex index (subdivision_constrained.go:84-86). -/
def insertConstraintNil (rnd : Pt K → Pt K) (yd : Bool) (sd : Subdiv K) (st en : Pt K) :
    Option (Option Err × Subdiv K) :=
  match newVertexIndex rnd sd.store sd.start with
  | none => none
  | some vx => (insertConstraint rnd yd sd vx st en).map fun r => (r.1, r.2.1)

end Verif.Constrained
