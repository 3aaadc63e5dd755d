import Verif.Model.Subdivision
import Verif.Model.Intersect

/-!
# Validation (planar/triangulate/delaunay/quadedge/edge.go, planar/triangulate/delaunay/subdivision/subdivision.go)

In exact arithmetic and without the tolerances of the comparers: points are equal if their coordinates are.
The text of the errors is left out.  `mkq` is what `intersect.NewEventQueue` makes of a list of lines: which
arrangement `sort` gives to the events.  Logging and the debug build are left out.
-/

namespace Verif.Validate
open Verif.Quad Verif.Subdivision
open Verif.Winding (orientation clockwise counterClockwise)
open Verif.Planar (Line)
open Verif.Intersect (Event findIntersects Ret Out)
open Verif.Simplify (Ctx)

/-- quadedge/edge.go:209-219 `WalkAllONext` with a function that has a state: what the state is at the end.
The function returns the state and whether to go on, `none` if it panics. -/
def walkWith {P σ : Type} (s : Store P) (fn : σ → E → Option (σ × Bool)) : Nat → List Nat → E → σ → Option σ
  | 0, _, _, st => some st
  | fuel + 1, seen, e, st =>
    if e.q ∈ seen then some st
    else
      match fn st e with
      | none => none
      | some (st', false) => some st'
      | some (st', true) => walkWith s fn fuel (e.q :: seen) (onext s e) st'

variable {K : Type} [Field K] [LinearOrder K]

/-- The variables of `Validate` (quadedge/edge.go:241, 274-288) which its walk changes: whether there is an
error, `points`, `segs` and the two counts. -/
structure Seen (K : Type) where
  err : Bool
  points : List (Pt K)
  segs : List (Line K)
  onextCCW : Int
  oprevCW : Int

/-- quadedge/edge.go:328-333: the change of `onextCounterClockwiseCount`. -/
def onextCount (yd : Bool) (o d x : Pt K) : Int :=
  let w := orientation yd [o, d, x]
  if w = clockwise then -1 else if w = counterClockwise then 1 else 0

/-- quadedge/edge.go:336-341: the change of `oprevClockwiseCount`. -/
def oprevCount (yd : Bool) (o d x : Pt K) : Int :=
  let w := orientation yd [o, d, x]
  if w = clockwise then 1 else if w = counterClockwise then -1 else 0

/-- quadedge/edge.go:292-344: the function called with each edge `ee`.  `o` is the origin of the edge
`Validate` is called with, and `line` its line: line 321 adds this one, not the line of `ee`.  `none` is the
panic on the next or previous edge's nil destination (lines 327, 335). -/
def visit (yd : Bool) (s : Store (Pt K)) (o : Pt K) (line : Line K) (st : Seen K) (ee : E) :
    Option (Seen K × Bool) :=
  match dest s ee with
  | none => some ({ st with err := true }, false)
  | some d =>
    match orig s ee with
    | none => some ({ st with err := true }, false)
    | some o' =>
      if d ∈ st.points then some ({ st with err := true }, false)
      else
        match dest s (onext s ee), dest s (oprev s ee) with
        | some dn, some dp =>
          some (⟨st.err || decide (o' ≠ o), st.points ++ [d], st.segs ++ [line],
            st.onextCCW + onextCount yd o d dn, st.oprevCW + oprevCount yd o d dp⟩, true)
        | _, _ => none

/-- quadedge/edge.go:374-392: the function called for segments that meet; the state is whether there is an
error. -/
def selfMeets (segs : List (Line K)) (err : Bool) (src dest : Nat) (pt : Pt K) : Bool × Ret Unit :=
  let a := Intersect.segAt segs src
  let b := Intersect.segAt segs dest
  if (pt = a.1 ∨ pt = a.2) ∨ (pt = b.1 ∨ pt = b.2) then (err, .cont) else (true, .err ())

/-- quadedge/edge.go:235-399 `Validate`: whether it returns nil; `none` is a panic.  Lines 245-262, which
check `Rot`, `Sym` and `InvRot` of the edge, are left out: with edges numbered from 0 to 3 (edge.go:83-115)
they find nothing. -/
def validateEdge (mkq : List (Line K) → List (Event K)) (yd : Bool) (s : Store (Pt K)) (e : E) : Option Bool :=
  match orig s e with
  | none => some false
  | some o =>
    match walkWith s (visit yd s o (o, (dest s e).getD o)) s.size [] e ⟨false, [], [], 0, 0⟩ with
    | none => none
    | some st =>
      if st.err then some false
      else if 2 < st.points.length then
        let err := decide (st.oprevCW ≤ 0) || decide (st.onextCCW ≤ 0)
        some !(findIntersects (fun _ => false) st.segs (mkq st.segs) true (fun a b => decide (a = b))
          (selfMeets st.segs) err).1
      else some true

/-- subdivision.go:496-515: the function `sd.Validate` calls for each edge: whether it returns nil; `none` is
a panic.  line.go:82-85 is the square of the length. -/
def checkEdge (mkq : List (Line K) → List (Event K)) (yd : Bool) (s : Store (Pt K)) (e : E) : Option Bool :=
  match validateEdge mkq yd s e with
  | some true =>
    match orig s e, dest s e with
    | some o, some d =>
      some (decide ((d.1 - o.1) * (d.1 - o.1) + (d.2 - o.2) * (d.2 - o.2) ≠ 0))
    | _, _ => some true
  | r => r

/-- What `Validate` returns: nil, an `ErrInvalid`, the error of the context, or it panics
(quadedge/edge.go:236-399, subdivision.go:488-531). -/
inductive Verdict where
  | ok
  | invalid
  | ctxErr
  | panic
  deriving DecidableEq

/-- subdivision.go:497 `AsLine` (quadedge/edge.go:69-79) for edges with both ends: others are not valid. -/
def lineOf (s : Store (Pt K)) (e : E) : Line K := ((orig s e).getD (0, 0), (dest s e).getD (0, 0))

/-- subdivision.go:488-530 `Validate`, and 533 `IsValid`, which is whether this is `ok`; for a subdivision
that is not nil and has a starting edge. -/
def validate (mkq : List (Line K) → List (Event K)) (ctx : Ctx) (yd : Bool) (s : Store (Pt K)) (start : E) :
    Verdict :=
  let es := walkAllEdges s (fun e => checkEdge mkq yd s e == some true) start
  match es.find? (fun e => checkEdge mkq yd s e != some true) with
  | some e => if checkEdge mkq yd s e = none then .panic else .invalid
  | none =>
    let lines := es.map (lineOf s)
    match (findIntersects ctx lines (mkq lines) true (fun a b => decide (a = b))
      (fun (_ : Unit) _ _ _ => ((), Ret.err ())) ()).2 with
    | .ok => .ok
    | .err _ => .invalid
    | .ctxErr => .ctxErr

end Verif.Validate
