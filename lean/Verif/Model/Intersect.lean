import Verif.Model.Planar
import Verif.Model.Shapes
import Verif.Model.KdTree
import Verif.Model.Simplify
import Mathlib.Data.List.Sort

/-!
# Sweep over segments and point in ring

planar/intersect/xsweep.go and ring.go, in exact arithmetic (an ordered
field).
-/

namespace Verif.Intersect
open Verif.Planar (Line segmentIntersect areLinesColinear)
open Verif.Shapes (lineContainsPoint)
open Verif.KdTree (Box)
open Verif.Simplify (Ctx)

section Field
variable {K : Type} [Field K] [LinearOrder K]

/-- planar/intersect/xsweep.go:35-39 `event`; `right` is `edgeType == RIGHT`
(17-22). -/
structure Event (K : Type) where
  edge : Nat
  right : Bool
  ev : Pt K
  deriving DecidableEq

/-- planar/intersect/xsweep.go:52-63 `EventQueue.Less`; `LEFT < RIGHT`. -/
def less (e1 e2 : Event K) : Bool :=
  if e1.ev.1 ≠ e2.ev.1 then decide (e1.ev.1 < e2.ev.1)
  else if e1.right ≠ e2.right then !e1.right && e2.right
  else decide (e1.ev.2 < e2.ev.2)

/-- planar/intersect/xsweep.go:74-87 the two events of segment `i`. -/
def eventsOf (i : Nat) (seg : Line K) : List (Event K) :=
  let p1 := seg.1
  let p2 := seg.2
  if p1.1 < p2.1 ∨ (p1.1 = p2.1 ∧ p1.2 < p2.2) then [⟨i, false, p1⟩, ⟨i, true, p2⟩]
  else [⟨i, true, p1⟩, ⟨i, false, p2⟩]

/-- planar/intersect/xsweep.go:69-88 the events before sorting, for the
segments numbered from `i`. -/
def allEvents : Nat → List (Line K) → List (Event K)
  | _, [] => []
  | i, seg :: segs => eventsOf i seg ++ allEvents (i + 1) segs

/-- planar/intersect/xsweep.go:89 `sort.Sort(eq)`: some arrangement of the
events in which none is less than an earlier one.  Which arrangement, where
`Less` leaves a choice, is up to `sort`. -/
def IsQueue (segs : List (Line K)) (q : List (Event K)) : Prop :=
  q.Perm (allEvents 0 segs) ∧ q.Pairwise (fun a b => less b a = false)

/-- The error returned by the callback of `FindIntersects`: nil,
`ErrStopIteration` (xsweep.go:15) or another one. -/
inductive Ret (E : Type) where
  | cont
  | stop
  | err (e : E)
  deriving DecidableEq

/-- What `FindIntersects` returns: nil, the context's error, or the
callback's (xsweep.go:104-179). -/
inductive Out (E : Type) where
  | ok
  | ctxErr
  | err (e : E)
  deriving DecidableEq

/-- `eq.segments[i]`: every event's edge is an index into the segments, so
the default is never used (xsweep.go:104-179). -/
def segAt (segs : List (Line K)) (i : Nat) : Line K := segs.getD i ((0, 0), (0, 0))

/-- planar/intersect/xsweep.go:149-151 the segments have an end in common;
`peq` is `cmp.PointEqual`. -/
def sharesEnd (peq : Pt K → Pt K → Bool) (s s1 : Line K) : Bool :=
  (peq s.1 s1.1 || peq s.1 s1.2) || (peq s.2 s1.1 || peq s.2 s1.2)

/-- planar/intersect/xsweep.go:142-176 the loop over the open segments; `σ` is
the state of the callback. -/
def keysLoop {σ E : Type} (segs : List (Line K)) (connected : Bool) (peq : Pt K → Pt K → Bool)
    (fn : σ → Nat → Nat → Pt K → σ × Ret E) (edge : Nat) : List Nat → σ → σ × Ret E
  | [], s => (s, .cont)
  | k :: ks, s =>
    if connected && sharesEnd peq (segAt segs edge) (segAt segs k) then
      keysLoop segs connected peq fn edge ks s
    else
      let r := segmentIntersect (segAt segs edge) (segAt segs k)
      if !r.2 then keysLoop segs connected peq fn edge ks s
      else
        match fn s edge k r.1 with
        | (s', .cont) => keysLoop segs connected peq fn edge ks s'
        | r => r

/-- `segmap[k] = struct{}{}` (xsweep.go:118), a Go map as a list of keys. -/
def mapAdd (k : Nat) (m : List Nat) : List Nat := if k ∈ m then m else k :: m

/-- `delete(segmap, k)` (xsweep.go:123). -/
def mapDel (k : Nat) (m : List Nat) : List Nat := m.filter (· ≠ k)

/-- planar/intersect/xsweep.go:132-138 the keys in ascending order. -/
def keys (m : List Nat) : List Nat := m.insertionSort (· ≤ ·)

/-- planar/intersect/xsweep.go:108-178 the loop over the events; `n` counts
the polls of the context. -/
def sweep {σ E : Type} (ctx : Ctx) (segs : List (Line K)) (connected : Bool)
    (peq : Pt K → Pt K → Bool) (fn : σ → Nat → Nat → Pt K → σ × Ret E) :
    Nat → List (Event K) → List Nat → σ → σ × Out E
  | _, [], _, s => (s, .ok)
  | n, ev :: evs, m, s =>
    if ctx n then (s, .ctxErr)
    else if !ev.right then sweep ctx segs connected peq fn (n + 1) evs (mapAdd ev.edge m) s
    else
      let m' := mapDel ev.edge m
      if m' = [] then sweep ctx segs connected peq fn (n + 1) evs m' s
      else
        match keysLoop segs connected peq fn ev.edge (keys m') s with
        | (s', .cont) => sweep ctx segs connected peq fn (n + 1) evs m' s'
        | (s', .stop) => (s', .ok)
        | (s', .err e) => (s', .err e)

/-- planar/intersect/xsweep.go:104-179 `EventQueue.FindIntersects` on the
queue `q` made by `NewEventQueue(segs)`. -/
def findIntersects {σ E : Type} (ctx : Ctx) (segs : List (Line K)) (q : List (Event K))
    (connected : Bool) (peq : Pt K → Pt K → Bool)
    (fn : σ → Nat → Nat → Pt K → σ × Ret E) (s : σ) : σ × Out E :=
  sweep ctx segs connected peq fn 0 q [] s

/-! ### Point in ring -/

/-- planar/intersect/ring.go:52-60 the segments made by `NewRingFromPoints`
from the points, `lp` being the previous point; `NewRingFromPointers` (40-50)
does the same with `XY()`. -/
def ringSegsFrom (lp : Pt K) : List (Pt K) → List (Line K)
  | [] => []
  | p :: ps => (lp, p) :: ringSegsFrom p ps

/-- planar/intersect/ring.go:52-60: the first `lp` is the last point. -/
def ringSegs (pts : List (Pt K)) : List (Line K) :=
  match pts.getLast? with
  | none => []
  | some lp => ringSegsFrom lp pts

/-- planar/intersect/ring.go:18, 33-35 the `bbox` of a `Ring`: it starts as
the zero extent. -/
def ringBox (segs : List (Line K)) : Box K :=
  segs.foldl (fun e s => (e.add s.1).add s.2) ⟨0, 0, 0, 0⟩

/-- bbox.go:268-275 `Extent.ContainsPoint` for a non-nil extent. -/
def boxContains (e : Box K) (p : Pt K) : Bool :=
  decide (e.minx ≤ p.1) && decide (p.1 ≤ e.maxx) && decide (e.miny ≤ p.2) && decide (p.2 ≤ e.maxy)

/-- planar/intersect/ring.go:104-148 the loop over the candidate segments:
`Sum.inl b` is an early return of `b`, `Sum.inr n` the final count. -/
def rayLoop (peq : Pt K → Pt K → Bool) (includeBorder : Bool) (segs : List (Line K)) (l : Line K)
    (pt : Pt K) : List Nat → Nat → Bool ⊕ Nat
  | [], count => .inr count
  | idx :: idxs, count =>
    let seg := segAt segs idx
    if areLinesColinear l seg then
      if lineContainsPoint seg pt then .inl includeBorder
      else rayLoop peq includeBorder segs l pt idxs count
    else
      let r := segmentIntersect l seg
      if !r.2 then rayLoop peq includeBorder segs l pt idxs count
      else if peq r.1 pt then .inl includeBorder
      else if peq seg.1 r.1 then
        if seg.2.2 > pt.2 then rayLoop peq includeBorder segs l pt idxs count
        else rayLoop peq includeBorder segs l pt idxs (count + 1)
      else if peq seg.2 r.1 then
        if seg.1.2 > pt.2 then rayLoop peq includeBorder segs l pt idxs count
        else rayLoop peq includeBorder segs l pt idxs (count + 1)
      else rayLoop peq includeBorder segs l pt idxs (count + 1)

/-- planar/intersect/ring.go:89 the segment from left of the ring to the
point. -/
def ray (segs : List (Line K)) (pt : Pt K) : Line K :=
  (((ringBox segs).minx - 1, pt.2), pt)

/-- planar/intersect/ring.go:73-154 `Ring.ContainsPoint` on a non-nil ring;
`results` are the candidate segments: all of them for a ring of up to 16
segments (95), else what the index gives for the ray (93). -/
def ringContains (peq : Pt K → Pt K → Bool) (includeBorder : Bool) (segs : List (Line K))
    (results : List Nat) (pt : Pt K) : Bool :=
  if !boxContains (ringBox segs) pt then false
  else
    match rayLoop peq includeBorder segs (ray segs pt) pt results 0 with
    | .inl b => b
    | .inr count => decide (count % 2 ≠ 0)

end Field

end Verif.Intersect
