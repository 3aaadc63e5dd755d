import Verif.Model.Planar
import Verif.Model.Winding
import Verif.Model.Simplify

/-!
# From triangles to polygons (planar/makevalid/walker)

In exact arithmetic (an ordered field).  `feq` is `cmp.Float` of the package (walker/cmp.go: HiCMP);
keys of Go maps are compared exactly.  A slice that is changed in place is the list of its new
elements.
-/

namespace Verif.Walker
open Verif.Planar (isPointOnLine)
open Verif.Simplify (Ctx)

variable {K : Type} [Field K] [LinearOrder K]

/-- `cut` (walker/cut.go:23-56): the sliver and what is left of the ring; `none` is the panic. -/
def cut {P : Type} (rng : List P) (start stop : Int) : Option (List P × List P) :=
  if start < 0 ∨ stop < 0 ∨ start ≥ rng.length ∨ stop > rng.length then none
  else
    let s := start.toNat
    let e := stop.toNat
    if e < s then some (rng.drop s ++ rng.take e, (rng.drop e).take (s - e))
    else if e = s then some ((rng.drop e).take 1, rng.take e ++ rng.drop (e + 1))
    else some ((rng.drop s).take (e - s), rng.take s ++ rng.drop e)

/-- The loop of `removeBridge` (walker/cut.go:9-17) and what follows it (18-21).  The first
argument bounds the number of turns; `none` is an index panic (or turns that ran out). -/
def bridgeLoop {P : Type} [DecidableEq P] (rng : List P) :
    Nat → Nat → Nat → Bool → List P → Option (List P)
  | 0, _, _, _, _ => none
  | f + 1, li, i, addLst, nrng =>
    if i + 1 < rng.length then
      match rng[li]?, rng[i + 1]?, rng[i]? with
      | some a, some b, some c =>
        if a = b then bridgeLoop rng f (i + 1) (i + 2) (decide (i + 2 ≠ rng.length)) nrng
        else bridgeLoop rng f i (i + 1) addLst (nrng ++ [c])
      | _, _, _ => none
    else if addLst then (rng.getLast?).map (fun p => nrng ++ [p])
    else some nrng

/-- `removeBridge` (walker/cut.go:6-22). -/
def removeBridge {P : Type} [DecidableEq P] (rng : List P) : Option (List P) :=
  bridgeLoop rng (rng.length + 1) (rng.length - 1) 0 true []

/-- `XYLessPoint` (cmp/helper.go:24-29). -/
def xyLess (p q : Pt K) : Bool := if p.1 ≠ q.1 then decide (p.1 < q.1) else decide (p.2 < q.2)

/-- The loop of `FindMinPointIdx` (cmp/helper.go:37-42): index of the next point, index and value
of the least so far. -/
def minLoop : Nat → Nat → Pt K → List (Pt K) → Nat
  | _, min, _, [] => min
  | i, min, m, p :: ps => if xyLess p m then minLoop (i + 1) i p ps else minLoop (i + 1) min m ps

/-- `FindMinPointIdx` (cmp/helper.go:33-44). -/
def minIdx : List (Pt K) → Nat
  | [] => 0
  | p :: ps => minLoop 1 0 p ps

/-- `RotateToLeftMostPoint` (cmp/helper.go:47-62): the new content of the slice. -/
def rotateLeftMost (l : List (Pt K)) : List (Pt K) := l.drop (minIdx l) ++ l.take (minIdx l)

/-- `Compare.PointEqual` (cmp/compare.go:96-98). -/
def pointEqual (feq : K → K → Bool) (p q : Pt K) : Bool := feq p.1 q.1 && feq p.2 q.2

/-- The variables of the loop of `PolygonForRing`: the ring, the index of the points, the place in
the ring, the rings cut off so far (walker.go:223-258). -/
structure PSt (K : Type) where
  rng : List (Pt K)
  index : List (Pt K × Nat)
  i : Nat
  holes : List (List (Pt K))

/-- What one turn of the loop leads to (walker.go:213-342). -/
inductive Turn (K : Type) where
  | next (s : PSt K)
  | stop (s : PSt K)
  | panic

/-- `append(plyg, sliver)` for slivers of three points or more (walker.go:291-300, 329-336). -/
def addRing (holes : List (List (Pt K))) (sliver : List (Pt K)) : List (List (Pt K)) :=
  if 3 ≤ sliver.length then holes ++ [rotateLeftMost sliver] else holes

/-- The loop body of `PolygonForRing` at the point `p = rng[i]` (walker.go:266-345). -/
def turn (feq : K → K → Bool) (s : PSt K) (p : Pt K) : Turn K :=
  match s.index.find? (fun e => decide (e.1 = p)) with
  | none => .next { s with index := (p, s.i) :: s.index, i := s.i + 1 }
  | some (_, idx) =>
    let len := s.rng.length
    let pidx := if idx = 0 then len - 1 else idx - 1
    let nidx := if s.i = len - 1 then 0 else s.i + 1
    let gone := (s.rng.drop idx).take (s.i + 1 - idx)
    let index := s.index.filter (fun e => decide (e.1 ∉ gone))
    match s.rng[pidx]?, s.rng[nidx]? with
    | some a, some c =>
      if nidx ≠ pidx ∧ pointEqual feq a c = true then
        let index := index.filter (fun e => decide (e.1 ≠ a))
        match cut s.rng pidx nidx with
        | none => .panic
        | some (sliver, rng) =>
          if sliver.length < 2 then .panic
          else
            .next { rng := rng, index := index, i := (idx - 1) + 1,
                    holes := addRing s.holes (sliver.drop 2) }
      else
        let removeB := isPointOnLine feq p a c
        match cut s.rng idx s.i with
        | none => .panic
        | some (sliver0, rng) =>
          match removeBridge sliver0 with
          | none => .panic
          | some sliver =>
            let holes := addRing s.holes sliver
            if removeB then
              match cut rng idx (idx + 1) with
              | none => .panic
              | some (_, rng) =>
                if idx = 0 then .stop { rng := rng, index := index, i := idx, holes := holes }
                else .next { rng := rng, index := index, i := idx, holes := holes }
            else .next { rng := rng, index := index, i := idx + 1, holes := holes }
    | _, _ => .panic

/-- What `PolygonForRing` returns: rings, nil, or a panic; `stuck` is for turns that ran out (the
first argument of `turns`), which does not happen (walker.go:213-357). -/
inductive PRes (K : Type) where
  | poly (rings : List (List (Pt K)))
  | nil
  | panic
  | stuck
  deriving DecidableEq

/-- After the loop (walker.go:344-357). -/
def finish (s : PSt K) : PRes K :=
  if s.rng.length ≤ 2 then .nil else .poly (rotateLeftMost s.rng :: s.holes)

/-- The loop of `PolygonForRing` (walker.go:259-345); the second argument counts the polls of the
context. -/
def turns (feq : K → K → Bool) (ctx : Ctx) : Nat → Nat → PSt K → PRes K
  | 0, _, _ => .stuck
  | f + 1, n, s =>
    match s.rng[s.i]? with
    | none => finish s
    | some p =>
      if ctx n then .nil
      else
        match turn feq s p with
        | .panic => .panic
        | .stop s => finish s
        | .next s => turns feq ctx f (n + 1) s

/-- `PolygonForRing` (walker.go:213-357). -/
def polygonForRing (feq : K → K → Bool) (ctx : Ctx) (rng : List (Pt K)) : PRes K :=
  if rng.length ≤ 2 then .nil
  else turns feq ctx (2 * rng.length + 1) 0
    { rng := rotateLeftMost rng, index := [], i := 0, holes := [] }

end Verif.Walker
