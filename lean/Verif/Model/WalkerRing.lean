import Verif.Model.Walker
import Verif.Model.Shapes

/-!
# Walking over triangles (planar/makevalid/walker/walker.go)

`seen` is the set of the triangles that are marked, as a list.  A context that ends is a sequence of
answers; each function has its own.
-/

namespace Verif.Walker
open Verif.Simplify (Ctx)
open Verif.Shapes (Triangle thirdPoint)

variable {K : Type} [Field K] [LinearOrder K]

/-- `sortedEdge` (walker.go:16-21) with `Compare.PointLess` (cmp/compare.go:106-111), which compares
as `XYLessPoint` does. -/
def sortedEdge (p q : Pt K) : Pt K × Pt K := if xyLess p q then (p, q) else (q, p)

/-- `SortedEdges` (walker.go:37-43). -/
def sortedEdges (t : Triangle K) : List (Pt K × Pt K) :=
  [sortedEdge t.1 t.2.1, sortedEdge t.1 t.2.2, sortedEdge t.2.1 t.2.2]

/-- The entry for the edge `e` of the map that `edgeMapFromTriangles` makes (walker.go:23-35): the
numbers of the triangles with that edge, once for every edge that is `e`. -/
def trianglesAt (ts : List (Triangle K)) (e : Pt K × Pt K) : List Nat :=
  ts.zipIdx.flatMap (fun x => ((sortedEdges x.1).filter (fun d => decide (d = e))).map (fun _ => x.2))

/-- `indexForEdge` (walker.go:202-210); `none` is not ok. -/
def indexForEdge (ts : List (Triangle K)) (p q : Pt K) (dflt : Nat) (seen : List Nat) : Option Nat :=
  (trianglesAt ts (sortedEdge p q)).find? (fun i => decide (i ∉ seen ∧ i ≠ dflt))

/-- The variables of `RingForTriangle` (walker.go:126-139). -/
structure RSt (K : Type) where
  rng : List (Pt K)
  head : Nat
  cidxs : List Nat
  seen : List Nat

/-- The loop of `RingForTriangle` (walker.go:141-198): the ring and the marks.  The first number
bounds the turns, the second counts the polls of the context; `none` is a panic (or turns that ran
out). -/
def ringLoop (peq : Pt K → Pt K → Bool) (ctx : Ctx) (ts : List (Triangle K)) (idx : Nat) :
    Nat → Nat → RSt K → Option (List (Pt K) × List Nat)
  | 0, _, _ => none
  | f + 1, n, s =>
    if ctx n = true ∨ s.rng.length ≤ s.head ∨ s.cidxs = [] then some (s.rng, s.seen)
    else
      match s.rng.head?, s.rng.getLast?, s.cidxs.getLast? with
      | some fst, some lst, some d =>
        match indexForEdge ts fst lst d s.seen with
        | none =>
          ringLoop peq ctx ts idx f (n + 1)
            { s with rng := lst :: s.rng.dropLast, head := s.head + 1, cidxs := s.cidxs.dropLast }
        | some c =>
          if c = idx then some (s.rng, s.seen)
          else
            match s.cidxs.idxOf? c with
            | some i =>
              ringLoop peq ctx ts idx f (n + 1)
                { s with rng := s.rng.drop (i + 1) ++ s.rng.take (i + 1),
                         head := s.head + (s.rng.length - (i + 1)), cidxs := s.cidxs.take (i + 1) }
            | none =>
              match ts[c]? with
              | none => none
              | some t =>
                ringLoop peq ctx ts idx f (n + 1)
                  { rng := s.rng ++ [thirdPoint peq t fst lst], head := s.head,
                    cidxs := s.cidxs.dropLast ++ [c, c], seen := c :: s.seen }
      | _, _, _ => none

/-- `RingForTriangle` (walker.go:117-200) for a walker that is not nil and marks that are not nil:
the ring and the marks afterwards. -/
def ringForTriangle (peq : Pt K → Pt K → Bool) (ctx : Ctx) (ts : List (Triangle K)) (idx : Nat)
    (seen : List Nat) : Option (List (Pt K) × List Nat) :=
  match ts[idx]? with
  | none => none
  | some t =>
    ringLoop peq ctx ts idx (2 * ts.length + 4) 0
      { rng := [t.1, t.2.1, t.2.2], head := 0, cidxs := [idx, idx, idx], seen := idx :: seen }

/-- `PolygonForTriangle` (walker.go:108-112): the polygon (nil is the empty list) and the marks
afterwards. -/
def polygonForTriangle (feq : K → K → Bool) (peq : Pt K → Pt K → Bool) (yd : Bool) (cr cp : Ctx)
    (ts : List (Triangle K)) (idx : Nat) (seen : List Nat) :
    Option (List (List (Pt K)) × List Nat) :=
  match ringForTriangle peq cr ts idx seen with
  | none => none
  | some (rng, seen) =>
    match polygonForRing feq cp rng with
    | .poly rings => some (Winding.rectifyPolygon yd rings, seen)
    | .nil => some ([], seen)
    | .panic => none
    | .stuck => none

/-- The loop of `MultiPolygon` (walker.go:88-103) over the triangles from number `i` on; `n` counts
down how many are left.  `cr i` and `cp i` answer the polls for triangle `i`. -/
def multiLoop (feq : K → K → Bool) (peq : Pt K → Pt K → Bool) (yd : Bool) (ctx : Ctx)
    (cr cp : Nat → Ctx) (ts : List (Triangle K)) :
    Nat → Nat → List Nat → List (List (List (Pt K))) → Option (List (List (List (Pt K))))
  | 0, _, _, acc => some acc
  | n + 1, i, seen, acc =>
    if ctx i then some []
    else if i ∈ seen then multiLoop feq peq yd ctx cr cp ts n (i + 1) seen acc
    else
      match polygonForTriangle feq peq yd (cr i) (cp i) ts i (i :: seen) with
      | none => none
      | some (plyg, seen) =>
        multiLoop feq peq yd ctx cr cp ts n (i + 1) seen
          (if 0 < plyg.length then acc ++ [plyg] else acc)

/-- `Walker.MultiPolygon` (walker.go:77-105) for a walker that is not nil; `none` is a panic. -/
def multiPolygon (feq : K → K → Bool) (peq : Pt K → Pt K → Bool) (yd : Bool) (ctx : Ctx)
    (cr cp : Nat → Ctx) (ts : List (Triangle K)) : Option (List (List (List (Pt K)))) :=
  multiLoop feq peq yd ctx cr cp ts ts.length 0 [] []

end Verif.Walker
