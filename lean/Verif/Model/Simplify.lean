import Verif.Model.F64
import Verif.Model.Geom

/-!
# Simplification

planar/simplify/douglaspeucker.go and planar/simplify.go.

The distance function is a parameter of the Go code
(`DouglasPeucker.Dist`, planar/planar.go:15), so here it is any function into
the 64-bit floats, NaN included; no arithmetic is done on coordinates and they
stay abstract.  The context is the sequence of answers `ctx.Err()` gives: poll
number `k` answers "cancelled" exactly when `ctx k = true`.  The `depth`
counter and the debug prints (both only used when the package constant `debug`
is set) are left out; `isClosed` is passed along by the Go code but never read.
-/

namespace Verif.Simplify

/-- The answers of `ctx.Err() != nil`, by poll number
(polled at planar/simplify/douglaspeucker.go:31-111). -/
abbrev Ctx := Nat → Bool

/-- A context never goes back from cancelled to not cancelled
(`context.Context`: "successive calls to Err return the same error"; polled at
planar/simplify/douglaspeucker.go:84-103). -/
def Ctx.Mono (ctx : Ctx) : Prop := ∀ i j, i ≤ j → ctx i = true → ctx j = true

/-- Result of a call: the returned slice, whether the returned error is
non-nil, and the number of polls made so far; or a panic
(planar/simplify/douglaspeucker.go:31-111). -/
inductive Res (α : Type) where
  | ret (out : List (Pt α)) (err : Bool) (polls : Nat)
  | panic
  deriving DecidableEq

/-- planar/simplify/douglaspeucker.go:65-74: the loop that finds the furthest
interior point.  `i` is the index of the head of the list; the pair is
`(dmax, idx)`. -/
def furthest {α : Type} (d : Pt α → F64) : List (Pt α) → Nat → F64 × Nat → F64 × Nat
  | [], _, acc => acc
  | p :: ps, i, acc =>
    if F64.lt acc.1 (d p) then furthest d ps (i + 1) (d p, i)
    else furthest d ps (i + 1) acc

/-- planar/simplify/douglaspeucker.go:31-111 `simplify`.  `fuel` bounds the
recursion depth (each recursive call has a shorter line; `dpSimplify` supplies
enough).  `dist a b p` is `dist([2][2]float64{a, b}, p)`. -/
def dpRec {α : Type} (ctx : Ctx) (tol : F64) (dist : Pt α → Pt α → Pt α → F64) :
    Nat → Nat → List (Pt α) → List (Pt α) → Res α
  | 0, _, _, _ => .panic
  | fuel + 1, k, ls, ret =>
    match ls with
    | [] => .ret ret false k
    | first :: rest =>
      if F64.le tol F64.zero = true ∨ ls.length ≤ 2 then .ret (ret ++ ls) false k
      else
        let last := (first :: rest).getLast (by simp)
        let r := furthest (dist first last) rest.dropLast 1 (F64.zero, 0)
        if F64.lt tol r.1 then
          if ls.length ≤ 3 then .ret (ret ++ ls) false k
          else if ctx k then .ret [] true (k + 1)
          else
            match dpRec ctx tol dist fuel (k + 1) (ls.take (r.2 + 1)) ret with
            | .panic => .panic
            | .ret ret1 _ k1 =>
              if ctx k1 then .ret [] true (k1 + 1)
              -- `ret[:firstLen-1]` with `firstLen == 0` is out of range
              else if ret1 = [] then .panic
              else
                match dpRec ctx tol dist fuel (k1 + 1) (ls.drop r.2) ret1.dropLast with
                | .panic => .panic
                | .ret ret2 _ k2 => .ret ret2 (ctx k2) (k2 + 1)
        else .ret (ret ++ [first, last]) false k

/-- planar/simplify/douglaspeucker.go:19-22 `DouglasPeucker.Simplify`. -/
def dpSimplify {α : Type} (ctx : Ctx) (tol : F64) (dist : Pt α → Pt α → Pt α → F64)
    (ls : List (Pt α)) : Res α :=
  dpRec ctx tol dist (ls.length + 1) 0 ls []

/-- A `planar.Simplifer` (planar/simplify.go:12, interfaces.go): what
`Simplify(ctx, linestring, isClosed)` returns; `none` is an error. -/
abbrev Simplifer (α : Type) := List (Pt α) → Bool → Option (List (Pt α))

/-- planar/simplify.go:9-22 `simplifyPolygon`. -/
def simplifyPolygon {α : Type} (s : Simplifer α) (isClosed : Bool) :
    List (List (Pt α)) → Option (List (List (Pt α)))
  | [] => some []
  | r :: rs =>
    match s r isClosed with
    | none => none
    | some ls =>
      match simplifyPolygon s isClosed rs with
      | none => none
      | some rest => some ((if ls.length > 2 ∨ isClosed = false then ls else []) :: rest)

/-- planar/simplify.go:51-57: the loop over the polygons of a multipolygon. -/
def simplifyPolygons {α : Type} (s : Simplifer α) :
    List (List (List (Pt α))) → Option (List (List (List (Pt α))))
  | [] => some []
  | p :: ps =>
    match simplifyPolygon s true p with
    | none => none
    | some ply =>
      match simplifyPolygons s ps with
      | none => none
      | some rest => some (ply :: rest)

mutual
/-- planar/simplify.go:26-88 `Simplify`, with a non-nil simplifer. -/
def simplify {α : Type} (s : Simplifer α) : Geom α → Option (Geom α)
  | .collection gs =>
    match simplifyAll s gs with
    | none => none
    | some coll => some (.collection coll)
  | .multiPolygon ps =>
    match simplifyPolygons s ps with
    | none => none
    | some mply => some (.multiPolygon mply)
  | .polygon rs =>
    match simplifyPolygon s true rs with
    | none => none
    | some ply => some (.polygon ply)
  | .multiLineString ls =>
    match simplifyPolygon s false ls with
    | none => none
    | some mls => some (.multiLineString mls)
  | .lineString ps =>
    match s ps false with
    | none => none
    | some ls => some (.lineString ls)
  | .point p => some (.point p)
  | .multiPoint ps => some (.multiPoint ps)
  | .other => some .other
/-- planar/simplify.go:36-44: the loop over the members of a collection. -/
def simplifyAll {α : Type} (s : Simplifer α) : List (Geom α) → Option (List (Geom α))
  | [] => some []
  | g :: gs =>
    match simplify s g with
    | none => none
    | some geo =>
      match simplifyAll s gs with
      | none => none
      | some rest => some (geo :: rest)
end

end Verif.Simplify
