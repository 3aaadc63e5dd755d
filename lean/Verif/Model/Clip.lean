import Verif.Model.Intersect

/-!
# Clipping points and lines to a box (planar/clip)

In exact arithmetic (an ordered field).  A clip box is `none` where the code finds it to be the
universe (`Extent.IsUniverse`, bbox.go: nil, or all of the plane).  The context is polled by
number, as in the simplifier.
-/

namespace Verif.Clip
open Verif.Planar (Line segmentIntersect)
open Verif.KdTree (Box)
open Verif.Intersect (boxContains)
open Verif.Simplify (Ctx)

variable {K : Type} [Field K] [LinearOrder K]

/-- `Extent.Vertices` (bbox.go:35-42). -/
def vertices (e : Box K) : List (Pt K) :=
  [(e.minx, e.miny), (e.maxx, e.miny), (e.maxx, e.maxy), (e.minx, e.maxy)]

/-- `Extent.Edges` with a nil function (bbox.go:48-59). -/
def edges (e : Box K) : List (Line K) :=
  [((e.minx, e.miny), (e.maxx, e.miny)), ((e.maxx, e.miny), (e.maxx, e.maxy)),
    ((e.maxx, e.maxy), (e.minx, e.maxy)), ((e.minx, e.maxy), (e.minx, e.miny))]

/-- `Compare.PointLess` (cmp/compare.go:106-111). -/
def pointLess (p q : Pt K) : Bool :=
  if p.1 ≠ q.1 then decide (p.1 < q.1) else decide (p.2 < q.2)

/-- The loop of `uniqueSegmentIntersectPoints` over the remaining edges (linestring.go:19-36);
`peq` is `cmp.PointEqual`. -/
def hitsLoop (peq : Pt K → Pt K → Bool) (ln : Line K) : List (Line K) → List (Pt K) → List (Pt K)
  | [], pts => pts
  | e :: es, pts =>
    let r := segmentIntersect e ln
    if !r.2 then hitsLoop peq ln es pts
    else if pts.any (fun ept => peq ept r.1) then pts
    else
      let pts := pts ++ [r.1]
      if 2 ≤ pts.length then pts else hitsLoop peq ln es pts

/-- `uniqueSegmentIntersectPoints` (linestring.go:12-38) for a box that is not the universe (it is
not called otherwise). -/
def hits (peq : Pt K → Pt K → Bool) (box : Box K) (ln : Line K) : List (Pt K) :=
  hitsLoop peq ln (edges box) []

/-- The variables of the loop of `lineString`: the lines that are finished, the current one, and
whether the last point was in the box (linestring.go:45, 68-71). -/
structure St (K : Type) where
  mls : List (List (Pt K))
  cls : List (Pt K)
  lptIsIn : Bool

/-- The body of the loop for the segment from `p` to `q` (linestring.go:91-160).  `none` is an
index panic: `cls[len(cls)-1]` on an empty line. -/
def step (peq : Pt K → Pt K → Bool) (box : Box K) (s : St K) (p q : Pt K) : Option (St K) :=
  let cptIsIn := boxContains box q
  let ipts := hits peq box (p, q)
  match s.lptIsIn, cptIsIn with
  | false, false =>
    match ipts with
    | [a, b] =>
      let isLess := pointLess p q
      let isCLess := pointLess a b
      let l := if isLess != isCLess then [b, a] else [a, b]
      some { mls := s.mls ++ [l], cls := s.cls, lptIsIn := cptIsIn }
    | _ => some { s with lptIsIn := cptIsIn }
  | true, true => some { mls := s.mls, cls := s.cls ++ [q], lptIsIn := cptIsIn }
  | false, true =>
    let cls :=
      match ipts with
      | [] => s.cls
      | [a] => s.cls ++ [a]
      | a :: b :: _ =>
        let isLess := pointLess p q
        let isCLess := pointLess a b
        s.cls ++ [if isLess == isCLess then a else b]
    some { mls := s.mls, cls := cls ++ [q], lptIsIn := cptIsIn }
  | true, false =>
    match s.cls.getLast? with
    | none =>
      if ipts.isEmpty then some { mls := s.mls ++ [s.cls], cls := [], lptIsIn := cptIsIn } else none
    | some last =>
      let cls := s.cls ++ ipts.filter (fun i => !peq i last)
      some { mls := s.mls ++ [cls], cls := [], lptIsIn := cptIsIn }

/-- What clipping returns (planar/clip/clip.go:18-43: a geometry, or an error). -/
inductive Res (A : Type) where
  | ok (a : A)
  | ctxErr
  | invalid
  | panic
deriving DecidableEq

/-- The loop of `lineString` (linestring.go:77-164): `n` counts the polls of the context, `p` is the
point before. -/
def loop (peq : Pt K → Pt K → Bool) (ctx : Ctx) (box : Box K) :
    Nat → Pt K → List (Pt K) → St K → Res (St K)
  | _, _, [], s => .ok s
  | n, p, q :: ps, s =>
    if ctx n then .ctxErr
    else
      match step peq box s p q with
      | none => .panic
      | some s' => loop peq ctx box (n + 1) q ps s'

/-- `lineString` (linestring.go:45-170).  `ContainsGeom` is given a plain slice of points, which
it does not know, so it is true for the universe alone. -/
def lineString (peq : Pt K → Pt K → Bool) (ctx : Ctx) (box : Option (Box K)) :
    List (Pt K) → Res (List (List (Pt K)))
  | [] => .ok []
  | [_] => .invalid
  | p :: q :: ps =>
    match box with
    | none => .ok [p :: q :: ps]
    | some b =>
      let lptIsIn := boxContains b p
      let cls := if lptIsIn then [p] else []
      match loop peq ctx b 0 p (q :: ps) { mls := [], cls := cls, lptIsIn := lptIsIn } with
      | .ok s => .ok (if 1 < s.cls.length then s.mls ++ [s.cls] else s.mls)
      | .ctxErr => .ctxErr
      | .invalid => .invalid
      | .panic => .panic

/-- The loop of `MultiPointer` (point.go:19-26). -/
def pointsLoop (ctx : Ctx) (box : Box K) : Nat → List (Pt K) → List (Pt K) → Res (List (Pt K))
  | _, [], npts => .ok npts
  | n, p :: ps, npts =>
    let npts := if boxContains box p then npts ++ [p] else npts
    if ctx n then .ctxErr else pointsLoop ctx box (n + 1) ps npts

/-- `MultiPointer` (point.go:10-28). -/
def multiPoint (ctx : Ctx) (box : Option (Box K)) (pts : List (Pt K)) : Res (List (Pt K)) :=
  match box with
  | none => .ok pts
  | some b => pointsLoop ctx b 0 pts []

/-- The loop of `MultiLineStringer` (linestring.go:182-188); the polls of the context of each line
are its own numbers, `ctxs`. -/
def linesLoop (peq : Pt K → Pt K → Bool) (box : Option (Box K)) :
    List (Ctx × List (Pt K)) → List (List (Pt K)) → Res (List (List (Pt K)))
  | [], nmls => .ok nmls
  | (ctx, ls) :: rest, nmls =>
    match lineString peq ctx box ls with
    | .ok mls1 => linesLoop peq box rest (nmls ++ mls1)
    | r => r

/-- `MultiLineStringer` (linestring.go:172-190). -/
def multiLineString (peq : Pt K → Pt K → Bool) (box : Option (Box K))
    (mls : List (Ctx × List (Pt K))) : Res (List (List (Pt K))) :=
  match box with
  | none => .ok (mls.map (·.2))
  | some _ => linesLoop peq box mls []

end Verif.Clip
