import Verif.Model.Clip
import Verif.Model.Traverse

/-!
# Cutting a multipolygon into segments (planar/makevalid)

In exact arithmetic (an ordered field).  `peq` is the `PointEqual` of the `Compare` that is handed
to `Destructure`, `ueq` that of the package `cmp`, which the sweep and `unique` use.
-/

namespace Verif.Destructure
open Verif.Planar (Line)
open Verif.KdTree (Box)
open Verif.Intersect (Event Ret boxContains findIntersects)
open Verif.Clip (pointLess edges)
open Verif.Simplify (Ctx)

variable {K : Type} [Field K] [LinearOrder K]

/-- `asSegments` (makevalid.go:31-66) for a `MultiPolygon`, which gives no error. -/
def asSegments (mp : List (List (List (Pt K)))) : List (Line K) :=
  ((Geom.mpolySegments mp).map List.flatten).flatten

/-- `NewExtentFromGeometry` (bbox.go:236-249) for a `MultiPolygon`: `none` is the nil extent of a
geometry without points. -/
def extentOf (mp : List (List (List (Pt K)))) : Option (Box K) :=
  match (mp.map List.flatten).flatten with
  | [] => none
  | p :: ps => some ((p :: ps).foldl Box.add (Box.ofPt p))

/-- `Extent.Contains` (bbox.go:253-265) for two extents that are not nil. -/
def boxContainsBox (e ne : Box K) : Bool :=
  decide (e.minx ≤ ne.minx) && decide (ne.maxx ≤ e.maxx) && decide (e.miny ≤ ne.miny) &&
    decide (ne.maxy ≤ e.maxy)

/-- `clipbox != nil && !clipbox.Contains(gext)` (makevalid.go:103).  A nil `gext` has the whole
plane as its bounds (bbox.go `MinX` and so on), which no box in the model contains. -/
def hasClipbox (clip : Option (Box K)) (mp : List (List (List (Pt K)))) : Bool :=
  match clip, extentOf mp with
  | none, _ => false
  | some _, none => true
  | some e, some g => !boxContainsBox e g

/-- The segments that are cut: those of the multipolygon, after the edges of the clip box if it is
used (makevalid.go:90, 105-111). -/
def allSegments (clip : Option (Box K)) (mp : List (List (List (Pt K)))) : List (Line K) :=
  match clip, hasClipbox clip mp with
  | some e, true => edges e ++ asSegments mp
  | _, _ => asSegments mp

/-- `ipts[i] = append(ipts[i], pt)` (makevalid.go:117-118); a Go map with nil for missing keys. -/
def addAt (m : Nat → List (Pt K)) (i : Nat) (p : Pt K) : Nat → List (Pt K) :=
  fun k => if k = i then m k ++ [p] else m k

/-- The function given to `FindIntersects` (makevalid.go:116-120). -/
def record (m : Nat → List (Pt K)) (src dest : Nat) (p : Pt K) : (Nat → List (Pt K)) × Ret Unit :=
  (addAt (addAt m src p) dest p, .cont)

/-- `sort.Sort(ByXYPoint(pts))` (makevalid.go:68-72, 130): points that are not ordered either way
are the same, so it does not matter which sorting algorithm it is. -/
def sortPts (pts : List (Pt K)) : List (Pt K) := pts.insertionSort (fun p q => pointLess q p = false)

/-- The loop over the sorted points (makevalid.go:132-142); `keep` is the test of the clip box. -/
def cutLoop (peq : Pt K → Pt K → Bool) (keep : Line K → Bool) : List (Pt K) → List (Line K)
  | a :: b :: l =>
    if peq a b then cutLoop peq keep (b :: l)
    else if !keep (a, b) then cutLoop peq keep (b :: l)
    else (a, b) :: cutLoop peq keep (b :: l)
  | _ => []

/-- `!(hasClipbox && !clipbox.ContainsLine(nl))` (makevalid.go:137, bbox.go:278-283). -/
def keepPiece (clip : Option (Box K)) (has : Bool) (l : Line K) : Bool :=
  match clip, has with
  | some e, true => boxContains e l.1 && boxContains e l.2
  | _, _ => true

/-- The loop over the segments numbered from `i` (makevalid.go:126-146); `n` counts the polls of the
context.  `none` is the return of `(nil, nil)` when the context has ended. -/
def splitLoop (peq : Pt K → Pt K → Bool) (keep : Line K → Bool) (ctx : Ctx) (ipts : Nat → List (Pt K)) :
    Nat → Nat → List (Line K) → List (Line K) → Option (List (Line K))
  | _, _, [], nsegs => some nsegs
  | n, i, s :: segs, nsegs =>
    let nsegs := nsegs ++ cutLoop peq keep (sortPts (s.1 :: s.2 :: ipts i))
    if ctx n then none else splitLoop peq keep ctx ipts (n + 1) (i + 1) segs nsegs

/-- `ByXYLine.Less` (makevalid.go:78-80). -/
def lineLess (ueq : Pt K → Pt K → Bool) (a b : Line K) : Bool :=
  pointLess a.1 b.1 || (ueq a.1 b.1 && pointLess a.2 b.2)

/-- The test of `unique` for the element `s` at index `i` (makevalid.go:160); the previous element is
read from the slice as it is now. -/
def isNew (ueq : Pt K → Pt K → Bool) (segs : List (Line K)) (i : Nat) (s : Line K) : Bool :=
  if i = 0 then true
  else match segs[i - 1]? with
    | some t => !(ueq s.1 t.1 && ueq s.2 t.2)
    | none => true

/-- The loop of `unique` (makevalid.go:158-163) over the indices from `i`, `n` of them being left:
`uniqued` is the first `k` elements of the slice itself, so that appending to it writes into the
slice. -/
def uniqueLoop (ueq : Pt K → Pt K → Bool) : Nat → Nat → Nat → List (Line K) → List (Line K)
  | 0, _, _, segs => segs
  | n + 1, i, k, segs =>
    match segs[i]? with
    | none => segs
    | some s =>
      if isNew ueq segs i s then uniqueLoop ueq n (i + 1) (k + 1) (segs.set k s)
      else uniqueLoop ueq n (i + 1) k segs

/-- What the slice holds after `unique(segs)` (makevalid.go:153-165).  As with the points, with exact
equality segments that are not ordered either way are the same. -/
def unique (ueq : Pt K → Pt K → Bool) (segs : List (Line K)) : List (Line K) :=
  let sorted := segs.insertionSort (fun a b => lineLess ueq b a = false)
  uniqueLoop ueq sorted.length 0 0 sorted

/-- `Destructure` (makevalid.go:87-150); `q` is the event queue of the sweep, which is sorted from
the events of `allSegments clip mp`.  `none` is `(nil, nil)`.  The polls of the loop are numbered
after those of the sweep; a sweep that ends early has seen the context end, and a context that has
ended stays so. -/
def destructure (peq ueq : Pt K → Pt K → Bool) (ctx : Ctx) (clip : Option (Box K))
    (mp : List (List (List (Pt K)))) (q : List (Event K)) : Option (List (Line K)) :=
  let segments := allSegments clip mp
  let ipts := (findIntersects ctx segments q true ueq record (fun _ => [])).1
  (splitLoop peq (keepPiece clip (hasClipbox clip mp)) ctx ipts q.length 0 segments []).map (unique ueq)

end Verif.Destructure
