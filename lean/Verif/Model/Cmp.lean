import Verif.Model.Extent

/-!
# Comparison with tolerances (cmp/)
-/

namespace Verif.Cmp
open Verif

/-- `Compare` (cmp/compare.go:11-16): tolerance next to zero, and the tolerance on
bit patterns, an int64. -/
structure Compare where
  tol : F64
  bit : BitVec 64
  deriving DecidableEq, Repr

/-- `math.Abs`: clears the sign bit (standard library, called at cmp/compare.go:49). -/
def abs (f : F64) : F64 := f &&& 0x7FFFFFFFFFFFFFFF#64

/-- `math.Abs(f2-f1)` when `f1 == 0 || f2 == 0` (compare.go:48-50).  Subtracting a
zero, or subtracting from a zero, is exact up to the sign, so no rounding is
needed. -/
def absDiffZero (f1 f2 : F64) : F64 := if f1.eq F64.zero then abs f2 else abs f1

/-- `Compare.Float` (compare.go:39-60).  `d` is the wrapping int64 difference of the
bit patterns. -/
def Compare.float (c : Compare) (f1 f2 : F64) : Bool :=
  if f1.isInf || f2.isInf then
    f1.isNegInf == f2.isNegInf && f1.isPosInf == f2.isPosInf
  else if f1.eq F64.zero || f2.eq F64.zero then
    (absDiffZero f1 f2).lt c.tol
  else
    let d : BitVec 64 := f2 - f1
    if d.slt 0#64 then (-c.bit).slt d else d.slt c.bit

/-- The loop `for i := range a { if !eq(a[i], b[i]) { return false } }` on lists of
equal length (compare.go:76-80, 126-130, 146-150). -/
def allPairs {α : Type} (eq : α → α → Bool) : List α → List α → Bool
  | a :: as, b :: bs => if !eq a b then false else allPairs eq as bs
  | _, _ => true

/-- `Compare.FloatSlice` (compare.go:63-82); `sort` is what `sort.Float64s` does to
the copy. -/
def Compare.floatSlice (c : Compare) (sort : List F64 → List F64) (f1 f2 : List F64) : Bool :=
  if f1.length ≠ f2.length then false
  else if f1.length = 0 then true
  else allPairs c.float (sort f1) (sort f2)

/-- `Compare.Extent` (compare.go:85-88). -/
def Compare.extent (c : Compare) (a b : Ext) : Bool :=
  c.float a.minx b.minx && c.float a.miny b.miny && c.float a.maxx b.maxx && c.float a.maxy b.maxy

/-- `Compare.PointEqual`, `GeomPointEqual`, `PointerEqual` on non-nil points
(compare.go:96-103, 201-206). -/
def Compare.pointEqual (c : Compare) (p q : Pt F64) : Bool := c.float p.1 q.1 && c.float p.2 q.2

/-- `XYLessPoint` (helper.go:24-29) and `PointLess` (compare.go:106-111). -/
def xyLess (p q : Pt F64) : Bool := if !p.1.eq q.1 then p.1.lt q.1 else p.2.lt q.2

/-- `Compare.MultiPointEqual` (compare.go:114-132); `sort1`, `sort2` are what the two
calls of `sort.Sort(ByXY(·))` do to the copies. -/
def Compare.multiPointEqual (c : Compare) (sort1 sort2 : List (Pt F64) → List (Pt F64))
    (p1 p2 : List (Pt F64)) : Bool :=
  if p1.length ≠ p2.length then false else allPairs c.pointEqual (sort1 p1) (sort2 p2)

/-- The loop of `FindMinIdx`/`FindMinPointIdx` (helper.go:14-21, 37-43): index of the
next element, index and value of the least so far. -/
def findMinLoop : Nat → Nat → Pt F64 → List (Pt F64) → Nat
  | _, min, _, [] => min
  | i, min, m, p :: ps => if xyLess p m then findMinLoop (i + 1) i p ps else findMinLoop (i + 1) min m ps

/-- `FindMinPointIdx` (helper.go:33-44). -/
def findMinPointIdx : List (Pt F64) → Nat
  | [] => 0
  | p :: ps => findMinLoop 1 0 p ps

/-- `RotateToIdx` (helper.go:47-55): `tmp` gets `ln[idx:]` and then, up to its
length, `ln`. -/
def rotateToIdx (idx : Nat) (ln : List (Pt F64)) : List (Pt F64) :=
  if ln.length = 0 then ln else ln.drop idx ++ ln.take (ln.length - (ln.length - idx))

/-- `RotateToLeftMostPoint` (helper.go:59-62): new content of the slice. -/
def rotateToLeftMost (ln : List (Pt F64)) : List (Pt F64) := rotateToIdx (findMinPointIdx ln) ln

/-- `Compare.LineStringEqual` (compare.go:136-152). -/
def Compare.lineStringEqual (c : Compare) (v1 v2 : List (Pt F64)) : Bool :=
  if v1.length ≠ v2.length then false
  else allPairs c.pointEqual (rotateToLeftMost v1) (rotateToLeftMost v2)

/-- The labelled loop of `MultiLineEqual` (compare.go:159-167). -/
def multiLineLoop (eq : List (Pt F64) → List (Pt F64) → Bool) (ml2 : List (List (Pt F64))) :
    List (List (Pt F64)) → Bool
  | [] => true
  | l :: ls => if ml2.any (fun m => eq l m) then multiLineLoop eq ml2 ls else false

/-- `Compare.MultiLineEqual` (compare.go:155-169). -/
def Compare.multiLineEqual (c : Compare) (ml1 ml2 : List (List (Pt F64))) : Bool :=
  if ml1.length ≠ ml2.length then false else multiLineLoop c.lineStringEqual ml2 ml1

/-! ## Polygons -/

/-- The part of `bySubRingSizeXY.Less` (by_xy.go:31-38) that looks at the rings;
`none` is the index panic when both rings are empty. -/
def ringLess (a b : List (Pt F64)) : Option Bool :=
  if a.length ≠ b.length then some (decide (a.length < b.length))
  else
    match a[findMinPointIdx a]?, b[findMinPointIdx b]? with
    | some p, some q => some (xyLess p q)
    | _, _ => none

/-- Inner loop of insertion sort (package sort, called at cmp/compare.go:190-191): `x` moves left past the elements it
is less than; the list is the part already sorted, last element first. -/
def insertRing (x : List (Pt F64)) : List (List (Pt F64)) → Option (List (List (Pt F64)))
  | [] => some [x]
  | y :: ys =>
    match ringLess x y with
    | none => none
    | some false => some (x :: y :: ys)
    | some true => (insertRing x ys).map (y :: ·)

/-- Outer loop of insertion sort: sorted part (last first), elements to come
(package sort, called at cmp/compare.go:190-191). -/
def insertRings : List (List (Pt F64)) → List (List (Pt F64)) → Option (List (List (Pt F64)))
  | acc, [] => some acc.reverse
  | acc, x :: xs =>
    match insertRing x acc with
    | none => none
    | some acc' => insertRings acc' xs

/-- `sort.Sort(bySubRingSizeXY(ply))` (compare.go:190-191).  `sort.Sort` is insertion
sort for up to twelve elements; `Less(j, 0)` is false (by_xy.go:29-30), so the
first ring stays and the others are sorted among themselves.  Only used for
polygons of at most twelve rings. -/
def sortRings : List (List (Pt F64)) → Option (List (List (Pt F64)))
  | [] => some []
  | r :: rs => (insertRings [] rs).map (r :: ·)

/-- `Compare.PolygonEqual` (compare.go:172-198), `none` is a panic; `dflt` is the
package default, which line 186 uses in place of the receiver.  Also returns what
the two arguments hold afterwards. -/
def polygonEqual (dflt c : Compare) (p1 p2 : List (List (Pt F64))) :
    Option (Bool × List (List (Pt F64)) × List (List (Pt F64))) :=
  if p1.length ≠ p2.length then some (false, p1, p2)
  else if !dflt.extent (Ext.extent (Ext.newExtent p1.flatten)) (Ext.extent (Ext.newExtent p2.flatten)) then
    some (false, p1, p2)
  else
    match sortRings p1, sortRings p2 with
    | some s1, some s2 => some (allPairs c.lineStringEqual s1 s2, s1, s2)
    | _, _ => none

/-! ## The package default (default_compare.go) -/

/-- State of a goroutine inside `SetDefault` (default_compare.go:27-31): about to load,
about to store, or returned with the old value. -/
inductive Setter (γ : Type) where
  | start (new : γ)
  | loaded (new old : γ)
  | done (new old : γ)

/-- One atomic step of one goroutine on the shared value (cmp/default_compare.go:27-31). -/
def Setter.step {γ : Type} (v : γ) : Setter γ → γ × Setter γ
  | .start n => (v, .loaded n v)
  | .loaded n o => (n, .done n o)
  | .done n o => (v, .done n o)

/-- An interleaving: which goroutine makes the next step (cmp/default_compare.go:16-31). -/
def runSetters {γ : Type} : γ → List (Setter γ) → List Nat → γ × List (Setter γ)
  | v, ss, [] => (v, ss)
  | v, ss, i :: is =>
    match ss[i]? with
    | none => runSetters v ss is
    | some s => let r := s.step v; runSetters r.1 (ss.set i r.2) is

end Verif.Cmp
