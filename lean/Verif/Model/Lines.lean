import Verif.Model.Cmp

/-!
# Sorting out segments (planar/line_helpers.go)
-/

namespace Verif.Lines
open Verif Verif.Cmp

/-- `geom.Line` (line.go:15). -/
abbrev Line := Pt F64 × Pt F64

/-- `NormalizeLines` (line_helpers.go:10-16): new content of the slice. -/
def normalizeLines (lines : List Line) : List Line :=
  lines.map fun l => if !xyLess l.1 l.2 then (l.2, l.1) else l

/-- `LinesByXY.Less` (line_helpers.go:22-27); `c` is the default comparison of package
cmp. -/
def lineLess (c : Compare) (a b : Line) : Bool :=
  if !c.pointEqual a.1 b.1 then xyLess a.1 b.1 else xyLess a.2 b.2

/-- The loop of `NormalizeUniqueLines` (line_helpers.go:33-37) with `r` rounds to go.
The result `lns` is written to the start of the same array, `k` is its length. -/
def uniqueLoop (c : Compare) : Nat → List Line → Nat → List Line
  | 0, lines, k => lines.take k
  | r + 1, lines, k =>
    let i := lines.length - (r + 1)
    match lines[i]? with
    | none => lines.take k
    | some l =>
      let differs := match lines[i - 1]? with
        | none => true
        | some l' => !c.lineStringEqual [l.1, l.2] [l'.1, l'.2]
      if i == 0 || differs then uniqueLoop c r (lines.set k l) (k + 1)
      else uniqueLoop c r lines k

/-- `NormalizeUniqueLines` (line_helpers.go:29-39); `sort` is what
`sort.Sort(LinesByXY(·))` does. -/
def normalizeUniqueLines (c : Compare) (sort : List Line → List Line) (lines : List Line) : List Line :=
  let lines := sort (normalizeLines lines)
  uniqueLoop c lines.length lines 0

end Verif.Lines
