import Mathlib.Logic.Function.Basic

/-!
# Geometries as Go slices

The other models treat a slice as the list of its elements.  Here the slices are
headers that point into backing arrays, so that what one geometry shares with
another is visible: the setters of the geometry types and `Clone`.

Simplifications: a nil slice is a header of length and capacity 0, it is not told
apart from an empty one; coordinates are any type.
-/

namespace Verif.Memory

/-- A Go slice header: backing array, first element, length and capacity counted
from the first element (the types of line_string.go:14, multi_point.go:9,
polygon.go:20, collection.go:9 and their Z, M and ZM variants are slices). -/
structure Slice where
  blk : Nat
  off : Nat
  len : Nat
  cap : Nat
  deriving DecidableEq, Repr

/-- The zero value of a slice type, `var ls LineString` (line_stringz.go:33). -/
def Slice.nil : Slice := ⟨0, 0, 0, 0⟩

/-- The backing arrays made so far for one element type, each the list of its elements
(every slice type of the package, e.g. line_string.go:14). -/
abbrev Mem (E : Type) := List (List E)

/-- The elements a slice shows, what the getters `Vertices`, `Points`, `LinearRings`,
`LineStrings`, `Polygons`, `Geometries` give (line_string.go:33, multi_point.go:12-14,
polygon.go:23-25, multi_line_string.go:12-14, multi_polygon.go:12-14,
collection.go:12-14; the same in the Z, M and ZM files). -/
def elems {E : Type} (m : Mem E) (s : Slice) : List E :=
  ((m.getD s.blk []).drop s.off).take s.len

/-- Go's copy into a backing array, all of `xs` from index `off` on (part of the
built-in `append` in line_string.go:41; it behaves as if `xs` were read first). -/
def store {E : Type} (m : Mem E) (b off : Nat) (xs : List E) : Mem E :=
  m.modify b fun l => l.take off ++ xs ++ l.drop (off + xs.length)

/-- `append(s[:0], input...)` (line_string.go:41, multi_point.go:22, polygon.go:33,
multi_line_string.go:14, multi_polygon.go:22, collection.go:22, and line 22, 25 or 33
of the Z, M and ZM files): the elements go to the array of `s` if its capacity is
enough, otherwise to a new array with `spare` further cells, a number the runtime
chooses. -/
def append0 {E : Type} (spare : Nat) (zero : E) (m : Mem E) (s input : Slice) : Mem E × Slice :=
  let xs := elems m input
  if xs.length ≤ s.cap then (store m s.blk s.off xs, { s with len := xs.length })
  else (m ++ [xs ++ List.replicate spare zero], ⟨m.length, 0, xs.length, xs.length + spare⟩)

/-- The setters `SetVertices`, `SetPoints`, `SetLinearRings`, `SetLineStrings`,
`SetPolygons`, `SetGeometries` (line_string.go:36-43, multi_point.go:17-24,
polygon.go:28-35, multi_line_string.go:17-24, multi_polygon.go:17-24,
collection.go:17-24, line_stringz.go:20-27, line_stringm.go:20-27,
line_stringzm.go:20-27, multi_pointz.go:17-24, multi_pointm.go:17-24,
multi_pointzm.go:17-24, polygonz.go:28-35, polygonm.go:28-35, polygonzm.go:28-35,
multi_line_stringz.go:17-24, multi_line_stringm.go:17-24, multi_line_stringzm.go:17-24):
all have this one body.  The receiver is a pointer, nil or to a slice; `none` is the
`ErrNil…` of that type. -/
def setter {E : Type} (spare : Nat) (zero : E) (m : Mem E) (receiver : Option Slice)
    (input : Slice) : Option (Mem E × Slice) :=
  match receiver with
  | none => none
  | some s => some (append0 spare zero m s input)

/-- `x[lo:hi]` of a slice, a panic (`none`) unless `lo ≤ hi ≤ cap(x)` (Go language; no
counterpart in /repo, used as input of setters by callers). -/
def reslice (s : Slice) (lo hi : Nat) : Option Slice :=
  if lo ≤ hi ∧ hi ≤ s.cap then some ⟨s.blk, s.off + lo, hi - lo, s.cap - lo⟩ else none

/-! ## Programs that use setters -/

/-- Where the input of a setter comes from: a slice literal, or a piece of what the
getter of a variable gives (line_string.go:33, 36). -/
inductive Input (E : Type) where
  | lit (xs : List E)
  | piece (j lo hi : Nat)

/-- What a program does with its geometry variables of one type.  `set`: a setter
(line_string.go:36-43 …).  `keep`: `vars[i] = vars[j]`, which is also what the setters
of the S types do, and their getters (line_strings.go:20-41, multi_points.go:15-36,
polygons.go:26-43 …: `lss.Ls = ls`).  `write`: `vars[i][k] = e`. `cut`:
`vars[i] = vars[i][lo:hi]`. -/
inductive Op (E : Type) where
  | set (i : Nat) (input : Input E) (spare : Nat)
  | keep (i j : Nat)
  | write (i k : Nat) (e : E)
  | cut (i lo hi : Nat)

/-- The state of such a program: memory and the slice in each variable
(no counterpart in /repo: any caller of the setters). -/
structure State (E : Type) where
  mem : Mem E
  vars : Nat → Slice

/-- A program that has done nothing: all variables hold the zero value
(`var ls LineString`, e.g. line_stringz.go:33). -/
def State.init (E : Type) : State E := ⟨[], fun _ => Slice.nil⟩

/-- The input slice of a setter call (a literal is put into a new array); `none` is a
panic (line_string.go:36). -/
def State.input {E : Type} (st : State E) : Input E → Option (Mem E × Slice)
  | .lit xs => some (st.mem ++ [xs], ⟨st.mem.length, 0, xs.length, xs.length⟩)
  | .piece j lo hi => (reslice (st.vars j) lo hi).map fun s => (st.mem, s)

/-- One step of the program; `none` is a panic (line_string.go:36-43,
line_strings.go:28-36, and the Go language). -/
def State.step {E : Type} (zero : E) (st : State E) : Op E → Option (State E)
  | .set i inp spare =>
    match st.input inp with
    | none => none
    | some (m, s) =>
      match setter spare zero m (some (st.vars i)) s with
      | none => none
      | some (m', s') => some ⟨m', Function.update st.vars i s'⟩
  | .keep i j => some ⟨st.mem, Function.update st.vars i (st.vars j)⟩
  | .write i k e =>
    if k < (st.vars i).len then
      some ⟨store st.mem (st.vars i).blk ((st.vars i).off + k) [e], st.vars⟩
    else none
  | .cut i lo hi =>
    match reslice (st.vars i) lo hi with
    | none => none
    | some s => some ⟨st.mem, Function.update st.vars i s⟩

/-- A whole program (line_string.go:36-43 and the Go language). -/
def State.run {E : Type} (zero : E) (st : State E) : List (Op E) → Option (State E)
  | [] => some st
  | op :: ops => (st.step zero op).bind fun st' => st'.run zero ops

/-! ## Clone -/

/-- The memory of geometries with coordinates `P`: the arrays of points, the arrays of
slices of points, and the arrays of slices of those (the types of line_string.go:14,
polygon.go:20, multi_polygon.go:9). -/
structure Heap (P : Type) where
  pts : Mem P
  lines : Mem Slice
  polys : Mem Slice

/-- A geometry as an interface holds it (utils.go:113-192; point.go:17, multi_point.go:9,
line_string.go:14, multi_line_string.go:9, polygon.go:20, multi_polygon.go:9).  `other`
is any other type. -/
inductive Geo (P : Type) where
  | point (p : P)
  | multiPoint (s : Slice)
  | lineString (s : Slice)
  | multiLineString (s : Slice)
  | polygon (s : Slice)
  | multiPolygon (s : Slice)
  | other

/-- `make` and the loop that fills it (utils.go:122-126, 129-133): a new array with the
elements of the slice. -/
def cloneFlat {P : Type} (h : Heap P) (s : Slice) : Heap P × Slice :=
  let xs := elems h.pts s
  ({ h with pts := h.pts ++ [xs] }, ⟨h.pts.length, 0, xs.length, xs.length⟩)

/-- The loop over the lines of a geometry (utils.go:137-151, 157-171), cloning each. -/
def cloneLines {P : Type} : Heap P → List Slice → Heap P × List Slice
  | h, [] => (h, [])
  | h, s :: ss =>
    let (h1, c) := cloneFlat h s
    let (h2, cs) := cloneLines h1 ss
    (h2, c :: cs)

/-- Cloning a `MultiLineString` or a `Polygon` (utils.go:135-152, 154-172).
Simplification: the array of `make` is added when it is filled. -/
def cloneNested {P : Type} (h : Heap P) (s : Slice) : Heap P × Slice :=
  let (h1, cs) := cloneLines h (elems h.lines s)
  ({ h1 with lines := h1.lines ++ [cs] }, ⟨h1.lines.length, 0, cs.length, cs.length⟩)

/-- The loop over the polygons of a multipolygon (utils.go:176-190). -/
def clonePolys {P : Type} : Heap P → List Slice → Heap P × List Slice
  | h, [] => (h, [])
  | h, s :: ss =>
    let (h1, c) := cloneNested h s
    let (h2, cs) := clonePolys h1 ss
    (h2, c :: cs)

/-- `Clone` (utils.go:113-192); `none` is the unknown-geometry error. -/
def clone {P : Type} (h : Heap P) : Geo P → Option (Heap P × Geo P)
  | .point p => some (h, .point p)
  | .multiPoint s => let (h', c) := cloneFlat h s; some (h', .multiPoint c)
  | .lineString s => let (h', c) := cloneFlat h s; some (h', .lineString c)
  | .multiLineString s => let (h', c) := cloneNested h s; some (h', .multiLineString c)
  | .polygon s => let (h', c) := cloneNested h s; some (h', .polygon c)
  | .multiPolygon s =>
    let (h1, cs) := clonePolys h (elems h.polys s)
    some ({ h1 with polys := h1.polys ++ [cs] },
      .multiPolygon ⟨h1.polys.length, 0, cs.length, cs.length⟩)
  | .other => none

end Verif.Memory
