import Verif.Model.Memory
import Mathlib.Data.List.Forall2

/-!
# What it means for geometries to be values, for a copy to be deep
-/

namespace Verif.Spec.Memory
open Verif.Memory

variable {E P : Type}

/-- The element in cell `i` of array `b`. -/
def cell (m : Mem E) (b i : Nat) : Option E := (m[b]?).bind fun l => l[i]?

/-- The slice lies inside an array: its window of `cap` cells exists. -/
def Inside (m : Mem E) (s : Slice) : Prop :=
  s.len ≤ s.cap ∧ ∀ i < s.cap, ∃ e, cell m s.blk (s.off + i) = some e

/-- The slice shows exactly the elements of `xs`. -/
def Shows (m : Mem E) (s : Slice) (xs : List E) : Prop :=
  s.len = xs.length ∧ ∀ i < s.len, cell m s.blk (s.off + i) = xs[i]?

/-- The two slices have no cell in common, also not in their spare capacity. -/
def Apart (s t : Slice) : Prop :=
  ∀ i < s.cap, ∀ j < t.cap, ¬(s.blk = t.blk ∧ s.off + i = t.off + j)

/-! ## Programs over values -/

/-- A program over geometries that are values: variables hold lists.  `none`: the
program panics. -/
def valueStep (env : Nat → List E) : Op E → Option (Nat → List E)
  | .set i (.lit xs) _ => some (Function.update env i xs)
  | .set i (.piece j lo hi) _ =>
    if lo ≤ hi ∧ hi ≤ (env j).length then
      some (Function.update env i (((env j).drop lo).take (hi - lo)))
    else none
  | .keep i j => some (Function.update env i (env j))
  | .write i k e => if k < (env i).length then some (Function.update env i ((env i).set k e)) else none
  | .cut i lo hi =>
    if lo ≤ hi ∧ hi ≤ (env i).length then
      some (Function.update env i (((env i).drop lo).take (hi - lo)))
    else none

/-- The program over values, all variables empty at the start. -/
def valueRun (env : Nat → List E) : List (Op E) → Option (Nat → List E)
  | [] => some env
  | op :: ops => (valueStep env op).bind fun env' => valueRun env' ops

/-- The program never stores one variable's slice in another. -/
def Separate (ops : List (Op E)) : Prop := ∀ op ∈ ops, ∀ i j, op ≠ .keep i j

/-! ## Nested geometries -/

/-- The lines a slice of slices shows. -/
def Lines (h : Heap P) (s : Slice) (v : List (List P)) : Prop :=
  ∃ rs, Shows h.lines s rs ∧ List.Forall₂ (Shows h.pts) rs v

/-- The polygons a slice of slices of slices shows. -/
def Polys (h : Heap P) (s : Slice) (v : List (List (List P))) : Prop :=
  ∃ rs, Shows h.polys s rs ∧ List.Forall₂ (Lines h) rs v

/-- The coordinates of a geometry, by type. -/
inductive Value (P : Type) where
  | point (p : P)
  | multiPoint (v : List P)
  | lineString (v : List P)
  | multiLineString (v : List (List P))
  | polygon (v : List (List P))
  | multiPolygon (v : List (List (List P)))

/-- The geometry has these coordinates. -/
def Has (h : Heap P) : Geo P → Value P → Prop
  | .point p, .point q => p = q
  | .multiPoint s, .multiPoint v => Shows h.pts s v
  | .lineString s, .lineString v => Shows h.pts s v
  | .multiLineString s, .multiLineString v => Lines h s v
  | .polygon s, .polygon v => Lines h s v
  | .multiPolygon s, .multiPolygon v => Polys h s v
  | _, _ => False

/-- An assignment to one cell of memory. -/
inductive Edit (P : Type) where
  | pts (b i : Nat) (p : P)
  | lines (b i : Nat) (s : Slice)
  | polys (b i : Nat) (s : Slice)

/-- The memory after an assignment: `a[i] = v` of array `b`. -/
def Edit.apply (h : Heap P) : Edit P → Heap P
  | .pts b i p => { h with pts := h.pts.modify b (·.set i p) }
  | .lines b i s => { h with lines := h.lines.modify b (·.set i s) }
  | .polys b i s => { h with polys := h.polys.modify b (·.set i s) }

/-- The assignment is to an array that exists in `h`. -/
def Edit.On (h : Heap P) : Edit P → Prop
  | .pts b _ _ => b < h.pts.length
  | .lines b _ _ => b < h.lines.length
  | .polys b _ _ => b < h.polys.length

end Verif.Spec.Memory
