import Verif.Model.Subdivision
import Verif.Model.Delaunay

/-!
# A subdivision made of lines (planar/triangulate/delaunay/subdivision/geom.go:26-114)

In exact arithmetic and without the tolerances of the comparer, as in `Verif.Subdivision`.  The lines are those
that `NormalizeUniqueLines` returns (geom.go:27; `Verif.Lines`).  Left out: logging, and `Validate` at the end
(geom.go:107-112), whose answer is only logged.
-/

namespace Verif.FromLines
open Verif Verif.Quad Verif.Resolve Verif.Subdivision

variable {K : Type} [Field K] [LinearOrder K]

/-- geom.go:30 `indexMap`: the keys and their edges. -/
abbrev Index (K : Type) := List (Pt K × E)

/-- Looking up a key of the map (geom.go:50-51). -/
def Index.get (m : Index K) (p : Pt K) : Option E := (m.find? (fun kv => decide (kv.1 = p))).map (·.2)

/-- Storing an edge for a key of the map (geom.go:80-89). -/
def Index.set (m : Index K) (p : Pt K) (e : E) : Index K :=
  if m.any (fun kv => decide (kv.1 = p)) then m.map (fun kv => if kv.1 = p then (p, e) else kv) else m ++ [(p, e)]

/-- The variables of the loop: the edges, `indexMap` and `eq` (geom.go:29-36). -/
structure State (K : Type) where
  store : Store (Pt K)
  index : Index K
  last : Option E

/-- geom.go:58-61, 65-68: the edge `ResolveEdge` returns, or the one given if that is nil; `none` is a panic. -/
def place (yd : Bool) (s : Store (Pt K)) (e : E) (p : Pt K) : Option E :=
  match resolveEdge (fun p q => decide (p = q)) yd s e p with
  | .panic => none
  | r => some (r.candidate.getD e)

/-- geom.go:71-91: a new edge, linked at both its ends; `none` is a panic.  `Connect` makes an edge of its own. -/
def link (yd : Bool) (st : State K) (o d : Pt K) (oe de : Option E) : Option (State K) :=
  let r := newWithEndPoints st.store (some o) (some d)
  match oe, de with
  | some oe, some de => (connect yd r.1 (sym oe) de).map fun c => ⟨c.1, st.index, some c.2⟩
  | some oe, none => some ⟨splice r.1 oe r.2, st.index.set d (sym r.2), some r.2⟩
  | none, some de => some ⟨splice r.1 de (sym r.2), st.index.set o r.2, some r.2⟩
  | none, none => some ⟨r.1, (st.index.set o r.2).set d (sym r.2), some r.2⟩

/-- geom.go:63-91: what is done for the other end and then for the new edge. -/
def stepDest (yd : Bool) (st : State K) (o d : Pt K) (oe : Option E) : Option (State K) :=
  match st.index.get d with
  | none => link yd st o d oe none
  | some e => (place yd st.store e o).bind fun de => link yd st o d oe (some de)

/-- geom.go:38-92: the body of the loop, for the line from `o` to `d`; `none` is a panic. -/
def step (yd : Bool) (st : State K) (o d : Pt K) : Option (State K) :=
  match st.index.get o with
  | none => stepDest yd st o d none
  | some e =>
    match findONextDest st.store (fun p => decide (p = d)) e with
    | none => none
    | some (some _) => some st
    | some none => (place yd st.store e d).bind fun oe => stepDest yd st o d (some oe)

/-- geom.go:38-92: the loop. -/
def loop (yd : Bool) : State K → List (Pt K × Pt K) → Option (State K)
  | st, [] => some st
  | st, l :: ls => (step yd st l.1 l.2).bind fun st => loop yd st ls

/-- geom.go:43-47: the extent of the ends of the lines; bbox.go:139-153, 207-233. -/
def extent : List (Pt K × Pt K) → Option (K × K × K × K)
  | [] => none
  | l :: ls => (Delaunay.extentOf [l.1, l.2]).map fun e =>
      ls.foldl (fun e l =>
        (min l.2.1 (min l.1.1 e.1), min l.2.2 (min l.1.2 e.2.1), max l.2.1 (max l.1.1 e.2.2.1),
          max l.2.2 (max l.1.2 e.2.2.2))) e

/-- What `NewSubdivisionFromGeomLines` returns: the subdivision, and the `YPositiveDown` of its order
(subdivision.go:29-37), which is not set (geom.go:95-103). -/
structure Result (K : Type) where
  sd : Subdiv K
  yd : Bool

/-- geom.go:26-114 `NewSubdivisionFromGeomLines` for at least one line; `none` is a panic. -/
def newSubdivisionFromGeomLines (yd : Bool) (lines : List (Pt K × Pt K)) : Option (Result K) :=
  (loop yd ⟨Store.empty, [], none⟩ lines).bind fun st => st.last.bind fun start => (extent lines).map fun e =>
    ⟨⟨st.store, start, st.index.length, Shapes.triangleForExtent e.1 e.2.1 e.2.2.1 e.2.2.2 0⟩, false⟩

end Verif.FromLines
