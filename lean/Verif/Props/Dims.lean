import Verif.Lemmas.Dims
import Mathlib.Tactic.NormNum

/-!
# Geometries with Z, M and SRID (C158, C159)
-/

namespace Verif.Props
open Verif.Dims Verif.Spec.Dims Verif.Lemmas.Dims

/-! ## C158: the edges of polygons with Z, M and SRID -/

/-- C158, in full: the edges of a polygon with an SRID are those of its rings of three
or more points, in order, and come with its SRID. -/
def C158_full (P : Type) : Prop :=
  ∀ p : PolygonS P, List.Forall₂ RingEdges (p.pol.filter fun r => 3 ≤ r.length) p.asSegments.1 ∧
    p.asSegments.2 = p.srid

/-- C158, polygons without an SRID: `AsSegments` gives for each ring of three or more
points, in order, all its edges with the closing one first, and nothing else. -/
theorem C158_edges_partial {P : Type} (p : List (List P)) :
    List.Forall₂ RingEdges (p.filter fun r => 3 ≤ r.length) (asSegments p) := asSegments_edges p

/-- C158, polygons with an SRID: the same, with the SRID of the polygon, if there is a
ring.  Missing: the SRID of polygons without rings. -/
theorem C158_srid_partial {P : Type} (p : PolygonS P) :
    List.Forall₂ RingEdges (p.pol.filter fun r => 3 ≤ r.length) p.asSegments.1 ∧
      (p.pol ≠ [] → p.asSegments.2 = p.srid) := by
  unfold PolygonS.asSegments
  split_ifs with h
  · have : p.pol = [] := by simpa using h
    simp [this]
  · exact ⟨asSegments_edges p.pol, fun _ => rfl⟩

/-- A polygon of a triangle and a ring that is too short. -/
example : asSegments [[1, 2, 3], [4, 5]] = [[(3, 1), (1, 2), (2, 3)]] ∧
    (⟨4326, [[1, 2, 3]]⟩ : PolygonS Nat).pol ≠ [] := by decide

/-- C158, violated: the edges of a polygon without rings come with SRID 0. -/
theorem C158_violated : ¬ C158_full Nat := by
  intro h
  have := (h ⟨4326, []⟩).2
  simp [PolygonS.asSegments] at this

/-! ## C159: leaving out Z and M -/

/-- C159, polygons: the edges of a polygon whose points are changed one by one (Z or M
left out) are the edges of the polygon with their ends changed in the same way. -/
theorem C159_edges {P Q : Type} (f : P → Q) (p : List (List P)) :
    asSegments (p.map (·.map f)) = (asSegments p).map (·.map fun e => (f e.1, f e.2)) :=
  asSegments_map f p

/-- C159, line strings and multipoints: as many points, each with the first two
coordinates, in order. -/
theorem C159_flat {P F : Type} (xy : P → F × F) (l : List P) :
    (flatten xy l []).length = l.length ∧ ∀ i : Nat, (flatten xy l [])[i]? = l[i]?.map xy := by
  rw [flatten_eq]
  simp

/-- C159, the lines of a multi line string: all of them, in order, and an error exactly
if one of them is nil. -/
theorem C159_lines {P : Type} (l : List (Option (List P))) :
    (∀ v : List (List P), asLineStrings l [] = some v ↔ l = v.map some) ∧ (asLineStrings l [] = none ↔ none ∈ l) := by
  have key : ∀ v : List (List P), asLineStrings l [] = some v ↔ l = v.map some := by
    intro v
    rw [asLineStrings_eq]
    simp
  refine ⟨key, ?_⟩
  constructor
  · intro h
    by_contra hc
    have hall : ∀ x ∈ l, ∃ y, x = some y := fun x hx => by
      cases x with
      | none => exact absurd hx hc
      | some y => exact ⟨y, rfl⟩
    have : ∃ v : List (List P), l = v.map some := by
      clear h key hc
      induction l with
      | nil => exact ⟨[], rfl⟩
      | cons a t ih =>
        obtain ⟨y, rfl⟩ := hall a (by simp)
        obtain ⟨v, rfl⟩ := ih fun x hx => hall x (by simp [hx])
        exact ⟨y :: v, rfl⟩
    obtain ⟨v, hv⟩ := this
    rw [(key v).2 hv] at h
    simp at h
  · intro h
    rcases hv : asLineStrings l [] with _ | v
    · rfl
    · rw [(key v).1 hv] at h
      simp at h

/-- Points with a height, without it, and lines one of which is nil. -/
example : flatten (fun p : Nat × Nat × Nat => (p.1, p.2.1)) [(1, 2, 3), (4, 5, 6)] [] = [(1, 2), (4, 5)] ∧
    asLineStrings [some [1], some []] [] = some [[1], []] ∧ asLineStrings [some [1], none] [] = none := by
  decide

end Verif.Props
