/-!
# Geometries

The seven geometry kinds of the library.  A Go geometry is any value; the
library dispatches on the interfaces it implements (geom.go:323-388 lists the
order Pointer, MultiPointer, LineStringer, MultiLineStringer, Polygoner,
MultiPolygoner, Collectioner).  The model keeps one constructor per interface
carrying what the interface method returns, and `other` for every value that
implements none of them (including the untyped nil).
-/

namespace Verif

/-- Go `[2]float64` with coordinates in `α` (point.go:17). -/
abbrev Pt (α : Type) := α × α

/-- A geometry, by the interface it satisfies.
Models geom.Point (point.go:17), geom.MultiPoint (multi_point.go:9),
geom.LineString (line_string.go:14), geom.MultiLineString
(multi_line_string.go:9), geom.Polygon (polygon.go:20), geom.MultiPolygon
(multi_polygon.go:9), geom.Collection (collection.go:9) as values.
Simplification: nil slices and empty slices are both `[]`; typed nil pointers
are not represented; types such as geom.Line, geom.Triangle or *geom.Extent
appear as the constructor of the interface they satisfy. -/
inductive Geom (α : Type) where
  | point (p : Pt α)
  | multiPoint (ps : List (Pt α))
  | lineString (ps : List (Pt α))
  | multiLineString (ls : List (List (Pt α)))
  | polygon (rs : List (List (Pt α)))
  | multiPolygon (ps : List (List (List (Pt α))))
  | collection (gs : List (Geom α))
  | other
  deriving Inhabited

namespace Geom

/-- Induction over geometries with the members of a collection at hand. -/
theorem induct {α : Type} {P : Geom α → Prop}
    (point : ∀ p, P (.point p))
    (multiPoint : ∀ ps, P (.multiPoint ps))
    (lineString : ∀ ps, P (.lineString ps))
    (multiLineString : ∀ ls, P (.multiLineString ls))
    (polygon : ∀ rs, P (.polygon rs))
    (multiPolygon : ∀ ps, P (.multiPolygon ps))
    (collection : ∀ gs, (∀ g ∈ gs, P g) → P (.collection gs))
    (other : P .other) : ∀ g, P g := by
  intro g
  refine Geom.rec (motive_1 := P) (motive_2 := fun gs => ∀ g ∈ gs, P g)
    point multiPoint lineString multiLineString polygon multiPolygon
    collection other ?_ ?_ g
  · intro g hg; cases hg
  · intro hd tl h1 h2 g hg
    cases hg with
    | head => exact h1
    | tail _ h => exact h2 g h

mutual
/-- Decidable equality (auxiliary, for concrete examples only) (no counterpart in /repo). -/
def decEq {α : Type} [DecidableEq α] : (a b : Geom α) → Decidable (a = b)
  | .point p, b => match b with
    | .point q => decidable_of_iff (p = q) (by simp)
    | .multiPoint _ | .lineString _ | .multiLineString _ | .polygon _ | .multiPolygon _
    | .collection _ | .other => isFalse nofun
  | .multiPoint p, b => match b with
    | .multiPoint q => decidable_of_iff (p = q) (by simp)
    | .point _ | .lineString _ | .multiLineString _ | .polygon _ | .multiPolygon _
    | .collection _ | .other => isFalse nofun
  | .lineString p, b => match b with
    | .lineString q => decidable_of_iff (p = q) (by simp)
    | .point _ | .multiPoint _ | .multiLineString _ | .polygon _ | .multiPolygon _
    | .collection _ | .other => isFalse nofun
  | .multiLineString p, b => match b with
    | .multiLineString q => decidable_of_iff (p = q) (by simp)
    | .point _ | .multiPoint _ | .lineString _ | .polygon _ | .multiPolygon _
    | .collection _ | .other => isFalse nofun
  | .polygon p, b => match b with
    | .polygon q => decidable_of_iff (p = q) (by simp)
    | .point _ | .multiPoint _ | .lineString _ | .multiLineString _ | .multiPolygon _
    | .collection _ | .other => isFalse nofun
  | .multiPolygon p, b => match b with
    | .multiPolygon q => decidable_of_iff (p = q) (by simp)
    | .point _ | .multiPoint _ | .lineString _ | .multiLineString _ | .polygon _
    | .collection _ | .other => isFalse nofun
  | .collection p, b => match b with
    | .collection q => @decidable_of_iff _ (p = q) (by simp) (decEqs p q)
    | .point _ | .multiPoint _ | .lineString _ | .multiLineString _ | .polygon _
    | .multiPolygon _ | .other => isFalse nofun
  | .other, b => match b with
    | .other => isTrue rfl
    | .point _ | .multiPoint _ | .lineString _ | .multiLineString _ | .polygon _
    | .multiPolygon _ | .collection _ => isFalse nofun
/-- Decidable equality of member lists (auxiliary) (no counterpart in /repo). -/
def decEqs {α : Type} [DecidableEq α] : (a b : List (Geom α)) → Decidable (a = b)
  | [], [] => isTrue rfl
  | [], _ :: _ => isFalse nofun
  | _ :: _, [] => isFalse nofun
  | a :: as, b :: bs =>
    match decEq a b, decEqs as bs with
    | isTrue h, isTrue k => isTrue (by rw [h, k])
    | isFalse h, _ => isFalse (by intro e; cases e; exact h rfl)
    | _, isFalse k => isFalse (by intro e; cases e; exact k rfl)
end

instance {α : Type} [DecidableEq α] : DecidableEq (Geom α) := decEq

end Geom
end Verif
