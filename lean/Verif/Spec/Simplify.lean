import Verif.Model.F64
import Verif.Model.Geom

/-!
# What simplification promises

Vocabulary for the simplification properties; nothing here refers to the
model of the code.
-/

namespace Verif.Spec.Simplify

/-- `Keeps ok line out`: `out` is what remains of `line` after dropping runs of
interior points.  The first and the last point are kept, the order is kept, and
every dropped point `x` lies between two neighbouring kept points `p`, `q`
with `ok p q x`. -/
inductive Keeps {P : Type} (ok : P → P → P → Prop) : List P → List P → Prop
  | last (p : P) : Keeps ok [p] [p]
  | step (p : P) (dropped : List P) (q : P) (rest out : List P) :
      (∀ x ∈ dropped, ok p q x) → Keeps ok (q :: rest) (q :: out) →
      Keeps ok (p :: (dropped ++ q :: rest)) (p :: q :: out)

/-- Every vertex of `out` other than its first and last is there for a
reason: it is too far (`far a b p`) from some pair of vertices `a`, `b` of
`out`, one before it and one after it. -/
def Needed {P : Type} (far : P → P → P → Prop) (out : List P) : Prop :=
  ∀ before p after, out = before ++ p :: after → before ≠ [] → after ≠ [] →
    ∃ a ∈ before, ∃ b ∈ after, far a b p

/-- Two geometries with the same kind and the same number of parts at every
level, whose coordinate lists are related by `R closed`, where `closed` says
whether the list is a ring of a polygon.  Points, multipoints and unknown
values must be equal. -/
inductive SameShape {α : Type} (R : Bool → List (Pt α) → List (Pt α) → Prop) :
    Geom α → Geom α → Prop
  | point (p) : SameShape R (.point p) (.point p)
  | multiPoint (ps) : SameShape R (.multiPoint ps) (.multiPoint ps)
  | other : SameShape R .other .other
  | lineString (a b) : R false a b → SameShape R (.lineString a) (.lineString b)
  | multiLineString (as bs : List (List (Pt α))) : as.length = bs.length →
      (∀ i (h : i < as.length) (h' : i < bs.length), R false as[i] bs[i]) →
      SameShape R (.multiLineString as) (.multiLineString bs)
  | polygon (as bs : List (List (Pt α))) : as.length = bs.length →
      (∀ i (h : i < as.length) (h' : i < bs.length), R true as[i] bs[i]) →
      SameShape R (.polygon as) (.polygon bs)
  | multiPolygon (as bs : List (List (List (Pt α)))) : as.length = bs.length →
      (∀ i (h : i < as.length) (h' : i < bs.length), as[i].length = bs[i].length ∧
        ∀ j (g : j < as[i].length) (g' : j < bs[i].length), R true as[i][j] bs[i][j]) →
      SameShape R (.multiPolygon as) (.multiPolygon bs)
  | collection (as bs : List (Geom α)) : as.length = bs.length →
      (∀ i (h : i < as.length) (h' : i < bs.length), SameShape R as[i] bs[i]) →
      SameShape R (.collection as) (.collection bs)

end Verif.Spec.Simplify
