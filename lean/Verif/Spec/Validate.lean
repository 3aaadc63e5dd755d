import Verif.Spec.Subdivision
import Verif.Spec.Intersect

/-!
# What a valid subdivision is
-/

namespace Verif.Spec.Validate
open Verif.Quad Verif.Spec.Quad Verif.Spec.Subdivision Verif.Spec.Planar Verif.Spec.Intersect

variable {K : Type} [Field K] [LinearOrder K]

/-- From `y` to the next edge round its origin it is a turn to the left. -/
def LeftTurn (yd : Bool) (s : Store (Pt K)) (y : E) : Prop :=
  ∃ o d t, orig s y = some o ∧ dest s y = some d ∧ dest s (onext s y) = some t ∧ Turns yd o d t

/-- From `y` to the next edge round its origin it is a turn to the right. -/
def RightTurn (yd : Bool) (s : Store (Pt K)) (y : E) : Prop :=
  ∃ o d t, orig s y = some o ∧ dest s y = some d ∧ dest s (onext s y) = some t ∧ Turns yd o t d

open Classical in
/-- Going once round the origin of `y`, past more than two edges, there are more turns to the left than to the
right. -/
def MostlyLeft (yd : Bool) (s : Store (Pt K)) (y : E) : Prop :=
  ∀ L : List E, L.Nodup → (∀ w, w ∈ L ↔ Around s y w) → 2 < L.length →
    L.countP (fun w => decide (RightTurn yd s w)) < L.countP (fun w => decide (LeftTurn yd s w))

/-- The edges connected to `z` pass the tests: round a point they have the same origin and go to different
points, with more turns to the left than to the right; each has a length; two that have no end in common do
not meet, unless they are parallel. -/
structure Passes (yd : Bool) (s : Store (Pt K)) (z : E) : Prop where
  origins : ∀ y w, Connected s z y → Around s y w → orig s w = orig s y
  dests : ∀ y w, Connected s z y → Around s y w → dest s w = dest s y → w = y
  left : ∀ y, Connected s z y → MostlyLeft yd s y
  long : ∀ y, Connected s z y → orig s y ≠ dest s y
  apart : ∀ y w a b c d, Connected s z y → Connected s z w → orig s y = some a → dest s y = some b →
    orig s w = some c → dest s w = some d → a ≠ c → a ≠ d → b ≠ c → b ≠ d → ¬ ∃ p, MeetAt p (a, b) (c, d)

/-- Where it is less than half a turn to the left from an edge `y` to the next one round its origin, no other
edge is met on the way. -/
def InOrder (yd : Bool) (s : Store (Pt K)) (z : E) : Prop :=
  ∀ y w o d t x, Connected s z y → Around s y w → orig s y = some o → dest s y = some d →
    dest s (onext s y) = some t → dest s w = some x → ¬ (Turns yd o d x ∧ Turns yd o x t ∧ Turns yd o d t)

/-- Different edges have no point in common but their ends. -/
def MeetAtEnds (s : Store (Pt K)) (z : E) : Prop :=
  ∀ y w a b c d p, Connected s z y → Connected s z w → w ≠ y → w ≠ Quad.sym y → orig s y = some a →
    dest s y = some b → orig s w = some c → dest s w = some d → OnSegment p a b → OnSegment p c d →
    (p = a ∨ p = b) ∧ (p = c ∨ p = d)

end Verif.Spec.Validate
