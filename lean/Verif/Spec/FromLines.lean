import Verif.Spec.Subdivision
import Mathlib.Logic.Relation
import Mathlib.Data.List.Dedup

/-!
# Vocabulary for lines and the subdivision made of them
-/

namespace Verif.Spec.FromLines
open Verif Verif.Quad Verif.Spec.Quad Verif.Spec.Subdivision

variable {K : Type}

/-- One of the lines joins `p` and `q`. -/
def Join (lines : List (Pt K × Pt K)) (p q : Pt K) : Prop := (p, q) ∈ lines ∨ (q, p) ∈ lines

/-- One can go from `p` to `q` along the lines. -/
def Path (lines : List (Pt K × Pt K)) (p q : Pt K) : Prop := Relation.ReflTransGen (Join lines) p q

/-- The ends of the lines, each once. -/
def ends [DecidableEq K] (lines : List (Pt K × Pt K)) : List (Pt K) := (lines.flatMap fun l => [l.1, l.2]).dedup

/-- The edge `y` goes from `p` to `q`. -/
def Goes (s : Store (Pt K)) (y : E) (p q : Pt K) : Prop := orig s y = some p ∧ dest s y = some q

instance [DecidableEq K] (s : Store (Pt K)) (y : E) (p q : Pt K) : Decidable (Goes s y p q) :=
  inferInstanceAs (Decidable (_ ∧ _))

variable [Field K] [LinearOrder K]

/-- Two of the lines have no point in common but an end of both. -/
def MeetAtEnds (lines : List (Pt K × Pt K)) : Prop :=
  ∀ l ∈ lines, ∀ m ∈ lines, l ≠ m → ∀ (x : Pt K) (t u : K), 0 ≤ t → t ≤ 1 → 0 ≤ u → u ≤ 1 →
    Resolve.AtParam x l.1 l.2 t → Resolve.AtParam x m.1 m.2 u → (t = 0 ∨ t = 1) ∧ (u = 0 ∨ u = 1)

/-- Around every point that can be come to from `start`, `ONext` gives the next edge counterclockwise: no edge at
the point is in between. -/
def InOrder (yd : Bool) (s : Store (Pt K)) (start : E) : Prop :=
  ∀ y z, Connected s start y → Around s y z → ∀ o a b c, Goes s y o a → Goes s (onext s y) o b → Goes s z o c →
    ¬ Resolve.Between yd o a b c

/-- The least box around the points: all are in it, and each side has a point on it. -/
def LeastBox (ps : List (Pt K)) (x0 y0 x1 y1 : K) : Prop :=
  (∀ p ∈ ps, x0 ≤ p.1 ∧ p.1 ≤ x1 ∧ y0 ≤ p.2 ∧ p.2 ≤ y1) ∧
    (∃ p ∈ ps, p.1 = x0) ∧ (∃ p ∈ ps, p.1 = x1) ∧ (∃ p ∈ ps, p.2 = y0) ∧ ∃ p ∈ ps, p.2 = y1

end Verif.Spec.FromLines
