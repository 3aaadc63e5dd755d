import Verif.Model.Slippy

/-!
# Specification vocabulary for tiles
-/

namespace Verif.Spec.Slippy
open Verif Verif.Slippy

/-- Tile `t` covers the square from `(x/2^z, y/2^z)` with side `1/2^z`; `a` covers all of
`t` (denominators multiplied out). -/
def Covers (a t : Tile) : Prop :=
  a.x * 2 ^ t.z ≤ t.x * 2 ^ a.z ∧ (t.x + 1) * 2 ^ a.z ≤ (a.x + 1) * 2 ^ t.z ∧
  a.y * 2 ^ t.z ≤ t.y * 2 ^ a.z ∧ (t.y + 1) * 2 ^ a.z ≤ (a.y + 1) * 2 ^ t.z

/-- The tile exists at its zoom. -/
def InGrid (t : Tile) : Prop := t.x < 2 ^ t.z ∧ t.y < 2 ^ t.z

/-- Hand the elements of a list to a callback until it says stop. -/
def feed {σ τ : Type} (yield : σ → τ → σ × Bool) : List τ → σ → σ
  | [], s => s
  | t :: ts, s => if (yield s t).2 then feed yield ts (yield s t).1 else (yield s t).1

end Verif.Spec.Slippy
