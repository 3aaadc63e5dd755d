import Verif.Spec.Cmp

/-!
# Specification vocabulary for lists of floats
-/

namespace Verif.Spec.Cmp
open Verif Verif.Cmp Verif.Spec.Extent

/-- What `sort.Float64s` guarantees on numbers. -/
def SortsFloats (s : List F64 → List F64) : Prop := SortsOn num (fun a b => a.lt b = true) s

/-- The floats of one list can be paired off with those of the other so that each is equal, within the tolerances,
to its partner. -/
def PairOff (c : Compare) (a b : List F64) : Prop :=
  ∃ b', b'.Perm b ∧ List.Forall₂ (fun x y => c.float x y = true) a b'

end Verif.Spec.Cmp
