import Verif.Model.GeoJson
import Mathlib.Data.List.Forall2

/-!
# What GeoJSON documents the decoder takes, and for what

Uses the data types of the model (JSON values, geometry values) but none of its functions.
-/

namespace Verif.Spec.GeoJsonRead
open Verif Verif.GeoJson

/-- `j` is the value of the member `name`; of several with the same name, the last. -/
def Has (kvs : List (Str × Json)) (name : String) (j : Json) : Prop :=
  ∃ a b, kvs = a ++ (name.toList, j) :: b ∧ ∀ kv ∈ b, kv.1 ≠ name.toList

/-- The object has a member `type` that is the string `t`. -/
def HasType (kvs : List (Str × Json)) (t : String) : Prop := Has kvs "type" (.str t.toList)

/-- `c` is taken for the number `f`: `null` counts as 0. -/
def Number (parse : List Byte → Option F64) (c : Json) (f : F64) : Prop :=
  (∃ lit, c = .num lit ∧ parse lit = some f) ∨ (c = .null ∧ f = 0#64)

/-- `c` is taken for the position `p`: what is missing counts as 0, what comes after the second number is ignored,
`null` is the position (0, 0). -/
inductive Position (parse : List Byte → Option F64) : Json → Pt F64 → Prop
  | null : Position parse .null (0#64, 0#64)
  | none : Position parse (.arr []) (0#64, 0#64)
  | one {a x} : Number parse a x → Position parse (.arr [a]) (x, 0#64)
  | two {a b x y rest} : Number parse a x → Number parse b y → Position parse (.arr (a :: b :: rest)) (x, y)

/-- `c` is taken for a slice: an array of elements that are taken for its values, or `null` for nil. -/
inductive Array {α : Type} (R : Json → α → Prop) : Json → Sl α → Prop
  | null : Array R .null none
  | array {js l} : List.Forall₂ R js l → Array R (.arr js) (some l)

/-- `coordinates` is there, is not `null`, and is taken for `v`. -/
def Coordinates {α : Type} (kvs : List (Str × Json)) (R : Json → α → Prop) (v : α) : Prop :=
  ∃ c, Has kvs "coordinates" c ∧ c ≠ .null ∧ R c v

end Verif.Spec.GeoJsonRead
