import Verif.Model.F64
import Verif.Model.Geom

/-!
# Specification vocabulary for the WKB properties

Written from the OGC description of WKB, without reference to the model's
reader or writer.
-/

namespace Verif.Spec.Wkb
open Verif

/-- Byte order of one WKB record. -/
inductive Endian where
  | big
  | little
  deriving DecidableEq, Repr

/-- Byte `i` (from the least significant) of a number. -/
def octet (n i : Nat) : Byte := BitVec.ofNat 8 (n / 256 ^ i)

/-- A 32-bit unsigned number in the given byte order. -/
def u32 : Endian → Nat → List Byte
  | .big, n => [octet n 3, octet n 2, octet n 1, octet n 0]
  | .little, n => [octet n 0, octet n 1, octet n 2, octet n 3]

/-- A 64-bit pattern in the given byte order. -/
def u64 : Endian → Nat → List Byte
  | .big, n => [octet n 7, octet n 6, octet n 5, octet n 4, octet n 3, octet n 2, octet n 1, octet n 0]
  | .little, n => [octet n 0, octet n 1, octet n 2, octet n 3, octet n 4, octet n 5, octet n 6, octet n 7]

/-- A position: x then y. -/
def position (e : Endian) (p : Pt F64) : List Byte := u64 e p.1.toNat ++ u64 e p.2.toNat

/-- Record header: byte-order mark (0 = big, 1 = little) and geometry code. -/
def header (e : Endian) (code : Nat) : List Byte :=
  (match e with | .big => 0#8 | .little => 1#8) :: u32 e code

/-- Positions with their count in front. -/
def positions (e : Endian) (ps : List (Pt F64)) : List Byte :=
  u32 e ps.length ++ ps.flatMap (position e)

/-- Numerically equal points (IEEE equality of both coordinates). -/
def samePoint (a b : Pt F64) : Bool := F64.eq a.1 b.1 && F64.eq a.2 b.2

/-- A ring without its repeated closing vertex. -/
def openRing (r : List (Pt F64)) : List (Pt F64) :=
  match r with
  | [] => []
  | [a] => [a]
  | a :: b :: t => if samePoint a ((b :: t).getLast (by simp)) then (a :: b :: t).dropLast else a :: b :: t

/-- Counts fit the 32-bit count field. -/
def fits {β : Type} (l : List β) : Prop := l.length < 2 ^ 32

/-- `Wire g bs`: `bs` is a well-formed WKB record of `g`.  Members of multi
geometries and collections are themselves records with their own byte order;
rings on the wire may be closed, the geometry has them open. -/
inductive Wire : Geom F64 → List Byte → Prop
  | point (e p) : Wire (.point p) (header e 1 ++ position e p)
  | lineString (e ps) (h : fits ps) : Wire (.lineString ps) (header e 2 ++ positions e ps)
  | polygon (e) (rs : List (List (Pt F64))) (h : fits rs) (hr : ∀ r ∈ rs, fits r) :
      Wire (.polygon (rs.map openRing)) (header e 3 ++ (u32 e rs.length ++ rs.flatMap (positions e)))
  | multiPoint (e) (ms : List (Endian × Pt F64)) (h : fits ms) :
      Wire (.multiPoint (ms.map (·.2)))
        (header e 4 ++ (u32 e ms.length ++ ms.flatMap (fun m => header m.1 1 ++ position m.1 m.2)))
  | multiLineString (e) (ms : List (Endian × List (Pt F64))) (h : fits ms) (hm : ∀ m ∈ ms, fits m.2) :
      Wire (.multiLineString (ms.map (·.2)))
        (header e 5 ++ (u32 e ms.length ++ ms.flatMap (fun m => header m.1 2 ++ positions m.1 m.2)))
  | multiPolygon (e) (ms : List (Endian × List (List (Pt F64)))) (h : fits ms)
      (hm : ∀ m ∈ ms, fits m.2) (hr : ∀ m ∈ ms, ∀ r ∈ m.2, fits r) :
      Wire (.multiPolygon (ms.map (fun m => m.2.map openRing)))
        (header e 6 ++ (u32 e ms.length ++ ms.flatMap (fun m =>
          header m.1 3 ++ (u32 m.1 m.2.length ++ m.2.flatMap (positions m.1)))))
  | collection (e) (ms : List (Geom F64 × List Byte)) (h : fits ms)
      (hm : ∀ m ∈ ms, Wire m.1 m.2) :
      Wire (.collection (ms.map (·.1))) (header e 7 ++ (u32 e ms.length ++ ms.flatMap (·.2)))

/-! Geometries the encoder can represent. -/

mutual
/-- Every count fits, with room for the closing vertex of a ring, and there is
no value that is not a geometry. -/
def Encodable : Geom F64 → Prop
  | .point _ => True
  | .multiPoint ps => fits ps
  | .lineString ps => fits ps
  | .multiLineString ls => fits ls ∧ ∀ l ∈ ls, fits l
  | .polygon rs => fits rs ∧ ∀ r ∈ rs, r.length + 1 < 2 ^ 32
  | .multiPolygon ps => fits ps ∧ ∀ p ∈ ps, fits p ∧ ∀ r ∈ p, r.length + 1 < 2 ^ 32
  | .collection gs => fits gs ∧ EncodableAll gs
  | .other => False
def EncodableAll : List (Geom F64) → Prop
  | [] => True
  | g :: gs => Encodable g ∧ EncodableAll gs
end

mutual
/-- Somewhere inside there is a value that is none of the seven geometry kinds. -/
def hasOther : Geom F64 → Bool
  | .other => true
  | .collection gs => hasOtherAny gs
  | _ => false
def hasOtherAny : List (Geom F64) → Bool
  | [] => false
  | g :: gs => hasOther g || hasOtherAny gs
end

/-- The first vertex of the ring, if any, has no NaN coordinate. -/
def startsNumeric (r : List (Pt F64)) : Prop :=
  ∀ a ∈ r.head?, a.1.isNaN = false ∧ a.2.isNaN = false

mutual
/-- No ring starts with a NaN coordinate. -/
def NumericRings : Geom F64 → Prop
  | .polygon rs => ∀ r ∈ rs, startsNumeric r
  | .multiPolygon ps => ∀ p ∈ ps, ∀ r ∈ p, startsNumeric r
  | .collection gs => NumericRingsAll gs
  | _ => True
def NumericRingsAll : List (Geom F64) → Prop
  | [] => True
  | g :: gs => NumericRings g ∧ NumericRingsAll gs
end

mutual
/-- The geometry with every ring open. -/
def openRings : Geom F64 → Geom F64
  | .polygon rs => .polygon (rs.map openRing)
  | .multiPolygon ps => .multiPolygon (ps.map (·.map openRing))
  | .collection gs => .collection (openRingsAll gs)
  | g => g
def openRingsAll : List (Geom F64) → List (Geom F64)
  | [] => []
  | g :: gs => openRings g :: openRingsAll gs
end

end Verif.Spec.Wkb
