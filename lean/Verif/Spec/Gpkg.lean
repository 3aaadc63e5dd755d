import Verif.Spec.Extent

/-!
# Specification vocabulary for GeoPackage blobs

Written from the OGC GeoPackage description of the binary header: magic `GP`,
version, flags, four bytes of srs id, then an envelope of as many doubles as the
three-bit code in flag bits 1-3 says.
-/

namespace Verif.Spec.Gpkg
open Verif Verif.Spec.Extent

/-- Number of doubles for each envelope code; codes above 4 are invalid. -/
def doubles : Nat → Option Nat
  | 0 => some 0
  | 1 => some 4
  | 2 => some 6
  | 3 => some 6
  | 4 => some 8
  | _ => none

/-- The envelope code in the flags byte: bits 1, 2 and 3. -/
def code (bs : List Byte) : Nat := ((bs.getD 3 0).toNat / 2) % 8

/-- The bytes start with a complete header with a known envelope code. -/
def CompleteHeader (bs : List Byte) (n : Nat) : Prop :=
  doubles (code bs) = some n ∧ 8 + 8 * n ≤ bs.length

/-- The bytes start with `GP`. -/
def Magic (bs : List Byte) : Prop := bs.take 2 = [0x47#8, 0x50#8]

/-- The four numbers of an XY envelope are, in the order the GeoPackage
specification gives, minx, maxx, miny, maxy of the box. -/
def standardEnvelope (b : Box) (env : List F64) : Prop := env = [b.left, b.right, b.bottom, b.top]

end Verif.Spec.Gpkg
