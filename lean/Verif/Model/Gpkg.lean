import Verif.Model.Wkb
import Verif.Model.Extent
import Verif.Model.Empty

/-!
# GeoPackage binary geometry (encoding/gpkg/binary_header.go)
-/

namespace Verif.Gpkg
open Verif Verif.Wkb

/-- `EnvelopeType.NumberOfElements` (binary_header.go:35-50) on the `uint8` code. -/
def numElements (et : Byte) : Int :=
  if et = 0#8 then 0
  else if et = 1#8 then 4
  else if et = 2#8 then 6
  else if et = 3#8 then 6
  else if et = 4#8 then 8
  else -1

/-- `headerFlags.Endian` (binary_header.go:91-96). -/
def flagEndian (hf : Byte) : Order := if hf &&& 1#8 = 0#8 then .big else .little

/-- `headerFlags.Envelope` (binary_header.go:99-105); 5 is EnvelopeTypeInvalid. -/
def flagEnvelope (hf : Byte) : Byte :=
  let et := (hf &&& 0x0E#8) >>> 1
  if 5#8 ≤ et then 5#8 else et

/-- `headerFlags.IsEmpty` (binary_header.go:108). -/
def flagIsEmpty (hf : Byte) : Bool := decide ((hf &&& 0x10#8) >>> 4 = 1#8)

/-- `headerFlags.IsStandard` (binary_header.go:111). -/
def flagIsStandard (hf : Byte) : Bool := decide ((hf &&& 0x20#8) >>> 5 = 0#8)

/-- `EncodeHeaderFlags` (binary_header.go:113-126). -/
def encodeFlags (o : Order) (et : Byte) (extend empty : Bool) : Byte :=
  let hf : Byte := if o = .little then 1#8 else 0#8
  let hf := hf ||| (et <<< 1)
  let hf := if empty then hf ||| 0x10#8 else hf
  if extend then hf ||| 0x20#8 else hf

/-- `BinaryHeader` (binary_header.go:129-136). -/
structure Header where
  magic0 : Byte
  magic1 : Byte
  version : Byte
  flags : Byte
  srsid : BitVec 32
  envelope : List F64
  deriving DecidableEq, Repr

/-- `NewBinaryHeader` (binary_header.go:139-149); `none` is
ErrEnvelopeEnvelopeTypeMismatch. -/
def newHeader (o : Order) (srsid : BitVec 32) (envelope : List F64) (et : Byte)
    (extend empty : Bool) : Option Header :=
  if numElements et ≠ envelope.length then none
  else some { magic0 := 0x47#8, magic1 := 0x50#8, version := 0#8,
              flags := encodeFlags o et extend empty, srsid, envelope }

/-- Errors of the header decoder (encoding/gpkg errors) (binary_header.go:152-190, 299-314). -/
inductive Err where
  | insufficientBytes
  | invalidEnvelope
  | invalidMagic
  | wkb (e : Wkb.Err)
  deriving DecidableEq, Repr

/-- The envelope loop (binary_header.go:180-183). -/
def readEnvelope (o : Order) : Nat → List Byte → List F64
  | 0, _ => []
  | n + 1, bs => BitVec.ofNat 64 (getN o (bs.take 8)) :: readEnvelope o n (bs.drop 8)

/-- `DecodeBinaryHeader` (binary_header.go:152-189).  The header returned beside
ErrInvalidMagicNumber is dropped. -/
def decodeHeader (data : List Byte) : Except Err Header :=
  match data with
  | m0 :: m1 :: v :: f :: s0 :: s1 :: s2 :: s3 :: bytes =>
    let en := flagEndian f
    let srsid := BitVec.ofNat 32 (getN en [s0, s1, s2, s3])
    let et := flagEnvelope f
    if et = 5#8 then .error .invalidEnvelope
    else if et = 0#8 then .ok ⟨m0, m1, v, f, srsid, []⟩
    else
      let num := (numElements et).toNat
      if bytes.length < num * 8 then .error .insufficientBytes
      else
        let env := readEnvelope en num bytes
        if m0 ≠ 0x47#8 || m1 ≠ 0x50#8 then .error .invalidMagic
        else .ok ⟨m0, m1, v, f, srsid, env⟩
  | _ => .error .insufficientBytes

/-- `(*BinaryHeader).Size` (binary_header.go:249-254) of a non-nil header. -/
def Header.size (h : Header) : Nat := h.envelope.length * 8 + 8

/-- `(*BinaryHeader).EncodeTo`/`Encode` (binary_header.go:256-283) of a non-nil
header: the bytes appended to the buffer.  (For a nil header line 263 returns an
error because EnvelopeTypeInvalid has -1 elements.) -/
def Header.encode (h : Header) : List Byte :=
  [h.magic0, h.magic1, h.version, h.flags] ++ putN (flagEndian h.flags) 4 h.srsid.toNat ++
    h.envelope.flatMap (putF (flagEndian h.flags))

/-- `StandardBinary` (binary_header.go:293-297). -/
structure Binary where
  header : Header
  srsid : BitVec 32
  geometry : Geom F64

/-- `DecodeGeometry` (binary_header.go:299-314). -/
def decodeGeometry (bytes : List Byte) : Except Err Binary :=
  match decodeHeader bytes with
  | .error e => .error e
  | .ok h =>
    match Wkb.decodeBytes (bytes.drop h.size) with
    | .error e => .error (.wkb e)
    | .ok g => .ok ⟨h, h.srsid, g⟩

/-- `StandardBinary.Encode` (binary_header.go:316-328); `none` is a returned error. -/
def Binary.encode (b : Binary) : Option (List Byte) :=
  (Wkb.encode (flagEndian b.header.flags) b.geometry).map (b.header.encode ++ ·)

/-- What `NewBinary` can do (binary_header.go:330-357). -/
inductive NewResult where
  | ok (b : Binary)
  | err
  | panic

/-- `NewBinary` (binary_header.go:330-357).  `ext[:]` at line 345 panics on a nil
extent. -/
def newBinary (srs : BitVec 32) (g : Geom F64) : NewResult :=
  let mk := fun (extent : List F64) (empty : Bool) =>
    match newHeader .little srs extent 1#8 false empty with
    | none => NewResult.err
    | some h => .ok ⟨h, srs, g⟩
  if Cmp.isEmptyGeo g then mk [F64.nan, F64.nan, F64.nan, F64.nan] true
  else
    match Ext.newExtentFromGeometry g with
    | none => .err
    | some none => .panic
    | some (some e) => mk [e.minx, e.miny, e.maxx, e.maxy] false

end Verif.Gpkg
