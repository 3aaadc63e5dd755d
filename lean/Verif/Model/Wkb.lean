import Verif.Model.F64
import Verif.Model.Geom

/-!
# WKB codec (encoding/wkb)
-/

namespace Verif.Wkb
open Verif

/-- `binary.ByteOrder` value in use: `binary.BigEndian` or `binary.LittleEndian`
(encoding/wkb/internal/decode/decode.go:34-41). -/
inductive Order where
  | big
  | little
  deriving DecidableEq, Repr

/-- Little-endian bytes of `n`, `k` of them (encoding/binary, standard library;
called at encoding/wkb/internal/encode/encode.go:24-38). -/
def leBytes : Nat → Nat → List Byte
  | 0, _ => []
  | k + 1, n => BitVec.ofNat 8 n :: leBytes k (n / 256)

/-- Number with the given little-endian bytes (encoding/binary)
(called at encoding/wkb/internal/decode/decode.go:26-46). -/
def leNat : List Byte → Nat
  | [] => 0
  | b :: bs => b.toNat + 256 * leNat bs

/-- Bytes of `n` in the given order, `k` of them: what `binary.Write` produces
for a fixed-size integer (used at encoding/wkb/internal/encode/encode.go:32). -/
def putN (o : Order) (k n : Nat) : List Byte :=
  match o with
  | .little => leBytes k n
  | .big => (leBytes k n).reverse

/-- Value of a fixed-size integer read by `binary.Read`
(encoding/wkb/internal/decode/decode.go:44,54,69). -/
def getN (o : Order) (bs : List Byte) : Nat :=
  match o with
  | .little => leNat bs
  | .big => leNat bs.reverse

/-- Bytes of a `uint32`; the Go conversion `uint32(len(x))` wraps, so does `leBytes`
(encoding/wkb/internal/encode/encode.go:24-38). -/
def put32 (o : Order) (n : Nat) : List Byte := putN o 4 n

/-- Bytes of a `float64` (`binary.Write` of `math.Float64bits`)
(encoding/wkb/internal/encode/encode.go:24-38). -/
def putF (o : Order) (f : F64) : List Byte := putN o 8 f.toNat

/-! ## Encoder: encoding/wkb/internal/encode/encode.go -/

/-- A writer is any deterministic `io.Writer`: given the writes it has seen so
far and the next data it either accepts all of it (`none`) or fails after
accepting some of it (`some k`: the first `min k len` bytes)
(encoding/wkb/internal/encode/encode.go:12-38). -/
abbrev Writer := List (List Byte) → List Byte → Option Nat

/-- encode.Encoder (encode.go:12-18).  `writes` are the successful `Write` calls
(their data), `out` everything that reached the destination, `err` the sticky
error (`en.err`); simplification: the error value itself is reduced to its
source, `true` for an unknown geometry. -/
structure Enc where
  writes : List (List Byte) := []
  out : List Byte := []
  err : Option Bool := none

/-- One item of `(*Encoder).Write` (encode.go:24-38) with `conti` (encode.go:22):
`binary.Write` makes a single `w.Write` call for a fixed-size value and returns
its error; after an error nothing is written any more. -/
def Enc.write (w : Writer) (e : Enc) (data : List Byte) : Enc :=
  match e.err with
  | some _ => e
  | none =>
    match w e.writes data with
    | none => { e with writes := e.writes ++ [data], out := e.out ++ data }
    | some k => { e with out := e.out ++ data.take k, err := some false }

/-- Geometry codes, encoding/wkb/internal/consts/consts.go:5-13. -/
def tPoint : Nat := 1
/-- encoding/wkb/internal/consts/consts.go:5-13. -/
def tLineString : Nat := 2
/-- encoding/wkb/internal/consts/consts.go:5-13. -/
def tPolygon : Nat := 3
/-- encoding/wkb/internal/consts/consts.go:5-13. -/
def tMultiPoint : Nat := 4
/-- encoding/wkb/internal/consts/consts.go:5-13. -/
def tMultiLineString : Nat := 5
/-- encoding/wkb/internal/consts/consts.go:5-13. -/
def tMultiPolygon : Nat := 6
/-- encoding/wkb/internal/consts/consts.go:5-13. -/
def tCollection : Nat := 7

/-- `(*Encoder).BOM` (encode.go:47-57): 0 for big endian, 1 otherwise. -/
def bomByte : Order → Byte
  | .big => 0#8
  | .little => 1#8

/-- `en.BOM()` (encode.go:47-57). -/
def Enc.bom (w : Writer) (o : Order) (e : Enc) : Enc := e.write w [bomByte o]

/-- `en.Write(pt[0], pt[1])` (encode.go:60, 72, 99, 102). -/
def Enc.pair (w : Writer) (o : Order) (e : Enc) (p : Pt F64) : Enc :=
  (e.write w (putF o p.1)).write w (putF o p.2)

/-- `(*Encoder).Point` (encode.go:59-61). -/
def Enc.point (w : Writer) (o : Order) (e : Enc) (p : Pt F64) : Enc :=
  (((e.bom w o).write w (put32 o tPoint))).pair w o p

/-- `(*Encoder).MultiPoint` (encode.go:62-68). -/
def Enc.multiPoint (w : Writer) (o : Order) (e : Enc) (ps : List (Pt F64)) : Enc :=
  ps.foldl (Enc.point w o)
    (((e.bom w o).write w (put32 o tMultiPoint)).write w (put32 o ps.length))

/-- `(*Encoder).LineString` (encode.go:69-74). -/
def Enc.lineString (w : Writer) (o : Order) (e : Enc) (ps : List (Pt F64)) : Enc :=
  ps.foldl (Enc.pair w o)
    (((e.bom w o).write w (put32 o tLineString)).write w (put32 o ps.length))

/-- `(*Encoder).MultiLineString` (encode.go:76-81). -/
def Enc.multiLineString (w : Writer) (o : Order) (e : Enc) (ls : List (List (Pt F64))) : Enc :=
  ls.foldl (Enc.lineString w o)
    (((e.bom w o).write w (put32 o tMultiLineString)).write w (put32 o ls.length))

/-- Go `a[0] != b[0] || a[1] != b[1]` on points (encode.go:92). -/
def ptNe (a b : Pt F64) : Bool := !(F64.eq a.1 b.1) || !(F64.eq a.2 b.2)

/-- The vertex appended to close a ring, if any (encode.go:89-96, 101-103):
the first vertex when the ring is non-empty and first and last differ. -/
def closing (r : List (Pt F64)) : List (Pt F64) :=
  match r.head?, r.getLast? with
  | some a, some b => if ptNe a b then [a] else []
  | _, _ => []

/-- Body of the ring loop of `(*Encoder).Polygon` (encode.go:85-104). -/
def Enc.ring (w : Writer) (o : Order) (e : Enc) (r : List (Pt F64)) : Enc :=
  (closing r).foldl (Enc.pair w o)
    (r.foldl (Enc.pair w o) (e.write w (put32 o (r.length + (closing r).length))))

/-- `(*Encoder).Polygon` (encode.go:83-105). -/
def Enc.polygon (w : Writer) (o : Order) (e : Enc) (rs : List (List (Pt F64))) : Enc :=
  rs.foldl (Enc.ring w o)
    (((e.bom w o).write w (put32 o tPolygon)).write w (put32 o rs.length))

/-- `(*Encoder).MultiPolygon` (encode.go:107-112). -/
def Enc.multiPolygon (w : Writer) (o : Order) (e : Enc)
    (ps : List (List (List (Pt F64)))) : Enc :=
  ps.foldl (Enc.polygon w o)
    (((e.bom w o).write w (put32 o tMultiPolygon)).write w (put32 o ps.length))

mutual
/-- `(*Encoder).Geometry` (encode.go:127-149) and, for the collection case,
the head of `(*Encoder).Collection` (encode.go:114-119). -/
def Enc.geometry (w : Writer) (o : Order) (e : Enc) : Geom F64 → Enc
  | .point p => if e.err.isSome then e else e.point w o p
  | .multiPoint ps => if e.err.isSome then e else e.multiPoint w o ps
  | .lineString ps => if e.err.isSome then e else e.lineString w o ps
  | .multiLineString ls => if e.err.isSome then e else e.multiLineString w o ls
  | .polygon rs => if e.err.isSome then e else e.polygon w o rs
  | .multiPolygon ps => if e.err.isSome then e else e.multiPolygon w o ps
  | .collection gs =>
    if e.err.isSome then e else
      Enc.geometries w o
        (((e.bom w o).write w (put32 o tCollection)).write w (put32 o gs.length)) gs
  | .other => if e.err.isSome then e else { e with err := some true }
/-- The member loop of `(*Encoder).Collection` (encode.go:119-124). -/
def Enc.geometries (w : Writer) (o : Order) (e : Enc) : List (Geom F64) → Enc
  | [] => e
  | g :: gs =>
    let e' := Enc.geometry w o e g
    if e'.err.isSome then e' else Enc.geometries w o e' gs
end

/-- `EncodeWithByteOrder` (encoding/wkb/wkb.go:93-97): bytes that reached the
writer and the error returned. -/
def encodeTo (w : Writer) (o : Order) (g : Geom F64) : List Byte × Option Bool :=
  let e := Enc.geometry w o {} g
  (e.out, e.err)

/-- A writer that never fails, e.g. `bytes.Buffer` (wkb.go:82). -/
def goodWriter : Writer := fun _ _ => none

/-- A writer that accepts exactly the first `n` bytes and then fails
(no counterpart in /repo: one argument of encoding/wkb/wkb.go:89). -/
def limitedWriter (n : Nat) : Writer := fun writes data =>
  if writes.flatten.length + data.length ≤ n then none
  else some (n - writes.flatten.length)

/-- `EncodeBytes`/`EncodeWithByteOrder` into a buffer (wkb.go:81-97): `none` is a
returned error. -/
def encode (o : Order) (g : Geom F64) : Option (List Byte) :=
  match encodeTo goodWriter o g with
  | (bs, none) => some bs
  | (_, some _) => none

/-! ## Decoder: encoding/wkb/internal/decode/decode.go -/

/-- Errors of the decoder: io.EOF / io.ErrUnexpectedEOF (`eof`), ErrBadBOM
(decode.go:12), ErrInvalidType (decode.go:16), wkb.ErrUnknownGeometryType
(wkb.go:77).  `fuel` never occurs (see `Lemmas`). -/
inductive Err where
  | eof
  | badBom (b : Byte)
  | invalidType (t : Nat)
  | unknownType (t : Nat)
  | fuel
  deriving DecidableEq, Repr

/-- A reader step: consumes bytes from the front of the stream.
Simplification: the partially filled value returned beside an error is dropped,
and memory exhaustion by `make([]T, num)` is not modelled
(encoding/wkb/internal/decode/decode.go:26-202). -/
abbrev Dec (α : Type) := List Byte → Except Err (α × List Byte)

/-- `binary.Read` of `k` bytes (decode.go:44, 49, 54, ...). -/
def takeN (k : Nat) : Dec (List Byte) := fun bs =>
  if bs.length < k then .error .eof else .ok (bs.take k, bs.drop k)

/-- `binary.Read(r, bom, &num)` for a `uint32`
(encoding/wkb/internal/decode/decode.go:26-46, 77-89). -/
def get32 (o : Order) : Dec Nat := fun bs => do
  let (b, rest) ← takeN 4 bs
  return (getN o b, rest)

/-- One `float64` of `binary.Read` (encoding/wkb/internal/decode/decode.go:48-50). -/
def getF (o : Order) : Dec F64 := fun bs => do
  let (b, rest) ← takeN 8 bs
  return (BitVec.ofNat 64 (getN o b), rest)

/-- `binary.Read(r, bom, &pt)` of a `[2]float64` (decode.go:48-51, 69, 84, 119):
sixteen bytes, both coordinates or nothing. -/
def getPt (o : Order) : Dec (Pt F64) := fun bs => do
  let (b, rest) ← takeN 16 bs
  return ((BitVec.ofNat 64 (getN o (b.take 8)), BitVec.ofNat 64 (getN o (b.drop 8))), rest)

/-- `ByteOrderType` (decode.go:26-46). -/
def byteOrderType : Dec (Order × Nat) := fun bs =>
  match bs with
  | [] => .error .eof
  | b :: rest =>
    if b = 0#8 then do
      let (t, rest) ← get32 .big rest
      return ((.big, t), rest)
    else if b = 1#8 then do
      let (t, rest) ← get32 .little rest
      return ((.little, t), rest)
    else .error (.badBom b)

/-- The `for i := range xs` loops of the decoder: `n` elements in sequence
(encoding/wkb/internal/decode/decode.go:52-202). -/
def readN {α : Type} (d : Dec α) : Nat → Dec (List α)
  | 0 => fun bs => .ok ([], bs)
  | n + 1 => fun bs => do
    let (x, bs) ← d bs
    let (xs, bs) ← readN d n bs
    return (x :: xs, bs)

/-- Read a `uint32` count and that many elements (decode.go:53-60, 78-83, ...). -/
def counted {α : Type} (o : Order) (d : Dec α) : Dec (List α) := fun bs => do
  let (n, bs) ← get32 o bs
  readN d n bs

/-- Read byte order and type, insist on the type, then the body
(decode.go:62-68, 98-104, 154-160). -/
def member {α : Type} (t : Nat) (d : Order → Dec α) : Dec α := fun bs => do
  let ((o, t'), bs) ← byteOrderType bs
  if t' = t then d o bs else .error (.invalidType t')

/-- `LineString` (decode.go:77-89). -/
def lineString (o : Order) : Dec (List (Pt F64)) := counted o (getPt o)

/-- `MultiPoint` (decode.go:52-75). -/
def multiPoint (o : Order) : Dec (List (Pt F64)) := counted o (member tPoint getPt)

/-- `MultiLineString` (decode.go:91-110). -/
def multiLineString (o : Order) : Dec (List (List (Pt F64))) :=
  counted o (member tLineString lineString)

/-- The closing vertex of a decoded ring is dropped (decode.go:123-128). -/
def stripClosing (r : List (Pt F64)) : List (Pt F64) :=
  match r.head?, r.getLast? with
  | some a, some b =>
    if 1 < r.length && F64.eq a.1 b.1 && F64.eq a.2 b.2 then r.dropLast else r
  | _, _ => r

/-- `LinerRing` (decode.go:112-131). -/
def linearRing (o : Order) : Dec (List (Pt F64)) := fun bs => do
  let (r, bs) ← counted o (getPt o) bs
  return (stripClosing r, bs)

/-- `Polygon` (decode.go:133-145). -/
def polygon (o : Order) : Dec (List (List (Pt F64))) := counted o (linearRing o)

/-- `MultiPolygon` (decode.go:147-166). -/
def multiPolygon (o : Order) : Dec (List (List (List (Pt F64)))) :=
  counted o (member tPolygon polygon)

/-- The type switch shared by `Decode` (wkb.go:54-78) and `Collection`
(decode.go:179-196); `unk` is the error of the default branch and `col` decodes
a collection body. -/
def body (unk : Nat → Err) (col : Order → Dec (List (Geom F64))) (o : Order) (t : Nat) :
    Dec (Geom F64) := fun bs =>
  if t = tPoint then do let (p, bs) ← getPt o bs; return (.point p, bs)
  else if t = tLineString then do let (p, bs) ← lineString o bs; return (.lineString p, bs)
  else if t = tPolygon then do let (p, bs) ← polygon o bs; return (.polygon p, bs)
  else if t = tMultiPoint then do let (p, bs) ← multiPoint o bs; return (.multiPoint p, bs)
  else if t = tMultiLineString then do
    let (p, bs) ← multiLineString o bs; return (.multiLineString p, bs)
  else if t = tMultiPolygon then do
    let (p, bs) ← multiPolygon o bs; return (.multiPolygon p, bs)
  else if t = tCollection then do let (p, bs) ← col o bs; return (.collection p, bs)
  else .error (unk t)

/-- `Collection` (decode.go:168-202).  The fuel bounds the nesting depth; Go
recurses without bound. -/
def collection : Nat → Order → Dec (List (Geom F64))
  | 0 => fun _ _ => .error .fuel
  | fuel + 1 => fun o =>
    counted o (fun bs => do
      let ((o', t), bs) ← byteOrderType bs
      body .invalidType (collection fuel) o' t bs)

/-- `Decode` (wkb.go:48-79) returning also the unread rest of the stream.
Every level of nesting consumes bytes, so the stream length is enough fuel. -/
def decode : Dec (Geom F64) := fun bs => do
  let ((o, t), rest) ← byteOrderType bs
  body .unknownType (collection bs.length) o t rest

/-- `DecodeBytes` (wkb.go:42-45): unread bytes are ignored. -/
def decodeBytes (bs : List Byte) : Except Err (Geom F64) :=
  match decode bs with
  | .ok (g, _) => .ok g
  | .error e => .error e

end Verif.Wkb
