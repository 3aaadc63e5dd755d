import Verif.Model.Winding
import Mathlib.Algebra.Order.Ring.Int

/-!
# MVT geometry encoding (encoding/mvt/feature.go, decode.go)

Words are `BitVec 32`.  Coordinates are already truncated to integers
(`int64(p.X())`, feature.go:154,200), so a geometry is a `Geom Int`; the decoder's
float64 cursor (decode.go:268-270) is an `Int` cursor, exact as long as the
coordinates stay below 2^53.
-/

namespace Verif.Mvt
open Verif Verif.Winding

/-- A command or parameter integer (encoding/mvt/feature.go:102-135). -/
abbrev Word := BitVec 32

/-- `cmdMoveTo`, `cmdLineTo`, `cmdClosePath` (feature.go:94-97). -/
def cmdMoveTo : Word := 1
/-- encoding/mvt/feature.go:94-100. -/
def cmdLineTo : Word := 2
/-- See `cmdMoveTo` (encoding/mvt/feature.go:94-100). -/
def cmdClosePath : Word := 7

/-- `NewCommand` (feature.go:105-107); the count is a Go `int`. -/
def newCommand (cmd : Word) (count : Int) : Word := (cmd &&& 7#32) ||| (BitVec.ofInt 32 count <<< 3)

/-- `Command.ID` (feature.go:110-112). -/
def cmdId (c : Word) : Word := c &&& 7#32

/-- `Command.Count` (feature.go:115-117). -/
def cmdCount (c : Word) : Nat := (c >>> 3).toNat

/-- `encodeZigZag` (feature.go:133-135) on an int64. -/
def encodeZigZag (i : BitVec 64) : Word := ((i <<< 1) ^^^ (i.sshiftRight 31)).truncate 32

/-- `decodeZigZag` (decode.go:302-304): an int32. -/
def decodeZigZag (i : Word) : BitVec 32 := (i >>> 1) ^^^ (-(i &&& 1#32))

/-- `moveCursorPoints`, `GetDeltaPointAndUpdate` (feature.go:153-166) followed by
`encodeZigZag` of both parts, as in `encodeCmd` (186-190) and `encodeZigZagPt`
(168-174): the words and the new cursor. -/
def deltas : Pt Int → List (Pt Int) → List Word × Pt Int
  | c, [] => ([], c)
  | c, p :: ps =>
    let r := deltas p ps
    (encodeZigZag (BitVec.ofInt 64 (p.1 - c.1)) :: encodeZigZag (BitVec.ofInt 64 (p.2 - c.2)) :: r.1, r.2)

/-- `encodeCmd` (feature.go:176-193). -/
def encodeCmd (cmd : Word) (c : Pt Int) (ps : List (Pt Int)) : List Word × Pt Int :=
  match ps with
  | [] => ([], c)
  | ps => let r := deltas c ps; (cmd :: r.1, r.2)

/-- `MoveTo` (feature.go:282-284). -/
def moveTo (c : Pt Int) (ps : List (Pt Int)) : List Word × Pt Int :=
  encodeCmd (newCommand cmdMoveTo ps.length) c ps

/-- `LineTo` (feature.go:287-289). -/
def lineTo (c : Pt Int) (ps : List (Pt Int)) : List Word × Pt Int :=
  encodeCmd (newCommand cmdLineTo ps.length) c ps

/-- `encodeLinearRing` (feature.go:195-244) with order `YPositiveDown: true`
(271).  A ring that is not colinear has at least three points, so `deltas[0]`
exists; the `[]` case cannot be reached. -/
def encodeLinearRing (wo : Int) (c : Pt Int) (ring : List (Pt Int)) : List Word × Pt Int :=
  let w := orientation true ring
  if w = colinear then ([], c)
  else
    match (if w ≠ wo then ring.reverse else ring) with
    | [] => ([], c)
    | p :: ps =>
      let d0 := deltas c [p]
      let d1 := deltas d0.2 ps
      (newCommand cmdMoveTo 1 :: d0.1 ++ newCommand cmdLineTo ps.length :: d1.1 ++
        [newCommand cmdClosePath 1], d1.2)

/-- The loop of `encodePolygon` (feature.go:250-277): ring index. -/
def encodeRings : Nat → Pt Int → List (List (Pt Int)) → List Word × Pt Int
  | _, c, [] => ([], c)
  | i, c, r :: rs =>
    if r.length < 2 then
      if i ≠ 0 then encodeRings (i + 1) c rs else ([], c)
    else
      let e := encodeLinearRing (if i = 0 then clockwise else counterClockwise) c r
      let t := encodeRings (i + 1) e.2 rs
      (e.1 ++ t.1, t.2)

/-- `encodePolygon` (feature.go:246-279). -/
def encodePolygon (c : Pt Int) (rs : List (List (Pt Int))) : List Word × Pt Int := encodeRings 0 c rs

/-- The polygon loop (feature.go:335-337). -/
def encodePolygons : Pt Int → List (List (List (Pt Int))) → List Word × Pt Int
  | c, [] => ([], c)
  | c, p :: ps =>
    let e := encodePolygon c p
    let t := encodePolygons e.2 ps
    (e.1 ++ t.1, t.2)

/-- One line (feature.go:315-317, 323-325); `none` is the index panic of
`points[0]` on an empty line. -/
def encodeLine (c : Pt Int) : List (Pt Int) → Option (List Word × Pt Int)
  | [] => none
  | p :: ps =>
    let m := moveTo c [p]
    let l := lineTo m.2 ps
    some (m.1 ++ l.1, l.2)

/-- The line loop (feature.go:322-326). -/
def encodeLines : Pt Int → List (List (Pt Int)) → Option (List Word × Pt Int)
  | c, [] => some ([], c)
  | c, l :: ls =>
    match encodeLine c l with
    | none => none
    | some e =>
      match encodeLines e.2 ls with
      | none => none
      | some t => some (e.1 ++ t.1, t.2)

/-- vectorTile.Tile_GeomType without UNKNOWN (encoding/mvt/vector_tile/vector_tile.pb.go:32). -/
inductive GType where
  | point
  | lineString
  | polygon
  deriving DecidableEq, Repr

/-- Result of the encoder: words and type, an error or a panic
(encoding/mvt/feature.go:298-357). -/
inductive EncRes where
  | ok (ws : List Word) (t : GType)
  | unknownGeometry
  | panic
  deriving DecidableEq, Repr

/-- `encodeGeometry` (feature.go:298-354).  `.other` and collections are the
`default` case; nil is rejected before (299-301).  `*geom.MultiPolygon` behaves
like `geom.MultiPolygon`, nil pointer like the empty one. -/
def encodeGeometry : Geom Int → EncRes
  | .point p => .ok (moveTo (0, 0) [p]).1 .point
  | .multiPoint ps => .ok (moveTo (0, 0) ps).1 .point
  | .lineString ps =>
    match encodeLine (0, 0) ps with
    | none => .panic
    | some e => .ok e.1 .lineString
  | .multiLineString ls =>
    match encodeLines (0, 0) ls with
    | none => .panic
    | some e => .ok e.1 .lineString
  | .polygon rs => .ok (encodePolygon (0, 0) rs).1 .polygon
  | .multiPolygon ps => .ok (encodePolygons (0, 0) ps).1 .polygon
  | .collection _ => .unknownGeometry
  | .other => .unknownGeometry

/-! ## Decoder -/

/-- Errors of the decoder; `panic` is a Go panic (encoding/mvt/decode.go:87-304). -/
inductive DErr where
  | notEnough
  | badOrder
  | badCount
  | badCommand
  | noExterior
  | extraData
  | panic
  deriving DecidableEq, Repr

/-- `decodeCursor.decodePoint` (decode.go:295-299). -/
def decodePt (c : Pt Int) (x y : Word) : Pt Int :=
  (c.1 + (decodeZigZag x).toInt, c.2 + (decodeZigZag y).toInt)

/-- The loop of `decodeNPoints` (decode.go:287-289): points read, new cursor and
the remaining words (the callers cut the buffer by `Count*2` themselves).  The
length has been checked by the callers. -/
def decodeN : Nat → Pt Int → List Word → List (Pt Int) × Pt Int × List Word
  | n + 1, c, x :: y :: b =>
    let p := decodePt c x y
    let r := decodeN n p b
    (p :: r.1, r.2.1, r.2.2)
  | _, c, b => ([], c, b)

/-- `decodePoint` (decode.go:101-136); `ok none` is the nil geometry. -/
def decodePoints (buf : List Word) : Except DErr (Option (Geom Int)) :=
  match buf with
  | [] => .ok none
  | cmd :: buf =>
    if buf.length < cmdCount cmd * 2 then .error .notEnough
    else if cmdId cmd ≠ cmdMoveTo then .error .badCommand
    else
      let r := decodeN (cmdCount cmd) (0, 0) buf
      if r.2.2 ≠ [] then .error .extraData
      else
        match r.1 with
        | [] => .ok none
        | [p] => .ok (some (.point p))
        | ps => .ok (some (.multiPoint ps))

/-- `buf[0]`, `buf[1]`, `buf[2:]` (decode.go:164-165, 223-224); `none` is an index
panic. -/
def twoWords : List Word → Option (Word × Word × List Word)
  | x :: y :: b => some (x, y, b)
  | _ => none

/-- The loop of `decodeLineString` (decode.go:146-183): fuel, `lastCmd`, cursor,
lines so far, buffer.  Every round consumes a word, so a fuel of the buffer's
length is enough. -/
def decodeLinesLoop : Nat → Word → Pt Int → List (List (Pt Int)) → List Word →
    Except DErr (List (List (Pt Int)))
  | _, _, _, ret, [] => .ok ret
  | 0, _, _, _, _ => .error .panic
  | fuel + 1, last, c, ret, cmd :: buf =>
    if buf.length < cmdCount cmd * 2 then .error .notEnough
    else if cmdId cmd = cmdMoveTo then
      if last ≠ 0 ∧ cmdId last ≠ cmdLineTo then .error .badOrder
      else
        match twoWords buf with
        | some (x, y, buf) => decodeLinesLoop fuel cmd (decodePt c x y) ret buf
        | none => .error .panic
    else if cmdId cmd = cmdLineTo then
      if cmdId last ≠ cmdMoveTo then .error .badOrder
      else if cmdCount cmd = 0 then .error .badCount
      else
        let r := decodeN (cmdCount cmd) c buf
        decodeLinesLoop fuel cmd r.2.1 (ret ++ [c :: r.1]) r.2.2
    else .error .badCommand

/-- `decodeLineString` (decode.go:140-197). -/
def decodeLineString (buf : List Word) : Except DErr (Geom Int) :=
  match decodeLinesLoop buf.length 0 (0, 0) [] buf with
  | .error e => .error e
  | .ok [] => .error .panic
  | .ok [l] => .ok (.lineString l)
  | .ok ls => .ok (.multiLineString ls)

/-- `ret[polyIdx] = append(ret[polyIdx], ln)` (decode.go:244-245) on the last
polygon; the callers made sure there is one. -/
def appendRing : List (List (List (Pt Int))) → List (Pt Int) → List (List (List (Pt Int)))
  | [], _ => []
  | [p], r => [p ++ [r]]
  | p :: ps, r => p :: appendRing ps r

/-- The loop of `decodePoly` (decode.go:205-252).  A command other than the three
known ones only sets `lastCmd`. -/
def decodePolyLoop : Nat → Word → Pt Int → List (List (List (Pt Int))) → List Word →
    Except DErr (List (List (List (Pt Int))))
  | _, _, _, ret, [] => .ok ret
  | 0, _, _, _, _ => .error .panic
  | fuel + 1, last, c, ret, cmd :: buf =>
    if cmdId cmd ≠ cmdClosePath ∧ buf.length < cmdCount cmd * 2 then .error .notEnough
    else if cmdId cmd = cmdMoveTo then
      if last ≠ 0 ∧ cmdId last ≠ cmdClosePath then .error .badOrder
      else
        match twoWords buf with
        | some (x, y, buf) => decodePolyLoop fuel cmd (decodePt c x y) ret buf
        | none => .error .panic
    else if cmdId cmd = cmdLineTo then
      if cmdId last ≠ cmdMoveTo then .error .badOrder
      else if cmdCount cmd ≤ 1 then .error .badCount
      else
        let r := decodeN (cmdCount cmd) c buf
        let ln := c :: r.1
        if orientation true ln = clockwise then
          decodePolyLoop fuel cmd r.2.1 (ret ++ [[ln]]) r.2.2
        else if ret = [] then .error .noExterior
        else decodePolyLoop fuel cmd r.2.1 (appendRing ret ln) r.2.2
    else if cmdId cmd = cmdClosePath then
      if cmdId last ≠ cmdLineTo then .error .badOrder
      else decodePolyLoop fuel cmd c ret buf
    else decodePolyLoop fuel cmd c ret buf

/-- `decodePoly` (decode.go:199-266). -/
def decodePoly (buf : List Word) : Except DErr (Geom Int) :=
  match decodePolyLoop buf.length 0 (0, 0) [] buf with
  | .error e => .error e
  | .ok [] => .error .panic
  | .ok [p] => .ok (.polygon p)
  | .ok ps => .ok (.multiPolygon ps)

/-- `DecodeGeometry` (decode.go:87-99) for the three types; any other type
panics. -/
def decodeGeometry (t : GType) (buf : List Word) : Except DErr (Option (Geom Int)) :=
  match t with
  | .lineString => (decodeLineString buf).map some
  | .point => decodePoints buf
  | .polygon => (decodePoly buf).map some

end Verif.Mvt
