import Verif.Model.Cmp
import Verif.Model.Empty

/-!
# WKT text (encoding/wkt/wkt_encode.go, wkt_decode.go)

Text is a list of bytes.  The number formatter (`strconv.AppendFloat` with the
encoder's format and precision) and the number parser (`strconv.ParseFloat`) are
parameters.
-/

namespace Verif.Wkt
open Verif

/-- ASCII text (the literals of encoding/wkt/wkt_encode.go:354-572). -/
def asc (cs : List Char) : List Byte := cs.map (fun c => BitVec.ofNat 8 c.toNat)

/-- `(` (wkt_encode.go:144-352). -/
def lparen : Byte := 0x28#8
/-- `)` (wkt_encode.go:144-352). -/
def rparen : Byte := 0x29#8
/-- `,` (wkt_encode.go:144-352). -/
def comma : Byte := 0x2C#8
/-- A blank (wkt_encode.go:75-92). -/
def space : Byte := 0x20#8

/-! ## Encoder -/

/-- `"EMPTY"` (wkt_encode.go:78, 97, 213, 268, 322). -/
def emptyText : List Byte := asc ['E', 'M', 'P', 'T', 'Y']

/-- Errors of the encoder: an empty part in strict mode (wkt_encode.go:166-172,
253-255, 282-284), too few points (217, 219), unknown geometry (570). -/
inductive EncErr where
  | strictEmpty
  | notEnough
  | unknown
  deriving DecidableEq, Repr

/-- Text written so far and the error returned, if any.  Writing to memory does not
fail (strings.Builder, bytes.Buffer; wkt.go:15-24, wkt_encode.go:587-604). -/
abbrev Out := List Byte × Option EncErr

/-- Write text (wkt_encode.go:58-67). -/
def put (t : List Byte) : Out := (t, none)

/-- `err = a; if err != nil { return err }; b` (Go idiom; e.g. wkt_encode.go:75-92). -/
def Out.andThen (a b : Out) : Out :=
  match a.2 with
  | some _ => a
  | none => (a.1 ++ b.1, b.2)

/-- Return an error (wkt_encode.go:144-237). -/
def fail (e : EncErr) : Out := ([], some e)

/-- The geometry type argument (wkt_encode.go:239-245). -/
inductive GType where
  | mp
  | ls
  | ml
  | poly
  | mPoly
  deriving DecidableEq, Repr

/-- `gType == polyType || gType == mPolyType` (wkt_encode.go:216, 225). -/
def GType.isRing (t : GType) : Bool := t = .poly || t = .mPoly
/-- `gType == lsType || gType == mlType` (wkt_encode.go:218). -/
def GType.isLine (t : GType) : Bool := t = .ls || t = .ml

section
variable (fmt : F64 → List Byte)

/-- `encodePair` (wkt_encode.go:75-92). -/
def encodePair (p : Pt F64) : List Byte :=
  if Cmp.isEmptyPoint p then emptyText else fmt p.1 ++ [space] ++ fmt p.2

/-- `encodePoint` (wkt_encode.go:94-112). -/
def encodePoint (p : Pt F64) : List Byte :=
  if Cmp.isEmptyPoint p then emptyText else [lparen] ++ encodePair fmt p ++ [rparen]

/-- Go `a == b` on `[2]float64` (Go language; wkt_encode.go:144-237). -/
def ptEq (a b : Pt F64) : Bool := a.1.eq b.1 && a.2.eq b.2

/-- Variables of the loop of `encodePoints` (wkt_encode.go:147-149), with the text
written and the error returned from inside it. -/
structure PState where
  out : List Byte := []
  err : Option EncErr := none
  firstEnc : Option (Pt F64) := none
  lastEnc : Option (Pt F64) := none
  count : Nat := 0

/-- The loop of `encodePoints` (wkt_encode.go:151-209).  All callers pass the index
of the last point, so `mp[:last+1]` is all of `mp`. -/
def pointsLoop (strict : Bool) (ty : GType) : List (Pt F64) → PState → PState
  | [], st => st
  | v :: vs, st =>
    if (st.lastEnc.any fun l => ptEq l v) && ty ≠ .mp then pointsLoop strict ty vs st
    else if Cmp.isEmptyPoint v && ty ≠ .mp then
      if strict then { st with err := some .strictEmpty } else pointsLoop strict ty vs st
    else pointsLoop strict ty vs
      { out := st.out ++ (if st.count = 0 then [lparen] else [comma]) ++ encodePair fmt v
        err := none
        firstEnc := some (st.firstEnc.getD v)
        lastEnc := some v
        count := st.count + 1 }

/-- The closing vertex of a ring (wkt_encode.go:225-234). -/
def closingText (ty : GType) (st : PState) : List Byte :=
  match st.firstEnc, st.lastEnc with
  | some f, some l => if ty.isRing && !ptEq f l then [comma] ++ encodePair fmt f else []
  | _, _ => []

/-- `encodePoints` (wkt_encode.go:144-237). -/
def encodePoints (strict : Bool) (ty : GType) (mp : List (Pt F64)) : Out :=
  let st := pointsLoop fmt strict ty mp {}
  match st.err with
  | some e => (st.out, some e)
  | none =>
    if st.count = 0 then put emptyText
    else if ty.isRing && st.count < 3 then (st.out, some .notEnough)
    else if ty.isLine && st.count < 2 then (st.out, some .notEnough)
    else put (st.out ++ closingText fmt ty st ++ [rparen])

/-- `lastNonEmptyIdxPoints(v) == -1` (wkt_encode.go:114-122). -/
def noPoints (v : List (Pt F64)) : Bool := v.all Cmp.isEmptyPoint

/-- `lastNonEmptyIdxLines` plus one (wkt_encode.go:124-132): how many lines remain
when the empty ones at the end are left out. -/
def keepLines : List (List (Pt F64)) → Nat
  | [] => 0
  | v :: vs => if keepLines vs = 0 then (if noPoints v then 0 else 1) else keepLines vs + 1

/-- The loop of `encodeLines` (wkt_encode.go:276-310) over all lines but the last. -/
def linesLoop (strict : Bool) (ty : GType) : List (List (Pt F64)) → Out
  | [] => put []
  | v :: vs =>
    if noPoints v && ty ≠ .ml then
      if strict then fail .strictEmpty else linesLoop strict ty vs
    else
      ((encodePoints fmt strict ty v).andThen (put [comma])).andThen (linesLoop strict ty vs)

/-- `encodeLines` from wkt_encode.go:267 on, with `keep` one more than `last`. -/
def encodeKept (strict : Bool) (ty : GType) (lines : List (List (Pt F64))) (keep : Nat) : Out :=
  match keep with
  | 0 => put emptyText
  | last + 1 =>
    (((put [lparen]).andThen (linesLoop fmt strict ty (lines.take last))).andThen
      (encodePoints fmt strict ty (lines.getD last []))).andThen (put [rparen])

/-- `encodeLines` (wkt_encode.go:247-318); all callers pass the last index. -/
def encodeLines (strict : Bool) (ty : GType) (lines : List (List (Pt F64))) : Out :=
  if ty ≠ .ml then
    if keepLines lines ≠ lines.length && strict then fail .strictEmpty
    else encodeKept fmt strict ty lines (keepLines lines)
  else encodeKept fmt strict ty lines lines.length

/-- The loop of `encodePolys` (wkt_encode.go:330-340) and its last member (342-345). -/
def polysLoop (strict : Bool) : List (List (List (Pt F64))) → Out
  | [] => put []
  | [p] => encodeLines fmt strict .mPoly p
  | p :: q :: ps =>
    ((encodeLines fmt strict .mPoly p).andThen (put [comma])).andThen (polysLoop strict (q :: ps))

/-- `encodePolys` (wkt_encode.go:320-352); all callers pass the last index. -/
def encodePolys (strict : Bool) (polys : List (List (List (Pt F64)))) : Out :=
  if polys = [] then put emptyText
  else ((put [lparen]).andThen (polysLoop fmt strict polys)).andThen (put [rparen])

/-- A tag the encoder writes (wkt_encode.go:354-572). -/
def tagPoint : List Byte := asc ['P', 'O', 'I', 'N', 'T', ' ']
/-- A tag the encoder writes (wkt_encode.go:354-572). -/
def tagMultiPoint : List Byte := asc ['M', 'U', 'L', 'T', 'I', 'P', 'O', 'I', 'N', 'T', ' ']
/-- A tag the encoder writes (wkt_encode.go:354-572). -/
def tagLineString : List Byte := asc ['L', 'I', 'N', 'E', 'S', 'T', 'R', 'I', 'N', 'G', ' ']
/-- A tag the encoder writes (wkt_encode.go:354-572). -/
def tagMultiLineString : List Byte :=
  asc ['M', 'U', 'L', 'T', 'I', 'L', 'I', 'N', 'E', 'S', 'T', 'R', 'I', 'N', 'G', ' ']
/-- A tag the encoder writes (wkt_encode.go:354-572). -/
def tagPolygon : List Byte := asc ['P', 'O', 'L', 'Y', 'G', 'O', 'N', ' ']
/-- A tag the encoder writes (wkt_encode.go:354-572). -/
def tagMultiPolygon : List Byte := asc ['M', 'U', 'L', 'T', 'I', 'P', 'O', 'L', 'Y', 'G', 'O', 'N', ' ']
/-- A tag the encoder writes (wkt_encode.go:354-572). -/
def tagCollection : List Byte :=
  asc ['G', 'E', 'O', 'M', 'E', 'T', 'R', 'Y', 'C', 'O', 'L', 'L', 'E', 'C', 'T', 'I', 'O', 'N', ' ']

mutual
/-- `encode` (wkt_encode.go:354-572).  Lines, triangles, extents and raw slices are
converted to one of the seven kinds (517-567) and not represented separately; nor are
typed nil pointers, which give the kind's EMPTY text. -/
def encode (strict : Bool) : Geom F64 → Out
  | .point p => (put tagPoint).andThen (put (encodePoint fmt p))
  | .multiPoint ps => (put tagMultiPoint).andThen (encodePoints fmt strict .mp ps)
  | .lineString ps => (put tagLineString).andThen (encodePoints fmt strict .ls ps)
  | .multiLineString ls => (put tagMultiLineString).andThen (encodeLines fmt strict .ml ls)
  | .polygon rs => (put tagPolygon).andThen (encodeLines fmt strict .poly rs)
  | .multiPolygon ps => (put tagMultiPolygon).andThen (encodePolys fmt strict ps)
  | .collection gs =>
    if gs.isEmpty then put (tagCollection ++ emptyText)
    else ((put (tagCollection ++ [lparen])).andThen (encodeMembers strict gs)).andThen (put [rparen])
  | .other => fail .unknown
/-- Members of a collection (wkt_encode.go:487-504). -/
def encodeMembers (strict : Bool) : List (Geom F64) → Out
  | [] => put []
  | g :: gs =>
    if gs.isEmpty then encode strict g
    else ((encode strict g).andThen (put [comma])).andThen (encodeMembers strict gs)
end

end

/-! ## Decoder -/

/-- Errors of the decoder: UNEXPECTED eof (wkt_decode.go:27), "expected one of"
(76-81), a float that does not parse (121), number of points or parts (373-377, 395,
407, 412, 425, 430, 451, 457, 525), ring not closed (435, 462), unknown type (535).
`fuel` never occurs (`decode_no_fuel` in `Lemmas`).  Row and column of the error are
not modelled. -/
inductive Err where
  | eof
  | expected
  | float
  | size
  | notClosed
  | unknown
  | fuel
  deriving DecidableEq, Repr

/-- A reader takes what is left of the text and returns a value and what is left then.
Reading a byte and `unreadByte` (wkt_decode.go:24-47) is looking at the first byte.
The source is in memory; read errors other than end of input are not modelled. -/
abbrev Rd (α : Type) := List Byte → Except Err (α × List Byte)

/-- `readByte` (wkt_decode.go:24-40). -/
def readByte : Rd Byte
  | [] => .error .eof
  | b :: s => .ok (b, s)

/-- `unicode.IsSpace` on a byte (Latin-1 range) (called at wkt_decode.go:51-66). -/
def isSpace (b : Byte) : Bool :=
  b = 0x09#8 || b = 0x0A#8 || b = 0x0B#8 || b = 0x0C#8 || b = 0x0D#8 || b = 0x20#8 || b = 0x85#8 || b = 0xA0#8

/-- `readWhitespace` (wkt_decode.go:51-66); the argument is `read` so far. -/
def readWhitespaceFrom (read : Bool) : Rd Bool
  | [] => .error .eof
  | b :: s => if isSpace b then readWhitespaceFrom true s else .ok (read, b :: s)

/-- `readWhitespace` (wkt_decode.go:51-66). -/
def readWhitespace : Rd Bool := readWhitespaceFrom false

/-- A loop that collects bytes while `p` holds (wkt_decode.go:109-117, 218-230). -/
def readRun (p : Byte → Bool) : Rd (List Byte)
  | [] => .error .eof
  | b :: s =>
    if p b then
      match readRun p s with
      | .error e => .error e
      | .ok (t, s') => .ok (b :: t, s')
    else .ok ([], b :: s)

/-- `isNumeric` (wkt_decode.go:94-102). -/
def isNumeric (b : Byte) : Bool :=
  (0x30#8 ≤ b && b ≤ 0x39#8) || b = 0x2D#8 || b = 0x2E#8 || b = 0x45#8 || b = 0x65#8

/-- `isAlpha` (wkt_decode.go:204-206). -/
def isAlpha (b : Byte) : Bool := (0x61#8 ≤ b && b ≤ 0x7A#8) || (0x41#8 ≤ b && b ≤ 0x5A#8)

/-- To lower case (wkt_decode.go:220-222). -/
def lower (b : Byte) : Byte := if b < 0x61#8 then b + 0x20#8 else b

/-- `readTag` (wkt_decode.go:202-233). -/
def readTag : Rd (List Byte) := fun s =>
  match readWhitespace s with
  | .error e => .error e
  | .ok (_, s) =>
    match readRun isAlpha s with
    | .error e => .error e
    | .ok (t, s) => .ok (t.map lower, s)

section
variable (parse : List Byte → Option F64)

/-- `readFloat` (wkt_decode.go:93-124). -/
def readFloat : Rd F64 := fun s =>
  match readRun isNumeric s with
  | .error e => .error e
  | .ok (tok, s) =>
    match parse tok with
    | none => .error .float
    | some f => .ok (f, s)

/-- `readPoint` (wkt_decode.go:128-146). -/
def readPoint : Rd (Pt F64) := fun s =>
  match readFloat parse s with
  | .error e => .error e
  | .ok (x, s) =>
    match readWhitespace s with
    | .error e => .error e
    | .ok (didRead, s) =>
      if !didRead then .error .expected
      else
        match readFloat parse s with
        | .error e => .error e
        | .ok (y, s) => .ok ((x, y), s)

/-- The loop shared by `readPoints`, `readLines` and `readPolys`
(wkt_decode.go:170-199, 261-292, 320-350). -/
def readItems {α : Type} (item : Rd α) : Nat → Rd (List α)
  | 0, _ => .error .fuel
  | n + 1, s =>
    match item s with
    | .error e => .error e
    | .ok (a, s) =>
      match readWhitespace s with
      | .error e => .error e
      | .ok (_, s) =>
        match readByte s with
        | .error e => .error e
        | .ok (b, s) =>
          if b = comma then
            match readWhitespace s with
            | .error e => .error e
            | .ok (_, s) =>
              match readItems item n s with
              | .error e => .error e
              | .ok (as, s) => .ok (a :: as, s)
          else if b = rparen then .ok ([a], s)
          else .error .expected

/-- `readPoints`, `readLines`, `readPolys` (wkt_decode.go:148-200, 235-293, 295-351):
they differ only in what they read between commas. -/
def readList {α : Type} (item : Rd α) : Rd (List α) := fun s =>
  match readByte s with
  | .error e => .error e
  | .ok (b, s) =>
    if b ≠ lparen then .error .expected
    else
      match readWhitespace s with
      | .error e => .error e
      | .ok (_, s) =>
        match readByte s with
        | .error e => .error e
        | .ok (b, s') => if b = rparen then .ok ([], s') else readItems item s.length s

/-- `readPoints` (wkt_decode.go:148-200). -/
def readPoints : Rd (List (Pt F64)) := readList (readPoint parse)
/-- `readLines` (wkt_decode.go:235-293). -/
def readLines : Rd (List (List (Pt F64))) := readList (readPoints parse)
/-- `readPolys` (wkt_decode.go:295-351). -/
def readPolys : Rd (List (List (List (Pt F64)))) := readList (readLines parse)

/-- The test of one ring (wkt_decode.go:429-439, 456-466); `c` is the comparison that
is the package default at the time. -/
def checkRing (c : Cmp.Compare) (v : List (Pt F64)) : Except Err (List (Pt F64)) :=
  if v.length < 4 then .error .size
  else
    match v.head?, v.getLast? with
    | some a, some b => if !c.pointEqual a b then .error .notClosed else .ok v.dropLast
    | _, _ => .error .size

/-- The loop over the rings (wkt_decode.go:428-440, 455-467). -/
def checkRings (c : Cmp.Compare) : List (List (Pt F64)) → Except Err (List (List (Pt F64)))
  | [] => .ok []
  | r :: rs =>
    match checkRing c r with
    | .error e => .error e
    | .ok r =>
      match checkRings c rs with
      | .error e => .error e
      | .ok rs => .ok (r :: rs)

/-- The loop over the polygons (wkt_decode.go:454-468). -/
def checkPolys (c : Cmp.Compare) : List (List (List (Pt F64))) → Except Err (List (List (List (Pt F64))))
  | [] => .ok []
  | p :: ps =>
    match checkRings c p with
    | .error e => .error e
    | .ok p =>
      match checkPolys c ps with
      | .error e => .error e
      | .ok ps => .ok (p :: ps)

/-- wkt_decode.go:365. -/
def kwPoint : List Byte := asc ['p', 'o', 'i', 'n', 't']
/-- wkt_decode.go:380. -/
def kwMultiPoint : List Byte := asc ['m', 'u', 'l', 't', 'i', 'p', 'o', 'i', 'n', 't']
/-- wkt_decode.go:388. -/
def kwLineString : List Byte := asc ['l', 'i', 'n', 'e', 's', 't', 'r', 'i', 'n', 'g']
/-- wkt_decode.go:400. -/
def kwMultiLineString : List Byte :=
  asc ['m', 'u', 'l', 't', 'i', 'l', 'i', 'n', 'e', 's', 't', 'r', 'i', 'n', 'g']
/-- wkt_decode.go:418. -/
def kwPolygon : List Byte := asc ['p', 'o', 'l', 'y', 'g', 'o', 'n']
/-- wkt_decode.go:444. -/
def kwMultiPolygon : List Byte := asc ['m', 'u', 'l', 't', 'i', 'p', 'o', 'l', 'y', 'g', 'o', 'n']
/-- wkt_decode.go:471. -/
def kwCollection : List Byte :=
  asc ['g', 'e', 'o', 'm', 'e', 't', 'r', 'y', 'c', 'o', 'l', 'l', 'e', 'c', 't', 'i', 'o', 'n']

mutual
/-- `readGeometry` (wkt_decode.go:353-537).  The first argument bounds the depth of
the recursion; `decode` gives enough. -/
def readGeometry (c : Cmp.Compare) : Nat → Rd (Geom F64)
  | 0, _ => .error .fuel
  | n + 1, s =>
    match readTag s with
    | .error e => .error e
    | .ok (tag, s) =>
      match readWhitespace s with
      | .error e => .error e
      | .ok (_, s) =>
        if tag = kwPoint then
          match readPoints parse s with
          | .error e => .error e
          | .ok ([p], s) => .ok (.point p, s)
          | .ok (_, _) => .error .size
        else if tag = kwMultiPoint then
          match readPoints parse s with
          | .error e => .error e
          | .ok (ps, s) => .ok (.multiPoint ps, s)
        else if tag = kwLineString then
          match readPoints parse s with
          | .error e => .error e
          | .ok (ps, s) => if ps.length < 2 then .error .size else .ok (.lineString ps, s)
        else if tag = kwMultiLineString then
          match readLines parse s with
          | .error e => .error e
          | .ok (ls, s) =>
            if ls.length < 1 then .error .size
            else if ls.any (fun v => v.length < 2) then .error .size
            else .ok (.multiLineString ls, s)
        else if tag = kwPolygon then
          match readLines parse s with
          | .error e => .error e
          | .ok (ls, s) =>
            if ls.length < 1 then .error .size
            else
              match checkRings c ls with
              | .error e => .error e
              | .ok rs => .ok (.polygon rs, s)
        else if tag = kwMultiPolygon then
          match readPolys parse s with
          | .error e => .error e
          | .ok (ps, s) =>
            if ps.length < 1 then .error .size
            else
              match checkPolys c ps with
              | .error e => .error e
              | .ok ps => .ok (.multiPolygon ps, s)
        else if tag = kwCollection then
          match readByte s with
          | .error e => .error e
          | .ok (b, s) =>
            if b ≠ lparen then .error .expected
            else
              match readWhitespace s with
              | .error e => .error e
              | .ok (_, s) =>
                match readMembers c n s with
                | .error e => .error e
                | .ok (gs, s) => if gs.length < 1 then .error .size else .ok (.collection gs, s)
        else .error .unknown
/-- The member loop of a collection (wkt_decode.go:486-518). -/
def readMembers (c : Cmp.Compare) : Nat → Rd (List (Geom F64))
  | 0, _ => .error .fuel
  | n + 1, s =>
    match readByte s with
    | .error e => .error e
    | .ok (b, s') =>
      if b = rparen then .ok ([], s')
      else
        match readGeometry c n s with
        | .error e => .error e
        | .ok (g, s) =>
          match readWhitespace s with
          | .error e => .error e
          | .ok (_, s) =>
            match readByte s with
            | .error e => .error e
            | .ok (b, s') =>
              if b = rparen then
                match readMembers c n s with
                | .error e => .error e
                | .ok (gs, s) => .ok (g :: gs, s)
              else if b = comma then
                match readWhitespace s' with
                | .error e => .error e
                | .ok (_, s) =>
                  match readMembers c n s with
                  | .error e => .error e
                  | .ok (gs, s) => .ok (g :: gs, s)
              else .error .expected
end

/-- `Decode`, `DecodeBytes`, `DecodeString` (wkt.go:37-47, wkt_decode.go:539-541),
with the text that was not read. -/
def decodeRest (c : Cmp.Compare) (s : List Byte) : Except Err (Geom F64 × List Byte) :=
  readGeometry parse c (2 * s.length + 2) s

/-- `Decode` without the unread text (wkt_decode.go:539-541). -/
def decode (c : Cmp.Compare) (s : List Byte) : Except Err (Geom F64) :=
  (decodeRest parse c s).map (·.1)

end

end Verif.Wkt
