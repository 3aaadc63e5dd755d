import Verif.Model.Extent

/-!
# Slippy tiles (slippy/tile.go, slippy/tile_grid.go)

`uint` fields are natural numbers; arithmetic in `int` wraps at 64 bits.
-/

namespace Verif.Slippy
open Verif

/-- `Tile` (slippy/tile.go:32-39); `Zoom` is a uint (tile.go:19). -/
structure Tile where
  z : Nat
  x : Nat
  y : Nat
  deriving DecidableEq, Repr

/-- `MaxZoom` (tile.go:16). -/
def maxZoom : Nat := 22

/-- `Tile.Equal` (tile.go:44-46). -/
def Tile.equal (a b : Tile) : Bool := a.z == b.z && a.x == b.x && a.y == b.y

/-- `Tile.Less` (tile.go:49-60). -/
def Tile.less (a b : Tile) : Bool :=
  if a.z ≠ b.z then decide (a.z < b.z)
  else if a.x ≠ b.x then decide (a.x < b.x)
  else decide (a.y < b.y)

/-- Value of a 64-bit `int` after wrapping (Go language; e.g. slippy/tile.go:76-102). -/
def wrap64 (i : Int) : Int := i.bmod (2 ^ 64)

/-- `uint(i)` (Go language; slippy/tile.go:92, tile_grid.go:118-119). -/
def toUint (i : Int) : Nat := (i % 2 ^ 64).toNat

/-- `int(math.Exp2(float64(mag)))` (tile.go:86): powers of two are exact; from `2^63` on
the conversion is out of range and gives the least int64 on amd64. -/
def exp2Int (mag : Nat) : Int := if mag < 63 then 2 ^ mag else -2 ^ 63

/-- The values of `v` in `for v := lo; v < hi; v++` (tile.go:89-90). -/
def intRange (lo hi : Int) : List Int := (List.range (hi - lo).toNat).map (fun (i : Nat) => lo + (i : Int))

/-- Inner loop of `FamilyAt` (tile.go:90-95): callback with its state, false in the
result if the callback asked to stop. -/
def yieldColumn {σ : Type} (yield : σ → Tile → σ × Bool) (zoom : Nat) (x : Int) : List Int → σ → σ × Bool
  | [], s => (s, true)
  | y :: ys, s =>
    let r := yield s ⟨zoom, toUint x, toUint y⟩
    if !r.2 then (r.1, false) else yieldColumn yield zoom x ys r.1

/-- Outer loop of `FamilyAt` (tile.go:89-96). -/
def yieldRows {σ : Type} (yield : σ → Tile → σ × Bool) (zoom : Nat) (ys : List Int) : List Int → σ → σ
  | [], s => s
  | x :: xs, s =>
    let r := yieldColumn yield zoom x ys s
    if !r.2 then r.1 else yieldRows yield zoom ys xs r.1

/-- `Tile.FamilyAt` and `RangeFamilyAt` (tile.go:76-99, 104): the state of the callback
after the iteration.  Zooms are taken to be below 2^63. -/
def familyAt {σ : Type} (tile : Tile) (zoom : Nat) (yield : σ → Tile → σ × Bool) (s : σ) : σ :=
  if zoom ≤ tile.z then
    let mag := tile.z - zoom
    (yield s ⟨zoom, tile.x >>> mag, tile.y >>> mag⟩).1
  else
    let mag := zoom - tile.z
    let delta := exp2Int mag
    let leastX := wrap64 (wrap64 tile.x * 2 ^ mag)
    let leastY := wrap64 (wrap64 tile.y * 2 ^ mag)
    yieldRows yield zoom (intRange leastY (wrap64 (leastY + delta))) (intRange leastX (wrap64 (leastX + delta))) s

/-- The two conversions of a `TileGridder` (tile_grid.go:12-31); any functions that may
fail. -/
structure Gridder (ε : Type) where
  fromNative : Nat → Pt F64 → Except ε Tile
  toNative : Tile → Except ε (Pt F64)

/-- Errors of this package: nil bounds (tile.go:11-13), an error of the grid, and "tile
for min point not found" (tile_grid.go:91). -/
inductive Err (ε : Type) where
  | nilBounds
  | grid (e : ε)
  | notFound
  deriving DecidableEq, Repr

/-- The nested loops of `FromBounds` (tile.go:138-142).  The largest uint as upper bound,
where `x <= maxx` never fails, is not modelled. -/
def rectTiles (z minx maxx miny maxy : Nat) : List Tile :=
  (List.range' minx (maxx + 1 - minx)).flatMap fun x =>
    (List.range' miny (maxy + 1 - miny)).map fun y => ⟨z, x, y⟩

/-- `FromBounds` (tile.go:111-145); bounds are the two corners, `none` is nil. -/
def fromBounds {ε : Type} (g : Gridder ε) (bounds : Option (Pt F64 × Pt F64)) (z : Nat) :
    Except (Err ε) (List Tile) :=
  match bounds with
  | none => .error .nilBounds
  | some (mn, mx) =>
    match g.fromNative z mn with
    | .error e => .error (.grid e)
    | .ok p1 =>
      match g.fromNative z mx with
      | .error e => .error (.grid e)
      | .ok p2 =>
        let (minx, maxx) := if p1.x > p2.x then (p2.x, p1.x) else (p1.x, p2.x)
        let (miny, maxy) := if p1.y > p2.y then (p2.y, p1.y) else (p1.y, p2.y)
        .ok (rectTiles z minx maxx miny maxy)

/-- `Extent` of a tile (tile_grid.go:48-58). -/
def tileExtent {ε : Type} (g : Gridder ε) (t : Tile) : Except ε Ext :=
  match g.toNative t with
  | .error e => .error e
  | .ok tl =>
    match g.toNative ⟨t.z, t.x + 1, t.y + 1⟩ with
    | .error e => .error e
    | .ok br => .ok ((Ext.newExtent [tl, br]).getD ⟨0, 0, 0, 0⟩)

/-- What the closure of `NewTileMinMaxer` captures: `ret` (if found), `err`
(slippy/tile_grid.go:60-95). -/
structure Search (ε : Type) where
  ret : Option Tile
  err : Option ε

/-- The closure of `NewTileMinMaxer` (tile_grid.go:73-85): it asks whether the tile's
extent contains its own maximum. -/
def searchYield {ε : Type} (g : Gridder ε) (s : Search ε) (t : Tile) : Search ε × Bool :=
  match tileExtent g t with
  | .error e => (⟨s.ret, some e⟩, false)
  | .ok e =>
    if Ext.contains (some e) (some ⟨e.maxx, e.maxy, e.maxx, e.maxy⟩) then (⟨some t, s.err⟩, false)
    else (s, true)

/-- The loop of `NewTileMinMaxer` (tile_grid.go:71-89), zooms from `n - 1` down to 0. -/
def searchLoop {ε : Type} (g : Gridder ε) (tile : Tile) : Nat → Except (Err ε) Tile
  | 0 => .error .notFound
  | n + 1 =>
    let s := familyAt tile n (searchYield g) ⟨none, none⟩
    match s.err with
    | some e => .error (.grid e)
    | none =>
      match s.ret with
      | some t => .ok t
      | none => searchLoop g tile n

/-- `NewTileMinMaxer` (tile_grid.go:60-95); only the minimum of the extent is used. -/
def newTileMinMaxer {ε : Type} (g : Gridder ε) (ext : Ext) : Except (Err ε) Tile :=
  match g.fromNative maxZoom (ext.minx, ext.miny) with
  | .error e => .error (.grid e)
  | .ok tile => searchLoop g tile (maxZoom + 1)

end Verif.Slippy
