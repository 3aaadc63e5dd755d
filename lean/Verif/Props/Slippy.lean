import Verif.Lemmas.Slippy
import Verif.Props.Extent

/-!
# Tile properties (C33–C35, C60)
-/

namespace Verif.Props
open Verif Verif.Slippy Verif.Spec.Slippy Verif.Spec.Extent

instance (t : Tile) : Decidable (InGrid t) := inferInstanceAs (Decidable (_ ∧ _))
instance (a t : Tile) : Decidable (Covers a t) := inferInstanceAs (Decidable (_ ∧ _ ∧ _ ∧ _))

/-! ## C33 -/

/-- The tiles handed to a callback that never stops. -/
def familyTiles (tile : Tile) (zoom : Nat) : List Tile :=
  familyAt tile zoom (fun s t => (s ++ [t], true)) []

/-- C33: any callback, with any state, sees those tiles in that order and none after it
returned false. -/
theorem C33_callback {σ : Type} (tile : Tile) (zoom : Nat) (yield : σ → Tile → σ × Bool) (s : σ) :
    familyAt tile zoom yield s = feed yield (familyTiles tile zoom) s := by
  rw [familyTiles, familyAt_eq, familyAt_eq, feed_collect, List.nil_append]

/-- C33: at a deeper zoom the family is the set of tiles inside the tile, each once,
`4^k` of them. -/
theorem C33_descendants (tile : Tile) (zoom : Nat) (h : tile.z < zoom) (hz : zoom ≤ 62) (hg : InGrid tile) :
    (∀ t, t ∈ familyTiles tile zoom ↔ t.z = zoom ∧ Covers tile t) ∧ (familyTiles tile zoom).Nodup ∧
    (familyTiles tile zoom).length = 4 ^ (zoom - tile.z) := by
  have e : familyTiles tile zoom = familyList tile zoom := by
    rw [familyTiles, familyAt_eq, feed_collect, List.nil_append]
  rw [e, familyList_deep tile zoom h hz hg]
  refine ⟨?_, rectTiles_nodup _ _ _ _ _, ?_⟩
  · intro t
    rw [mem_rectTiles]
    constructor
    · rintro ⟨h1, h2⟩
      exact ⟨h1, (covers_deep tile t (zoom - tile.z) (by omega)).2 h2⟩
    · rintro ⟨h1, h2⟩
      exact ⟨h1, (covers_deep tile t (zoom - tile.z) (by omega)).1 h2⟩
  · rw [rectTiles_length]
    have hk : 0 < 2 ^ (zoom - tile.z) := Nat.pow_pos (by decide)
    have : ∀ m n : Nat, 0 < n → m + n - 1 + 1 - m = n := by omega
    rw [this _ _ hk, this _ _ hk, ← Nat.mul_pow]

example : (⟨3, 5, 7⟩ : Tile).z < 6 ∧ 6 ≤ 62 ∧ InGrid ⟨3, 5, 7⟩ := by decide

/-- C33: at the tile's zoom or a shallower one the family is the one tile of that zoom
that covers the tile. -/
theorem C33_ancestor (tile : Tile) (zoom : Nat) (h : zoom ≤ tile.z) :
    ∃ a, familyTiles tile zoom = [a] ∧ ∀ b, (b.z = zoom ∧ Covers b tile) ↔ b = a := by
  refine ⟨⟨zoom, tile.x >>> (tile.z - zoom), tile.y >>> (tile.z - zoom)⟩, ?_, ?_⟩
  · rw [familyTiles, familyAt_eq, feed_collect, familyList, if_pos h]; rfl
  · intro b
    constructor
    · rintro ⟨h1, h2⟩
      exact (covers_shift tile zoom h b h1).1 h2
    · rintro rfl
      exact ⟨rfl, (covers_shift tile zoom h _ rfl).2 rfl⟩

example : familyTiles ⟨5, 21, 9⟩ 3 = [⟨3, 5, 2⟩] := by decide

/-- C33: going down and coming back up returns the tile. -/
theorem C33_down_up (tile : Tile) (zoom : Nat) (h : tile.z < zoom) (hz : zoom ≤ 62) (hg : InGrid tile) :
    ∀ t ∈ familyTiles tile zoom, familyTiles t tile.z = [tile] := by
  intro t ht
  obtain ⟨h1, h2⟩ := ((C33_descendants tile zoom h hz hg).1 t).1 ht
  obtain ⟨a, ha, hb⟩ := C33_ancestor t tile.z (by omega)
  rw [ha, (hb tile).1 ⟨rfl, h2⟩]

/-- C33: the descendants of a tile of the grid are tiles of the grid, and every tile of
the deeper grid is the descendant of exactly one tile of the shallower grid. -/
theorem C33_partition (z zoom : Nat) (h : z < zoom) (hz : zoom ≤ 62) (t : Tile) (ht : t.z = zoom) :
    (∃ a, (a.z = z ∧ InGrid a) ∧ t ∈ familyTiles a zoom) ↔ InGrid t := by
  have hp : 2 ^ zoom = 2 ^ z * 2 ^ (zoom - z) := by rw [← Nat.pow_add]; congr 1; omega
  have hk : 0 < 2 ^ (zoom - z) := Nat.pow_pos (by decide)
  constructor
  · rintro ⟨a, ⟨rfl, hg⟩, hm⟩
    obtain ⟨h1, h2⟩ := ((C33_descendants a zoom h hz hg).1 t).1 hm
    have hc := (covers_deep a t (zoom - a.z) (by omega)).1 h2
    have b : ∀ v : Nat, v < 2 ^ a.z → v * 2 ^ (zoom - a.z) + 2 ^ (zoom - a.z) ≤ 2 ^ zoom := by
      intro v hv
      rw [hp]
      have : (v + 1) * 2 ^ (zoom - a.z) ≤ 2 ^ a.z * 2 ^ (zoom - a.z) := Nat.mul_le_mul_right _ hv
      rw [Nat.add_mul] at this
      omega
    have b1 := b _ hg.1
    have b2 := b _ hg.2
    unfold InGrid
    rw [ht]
    omega
  · intro hg
    obtain ⟨a, ha, hb⟩ := C33_ancestor t z (by omega)
    obtain ⟨h1, h2⟩ := (hb a).2 rfl
    have hga : InGrid a := by
      subst h1
      have hc := (covers_deep a t (zoom - a.z) (by omega)).1 h2
      unfold InGrid at hg ⊢
      rw [ht, hp] at hg
      constructor
      · by_contra hn
        have := Nat.mul_le_mul_right (2 ^ (zoom - a.z)) (Nat.le_of_not_lt hn)
        omega
      · by_contra hn
        have := Nat.mul_le_mul_right (2 ^ (zoom - a.z)) (Nat.le_of_not_lt hn)
        omega
    exact ⟨a, ⟨h1, hga⟩, ((C33_descendants a zoom (by omega) hz hga).1 t).2 ⟨ht, h2⟩⟩

example : InGrid ⟨4, 15, 0⟩ := by decide

/-! ## C34 -/

/-- C34: zoom first, then column, then row. -/
theorem C34_order (a b : Tile) : a.less b = true ↔
    a.z < b.z ∨ (a.z = b.z ∧ (a.x < b.x ∨ (a.x = b.x ∧ a.y < b.y))) := by
  unfold Tile.less
  split
  · simp; omega
  · split <;> simp <;> omega

/-- C34: no tile is less than itself. -/
theorem C34_irrefl (a : Tile) : a.less a = false := by simp [Tile.less]

/-- C34: transitive. -/
theorem C34_trans (a b c : Tile) (h1 : a.less b = true) (h2 : b.less c = true) : a.less c = true := by
  rw [C34_order] at *
  omega

example : (⟨3, 1, 7⟩ : Tile).less ⟨3, 2, 0⟩ = true ∧ (⟨3, 2, 0⟩ : Tile).less ⟨4, 0, 0⟩ = true := by decide

/-- C34: of two tiles exactly one is less, unless they are equal. -/
theorem C34_total (a b : Tile) :
    (a.less b = true ∧ b.less a = false ∧ a.equal b = false) ∨
    (a.less b = false ∧ b.less a = true ∧ a.equal b = false) ∨
    (a.less b = false ∧ b.less a = false ∧ a.equal b = true ∧ a = b) := by
  obtain ⟨az, ax, ay⟩ := a
  obtain ⟨bz, bx, by'⟩ := b
  simp only [Tile.less, Tile.equal, Tile.mk.injEq]
  by_cases h1 : az = bz <;> by_cases h2 : ax = bx <;> by_cases h3 : ay = by' <;>
    simp [h1, h2, h3, Ne.symm] <;> omega

/-! ## C35 -/

/-- C35: when the grid knows the tiles of the corners, `FromBounds` returns each tile of
the rectangle they span exactly once, and nothing else. -/
theorem C35_rectangle {ε : Type} (g : Gridder ε) (mn mx : Pt F64) (z : Nat) (p q : Tile)
    (hp : g.fromNative z mn = .ok p) (hq : g.fromNative z mx = .ok q) :
    ∃ l, fromBounds g (some (mn, mx)) z = .ok l ∧ l.Nodup ∧
      ∀ t, t ∈ l ↔ t.z = z ∧ min p.x q.x ≤ t.x ∧ t.x ≤ max p.x q.x ∧ min p.y q.y ≤ t.y ∧ t.y ≤ max p.y q.y := by
  unfold fromBounds
  simp only [hp, hq]
  refine ⟨_, rfl, rectTiles_nodup _ _ _ _ _, ?_⟩
  intro t
  rw [mem_rectTiles]
  split <;> split <;> simp only <;> omega

/-- C35: the two corners can be exchanged. -/
theorem C35_corner_order {ε : Type} (g : Gridder ε) (mn mx : Pt F64) (z : Nat) (p q : Tile)
    (hp : g.fromNative z mn = .ok p) (hq : g.fromNative z mx = .ok q) :
    fromBounds g (some (mn, mx)) z = fromBounds g (some (mx, mn)) z := by
  unfold fromBounds
  simp only [hp, hq]
  have : ∀ a b : Nat, (if a > b then (b, a) else (a, b)) = if b > a then (a, b) else (b, a) := by
    intro a b
    split <;> split <;> first | (exfalso; omega) | rfl | (simp only [Prod.mk.injEq]; omega)
  rw [this p.x q.x, this p.y q.y]

/-- C35: an error comes back exactly when the bounds are nil or the grid fails for a
corner. -/
theorem C35_error_iff {ε : Type} (g : Gridder ε) (bounds : Option (Pt F64 × Pt F64)) (z : Nat) :
    (∃ e, fromBounds g bounds z = .error e) ↔
      bounds = none ∨ ∃ mn mx, bounds = some (mn, mx) ∧
        ((∃ e, g.fromNative z mn = .error e) ∨ ∃ e, g.fromNative z mx = .error e) := by
  match bounds with
  | none => simp [fromBounds]
  | some (mn, mx) =>
    have hr : (none = some (mn, mx) ∨ ∃ mn' mx', some (mn, mx) = some (mn', mx') ∧
        ((∃ e, g.fromNative z mn' = .error e) ∨ ∃ e, g.fromNative z mx' = .error e)) ↔
        ((∃ e, g.fromNative z mn = .error e) ∨ ∃ e, g.fromNative z mx = .error e) := by
      constructor
      · rintro (h | ⟨a, b, h, h'⟩)
        · cases h
        · cases h; exact h'
      · intro h; exact .inr ⟨mn, mx, rfl, h⟩
    rw [eq_comm (a := some (mn, mx)) (b := none), hr]
    simp only [fromBounds]
    cases h1 : g.fromNative z mn <;> cases h2 : g.fromNative z mx <;> simp

/-- A grid whose tiles are intervals of bit patterns, to show the hypotheses can be met
and for the counterexample below. -/
def bitGrid : Gridder Unit where
  fromNative z p := .ok ⟨z, p.1.toNat / 2 ^ (40 - z), p.2.toNat / 2 ^ (40 - z)⟩
  toNative t := .ok (BitVec.ofNat 64 (t.x * 2 ^ (40 - t.z)), BitVec.ofNat 64 (t.y * 2 ^ (40 - t.z)))

example : bitGrid.fromNative 38 (9#64, 2#64) = .ok ⟨38, 2, 0⟩ ∧ bitGrid.fromNative 38 (4#64, 7#64) = .ok ⟨38, 1, 1⟩ ∧
    fromBounds bitGrid (some ((9#64, 2#64), (4#64, 7#64))) 38 =
      .ok [⟨38, 1, 0⟩, ⟨38, 1, 1⟩, ⟨38, 2, 0⟩, ⟨38, 2, 1⟩] := by decide

/-! ## C60 -/

/-- C60, full claim: if some tile of the grid contains the extent, `NewTileMinMaxer`
returns a tile that contains it. -/
def C60_full : Prop := ∀ (ε : Type) (g : Gridder ε) (ext : Ext) (t : Tile),
  (∃ t e, t.z ≤ maxZoom ∧ tileExtent g t = .ok e ∧ Ext.contains (some e) (some ext) = true) →
  newTileMinMaxer g ext = .ok t →
  ∃ e, tileExtent g t = .ok e ∧ Ext.contains (some e) (some ext) = true

/-- C60 fails: the search asks whether a tile contains its own corner and so stops at
once, at the deepest zoom. -/
theorem C60_violated : ¬ C60_full := by
  intro h
  obtain ⟨e, h1, h2⟩ := h Unit bitGrid ⟨0#64, 0#64, 0x40000000#64, 0x40000000#64⟩ ⟨22, 0, 0⟩
    ⟨⟨0, 0, 0⟩, ⟨0#64, 0#64, 0x10000000000#64, 0x10000000000#64⟩, by decide, by decide, by decide⟩ (by decide)
  have h3 : tileExtent bitGrid ⟨22, 0, 0⟩ = .ok ⟨0#64, 0#64, 0x40000#64, 0x40000#64⟩ := by decide
  rw [h3] at h1
  cases h1
  revert h2
  decide

/-- C60, weaker: on a grid that can place every tile at numbers, the result is the
tile of the extent's minimum at the deepest zoom.  Missing: that it contains the
rest of the extent. -/
theorem C60_min_corner_partial {ε : Type} (g : Gridder ε) (ext : Ext) (t : Tile)
    (hf : g.fromNative maxZoom (ext.minx, ext.miny) = .ok t) (hz : t.z = maxZoom)
    (hn : ∀ t, ∃ p, g.toNative t = .ok p ∧ numPt p) :
    newTileMinMaxer g ext = .ok t := by
  unfold newTileMinMaxer
  rw [hf]
  simp only [searchLoop]
  have hfam : familyAt t maxZoom (searchYield g) ⟨none, none⟩ = (searchYield g ⟨none, none⟩ t).1 := by
    unfold familyAt
    rw [if_pos (by omega)]
    obtain ⟨tz, tx, ty⟩ := t
    simp only at hz
    subst hz
    simp
  rw [hfam]
  obtain ⟨p, hp, np⟩ := hn t
  obtain ⟨q, hq, nq⟩ := hn ⟨t.z, t.x + 1, t.y + 1⟩
  obtain ⟨e, he, ht⟩ := C20_newExtent_tight [p, q] (by simp) (by simp [np, nq])
  have hte : tileExtent g t = .ok e := by
    unfold tileExtent
    rw [hp]; simp only []
    rw [hq]; simp only []
    rw [he]; rfl
  have hc : Ext.contains (some e) (some ⟨e.maxx, e.maxy, e.maxx, e.maxy⟩) = true := by
    have := ht.1 p (by simp)
    obtain ⟨h1, h2, h3, h4⟩ := this
    simp only [Ext.box] at h1 h2 h3 h4
    rw [F64.le_iff] at h1 h2 h3 h4
    simp only [Ext.contains, Bool.and_eq_true, F64.le_iff]
    refine ⟨⟨⟨?_, ?_⟩, ?_⟩, ?_⟩ <;> refine ⟨?_, ?_, ?_⟩ <;> first | tauto | omega
  simp only [searchYield, hte, hc, if_true]

example : bitGrid.fromNative maxZoom (0x50000#64, 0#64) = .ok ⟨22, 1, 0⟩ := by decide

end Verif.Props
