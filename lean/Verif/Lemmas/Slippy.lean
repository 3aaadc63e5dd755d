import Verif.Spec.Slippy
import Mathlib.Tactic.Ring
import Mathlib.Tactic.Linarith
import Mathlib.Data.List.Nodup

namespace Verif.Slippy
open Verif Verif.Spec.Slippy

theorem wrap64_id (i : Int) (h0 : 0 ≤ i) (h1 : i < 2 ^ 63) : wrap64 i = i := by
  unfold wrap64; rw [Int.bmod_def]; split <;> omega

theorem toUint_id (i : Int) (h0 : 0 ≤ i) (h1 : i < 2 ^ 63) : toUint i = i.toNat := by
  unfold toUint; omega

theorem feed_append {σ τ : Type} (yield : σ → τ → σ × Bool) (l : List τ) : ∀ (m : List τ) (s : σ),
    feed yield (l ++ m) s =
      (if (feed (fun (s : σ × Bool) t => (((yield s.1 t)), (yield s.1 t).2)) l (s, true)).2
       then feed yield m (feed (fun (s : σ × Bool) t => (((yield s.1 t)), (yield s.1 t).2)) l (s, true)).1
       else (feed (fun (s : σ × Bool) t => (((yield s.1 t)), (yield s.1 t).2)) l (s, true)).1) := by
  induction l with
  | nil => intro m s; simp [feed]
  | cons t l ih =>
    intro m s
    simp only [List.cons_append, feed]
    cases h : (yield s t).2
    · simp [h]
    · simp only [if_true]
      rw [ih m]
      have : yield s t = ((yield s t).1, true) := by rw [← h]
      rw [← this]

theorem yieldColumn_eq {σ : Type} (yield : σ → Tile → σ × Bool) (zoom : Nat) (x : Int) (ys : List Int) : ∀ (s : σ),
    yieldColumn yield zoom x ys s =
      feed (fun (s : σ × Bool) t => (((yield s.1 t)), (yield s.1 t).2)) (ys.map fun y => ⟨zoom, toUint x, toUint y⟩) (s, true) := by
  induction ys with
  | nil => intro s; rfl
  | cons y ys ih =>
    intro s
    simp only [yieldColumn, List.map_cons, feed]
    cases h : (yield s ⟨zoom, toUint x, toUint y⟩).2
    · have : yield s ⟨zoom, toUint x, toUint y⟩ = ((yield s ⟨zoom, toUint x, toUint y⟩).1, false) := by rw [← h]
      simp [← this]
    · simp only [Bool.not_true, Bool.false_eq_true, if_false, if_true]
      rw [ih]
      have : yield s ⟨zoom, toUint x, toUint y⟩ = ((yield s ⟨zoom, toUint x, toUint y⟩).1, true) := by rw [← h]
      rw [← this]

theorem yieldRows_eq {σ : Type} (yield : σ → Tile → σ × Bool) (zoom : Nat) (ys xs : List Int) : ∀ (s : σ),
    yieldRows yield zoom ys xs s =
      feed yield (xs.flatMap fun x => ys.map fun y => ⟨zoom, toUint x, toUint y⟩) s := by
  induction xs with
  | nil => intro s; rfl
  | cons x xs ih =>
    intro s
    simp only [yieldRows, List.flatMap_cons]
    rw [feed_append, yieldColumn_eq]
    split
    · rename_i h
      simp only [Bool.not_eq_true'] at h
      simp [h]
    · rename_i h
      simp only [Bool.not_eq_true', Bool.not_eq_false] at h
      rw [ih]; simp [h]

/-- The tiles `FamilyAt` goes through. -/
def familyList (tile : Tile) (zoom : Nat) : List Tile :=
  if zoom ≤ tile.z then [⟨zoom, tile.x >>> (tile.z - zoom), tile.y >>> (tile.z - zoom)⟩]
  else
    let mag := zoom - tile.z
    let lx := wrap64 (wrap64 tile.x * 2 ^ mag)
    let ly := wrap64 (wrap64 tile.y * 2 ^ mag)
    (intRange lx (wrap64 (lx + exp2Int mag))).flatMap fun x =>
      (intRange ly (wrap64 (ly + exp2Int mag))).map fun y => ⟨zoom, toUint x, toUint y⟩

theorem familyAt_eq {σ : Type} (tile : Tile) (zoom : Nat) (yield : σ → Tile → σ × Bool) (s : σ) :
    familyAt tile zoom yield s = feed yield (familyList tile zoom) s := by
  unfold familyAt familyList
  split
  · simp [feed]
  · exact yieldRows_eq _ _ _ _ _

theorem feed_collect {τ : Type} (l : List τ) : ∀ (s : List τ),
    feed (fun (s : List τ) t => (s ++ [t], true)) l s = s ++ l := by
  induction l with
  | nil => intro s; simp [feed]
  | cons t l ih => intro s; simp [feed, ih]

theorem range_map_toUint (lo : Nat) (n : Nat) (h : lo + n ≤ 2 ^ 62) :
    (intRange (lo : Int) ((lo : Int) + n)).map toUint = List.range' lo n := by
  unfold intRange
  have : ((lo : Int) + n - lo).toNat = n := by omega
  rw [this, List.map_map, List.range'_eq_map_range]
  apply List.map_congr_left
  intro i hi
  rw [List.mem_range] at hi
  simp only [Function.comp]
  rw [toUint_id _ (by omega) (by omega)]
  omega

theorem flatMap_map_pair {α β γ δ τ : Type} (f : α → γ) (g : β → δ) (mk : γ → δ → τ) (xs : List α) (ys : List β) :
    (xs.flatMap fun x => ys.map fun y => mk (f x) (g y)) =
      (xs.map f).flatMap fun x => (ys.map g).map fun y => mk x y := by
  induction xs with
  | nil => rfl
  | cons x xs ih => simp [ih]

theorem familyList_deep (tile : Tile) (zoom : Nat) (h : tile.z < zoom) (hz : zoom ≤ 62) (hg : InGrid tile) :
    familyList tile zoom = rectTiles zoom (tile.x * 2 ^ (zoom - tile.z)) (tile.x * 2 ^ (zoom - tile.z) + 2 ^ (zoom - tile.z) - 1)
      (tile.y * 2 ^ (zoom - tile.z)) (tile.y * 2 ^ (zoom - tile.z) + 2 ^ (zoom - tile.z) - 1) := by
  have hk1 : zoom - tile.z < 63 := by omega
  have hpos : 0 < 2 ^ (zoom - tile.z) := Nat.pow_pos (by decide)
  have hp : 2 ^ (zoom - tile.z) * 2 ^ tile.z = 2 ^ zoom := by rw [← Nat.pow_add]; congr 1; omega
  have h62 : 2 ^ zoom ≤ 2 ^ 62 := Nat.pow_le_pow_right (by decide) hz
  have bound : ∀ v : Nat, v < 2 ^ tile.z → v * 2 ^ (zoom - tile.z) + 2 ^ (zoom - tile.z) ≤ 2 ^ 62 ∧ v < 2 ^ 63 := by
    intro v hv
    have : (v + 1) * 2 ^ (zoom - tile.z) ≤ 2 ^ tile.z * 2 ^ (zoom - tile.z) := Nat.mul_le_mul_right _ hv
    have h2 : 2 ^ tile.z ≤ 2 ^ 62 := Nat.pow_le_pow_right (by decide) (by omega)
    have e : (v + 1) * 2 ^ (zoom - tile.z) = v * 2 ^ (zoom - tile.z) + 2 ^ (zoom - tile.z) := by ring
    rw [Nat.mul_comm (2 ^ tile.z), hp] at this
    omega
  have wr : ∀ v : Nat, v < 2 ^ tile.z → wrap64 (wrap64 v * 2 ^ (zoom - tile.z)) = ((v * 2 ^ (zoom - tile.z) : Nat) : Int) := by
    intro v hv
    obtain ⟨b1, b2⟩ := bound v hv
    rw [wrap64_id (v : Int) (by omega) (by omega)]
    have : (v : Int) * 2 ^ (zoom - tile.z) = ((v * 2 ^ (zoom - tile.z) : Nat) : Int) := by push_cast; ring
    rw [this, wrap64_id _ (by omega) (by omega)]
  have we : exp2Int (zoom - tile.z) = ((2 ^ (zoom - tile.z) : Nat) : Int) := by
    unfold exp2Int; rw [if_pos hk1]; push_cast; ring
  have ws : ∀ v : Nat, v < 2 ^ tile.z → wrap64 (((v * 2 ^ (zoom - tile.z) : Nat) : Int) + ((2 ^ (zoom - tile.z) : Nat) : Int)) =
      ((v * 2 ^ (zoom - tile.z) : Nat) : Int) + ((2 ^ (zoom - tile.z) : Nat) : Int) := by
    intro v hv
    obtain ⟨b1, b2⟩ := bound v hv
    exact wrap64_id _ (by omega) (by omega)
  unfold familyList
  rw [if_neg (by omega)]
  simp only []
  rw [wr _ hg.1, wr _ hg.2, we, ws _ hg.1, ws _ hg.2]
  rw [flatMap_map_pair toUint toUint (fun x y => (⟨zoom, x, y⟩ : Tile)),
    range_map_toUint _ _ (bound _ hg.1).1, range_map_toUint _ _ (bound _ hg.2).1]
  unfold rectTiles
  have e : ∀ m n : Nat, 0 < n → m + n - 1 + 1 - m = n := by omega
  rw [e _ _ hpos, e _ _ hpos]

theorem mem_rectTiles (z minx maxx miny maxy : Nat) (t : Tile) :
    t ∈ rectTiles z minx maxx miny maxy ↔
      t.z = z ∧ minx ≤ t.x ∧ t.x ≤ maxx ∧ miny ≤ t.y ∧ t.y ≤ maxy := by
  unfold rectTiles
  simp only [List.mem_flatMap, List.mem_map, List.mem_range'_1]
  constructor
  · rintro ⟨x, hx, y, hy, rfl⟩
    refine ⟨rfl, hx.1, ?_, hy.1, ?_⟩ <;> simp only <;> omega
  · intro h
    obtain ⟨tz, tx, ty⟩ := t
    simp only at h
    exact ⟨tx, by omega, ty, by omega, by rw [h.1]⟩

theorem rectTiles_nodup (z minx maxx miny maxy : Nat) : (rectTiles z minx maxx miny maxy).Nodup := by
  unfold rectTiles
  rw [List.nodup_flatMap]
  refine ⟨?_, ?_⟩
  · intro x _
    apply List.Nodup.map _ List.nodup_range'
    intro a b h
    simpa using h
  · apply List.Pairwise.imp _ (List.nodup_range' (s := minx) (n := maxx + 1 - minx))
    intro a b hne
    simp only [Function.onFun, List.disjoint_left, List.mem_map, not_exists, not_and]
    rintro t ⟨y, _, rfl⟩ y' _ h
    simp only [Tile.mk.injEq, true_and] at h
    exact hne h.1.symm

theorem rectTiles_length (z minx maxx miny maxy : Nat) :
    (rectTiles z minx maxx miny maxy).length = (maxx + 1 - minx) * (maxy + 1 - miny) := by
  unfold rectTiles
  rw [List.length_flatMap]
  simp

theorem covers_deep (a t : Tile) (k : Nat) (h : t.z = a.z + k) :
    Covers a t ↔ a.x * 2 ^ k ≤ t.x ∧ t.x ≤ a.x * 2 ^ k + 2 ^ k - 1 ∧ a.y * 2 ^ k ≤ t.y ∧ t.y ≤ a.y * 2 ^ k + 2 ^ k - 1 := by
  have hp : 0 < 2 ^ a.z := Nat.pow_pos (by decide)
  have hk : 0 < 2 ^ k := Nat.pow_pos (by decide)
  have e1 : ∀ u v : Nat, u * 2 ^ t.z ≤ v * 2 ^ a.z ↔ u * 2 ^ k ≤ v := by
    intro u v
    rw [h, Nat.pow_add]
    have : u * (2 ^ a.z * 2 ^ k) = u * 2 ^ k * 2 ^ a.z := by ring
    rw [this]
    exact ⟨fun h => Nat.le_of_mul_le_mul_right h hp, fun h => Nat.mul_le_mul_right _ h⟩
  have e2 : ∀ u v : Nat, (v + 1) * 2 ^ a.z ≤ (u + 1) * 2 ^ t.z ↔ v ≤ u * 2 ^ k + 2 ^ k - 1 := by
    intro u v
    rw [h, Nat.pow_add]
    have : (u + 1) * (2 ^ a.z * 2 ^ k) = (u * 2 ^ k + 2 ^ k) * 2 ^ a.z := by ring
    rw [this]
    constructor
    · intro h
      have := Nat.le_of_mul_le_mul_right h hp
      omega
    · intro h
      exact Nat.mul_le_mul_right _ (by omega)
  unfold Covers
  rw [e1, e2, e1, e2]

theorem covers_shift (t : Tile) (zoom : Nat) (h : zoom ≤ t.z) (a : Tile) (ha : a.z = zoom) :
    Covers a t ↔ a = ⟨zoom, t.x >>> (t.z - zoom), t.y >>> (t.z - zoom)⟩ := by
  rw [covers_deep a t (t.z - zoom) (by omega)]
  have hk : 0 < 2 ^ (t.z - zoom) := Nat.pow_pos (by decide)
  have key : ∀ u v : Nat, (u * 2 ^ (t.z - zoom) ≤ v ∧ v ≤ u * 2 ^ (t.z - zoom) + 2 ^ (t.z - zoom) - 1) ↔
      u = v >>> (t.z - zoom) := by
    intro u v
    rw [Nat.shiftRight_eq_div_pow]
    constructor
    · rintro ⟨h1, h2⟩
      symm
      rw [Nat.div_eq_iff hk]
      omega
    · intro hu
      have := (Nat.div_eq_iff hk).1 hu.symm
      omega
  obtain ⟨az, ax, ay⟩ := a
  simp only at ha ⊢
  subst ha
  simp only [Tile.mk.injEq, true_and]
  rw [← key, ← key]
  tauto

end Verif.Slippy
