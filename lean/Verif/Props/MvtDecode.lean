import Verif.Lemmas.MvtDecode

/-!
# Reading a whole tile (C182, C183)
-/

namespace Verif.Props
open Verif Verif.Mvt Verif.Spec.Mvt Verif.Spec.MvtTile Verif.Spec.MvtDecode

/-! ## C182 -/

/-- C182 in full: every tile that the format allows is read, layer for layer; an extent left out is
4096, and a feature is read with its id whatever its type. -/
def C182_full : Prop :=
  ∀ ls : List WireLayer, (∀ l ∈ ls, Allowed l) →
    ∃ out, decodeTile ls = .ok out ∧
      List.Forall₂ (fun l d => d.name = l.name
        ∧ d.extent = some (((l.extent.getD 4096#32).toNat : Nat) : Int)
        ∧ d.features.map (·.id) = l.features.map (·.id)) ls out

/-- C182 fails: a layer that leaves its extent out panics, so does a feature that leaves its type
out, and so does one of the unknown type. -/
theorem C182_violated : ¬ C182_full
    ∧ decodeTile [⟨2, "roads", [], [], [], none⟩] = .panic
    ∧ decodeTile [⟨2, "roads", [⟨none, [], none, [9#32, 2#32, 2#32]⟩], [], [], some 4096#32⟩] = .panic
    ∧ decodeTile [⟨2, "roads", [⟨none, [], some 0, [9#32, 2#32, 2#32]⟩], [], [], some 4096#32⟩] = .panic := by
  refine ⟨fun h => ?_, rfl, rfl, rfl⟩
  obtain ⟨out, h, -⟩ := h [⟨2, "roads", [], [], [], none⟩] (by
    intro l hl f hf
    simp only [List.mem_cons, List.not_mem_nil, or_false] at hl
    subst hl
    cases hf)
  cases h

/-- C182, exactly when a tile is read and as what: every layer has an extent, every feature has one
of the three types and words that make a geometry; names, extents, ids and geometries are those of
the message, in order, and all tags are gone.  Missing: layers without extent, features without
type or of the unknown one. -/
theorem C182_reads_partial (ls : List WireLayer) (ds : List ReadLayer) :
    decodeTile ls = .ok ds ↔ List.Forall₂ LayerReads ls ds :=
  decodeTile_ok ls ds

/-- A layer with a point of id 7 at (1, 1). -/
def wirePoint : WireLayer :=
  ⟨2, "towns", [⟨some 7, [0#32, 0#32], some 1, [9#32, 2#32, 2#32]⟩], ["name"], [.string "x"], some 512#32⟩

example : LayerReads wirePoint ⟨"towns", [⟨some 7, [], some (.point (1, 1))⟩], some 512⟩ :=
  ⟨rfl, ⟨512#32, rfl, rfl⟩, .cons ⟨rfl, rfl, 1, .point, rfl, .point, by decide⟩ .nil⟩

/-- C182, exactly when reading panics: at the first layer that cannot be read, if that one has no
extent, or if its first feature that cannot be read has no type, another type than the three, or
words at which the geometry decoder panics (see C53).  Whatever else cannot be read is an error. -/
theorem C182_panics_partial (ls : List WireLayer) :
    decodeTile ls = .panic ↔
      ∃ a l b, ls = a ++ l :: b ∧ (∀ x ∈ a, ∃ d, LayerReads x d) ∧ LayerBreaks l :=
  decodeTile_panic ls

example : ∃ a l b, [wirePoint, ⟨2, "roads", [], [], [], none⟩] = a ++ l :: b
    ∧ (∀ x ∈ a, ∃ d, LayerReads x d) ∧ LayerBreaks l := by
  refine ⟨[wirePoint], _, [], rfl, ?_, .inl rfl⟩
  intro x hx
  simp only [List.mem_cons, List.not_mem_nil, or_false] at hx
  subst hx
  exact ⟨⟨"towns", [⟨some 7, [], some (.point (1, 1))⟩], some 512⟩,
    rfl, ⟨512#32, rfl, rfl⟩, .cons ⟨rfl, rfl, 1, .point, rfl, .point, by decide⟩ .nil⟩

/-- C182, what is allowed and has extents and known types is read.  Missing: the same. -/
theorem C182_allowed_partial (ls : List WireLayer) (ha : ∀ l ∈ ls, Allowed l)
    (he : ∀ l ∈ ls, l.extent ≠ none) (ht : ∀ l ∈ ls, ∀ f ∈ l.features, f.type.getD 0 ≠ 0) :
    ∃ out, decodeTile ls = .ok out ∧
      List.Forall₂ (fun l d => d.name = l.name
        ∧ d.extent = some (((l.extent.getD 4096#32).toNat : Nat) : Int)
        ∧ d.features.map (·.id) = l.features.map (·.id)) ls out := by
  have feat : ∀ fs : List WireFeature, (∀ f ∈ fs, ∃ d, FeatureReads f d) →
      ∃ ds, List.Forall₂ FeatureReads fs ds ∧ ds.map (·.id) = fs.map (·.id) := by
    intro fs
    induction fs with
    | nil => intro _; exact ⟨[], .nil, rfl⟩
    | cons f fs ih =>
      intro h
      obtain ⟨d, hd⟩ := h f (by simp)
      obtain ⟨ds, h1, h2⟩ := ih (fun x hx => h x (by simp [hx]))
      exact ⟨d :: ds, .cons hd h1, by simp [h2, hd.1]⟩
  have key : ∀ l ∈ ls, ∃ d, LayerReads l d ∧ d.name = l.name
        ∧ d.extent = some (((l.extent.getD 4096#32).toNat : Nat) : Int)
        ∧ d.features.map (·.id) = l.features.map (·.id) := by
    intro l hl
    obtain ⟨ds, h1, h2⟩ := feat l.features (fun f hf => by
      rcases ha l hl f hf with h | ⟨n, t, g, h, hn, hg⟩
      · exact absurd h (ht l hl f hf)
      · exact ⟨⟨f.id, [], g⟩, rfl, rfl, n, t, h, hn, hg⟩)
    cases hx : l.extent with
    | none => exact absurd hx (he l hl)
    | some e => exact ⟨⟨l.name, ds, some (e.toNat : Int)⟩, ⟨rfl, ⟨e, hx, rfl⟩, h1⟩, rfl, rfl, h2⟩
  suffices ∃ out, List.Forall₂ LayerReads ls out ∧
      List.Forall₂ (fun l d => d.name = l.name
        ∧ d.extent = some (((l.extent.getD 4096#32).toNat : Nat) : Int)
        ∧ d.features.map (·.id) = l.features.map (·.id)) ls out by
    obtain ⟨out, h1, h2⟩ := this
    exact ⟨out, (decodeTile_ok ls out).mpr h1, h2⟩
  clear ha he ht
  induction ls with
  | nil => exact ⟨[], .nil, .nil⟩
  | cons l ls ih =>
    obtain ⟨d, hd, hr⟩ := key l (by simp)
    obtain ⟨out, h1, h2⟩ := ih (fun x hx => key x (by simp [hx]))
    exact ⟨d :: out, .cons hd h1, .cons hr h2⟩

example : (∀ l ∈ [wirePoint], Allowed l) ∧ (∀ l ∈ [wirePoint], l.extent ≠ none)
    ∧ ∀ l ∈ [wirePoint], ∀ f ∈ l.features, f.type.getD 0 ≠ 0 := by
  refine ⟨?_, ?_, ?_⟩ <;> intro l hl <;> simp only [List.mem_cons, List.not_mem_nil, or_false] at hl <;>
    subst hl
  · intro f hf
    simp only [wirePoint, List.mem_cons, List.not_mem_nil, or_false] at hf
    subst hf
    exact .inr ⟨1, .point, some (.point (1, 1)), rfl, .point, by decide⟩
  · simp [wirePoint]
  · simp [wirePoint]

/-! ## C183 -/

/-- C183 in full: reading what was written of layers whose geometries a tile can carry gives the
layers back: name, extent, and the features with id, tags and geometry. -/
def C183_full : Prop :=
  ∀ (ls : List Layer) (out : List TileLayer),
    (∀ l ∈ ls, ∀ f ∈ l.features, Carried f.geometry) →
    vtile (fun _ => false) ls = .ok out →
    ∃ ds, decodeTile (out.map (·.wire)) = .ok ds ∧
      List.Forall₂ (fun l d => d.name = l.name ∧ (∃ e, HasExtent l e ∧ d.extent = some e)
        ∧ List.Forall₂ (fun f g => FeatureBack f g ∧ g.tags.Perm f.tags1) l.features d.features) ls ds

/-- A feature with a tag. -/
def tagged : Layer := ⟨"towns", [⟨some 7, [("name", .string "x")], [("name", .string "x")], .point (1, 1)⟩], none⟩

theorem tagged_carried : ∀ l ∈ [tagged], ∀ f ∈ l.features, Carried f.geometry := by
  intro l hl f hf
  simp only [List.mem_cons, List.not_mem_nil, or_false] at hl
  subst hl
  simp only [tagged, List.mem_cons, List.not_mem_nil, or_false] at hf
  subst hf
  exact inRange_of_bound _ (by decide)

/-- C183 for all but the tags: names, ids, geometries (a multi geometry of one member as that
member, polygons with their rings turned) and extents that fit in 32 bits come back, in order, and
no feature is lost or added.  Also if the context ends while writing, as long as a tile is written.
Missing: the tags; extents that do not fit. -/
theorem C183_round_trip_partial (cancelled : Nat → Bool) (ls : List Layer) (out : List TileLayer)
    (hc : ∀ l ∈ ls, ∀ f ∈ l.features, Carried f.geometry)
    (h : vtile cancelled ls = .ok out) :
    ∃ ds, decodeTile (out.map (·.wire)) = .ok ds ∧
      List.Forall₂ (fun l d => d.name = l.name
        ∧ (∀ e, HasExtent l e → 0 ≤ e → e < 2 ^ 32 → d.extent = some e)
        ∧ List.Forall₂ (fun f g => FeatureBack f g ∧ g.tags = []) l.features d.features) ls ds := by
  have hf := vtile_forall cancelled ls out h
  clear h
  suffices ∃ ds, List.Forall₂ LayerReads (out.map (·.wire)) ds ∧
      List.Forall₂ (fun l d => d.name = l.name
        ∧ (∀ e, HasExtent l e → 0 ≤ e → e < 2 ^ 32 → d.extent = some e)
        ∧ List.Forall₂ (fun f g => FeatureBack f g ∧ g.tags = []) l.features d.features) ls ds by
    obtain ⟨ds, h1, h2⟩ := this
    exact ⟨ds, (decodeTile_ok _ _).mpr h1, h2⟩
  induction hf with
  | nil => exact ⟨[], .nil, .nil⟩
  | @cons l tl ls out hl hr ih =>
    obtain ⟨ds, h1, h2⟩ := ih (fun x hx => hc x (by simp [hx]))
    refine ⟨_ :: ds, .cons (vtileLayer_back cancelled l tl (hc l (by simp)) hl) h1, .cons ⟨rfl, ?_, ?_⟩ h2⟩
    · intro e he e0 e1
      obtain ⟨-, -, x, hx, ht⟩ := vtileLayer_fields _ _ _ hl
      have hxe : x = e := by
        rcases hx with hx | ⟨hx, hx'⟩ <;> rcases he with he | ⟨he, he'⟩
        · rw [hx] at he; cases he; rfl
        · rw [hx] at he; cases he
        · rw [hx] at he; cases he
        · rw [hx', he']
      subst hxe
      simp only [Option.some.injEq]
      rw [ht, BitVec.toNat_ofInt]
      omega
    · dsimp only
      generalize l.features = fs
      induction fs with
      | nil => exact .nil
      | cons f fs ih => exact .cons ⟨⟨rfl, rfl⟩, rfl⟩ ih

example : (∀ l ∈ [tagged], ∀ f ∈ l.features, Carried f.geometry)
    ∧ ∃ out, vtile (fun _ => false) [tagged] = .ok out := ⟨tagged_carried, _, rfl⟩

/-- C183 fails: the tags do not come back. -/
theorem C183_violated : ¬ C183_full := by
  intro h
  obtain ⟨out, ho⟩ : ∃ out, vtile (fun _ => false) [tagged] = .ok out := ⟨_, rfl⟩
  obtain ⟨ds, hd, hr⟩ := h [tagged] out tagged_carried ho
  obtain ⟨ds', hd', hr'⟩ := C183_round_trip_partial (fun _ => false) [tagged] out tagged_carried ho
  rw [hd] at hd'
  cases hd'
  cases hr with
  | @cons _ d _ _ h1 h2 =>
    cases hr' with
    | cons h1' _ =>
      obtain ⟨n, fs, e⟩ := d
      have q := h1.2.2
      have q' := h1'.2.2
      simp only [tagged] at q q'
      cases q with
      | cons a _ =>
        cases q' with
        | cons a' _ =>
          have hp := a.2
          rw [a'.2] at hp
          exact absurd hp.length_eq (by decide)

/-- C183, the geometries of a tile read back, as one collection: those of all features, layer by
layer. -/
theorem C183_collection_partial (cancelled : Nat → Bool) (ls : List Layer) (out : List TileLayer)
    (ds : List ReadLayer) (hc : ∀ l ∈ ls, ∀ f ∈ l.features, Carried f.geometry)
    (h : vtile cancelled ls = .ok out) (hd : decodeTile (out.map (·.wire)) = .ok ds) :
    tileGeomCollection ds = (featuresOf ls).map (fun f => some (comesBack f.geometry)) := by
  obtain ⟨ds', hd', hr⟩ := C183_round_trip_partial cancelled ls out hc h
  rw [hd] at hd'
  cases hd'
  rw [tileGeomCollection_eq, featuresOf]
  clear hd h hc
  induction hr with
  | nil => rfl
  | @cons l d ls ds hl _ ih =>
    rw [List.flatMap_cons, List.flatMap_cons, List.map_append, ih]
    congr 1
    have := hl.2.2
    generalize l.features = fs at this
    generalize d.features = gs at this
    induction this with
    | nil => rfl
    | cons a _ ih => rw [List.map_cons, List.map_cons, ih, a.1.2]

example : ∃ out ds, vtile (fun _ => false) [tagged] = .ok out ∧ decodeTile (out.map (·.wire)) = .ok ds
    ∧ tileGeomCollection ds = [some (.point (1, 1))] := by
  obtain ⟨out, ho⟩ : ∃ out, vtile (fun _ => false) [tagged] = .ok out := ⟨_, rfl⟩
  obtain ⟨ds, hd, -⟩ := C183_round_trip_partial (fun _ => false) [tagged] out tagged_carried ho
  refine ⟨out, ds, ho, hd, ?_⟩
  rw [C183_collection_partial _ _ _ _ tagged_carried ho hd]
  rfl

end Verif.Props
