import Verif.Lemmas.MvtTile

/-!
# A whole tile as a message (C180)
-/

namespace Verif.Props
open Verif Verif.Mvt Verif.Spec.MvtLayer Verif.Spec.MvtTile

/-- The premises of C180 on the tags of the layers: both loops over a map see the same tags, and every
value is of a type that the format has. -/
structure TileTags (ls : List Layer) : Prop where
  orders : ∀ l ∈ ls, ∀ f ∈ l.features, f.tags1.Perm f.tags2
  types : ∀ l ∈ ls, ∀ f ∈ l.features, ∀ kv ∈ f.tags1, supported kv.2

/-- C180 in full: a tile, all features of which are of kinds that the format has, becomes a message
with one layer for each layer, in order, of version 2, with its name and its extent. -/
def C180_full : Prop :=
  ∀ ls : List Layer, TileTags ls → (∀ f ∈ featuresOf ls, tileKind f.geometry = true) →
    ∃ out, vtile (fun _ => false) ls = .ok out ∧
      List.Forall₂ (fun l tl => tl.version = 2 ∧ tl.name = l.name
        ∧ ∃ e, HasExtent l e ∧ tl.extent = BitVec.ofInt 32 e) ls out

/-- C180, how it ends: there is a message just if every feature of every layer is of a kind that the
format has and none of its lines is without points; there is a panic just if a feature with a line
without points comes before any feature of a kind that the format has not.  (Otherwise it is an
error.) -/
theorem C180_outcome_partial (ls : List Layer) (h : TileTags ls) :
    ((∃ out, vtile (fun _ => false) ls = .ok out) ↔
      ∀ f ∈ featuresOf ls, tileKind f.geometry = true ∧ pointless f.geometry = false) ∧
    ((∃ a f b, featuresOf ls = a ++ f :: b ∧ pointless f.geometry = true ∧
        ∀ x ∈ a, tileKind x.geometry = true ∧ pointless x.geometry = false) ↔
      match vtile (fun _ => false) ls with
      | .panic => True
      | _ => False) := by
  have hv := vtile_verdict ls h.orders h.types
  constructor
  · rw [← firstBad_fine, ← hv]
    cases vtile (fun _ => false) ls <;> simp [Res.verdict]
  · have e := firstBad_panic (featuresOf ls)
    rw [← hv] at e
    constructor
    · rintro ⟨a, f, b, h1, h2, h3⟩
      have := e.mpr ⟨a, f, b, h1, h3, h2⟩
      revert this
      cases vtile (fun _ => false) ls <;> simp [Res.verdict]
    · intro hp
      have : (vtile (fun _ => false) ls).verdict = .panic := by
        revert hp
        cases vtile (fun _ => false) ls <;> simp [Res.verdict]
      obtain ⟨a, f, b, h1, h2, h3⟩ := e.mp this
      exact ⟨a, f, b, h1, h3, h2⟩

/-- Two layers, the second with a collection among its features. -/
def twoLayers : List Layer :=
  [⟨"roads", [⟨none, [("a", .string "x")], [("a", .string "x")], .lineString [(1, 2), (3, 4)]⟩], none⟩,
   ⟨"pois", [⟨some 1, [], [], .point (1, 2)⟩, ⟨none, [], [], .collection []⟩], some 512⟩]

theorem twoLayers_tags : TileTags twoLayers := by
  refine ⟨?_, ?_⟩
  · intro l hl f hf
    simp only [twoLayers, List.mem_cons, List.not_mem_nil, or_false] at hl
    rcases hl with rfl | rfl <;> simp only [List.mem_cons, List.not_mem_nil, or_false] at hf
    · subst hf; exact List.Perm.refl _
    · rcases hf with rfl | rfl <;> exact List.Perm.refl _
  · intro l hl f hf kv hkv
    simp only [twoLayers, List.mem_cons, List.not_mem_nil, or_false] at hl
    rcases hl with rfl | rfl <;> simp only [List.mem_cons, List.not_mem_nil, or_false] at hf
    · subst hf
      simp only [List.mem_cons, List.not_mem_nil, or_false] at hkv
      subst hkv
      exact trivial
    · rcases hf with rfl | rfl <;> cases hkv

example : TileTags twoLayers ∧ ¬ ∃ out, vtile (fun _ => false) twoLayers = .ok out :=
  ⟨twoLayers_tags, fun h => by
    have := (C180_outcome_partial twoLayers twoLayers_tags).1.mp h
    have := (this ⟨none, [], [], .collection []⟩ (by simp [featuresOf, twoLayers])).1
    cases this⟩

/-- C180, what is in the message: whenever there is one, with a context that may end at any feature,
it has one layer for each layer, in order, of version 2, with its name and its extent, and each of
them is what the layer gives by itself (of which C09 tells the features and tags). -/
theorem C180_layers_partial (cancelled : Nat → Bool) (ls : List Layer) (out : List TileLayer)
    (h : vtile cancelled ls = .ok out) :
    List.Forall₂ (fun l tl => tl.version = 2 ∧ tl.name = l.name
      ∧ (∃ e, HasExtent l e ∧ tl.extent = BitVec.ofInt 32 e)
      ∧ vtileLayer cancelled l = .ok tl) ls out :=
  (vtile_forall cancelled ls out h).imp fun l tl hl =>
    have f := vtileLayer_fields cancelled l tl hl
    ⟨f.1, f.2.1, f.2.2, hl⟩

example : ∃ out, vtile (fun i => decide (i = 1)) (twoLayers.take 1) = .ok out ∧ out.length = 1 := by
  refine ⟨_, rfl, rfl⟩

/-- C180, the extent: the one that was set, if it fits in 32 bits; 4096 where none was set. -/
theorem C180_extent_partial (cancelled : Nat → Bool) (l : Layer) (e : Int) (tl : TileLayer)
    (h0 : 0 ≤ e) (h1 : e < 2 ^ 32) :
    (vtileLayer cancelled (l.setExtent e) = .ok tl → tl.extent.toNat = e.toNat
      ∧ tl.name = l.name)
    ∧ (l.extent = none → vtileLayer cancelled l = .ok tl → tl.extent.toNat = 4096) := by
  refine ⟨fun h => ?_, fun hn h => ?_⟩
  · obtain ⟨-, hn, x, hx, ht⟩ := vtileLayer_fields _ _ _ h
    refine ⟨?_, hn⟩
    have : x = e := by
      rcases hx with hx | ⟨hx, -⟩
      · simpa [Layer.setExtent] using hx.symm
      · cases hx
    subst this
    rw [ht, BitVec.toNat_ofInt]
    omega
  · obtain ⟨-, -, x, hx, ht⟩ := vtileLayer_fields _ _ _ h
    have : x = 4096 := by
      rcases hx with hx | ⟨-, hx⟩
      · rw [hn] at hx; cases hx
      · exact hx
    subst this
    rw [ht]
    rfl

example : ∃ tl, vtileLayer (fun _ => false) (Layer.setExtent ⟨"a", [], none⟩ 512) = .ok tl
    ∧ tl.extent.toNat = 512 := ⟨_, rfl, rfl⟩

/-- C180 fails: a line without points panics. -/
theorem C180_violated : ¬ C180_full := by
  intro h
  have ht : TileTags [⟨"roads", [⟨none, [], [], .lineString []⟩], none⟩] := by
    refine ⟨?_, ?_⟩
    · intro l hl f hf
      simp only [List.mem_cons, List.not_mem_nil, or_false] at hl
      subst hl
      simp only [List.mem_cons, List.not_mem_nil, or_false] at hf
      subst hf
      exact List.Perm.refl _
    · intro l hl f hf kv hkv
      simp only [List.mem_cons, List.not_mem_nil, or_false] at hl
      subst hl
      simp only [List.mem_cons, List.not_mem_nil, or_false] at hf
      subst hf
      cases hkv
  obtain ⟨out, h1, -⟩ := h _ ht (by
    intro f hf
    simp only [featuresOf, List.flatMap_cons, List.flatMap_nil, List.append_nil, List.mem_cons,
      List.not_mem_nil, or_false] at hf
    subst hf
    rfl)
  have := (C180_outcome_partial _ ht).1.mp ⟨out, h1⟩ ⟨none, [], [], .lineString []⟩
    (by simp [featuresOf])
  simp [pointless] at this

end Verif.Props
