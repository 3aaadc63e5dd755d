import Verif.Lemmas.MvtLayer

/-!
# MVT features, layers and tiles (C09–C12, C54)
-/

namespace Verif.Props
open Verif Verif.Mvt Verif.Spec.MvtLayer

/-! ## C09 -/

/-- The premises of C09 on a layer: both loops see the same map, every value is of a
supported type and no NaN, the geometries can be encoded, and there are fewer than
2^32 tags in all. -/
structure TagsOk (l : Layer) : Prop where
  orders : ∀ f ∈ l.features, f.tags1.Perm f.tags2
  types : ∀ f ∈ l.features, ∀ kv ∈ f.tags1, supported kv.2
  geometries : ∀ f ∈ l.features, ∃ ws t, encodeGeometry f.geometry = .ok ws t
  size : (l.features.map (·.tags1)).flatten.length < 2 ^ 32

/-- What C09 says of the layer message: no key or value twice, no key that no feature
has, and one message feature for each feature with a non-empty geometry, in order,
whose tag indices lead to exactly its non-nil tags. -/
def TagsResolve (l : Layer) (tl : TileLayer) : Prop :=
  tl.keys.Nodup ∧
  (∀ k ∈ tl.keys, ∃ f ∈ l.features, ∃ kv ∈ f.tags1, k = kv.1) ∧
  List.Forall₂ (fun f tf => tf.id = f.id ∧ encodeGeometry f.geometry = .ok tf.geometry tf.type ∧
    ∃ out, readTags tl.keys tl.values tf.tags = some out ∧ Recovers (present f.tags2) out)
    (l.features.filter drawn) tl.features

/-- C09 in full. -/
def C09_full : Prop :=
  ∀ l : Layer, TagsOk l → ∃ tl, vtileLayer (fun _ => false) l = .ok tl ∧ TagsResolve l tl

/-- C09, for tags that hold no value of Go type `int` or `uint`: for every iteration
order of every tag map, the layer is produced and the tags resolve. -/
theorem C09_tags_resolve_partial (l : Layer) (h : TagsOk l)
    (hp : ∀ f ∈ l.features, ∀ kv ∈ f.tags2, ¬ plainInt kv.2) :
    ∃ tl, vtileLayer (fun _ => false) l = .ok tl ∧ TagsResolve l tl := by
  obtain ⟨⟨keys, vals⟩, a1, _, _, a4, a5, a6, a7, _, a9⟩ := keyvalMaps_spec (l.features.map (·.tags1)) ([], [])
    (by intro ts hts kv hkv
        obtain ⟨f, hf, rfl⟩ := List.mem_map.1 hts
        exact h.types f hf kv hkv)
  have hs := h.size
  simp only [List.length_nil, Nat.zero_add] at a6 a7
  obtain ⟨tfs, b1, b2⟩ := vtileFeatures_spec (fun _ => false) keys vals (by omega) (by omega) l.features 0
    (by intro f hf kv hkv
        exact a4 f.tags1 (List.mem_map.2 ⟨f, hf, rfl⟩) kv ((h.orders f hf).mem_iff.2 hkv))
    hp h.geometries (by simp)
  refine ⟨_, by simp [vtileLayer, a1, b1]; rfl, a5 List.nodup_nil, ?_, b2⟩
  intro k hk
  rcases a9 k hk with h | ⟨ts, hts, h⟩
  · simp at h
  · obtain ⟨f, hf, rfl⟩ := List.mem_map.1 hts
    exact ⟨f, hf, h⟩

/-- Two points with tags that share keys and values; the second loop sees the first
map in another order. -/
def tagSample : Layer where
  name := "roads"
  extent := none
  features :=
    [⟨some 7, [("a", .string "x"), ("b", .num .int64 4), ("n", .nil)],
        [("b", .num .int64 4), ("n", .nil), ("a", .string "x")], .point ⟨1, 2⟩⟩,
     ⟨none, [("c", .string "x"), ("b", .num .uint8 4)], [("c", .string "x"), ("b", .num .uint8 4)], .point ⟨3, 2⟩⟩]

theorem tagSample_ok : TagsOk tagSample := by
  refine ⟨?_, ?_, ?_, by decide⟩
  · intro f hf
    simp only [tagSample, List.mem_cons, List.not_mem_nil, or_false] at hf
    rcases hf with rfl | rfl
    · decide
    · exact List.Perm.refl _
  · intro f hf kv hkv
    simp only [tagSample, List.mem_cons, List.not_mem_nil, or_false] at hf
    rcases hf with rfl | rfl <;>
    · simp only [List.mem_cons, List.not_mem_nil, or_false] at hkv
      rcases hkv with rfl | rfl | rfl <;> simp [supported]
  · intro f hf
    simp only [tagSample, List.mem_cons, List.not_mem_nil, or_false] at hf
    rcases hf with rfl | rfl <;> exact ⟨_, _, rfl⟩

example : TagsOk tagSample ∧ (∀ f ∈ tagSample.features, ∀ kv ∈ f.tags2, ¬ plainInt kv.2) := by
  refine ⟨tagSample_ok, ?_⟩
  intro f hf kv hkv
  simp only [tagSample, List.mem_cons, List.not_mem_nil, or_false] at hf
  rcases hf with rfl | rfl <;>
  · simp only [List.mem_cons, List.not_mem_nil, or_false] at hkv
    rcases hkv with rfl | rfl | rfl <;> simp [plainInt]

/-- C09: also no value is stored twice (same Go type and equal). -/
theorem C09_values_distinct (l : Layer) (keys : List String) (vals : List TagVal)
    (ht : ∀ f ∈ l.features, ∀ kv ∈ f.tags1, supported kv.2)
    (h : keyvalMaps ([], []) (l.features.map (·.tags1)) = some (keys, vals)) :
    vals.Pairwise (fun a b => sameVal a b = false) := by
  obtain ⟨⟨keys', vals'⟩, a1, _, _, _, _, _, _, a8, _⟩ := keyvalMaps_spec (l.features.map (·.tags1)) ([], [])
    (by intro ts hts kv hkv
        obtain ⟨f, hf, rfl⟩ := List.mem_map.1 hts
        exact ht f hf kv hkv)
  rw [h] at a1
  cases a1
  exact a8 List.Pairwise.nil

example : keyvalMaps ([], []) (tagSample.features.map (·.tags1)) =
    some (["a", "b", "n", "c"], [.string "x", .num .int64 4, .num .uint8 4]) := by decide

/-- The code violates C09: a tag of Go type `int` loses its value. -/
theorem C09_violated : ¬ C09_full := by
  intro h
  let f : Feature := ⟨none, [("lanes", .num .int 2)], [("lanes", .num .int 2)], .point ⟨1, 2⟩⟩
  obtain ⟨tl, h1, _, _, h3⟩ := h ⟨"roads", [f], none⟩ (by
    refine ⟨?_, ?_, ?_, by decide⟩
    · intro g hg
      simp only [List.mem_singleton] at hg
      subst hg
      exact List.Perm.refl _
    · intro g hg kv hkv
      simp only [List.mem_singleton] at hg
      subst hg
      simp only [f, List.mem_singleton] at hkv
      subst hkv
      simp [supported]
    · intro g hg
      simp only [List.mem_singleton] at hg
      subst hg
      exact ⟨_, _, rfl⟩)
  have e : vtileLayer (fun _ => false) ⟨"roads", [f], none⟩ =
      .ok ⟨2, "roads", [⟨none, [0, 0], .point, [9#32, 2#32, 4#32]⟩], ["lanes"], [.empty], 4096#32⟩ := rfl
  rw [e] at h1
  injection h1 with h1
  subst h1
  have e2 : [f].filter drawn = [f] := rfl
  simp only [e2] at h3
  cases h3 with
  | cons hd tl =>
    obtain ⟨_, _, out, h4, h5⟩ := hd
    have e3 : readTags ["lanes"] [TileVal.empty] [0, 0] = some [("lanes", .empty)] := rfl
    rw [e3] at h4
    cases h4
    have e4 : present f.tags2 = [("lanes", .num .int 2)] := rfl
    rw [e4] at h5
    exact h5.2.1

/-! ## C10 -/

/-- C10: one call.  The layers present stay as they are and in place; the non-nil
layers before the first offending one are appended; there is an error exactly when
some layer is offending, that is when its name is already in the tile. -/
theorem C10_call (layers : List Layer) (nls : List (Option Layer)) (hn : (layers.map (·.name)).Nodup) :
    ∃ pre post, nls = pre ++ post ∧
      (addLayers layers nls).1 = layers ++ pre.filterMap id ∧
      ((layers ++ pre.filterMap id).map (·.name)).Nodup ∧
      (((addLayers layers nls).2 = false ∧ post = []) ∨
       ((addLayers layers nls).2 = true ∧ ∃ bad post', post = some bad :: post' ∧
          bad.name ∈ (layers ++ pre.filterMap id).map (·.name))) := by
  induction nls generalizing layers with
  | nil => exact ⟨[], [], rfl, by simp [addLayers], by simpa using hn, .inl ⟨rfl, rfl⟩⟩
  | cons nl nls ih =>
    cases nl with
    | none =>
      obtain ⟨pre, post, h1, h2, h3, h4⟩ := ih layers hn
      refine ⟨none :: pre, post, by simp [h1], by simpa [addLayers] using h2, by simpa using h3, ?_⟩
      simpa [addLayers] using h4
    | some nl =>
      by_cases hc : layers.any (fun l => l.name == nl.name) = true
      · refine ⟨[], some nl :: nls, rfl, by simp [addLayers, hc], by simpa using hn, .inr ⟨by simp [addLayers, hc], nl, nls, rfl, ?_⟩⟩
        simp only [List.any_eq_true, beq_iff_eq] at hc
        obtain ⟨x, hx, hxn⟩ := hc
        simp only [List.filterMap_nil, List.append_nil, List.mem_map]
        exact ⟨x, hx, hxn⟩
      · have hc' : ∀ x ∈ layers, x.name ≠ nl.name := by
          simpa [List.any_eq_true] using hc
        have hn' : ((layers ++ [nl]).map (·.name)).Nodup := by
          rw [List.map_append, List.nodup_append]
          refine ⟨hn, by simp, ?_⟩
          intro a ha b hb
          obtain ⟨x, hx, rfl⟩ := List.mem_map.1 ha
          simp only [List.map_cons, List.map_nil, List.mem_singleton] at hb
          subst hb
          exact hc' x hx
        obtain ⟨pre, post, h1, h2, h3, h4⟩ := ih _ hn'
        have e : addLayers layers (some nl :: nls) = addLayers (layers ++ [nl]) nls := by
          simp [addLayers, hc]
        rw [e]
        refine ⟨some nl :: pre, post, by simp [h1], by simpa using h2, by simpa using h3, by simpa using h4⟩

/-- The layers of a tile after calls of AddLayers, starting with an empty tile. -/
def tileAfter (calls : List (List (Option Layer))) : List Layer :=
  calls.foldl (fun ls c => (addLayers ls c).1) []

/-- C10: after any history the names are unique. -/
theorem C10_names_unique (calls : List (List (Option Layer))) : ((tileAfter calls).map (·.name)).Nodup := by
  unfold tileAfter
  have : ∀ (ls : List Layer), (ls.map (·.name)).Nodup →
      ((calls.foldl (fun ls c => (addLayers ls c).1) ls).map (·.name)).Nodup := by
    induction calls with
    | nil => intro ls h; exact h
    | cons c cs ih =>
      intro ls h
      obtain ⟨pre, post, _, h2, h3, _⟩ := C10_call ls c h
      exact ih _ (by simp only []; rw [h2]; exact h3)
  exact this [] List.nodup_nil

/-- C10: layers present at some time are never changed or reordered later. -/
theorem C10_layers_stay (calls more : List (List (Option Layer))) :
    tileAfter calls <+: tileAfter (calls ++ more) := by
  induction more generalizing calls with
  | nil => simp
  | cons c more ih =>
    have step : tileAfter calls <+: tileAfter (calls ++ [c]) := by
      obtain ⟨pre, post, _, h2, _⟩ := C10_call _ c (C10_names_unique calls)
      have : tileAfter (calls ++ [c]) = (addLayers (tileAfter calls) c).1 := by
        simp [tileAfter, List.foldl_append]
      rw [this, h2]
      exact List.prefix_append _ _
    have := ih (calls ++ [c])
    rw [List.append_assoc] at this
    exact step.trans this

/-- C10: a call reports an error exactly when it would have made two layers of the
tile share a name. -/
theorem C10_error_iff (layers : List Layer) (nls : List (Option Layer)) (hn : (layers.map (·.name)).Nodup) :
    (addLayers layers nls).2 = true ↔ ¬ ((layers ++ nls.filterMap id).map (·.name)).Nodup := by
  obtain ⟨pre, post, h1, h2, h3, h4⟩ := C10_call layers nls hn
  rcases h4 with ⟨h4, rfl⟩ | ⟨h4, bad, post', rfl, h5⟩
  · rw [List.append_nil] at h1
    subst h1
    simp only [h4, Bool.false_eq_true, false_iff, not_not]
    exact h3
  · simp only [h4, true_iff]
    intro hc
    rw [h1, List.filterMap_append, show List.filterMap id (some bad :: post') = bad :: List.filterMap id post' from rfl, ← List.append_assoc, List.map_append,
      List.nodup_append] at hc
    exact hc.2.2 _ h5 bad.name (by simp) rfl

example : let a : Layer := ⟨"a", [], none⟩
    let b : Layer := ⟨"b", [], none⟩
    (tileAfter [[some a, none], [some b, some a, some b]]).map (·.name) = ["a", "b"] ∧
    (addLayers [a] [some b, some a, some b]).2 = true ∧ (([a].map (·.name)).Nodup) := by decide

/-! ## C11 -/

/-- C11: NewFeatures gives one feature for each non-collection, non-nil geometry,
depth first, each with the same tags, and nothing else. -/
theorem C11_flatten {β τ : Type} (tags : τ) (g : Tree β) (ls : List β) :
    Leaves g ls ↔ newFeatures tags g = ls.map (fun l => (l, tags)) := by
  obtain ⟨ls', h1, h2⟩ := newFeatures_leaves tags g
  constructor
  · intro h
    rw [h2, leaves_unique h h1]
  · intro h
    rw [h2] at h
    have : ls' = ls := by
      have := congrArg (List.map Prod.fst) h
      simpa [List.map_map, Function.comp_def] using this
    rw [← this]
    exact h1

example : Leaves (.collection [.leaf 1, .nil, .collection [.leaf 2, .collection []], .leaf 3]) [1, 2, 3] :=
  (C11_flatten () _ _).2 rfl

/-- C11: nil gives no feature. -/
theorem C11_nil {β τ : Type} (tags : τ) : newFeatures tags (.nil : Tree β) = [] := rfl

/-! ## C12 -/

/-- C12 in full. -/
def C12_full : Prop :=
  ∀ (l : Layer) (ops : List FeatureOp), (perform l ops).getFeatures = intended l.features ops

/-- C12, for histories whose removals name no position in use: the feature list is
what was added, in order. -/
theorem C12_feature_list_partial (l : Layer) (ops : List FeatureOp) (h : RemovesNothing l.features ops) :
    (perform l ops).getFeatures = intended l.features ops := by
  induction ops generalizing l with
  | nil => rfl
  | cons op ops ih =>
    cases op with
    | add fs => exact ih (l.addFeatures fs) h
    | remove idxs =>
      rw [perform, intended, without_nothing idxs _ h.1]
      exact ih l h.2

example : RemovesNothing [] [.add tagSample.features, .remove [-1, 2], .add tagSample.features] ∧
    (perform ⟨"", [], none⟩ [.add tagSample.features, .remove [-1, 2], .add tagSample.features]).getFeatures.length = 4 := by
  refine ⟨?_, rfl⟩
  refine ⟨?_, trivial⟩
  decide

/-- C12: the list that RemoveFeature builds and drops is the right one. -/
theorem C12_dropped_list (idxs : List Int) (fs : List Feature) : keepOthers idxs 0 fs = without idxs fs :=
  keepOthers_eq idxs fs 0

example : (keepOthers [0] 0 tagSample.features).map (·.id) = [none] := rfl

/-- The code violates C12: removing the only feature leaves it in place. -/
theorem C12_violated : ¬ C12_full := by
  intro h
  have := h ⟨"roads", tagSample.features, none⟩ [.remove [0]]
  have e : (intended tagSample.features [.remove [0]]).length = 1 := rfl
  have e2 := congrArg List.length this
  rw [e] at e2
  exact absurd e2 (by decide)

/-- The code violates C12 in general: RemoveFeature never changes anything. -/
theorem C12_remove_is_noop (l : Layer) (idxs : List Int) : (l.removeFeature idxs).getFeatures = l.getFeatures := rfl

/-! ## C54 -/

/-- C54: whenever the context gets cancelled, the layer message is either the one of
an undisturbed run or not produced at all; never a shortened one. -/
theorem C54_cancel_all_or_nothing (cancelled : Nat → Bool) (l : Layer) (tl : TileLayer)
    (h : vtileLayer cancelled l = .ok tl) : vtileLayer (fun _ => false) l = .ok tl := by
  unfold vtileLayer at h ⊢
  cases hk : keyvalMaps ([], []) (l.features.map (·.tags1)) with
  | none => rw [hk] at h; simp at h
  | some kv =>
    obtain ⟨keys, vals⟩ := kv
    rw [hk] at h
    simp only at h ⊢
    rcases vtileFeatures_cancel cancelled keys vals l.features 0 with e | e | e
    · rw [e] at h; simp at h
    · rw [← e]; exact h
    · rw [e] at h; simp at h

/-- C54: and a context that is done before some feature is reached is always noticed. -/
theorem C54_cancel_noticed (cancelled : Nat → Bool) (l : Layer) (i : Nat) (hi : i < l.features.length)
    (hc : cancelled i = true) : ∀ tl, vtileLayer cancelled l ≠ .ok tl := by
  have key : ∀ (keys : List String) (vals : List TagVal) (fs : List Feature) (j : Nat), j ≤ i → i < j + fs.length →
      ∀ tfs, vtileFeatures cancelled keys vals j fs ≠ .ok tfs := by
    intro keys vals fs
    induction fs with
    | nil => intro j h1 h2; simp at h2; omega
    | cons f fs ih =>
      intro j h1 h2 tfs
      rw [vtileFeatures]
      by_cases hj : cancelled j = true
      · simp [hj]
      · have hne : j ≠ i := by rintro rfl; exact hj hc
        have := ih (j + 1) (by omega) (by simp at h2; omega)
        simp only [hj, Bool.false_eq_true, if_false]
        cases vtileFeature keys vals f with
        | err => simp
        | panic => simp
        | ok tf =>
          simp only
          cases hr : vtileFeatures cancelled keys vals (j + 1) fs with
          | err => simp
          | panic => simp
          | ok r => exact absurd hr (this r)
  intro tl h
  unfold vtileLayer at h
  cases hk : keyvalMaps ([], []) (l.features.map (·.tags1)) with
  | none => rw [hk] at h; simp at h
  | some kv =>
    obtain ⟨keys, vals⟩ := kv
    rw [hk] at h
    simp only at h
    cases hr : vtileFeatures cancelled keys vals 0 l.features with
    | err => rw [hr] at h; simp at h
    | panic => rw [hr] at h; simp at h
    | ok r => exact absurd hr (key keys vals l.features 0 (by omega) (by omega) r)

example : (∃ tl, vtileLayer (fun i => decide (i = 2)) tagSample = .ok tl) ∧
    (∀ tl, vtileLayer (fun i => decide (i = 1)) tagSample ≠ .ok tl) :=
  ⟨⟨_, rfl⟩, C54_cancel_noticed _ tagSample 1 (by decide) (by decide)⟩

end Verif.Props
