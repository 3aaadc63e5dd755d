import Verif.Lemmas.GeoJsonRead

/-!
# Property C175: what the GeoJSON decoder takes

`Geometry.UnmarshalJSON` and `Unmarshal` of `encoding/geojson`.
-/

namespace Verif.Props
open Verif Verif.GeoJson Verif.Spec.GeoJsonRead

open Verif.GeoJsonRead

/-- **C175**: what an object is taken for is told by its member `type`: the names are those of RFC 7946, and no other
is taken. -/
theorem C175_type (parse : List Byte → Option F64) (parseU : List Byte → Option (BitVec 64)) (kvs : List (Str × Json))
    (g : G) (h : unmarshalGeom parse parseU (.obj kvs) = .ok g) :
    match g with
    | .point _ => HasType kvs "Point"
    | .multiPoint _ => HasType kvs "MultiPoint"
    | .lineString _ => HasType kvs "LineString"
    | .multiLineString _ => HasType kvs "MultiLineString"
    | .polygon _ => HasType kvs "Polygon"
    | .multiPolygon _ => HasType kvs "MultiPolygon"
    | .collection _ => HasType kvs "GeometryCollection"
    | .feature _ _ _ => HasType kvs "Feature"
    | .features _ => HasType kvs "FeatureCollection"
    | .other => False := by
  rw [unmarshalGeom, Res.bind_ok] at h
  obtain ⟨t, ht, h⟩ := h
  rw [typeOf_ok] at ht
  unfold HasType
  split_ifs at h with h1 h2 h3 h4 h5 h6 h7 h8 h9
  · subst h1; rw [Res.map_ok] at h; obtain ⟨_, _, rfl⟩ := h; exact ht
  · subst h2; rw [Res.map_ok] at h; obtain ⟨_, _, rfl⟩ := h; exact ht
  · subst h3; rw [Res.map_ok] at h; obtain ⟨_, _, rfl⟩ := h; exact ht
  · subst h4; rw [Res.map_ok] at h; obtain ⟨_, _, rfl⟩ := h; exact ht
  · subst h5; rw [Res.map_ok] at h; obtain ⟨_, _, rfl⟩ := h; exact ht
  · subst h6; rw [Res.map_ok] at h; obtain ⟨_, _, rfl⟩ := h; exact ht
  · subst h7
    split at h
    · cases h; exact ht
    · rw [Res.map_ok] at h; obtain ⟨_, _, rfl⟩ := h; exact ht
  · subst h8; obtain ⟨_, _, _, rfl⟩ := result_feature h; exact ht
  · subst h9
    split at h
    · cases h; exact ht
    · rw [Res.map_ok] at h; obtain ⟨_, _, rfl⟩ := h; exact ht

/-- A polygon with one ring of one position. -/
def c175Polygon : List (Str × Json) :=
  [("type".toList, .str "Point".toList), ("coordinates".toList, .arr [.arr [.arr [.null, .num [49#8]]]]),
    ("type".toList, .str "Polygon".toList)]

/-- Reads the digit 1 only. -/
def c175Parse (lit : List Byte) : Option F64 := if lit = [49#8] then some 0x3FF0000000000000#64 else none

theorem c175Polygon_read : HasType c175Polygon "Polygon" ∧
    Coordinates c175Polygon (Array (Array (Position c175Parse))) (some [some [(0#64, 0x3FF0000000000000#64)]]) := by
  refine ⟨⟨[_, _], [], rfl, by simp⟩, _, ⟨[_], [_], rfl, ?_⟩, by simp, ?_⟩
  · intro kv hkv
    rw [List.mem_singleton] at hkv
    subst hkv
    show "type".toList ≠ "coordinates".toList
    decide
  · exact .array (.cons (.array (.cons (.two (Or.inr ⟨rfl, rfl⟩) (Or.inl ⟨_, rfl, rfl⟩)) .nil)) .nil)

/-- **C175**: exactly which objects are taken for a geometry with coordinates, and for which.  For the kinds of geometry
the elements of `coordinates` are nested zero, one, two or three arrays deep. -/
theorem C175_coordinates (parse : List Byte → Option F64) (parseU : List Byte → Option (BitVec 64))
    (kvs : List (Str × Json)) :
    (∀ p, unmarshalGeom parse parseU (.obj kvs) = .ok (.point p) ↔
      HasType kvs "Point" ∧ Coordinates kvs (Position parse) p) ∧
    (∀ s, unmarshalGeom parse parseU (.obj kvs) = .ok (.multiPoint s) ↔
      HasType kvs "MultiPoint" ∧ Coordinates kvs (Array (Position parse)) s) ∧
    (∀ s, unmarshalGeom parse parseU (.obj kvs) = .ok (.lineString s) ↔
      HasType kvs "LineString" ∧ Coordinates kvs (Array (Position parse)) s) ∧
    (∀ s, unmarshalGeom parse parseU (.obj kvs) = .ok (.multiLineString s) ↔
      HasType kvs "MultiLineString" ∧ Coordinates kvs (Array (Array (Position parse))) s) ∧
    (∀ s, unmarshalGeom parse parseU (.obj kvs) = .ok (.polygon s) ↔
      HasType kvs "Polygon" ∧ Coordinates kvs (Array (Array (Position parse))) s) ∧
    ∀ s, unmarshalGeom parse parseU (.obj kvs) = .ok (.multiPolygon s) ↔
      HasType kvs "MultiPolygon" ∧ Coordinates kvs (Array (Array (Array (Position parse)))) s := by
  have P : ∀ j p, decPos parse j = .ok p ↔ Position parse j p := fun _ _ => pos_iff
  have A1 := sl_iff P
  have A2 := sl_iff A1
  have A3 := sl_iff A2
  refine ⟨?_, ?_, ?_, ?_, ?_, ?_⟩ <;> intro s <;> constructor
  all_goals first
    | (intro h
       have ht := C175_type parse parseU kvs _ h
       refine ⟨ht, ?_⟩
       rw [unmarshalGeom, typeOf_ok.2 ht, Res.bind_ok'] at h)
    | (rintro ⟨ht, hc⟩
       rw [unmarshalGeom, typeOf_ok.2 ht, Res.bind_ok'])
  · rw [if_pos (by decide)] at h
    obtain ⟨v, e, hc⟩ := (coords_iff P).1 h
    cases e; exact hc
  · rw [if_pos (by decide)]
    exact (coords_iff P).2 ⟨s, rfl, hc⟩
  · rw [if_neg (by decide), if_neg (by decide), if_neg (by decide), if_pos (by decide)] at h
    obtain ⟨v, e, hc⟩ := (coords_iff A1).1 h
    cases e; exact hc
  · rw [if_neg (by decide), if_neg (by decide), if_neg (by decide), if_pos (by decide)]
    exact (coords_iff A1).2 ⟨s, rfl, hc⟩
  · rw [if_neg (by decide), if_neg (by decide), if_pos (by decide)] at h
    obtain ⟨v, e, hc⟩ := (coords_iff A1).1 h
    cases e; exact hc
  · rw [if_neg (by decide), if_neg (by decide), if_pos (by decide)]
    exact (coords_iff A1).2 ⟨s, rfl, hc⟩
  · rw [if_neg (by decide), if_neg (by decide), if_neg (by decide), if_neg (by decide), if_pos (by decide)] at h
    obtain ⟨v, e, hc⟩ := (coords_iff A2).1 h
    cases e; exact hc
  · rw [if_neg (by decide), if_neg (by decide), if_neg (by decide), if_neg (by decide), if_pos (by decide)]
    exact (coords_iff A2).2 ⟨s, rfl, hc⟩
  · rw [if_neg (by decide), if_pos (by decide)] at h
    obtain ⟨v, e, hc⟩ := (coords_iff A2).1 h
    cases e; exact hc
  · rw [if_neg (by decide), if_pos (by decide)]
    exact (coords_iff A2).2 ⟨s, rfl, hc⟩
  · rw [if_neg (by decide), if_neg (by decide), if_neg (by decide), if_neg (by decide), if_neg (by decide),
      if_pos (by decide)] at h
    obtain ⟨v, e, hc⟩ := (coords_iff A3).1 h
    cases e; exact hc
  · rw [if_neg (by decide), if_neg (by decide), if_neg (by decide), if_neg (by decide), if_neg (by decide),
      if_pos (by decide)]
    exact (coords_iff A3).2 ⟨s, rfl, hc⟩

/-- Of two members `type` the last counts; this meets the hypothesis of `C175_type` too. -/
example : unmarshalGeom c175Parse (fun _ => none) (.obj c175Polygon) =
    .ok (.polygon (some [some [(0#64, 0x3FF0000000000000#64)]])) :=
  ((C175_coordinates c175Parse (fun _ => none) c175Polygon).2.2.2.2.1 _).2 c175Polygon_read

/-- **C175**: exactly which objects are taken for a geometry collection: `geometries` may be missing, and if it is there
it is an array each element of which is taken for a geometry. -/
theorem C175_collection (parse : List Byte → Option F64) (parseU : List Byte → Option (BitVec 64))
    (kvs : List (Str × Json)) (s : Sl G) :
    unmarshalGeom parse parseU (.obj kvs) = .ok (.collection s) ↔ HasType kvs "GeometryCollection" ∧
      (((∀ j, ("geometries".toList, j) ∉ kvs) ∧ s = some []) ∨
        ∃ js gs, Has kvs "geometries" (.arr js) ∧ s = some gs ∧
          List.Forall₂ (fun j g => unmarshalGeom parse parseU j = .ok g) js gs) := by
  have open' : HasType kvs "GeometryCollection" → unmarshalGeom parse parseU (.obj kvs) =
      match geometriesOf parse parseU kvs none with
        | none => .ok (.collection (some []))
        | some r => r.map fun gs => .collection (some gs) := by
    intro ht
    rw [unmarshalGeom, typeOf_ok.2 ht, Res.bind_ok', if_neg (by decide), if_neg (by decide), if_neg (by decide),
      if_neg (by decide), if_neg (by decide), if_neg (by decide), if_pos (by decide)]
    cases geometriesOf parse parseU kvs none <;> rfl
  constructor
  · intro h
    have ht := C175_type parse parseU kvs _ h
    refine ⟨ht, ?_⟩
    rw [open' ht, geometriesOf_lookup] at h
    cases hl : lookup kGeometries kvs with
    | none =>
      rw [hl] at h
      cases h
      exact Or.inl ⟨lookup_none.1 hl, rfl⟩
    | some j =>
      rw [hl] at h
      simp only [Option.map_some] at h
      rw [Res.map_ok] at h
      obtain ⟨gs, h1, h2⟩ := h
      cases h2
      obtain ⟨js, rfl, h3⟩ := members_iff.1 h1
      exact Or.inr ⟨js, gs, lookup_iff.1 hl, rfl, h3⟩
  · rintro ⟨ht, h⟩
    rw [open' ht, geometriesOf_lookup]
    rcases h with ⟨h, rfl⟩ | ⟨js, gs, h, rfl, h3⟩
    · have : lookup kGeometries kvs = none := lookup_none.2 h
      rw [this]
      rfl
    · have : lookup kGeometries kvs = some (.arr js) := lookup_iff.2 h
      rw [this]
      simp only [Option.map_some]
      rw [members_iff.2 ⟨js, rfl, h3⟩]
      rfl

/-- A collection of the polygon and of an empty collection. -/
example : unmarshalGeom c175Parse (fun _ => none) (.obj [("geometries".toList, .arr [.obj c175Polygon,
      .obj [("type".toList, .str "GeometryCollection".toList)]]), ("type".toList, .str "GeometryCollection".toList)]) =
    .ok (.collection (some [.polygon (some [some [(0#64, 0x3FF0000000000000#64)]]), .collection (some [])])) := by
  rw [C175_collection]
  refine ⟨⟨[_], [], rfl, by simp⟩, Or.inr ⟨_, _, ⟨[], [_], rfl, ?_⟩, rfl, .cons ?_ (.cons ?_ .nil)⟩⟩
  · intro kv hkv
    rw [List.mem_singleton] at hkv
    subst hkv
    show "type".toList ≠ "geometries".toList
    decide
  · exact ((C175_coordinates c175Parse (fun _ => none) c175Polygon).2.2.2.2.1 _).2 c175Polygon_read
  · rw [C175_collection]
    refine ⟨⟨[], [], rfl, by simp⟩, Or.inl ⟨?_, rfl⟩⟩
    intro j hj
    rw [List.mem_singleton, Prod.mk.injEq] at hj
    exact absurd hj.1 (by decide)

/-- **C175**: `geometries` that is `null`, or has an element that is `null` after elements that are taken, makes the
decoder panic. -/
theorem C175_null_geometries (parse : List Byte → Option F64) (parseU : List Byte → Option (BitVec 64))
    (kvs : List (Str × Json)) (ht : HasType kvs "GeometryCollection") :
    (Has kvs "geometries" .null → unmarshalGeom parse parseU (.obj kvs) = .panic) ∧
    ∀ js rest, (∀ j ∈ js, ∃ g, unmarshalGeom parse parseU j = .ok g) → Has kvs "geometries" (.arr (js ++ .null :: rest)) →
      unmarshalGeom parse parseU (.obj kvs) = .panic := by
  have open' : unmarshalGeom parse parseU (.obj kvs) =
      match geometriesOf parse parseU kvs none with
        | none => .ok (.collection (some []))
        | some r => r.map fun gs => .collection (some gs) := by
    rw [unmarshalGeom, typeOf_ok.2 ht, Res.bind_ok', if_neg (by decide), if_neg (by decide), if_neg (by decide),
      if_neg (by decide), if_neg (by decide), if_neg (by decide), if_pos (by decide)]
    cases geometriesOf parse parseU kvs none <;> rfl
  constructor
  · intro h
    have : lookup kGeometries kvs = some .null := lookup_iff.2 h
    rw [open', geometriesOf_lookup, this]
    simp only [Option.map_some]
    rw [membersOf]
    rfl
  · intro js rest hok h
    have : lookup kGeometries kvs = some (.arr (js ++ .null :: rest)) := lookup_iff.2 h
    rw [open', geometriesOf_lookup, this]
    simp only [Option.map_some]
    rw [membersOf]
    have : unmarshalGeoms parse parseU (js ++ .null :: rest) = .panic := by
      clear this h open' ht
      induction js with
      | nil => rw [List.nil_append, unmarshalGeoms]
      | cons j js ih =>
        obtain ⟨g, hg⟩ := hok j (List.mem_cons_self ..)
        have hj : j ≠ .null := by rintro rfl; rw [unmarshalGeom] at hg; cases hg
        rw [List.cons_append, unmarshalGeoms]
        · rw [hg, ih (fun j hj => hok j (List.mem_cons_of_mem _ hj))]
          rfl
        · exact hj
    rw [this]
    rfl

example : HasType [("type".toList, .str "GeometryCollection".toList), ("geometries".toList, .null)] "GeometryCollection" ∧
    Has [("type".toList, .str "GeometryCollection".toList), ("geometries".toList, .null)] "geometries" .null := by
  refine ⟨⟨[], [_], rfl, ?_⟩, ⟨[_], [], rfl, by simp⟩⟩
  intro kv hkv
  rw [List.mem_singleton] at hkv
  subst hkv
  show "geometries".toList ≠ "type".toList
  decide

/-- **C175**: what is read at the top is a feature or a feature collection of features only; the member `type` names it,
upper and lower case being one. -/
theorem C175_top (parse : List Byte → Option F64) (parseU : List Byte → Option (BitVec 64)) (j : Json) (g : G)
    (h : unmarshal parse parseU j = .ok g) :
    ∃ kvs kv s, j = .obj kvs ∧ kv ∈ kvs ∧ kv.1.map Char.toLower = "type".toList ∧ kv.2 = .str s ∧
      ((s.map Char.toLower = "feature".toList ∧ ∃ id x p, g = .feature id x p) ∨
        (s.map Char.toLower = "featurecollection".toList ∧ (g = .features none ∨
          ∃ fs, g = .features (some fs) ∧ ∀ f ∈ fs, ∃ id x p, f = .feature id x p))) := by
  have elems : ∀ js (fs : List G), collectFeatures (featureElems parse parseU js) = .ok fs →
      ∀ f ∈ fs, ∃ id x p, f = .feature id x p := by
    intro js
    induction js with
    | nil => intro fs h; rw [featureElems, collectFeatures] at h; cases h; simp
    | cons j js ih =>
      intro fs h
      rw [featureElems] at h
      obtain ⟨g, gs, h1, h2, rfl⟩ := collect_cons h
      rw [List.forall_mem_cons]
      refine ⟨?_, ih gs h2⟩
      unfold featureElem at h1
      split at h1
      · exact result_feature h1
      · exact result_feature h1
      · cases h1
  have arr : ∀ j s, featureArr parse parseU j = .ok s → s = none ∨ ∃ fs, s = some fs ∧ ∀ f ∈ fs, ∃ id x p, f = .feature id x p := by
    intro j s h
    unfold featureArr at h
    split at h
    · cases h; exact Or.inl rfl
    · rw [Res.map_ok] at h
      obtain ⟨fs, h1, rfl⟩ := h
      exact Or.inr ⟨fs, rfl, elems _ fs h1⟩
    · cases h
  have of : ∀ kvs s, featuresOf parse parseU kvs = some (.ok s) →
      s = none ∨ ∃ fs, s = some fs ∧ ∀ f ∈ fs, ∃ id x p, f = .feature id x p := by
    intro kvs
    induction kvs with
    | nil => intro s h; rw [featuresOf] at h; cases h
    | cons kv kvs ih =>
      intro s h
      obtain ⟨k, j⟩ := kv
      rw [featuresOf] at h
      unfold Res.after at h
      split at h
      · exact ih s h
      · split_ifs at h
        exact arr j s (Option.some.inj h)
      · cases h
      · cases h
      · cases h
      · exact ih s h
  cases j with
  | obj kvs =>
    rw [unmarshal, Res.bind_ok] at h
    obtain ⟨t, ht, h⟩ := h
    have ne : ∀ s : Str, s ≠ [] → fold t = s → ∃ kv ∈ kvs, fold kv.1 = kType ∧ kv.2 = .str t := by
      intro s hs e
      rcases topType_ok ht with rfl | h'
      · exact absurd e.symm hs
      · exact h'
    split_ifs at h with e1 e2
    · obtain ⟨kv, k1, k2, k3⟩ := ne _ (by decide) e1
      exact ⟨kvs, kv, t, rfl, k1, k2, k3, Or.inl ⟨e1, result_feature h⟩⟩
    · obtain ⟨kv, k1, k2, k3⟩ := ne _ (by decide) e2
      refine ⟨kvs, kv, t, rfl, k1, k2, k3, Or.inr ⟨e2, ?_⟩⟩
      split at h
      · cases h; exact Or.inl rfl
      · rename_i r hr
        rw [Res.map_ok] at h
        obtain ⟨s, h1, rfl⟩ := h
        subst h1
        rcases of kvs s hr with rfl | ⟨fs, rfl, hf⟩
        · exact Or.inl rfl
        · exact Or.inr ⟨fs, rfl, hf⟩
  | _ => rw [unmarshal] at h <;> cases h

/-- A feature collection without features. -/
example : unmarshal c175Parse (fun _ => none) (.obj [("Type".toList, .str "featureCollection".toList)]) =
    .ok (.features none) := by
  rw [unmarshal]
  have h1 : topType [("Type".toList, .str "featureCollection".toList)] = .ok "featureCollection".toList := by
    unfold topType
    rw [List.foldl_cons, if_pos (by decide)]
    rfl
  rw [h1, Res.bind_ok', if_neg (by decide), if_pos (by decide), featuresOf, featuresOf, if_neg (by decide)]
  rfl

end Verif.Props
