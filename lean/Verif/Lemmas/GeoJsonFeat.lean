import Verif.Lemmas.GeoJson

/-! Helper lemmas about features, nulls, foreign members and member order. -/

namespace Verif.GeoJson
open Verif Verif.Spec.GeoJson

/-! ### Property values -/

section vals
variable {fmt : F64 → List Byte} {parse : List Byte → Option F64}

theorem numJson_ok' {f : F64} : (∃ j, numJson fmt f = .ok j) ↔ fin f := by simp [numJson_ok]

theorem map_ok_ex {α β : Type} {r : Res α} {f : α → β} : (∃ b, r.map f = .ok b) ↔ ∃ a, r = .ok a := by
  cases r <;> simp

theorem bind2_ok_ex {α β γ : Type} {r : Res α} {s : Res β} {f : α → β → γ} :
    (∃ c, (r.bind fun a => s.bind fun b => .ok (f a b)) = .ok c) ↔
      (∃ a, r = .ok a) ∧ ∃ b, s = .ok b := by
  cases r <;> cases s <;> simp

mutual
theorem valJson_ok : ∀ v : Val, (∃ j, valJson fmt v = .ok j) ↔ FinVal v
  | .nil => by simp [valJson, FinVal]
  | .bool b => by simp [valJson, FinVal]
  | .num f => by simp only [valJson, numJson_ok', FinVal]
  | .str s => by simp [valJson, FinVal]
  | .arr vs => by simp only [valJson, map_ok_ex, FinVal, valsJson_ok vs]
  | .map kvs => by simp only [valJson, map_ok_ex, FinVal, fieldsJson_ok kvs]
theorem valsJson_ok : ∀ vs : List Val, (∃ js, valsJson fmt vs = .ok js) ↔ FinVals vs
  | [] => by simp [valsJson, FinVals]
  | v :: vs => by simp only [valsJson, bind2_ok_ex, FinVals, valJson_ok v, valsJson_ok vs]
theorem fieldsJson_ok : ∀ kvs : List (Str × Val), (∃ js, fieldsJson fmt kvs = .ok js) ↔ FinFields kvs
  | [] => by simp [fieldsJson, FinFields]
  | (k, v) :: kvs => by
    simp only [fieldsJson, bind2_ok_ex, FinFields, valJson_ok v, fieldsJson_ok kvs]
end

theorem propsJson_ok {props : Props} : (∃ j, propsJson fmt props = .ok j) ↔ FinProps props := by
  cases props with
  | none => simp [propsJson, FinProps]
  | some kvs => simp only [propsJson, map_ok_ex, FinProps, FinVal, fieldsJson_ok kvs]

theorem setKey_new {k : Str} {v : Val} {m : List (Str × Val)} (h : k ∉ m.map (·.1)) :
    setKey k v m = m ++ [(k, v)] := by
  induction m with
  | nil => rfl
  | cons a m ih =>
    obtain ⟨k', v'⟩ := a
    simp only [List.map_cons, List.mem_cons, not_or] at h
    simp [setKey, Ne.symm h.1, ih h.2]

mutual
theorem val_back (hp : ∀ f, fin f → parse (fmt f) = some f) :
    ∀ v j, MapVal v → valJson fmt v = .ok j → decVal parse j = .ok v
  | .nil, j, _, h => by simp [valJson] at h; subst h; rfl
  | .bool b, j, _, h => by simp [valJson] at h; subst h; rfl
  | .num f, j, _, h => by
    rw [valJson] at h
    obtain ⟨hf, rfl⟩ := numJson_ok.1 h
    simp [decVal, hp f hf]
  | .str s, j, _, h => by simp [valJson] at h; subst h; rfl
  | .arr vs, j, hm, h => by
    rw [valJson] at h
    obtain ⟨js, h1, rfl⟩ := Res.map_ok.1 h
    rw [MapVal] at hm
    rw [decVal, vals_back hp vs js hm h1]; rfl
  | .map kvs, j, hm, h => by
    rw [valJson] at h
    obtain ⟨js, h1, rfl⟩ := Res.map_ok.1 h
    rw [MapVal] at hm
    rw [decVal, fields_back hp kvs js [] hm.1 (by simpa using hm.2) h1]; rfl
theorem vals_back (hp : ∀ f, fin f → parse (fmt f) = some f) :
    ∀ vs js, MapVals vs → valsJson fmt vs = .ok js → decVals parse js = .ok vs
  | [], js, _, h => by simp [valsJson] at h; subst h; rfl
  | v :: vs, js, hm, h => by
    rw [valsJson] at h
    simp only [Res.bind_ok] at h
    obtain ⟨j, h1, js', h2, h3⟩ := h
    cases h3
    rw [MapVals] at hm
    rw [decVals, val_back hp v j hm.1 h1, Res.bind_ok', vals_back hp vs js' hm.2 h2]; rfl
theorem fields_back (hp : ∀ f, fin f → parse (fmt f) = some f) :
    ∀ kvs js m, MapFields kvs → (m.map (·.1) ++ kvs.map (·.1)).Nodup →
      fieldsJson fmt kvs = .ok js → decFields parse js m = .ok (m ++ kvs)
  | [], js, m, _, _, h => by simp [fieldsJson] at h; subst h; simp [decFields]
  | (k, v) :: kvs, js, m, hm, hn, h => by
    rw [fieldsJson] at h
    simp only [Res.bind_ok] at h
    obtain ⟨j, h1, js', h2, h3⟩ := h
    cases h3
    rw [MapFields] at hm
    have hk : k ∉ m.map (·.1) := by
      intro hk
      rw [List.nodup_append] at hn
      exact hn.2.2 k hk k (by simp) rfl
    rw [decFields, val_back hp v j hm.1 h1, Res.bind_ok', setKey_new hk,
      fields_back hp kvs js' _ hm.2 (by simpa using hn) h2]
    simp
end

end vals

/-! ### Features -/

section feat
variable {fmt : F64 → List Byte} {fmtU : BitVec 64 → List Byte} {parse : List Byte → Option F64}
  {parseU : List Byte → Option (BitVec 64)}

theorem featureJson_ok {id : Option (BitVec 64)} {g : G} {props : Props} :
    (∃ j, featureJson fmt fmtU id g props = .ok j) ↔ Writable g ∧ FinProps props := by
  simp only [featureJson, bind2_ok_ex, marshalGeom_ok, propsJson_ok]

theorem setProps_back (hp : ∀ f, fin f → parse (fmt f) = some f) {props : Props} {j : Json}
    (hm : MapProps props) (h : propsJson fmt props = .ok j) (s : FState) (hs : s.props = none) :
    setProps parse j s = { s with props := props } := by
  cases props with
  | none => simp [propsJson] at h; subst h; rfl
  | some kvs =>
    rw [propsJson] at h
    obtain ⟨js, h1, rfl⟩ := Res.map_ok.1 h
    rw [MapProps, MapVal] at hm
    have := fields_back hp kvs js [] hm.1 (by simpa using hm.2) h1
    simp [setProps, hs, this]

theorem ff_type (j : Json) (kvs : List (Str × Json)) (s : FState) :
    featureFields parse parseU ((kType, j) :: kvs) s = featureFields parse parseU kvs s := by
  rw [featureFields, if_neg (by decide), if_neg (by decide), if_neg (by decide)]

theorem ff_id (j : Json) (kvs : List (Str × Json)) (s : FState) :
    featureFields parse parseU ((kId, j) :: kvs) s = featureFields parse parseU kvs (setId parseU j s) := by
  rw [featureFields, if_pos (by decide)]

theorem ff_geometry (j : Json) (kvs : List (Str × Json)) (s : FState) :
    featureFields parse parseU ((kGeometry, j) :: kvs) s =
      featureFields parse parseU kvs (setGeom (unmarshalGeom parse parseU j) s) := by
  rw [featureFields, if_neg (by decide), if_pos (by decide)]

theorem ff_props (j : Json) (kvs : List (Str × Json)) (s : FState) :
    featureFields parse parseU ((kProperties, j) :: kvs) s =
      featureFields parse parseU kvs (setProps parse j s) := by
  rw [featureFields, if_neg (by decide), if_neg (by decide), if_pos (by decide)]

theorem ff_nil (s : FState) : featureFields parse parseU [] s = s := by rw [featureFields]

theorem ff_back (hp : ∀ f, fin f → parse (fmt f) = some f) (hu : ∀ n, parseU (fmtU n) = some n)
    {id : Option (BitVec 64)} {g : G} {props : Props} {j : Json} (hm : MapProps props)
    (h : featureJson fmt fmtU id g props = .ok j) :
    ∃ kvs, j = .obj ((kType, .str tFeature) :: kvs) ∧
      (∀ k ∈ kvs, fold k.1 ≠ kType) ∧
      (NoNil g → (featureFields parse parseU ((kType, .str tFeature) :: kvs) {}).result =
        .ok (.feature id (closedGeom g) props)) ∧
      (¬ NoNil g → (featureFields parse parseU ((kType, .str tFeature) :: kvs) {}).result = .panic) := by
  simp only [featureJson, Res.bind_ok] at h
  obtain ⟨gj, hg, pj, hpj, h⟩ := h
  cases h
  refine ⟨_, rfl, ?_, ?_⟩
  · intro k hk
    simp only [List.mem_append, List.mem_cons, List.not_mem_nil, or_false] at hk
    rcases hk with hk | rfl | rfl
    · cases id with
      | none => simp [idField] at hk
      | some n => simp only [idField, List.mem_cons, List.not_mem_nil, or_false] at hk
                  subst hk; show fold kId ≠ kType; decide
    · show fold kGeometry ≠ kType; decide
    · show fold kProperties ≠ kType; decide
  · have hb := geom_back (parseU := parseU) hp g gj hg
    rw [ff_type]
    have hid : featureFields parse parseU (idField fmtU id ++ [(kGeometry, gj), (kProperties, pj)]) {} =
        featureFields parse parseU [(kGeometry, gj), (kProperties, pj)] { id := id } := by
      cases id with
      | none => rfl
      | some n => simp only [idField, List.cons_append, List.nil_append, ff_id, setId, hu]
    rw [hid, ff_geometry, ff_props, ff_nil]
    constructor
    · intro hn
      rw [hb.1 hn, setProps_back hp hm hpj _ rfl]; rfl
    · intro hn
      rw [hb.2 hn, setProps_back hp hm hpj _ rfl]; rfl

theorem topType_skip {kvs : List (Str × Json)} (h : ∀ k ∈ kvs, fold k.1 ≠ kType) (r : Res Str) :
    kvs.foldl (fun acc kv =>
      if fold kv.1 = kType then
        match kv.2 with
        | .str s => acc.bind fun _ => .ok s
        | .null => acc
        | _ => .err
      else acc) r = r := by
  induction kvs generalizing r with
  | nil => rfl
  | cons a kvs ih =>
    rw [List.foldl_cons, if_neg (h a (by simp)), ih (fun k hk => h k (by simp [hk]))]

theorem topType_first {t : Str} {kvs : List (Str × Json)} (h : ∀ k ∈ kvs, fold k.1 ≠ kType) :
    topType ((kType, .str t) :: kvs) = .ok t := by
  rw [topType, List.foldl_cons, if_pos (by show fold kType = kType; decide)]
  exact topType_skip h _

theorem feature_back (hp : ∀ f, fin f → parse (fmt f) = some f) (hu : ∀ n, parseU (fmtU n) = some n)
    {id : Option (BitVec 64)} {g : G} {props : Props} {j : Json} (hm : MapProps props)
    (h : featureJson fmt fmtU id g props = .ok j) :
    (NoNil g → unmarshal parse parseU j = .ok (.feature id (closedGeom g) props)) ∧
    (¬ NoNil g → unmarshal parse parseU j = .panic) := by
  obtain ⟨kvs, rfl, hk, h1, h2⟩ := ff_back (parse := parse) (parseU := parseU) hp hu hm h
  rw [unmarshal, topType_first hk, Res.bind_ok', if_pos rfl]
  exact ⟨h1, h2⟩

theorem elem_back (hp : ∀ f, fin f → parse (fmt f) = some f) (hu : ∀ n, parseU (fmtU n) = some n)
    {f : G} {j : Json} (hm : MapFeature f) (h : memberJson fmt fmtU f = .ok j) :
    (NoNilFeature f → featureElem parse parseU j = .ok (closedFeature f)) ∧
    (¬ NoNilFeature f → featureElem parse parseU j = .panic) := by
  cases f with
  | feature id g props =>
    obtain ⟨kvs, rfl, _, h1, h2⟩ := ff_back (parse := parse) (parseU := parseU) hp hu hm h
    rw [featureElem]
    exact ⟨h1, h2⟩
  | _ => simp [memberJson] at h

theorem elems_back (hp : ∀ f, fin f → parse (fmt f) = some f) (hu : ∀ n, parseU (fmtU n) = some n)
    {fs : List G} {js : List Json} (hm : ∀ f ∈ fs, MapFeature f)
    (h : listJson (memberJson fmt fmtU) fs = .ok js) :
    ((∀ f ∈ fs, NoNilFeature f) →
      collectFeatures (featureElems parse parseU js) = .ok (fs.map closedFeature)) ∧
    (¬ (∀ f ∈ fs, NoNilFeature f) → collectFeatures (featureElems parse parseU js) = .panic) := by
  induction fs generalizing js with
  | nil => simp [listJson] at h; subst h; simp [featureElems, collectFeatures]
  | cons f fs ih =>
    simp only [listJson, Res.bind_ok] at h
    obtain ⟨j, h1, js', h2, h3⟩ := h
    cases h3
    have hf := elem_back (parse := parse) (parseU := parseU) hp hu (hm f (by simp)) h1
    have hfs := ih (fun f' hf' => hm f' (by simp [hf'])) h2
    simp only [featureElems, collectFeatures, List.forall_mem_cons, List.map_cons]
    constructor
    · rintro ⟨a, b⟩; rw [hf.1 a, hfs.1 b]
    · intro hn
      by_cases ha : NoNilFeature f
      · rw [hf.1 ha, hfs.2 fun b => hn ⟨ha, b⟩]
      · rw [hf.2 ha]

theorem fs_of (t : Json) (c : Json) :
    featuresOf parse parseU [(kType, t), (kFeatures, c)] = some (featureArr parse parseU c) := by
  rw [featuresOf, featuresOf, featuresOf, if_neg (by decide), if_pos (by decide)]; rfl

theorem features_back (hp : ∀ f, fin f → parse (fmt f) = some f) (hu : ∀ n, parseU (fmtU n) = some n)
    {fs : List G} {j : Json} (hm : ∀ f ∈ fs, MapFeature f)
    (h : featuresJson fmt fmtU (some fs) = .ok j) :
    ((∀ f ∈ fs, NoNilFeature f) → unmarshal parse parseU j = .ok (.features (some (fs.map closedFeature)))) ∧
    (¬ (∀ f ∈ fs, NoNilFeature f) → unmarshal parse parseU j = .panic) := by
  rw [featuresJson, slJson] at h
  obtain ⟨c, hc, rfl⟩ := Res.map_ok.1 h
  obtain ⟨js, hjs, rfl⟩ := Res.map_ok.1 hc
  have hb := elems_back (parse := parse) (parseU := parseU) hp hu hm hjs
  rw [unmarshal, topType_first (by intro k hk; simp at hk; subst hk; show fold kFeatures ≠ kType; decide),
    Res.bind_ok', if_neg (by decide), if_pos rfl, fs_of]
  simp only [featureArr]
  exact ⟨fun a => by rw [hb.1 a]; rfl, fun a => by rw [hb.2 a]; rfl⟩

theorem features_back_nil {j : Json} (h : featuresJson fmt fmtU none = .ok j) :
    unmarshal parse parseU j = .ok (.features none) := by
  simp [featuresJson, slJson] at h
  subst h
  rw [unmarshal, topType_first (by intro k hk; simp at hk; subst hk; show fold kFeatures ≠ kType; decide),
    Res.bind_ok', if_neg (by decide), if_pos rfl, fs_of]
  rfl

theorem featuresJson_ok {fs : Option (List G)} :
    (∃ j, featuresJson fmt fmtU fs = .ok j) ↔ ∀ l ∈ fs, ∀ f ∈ l, WritableFeature f := by
  simp only [featuresJson, map_ok_ex, slJson_ok]
  refine forall_congr' fun l => forall_congr' fun _ => forall_congr' fun f => forall_congr' fun _ => ?_
  cases f <;> simp [memberJson, WritableFeature, featureJson_ok]

end feat

/-! ### Writing never panics -/

section wnp
variable {fmt : F64 → List Byte}

theorem marshalGeoms_np {gs : List G} (h : ∀ g ∈ gs, marshalGeom fmt g ≠ .panic) :
    marshalGeoms fmt gs ≠ .panic := by
  induction gs with
  | nil => simp [marshalGeoms]
  | cons g gs ih =>
    rw [marshalGeoms]
    exact Res.bind_ne_panic (h g (by simp)) fun _ _ =>
      Res.bind_ne_panic (ih fun g' hg => h g' (by simp [hg])) fun _ _ => by simp

theorem marshalGeom_np (g : G) : marshalGeom fmt g ≠ .panic := by
  induction g using G.induct with
  | point p => rw [marshalGeom]; exact Res.map_ne_panic (posJson_ne_panic p)
  | multiPoint ps => rw [marshalGeom]; exact Res.map_ne_panic (slJson_ne_panic posJson_ne_panic _)
  | lineString ps => rw [marshalGeom]; exact Res.map_ne_panic (slJson_ne_panic posJson_ne_panic _)
  | multiLineString ls =>
    rw [marshalGeom]; exact Res.map_ne_panic (slJson_ne_panic (slJson_ne_panic posJson_ne_panic) _)
  | polygon rs =>
    rw [marshalGeom]; exact Res.map_ne_panic (slJson_ne_panic (slJson_ne_panic posJson_ne_panic) _)
  | multiPolygon ps =>
    rw [marshalGeom]
    exact Res.map_ne_panic (slJson_ne_panic (slJson_ne_panic (slJson_ne_panic posJson_ne_panic)) _)
  | colNone => simp [marshalGeom]
  | col gs ih => rw [marshalGeom]; exact Res.map_ne_panic (marshalGeoms_np ih)
  | feature id g props _ => simp [marshalGeom]
  | fsNone => simp [marshalGeom]
  | fs gs _ => simp [marshalGeom]
  | other => simp [marshalGeom]

mutual
theorem valJson_np : ∀ v : Val, valJson fmt v ≠ .panic
  | .nil => by simp [valJson]
  | .bool b => by simp [valJson]
  | .num f => by rw [valJson]; exact numJson_ne_panic
  | .str s => by simp [valJson]
  | .arr vs => by rw [valJson]; exact Res.map_ne_panic (valsJson_np vs)
  | .map kvs => by rw [valJson]; exact Res.map_ne_panic (fieldsJson_np kvs)
theorem valsJson_np : ∀ vs : List Val, valsJson fmt vs ≠ .panic
  | [] => by simp [valsJson]
  | v :: vs => by
    rw [valsJson]
    exact Res.bind_ne_panic (valJson_np v) fun _ _ => Res.bind_ne_panic (valsJson_np vs) fun _ _ => by simp
theorem fieldsJson_np : ∀ kvs : List (Str × Val), fieldsJson fmt kvs ≠ .panic
  | [] => by simp [fieldsJson]
  | (k, v) :: kvs => by
    rw [fieldsJson]
    exact Res.bind_ne_panic (valJson_np v) fun _ _ => Res.bind_ne_panic (fieldsJson_np kvs) fun _ _ => by simp
end

theorem propsJson_np (p : Props) : propsJson fmt p ≠ .panic := by
  cases p with
  | none => simp [propsJson]
  | some kvs => rw [propsJson]; exact Res.map_ne_panic (fieldsJson_np kvs)

end wnp

/-! ### No panic without nulls -/

section np
variable {parse : List Byte → Option F64} {parseU : List Byte → Option (BitVec 64)}

theorem decNum_np (j : Json) : decNum parse j ≠ .panic := by
  cases j <;> simp only [decNum] <;> (try simp)
  split <;> simp

theorem decPos_np (j : Json) : decPos parse j ≠ .panic := by
  unfold decPos
  split
  · simp
  · simp
  · exact Res.bind_ne_panic (decNum_np _) fun _ _ => by simp
  · exact Res.bind_ne_panic (decNum_np _) fun _ _ => Res.bind_ne_panic (decNum_np _) fun _ _ => by simp
  · simp

theorem decList_np {α : Type} {f : Json → Res α} (h : ∀ j, f j ≠ .panic) (js : List Json) :
    decList f js ≠ .panic := by
  induction js with
  | nil => simp [decList]
  | cons j js ih => exact Res.bind_ne_panic (h j) fun _ _ => Res.bind_ne_panic ih fun _ _ => by simp

theorem decSl_np {α : Type} {f : Json → Res α} (h : ∀ j, f j ≠ .panic) (j : Json) :
    decSl f j ≠ .panic := by
  cases j <;> simp only [decSl] <;> (try simp)
  exact Res.map_ne_panic (decList_np h _)

theorem decodeField_np {α : Type} {f : Json → Res α} (h : ∀ j, f j ≠ .panic) {o : Option Json}
    (ho : o ≠ some .null) : decodeField f o ≠ .panic := by
  cases o with
  | none => simp [decodeField]
  | some j => rw [decodeField_some (by rintro rfl; exact ho rfl)]; exact h j

theorem lookup_np {k : Str} (hk : k ∈ ["type".toList, "coordinates".toList, "geometries".toList])
    {kvs : List (Str × Json)} (h : NoNullsFields kvs) : lookup k kvs ≠ some .null := by
  suffices ∀ (acc : Option Json), acc ≠ some .null →
      kvs.foldl (fun acc kv => if kv.1 = k then some kv.2 else acc) acc ≠ some .null from
    this none (by simp)
  induction kvs with
  | nil => intro acc h; exact h
  | cons a kvs ih =>
    obtain ⟨k', j⟩ := a
    rw [NoNullsFields] at h
    intro acc hacc
    rw [List.foldl_cons]
    refine ih h.2.2.2 _ ?_
    split
    · rename_i e
      simp only [ne_eq, Option.some.injEq]
      have e : k' = k := e
      exact h.1 (by rw [e]; exact hk)
    · exact hacc

theorem typeOf_np {kvs : List (Str × Json)} (h : NoNullsFields kvs) : typeOf kvs ≠ .panic := by
  refine decodeField_np ?_ (lookup_np (k := kType) (by decide) h)
  intro j; cases j <;> simp [decStr]

theorem after_np {α : Type} {a b : Option (Res α)} (ha : a ≠ some .panic) (hb : b ≠ some .panic) :
    Res.after a b ≠ some .panic := by
  unfold Res.after
  split <;> simp_all

theorem collect_np {rs : List (Res G)} (h : ∀ r ∈ rs, r ≠ .panic) : collectFeatures rs ≠ .panic := by
  induction rs with
  | nil => simp [collectFeatures]
  | cons r rs ih =>
    have h1 := h r (by simp)
    have h2 := ih fun r' hr => h r' (by simp [hr])
    unfold collectFeatures
    split <;> simp_all

theorem result_np {s : FState} (h : s.crash = false) : s.result ≠ .panic := by
  simp only [FState.result, h]
  cases s.bad <;> simp

theorem setId_crash (j : Json) (s : FState) : (setId parseU j s).crash = s.crash := by
  unfold setId
  split
  · rfl
  · split <;> rfl
  · rfl

theorem setProps_crash (j : Json) (s : FState) : (setProps parse j s).crash = s.crash := by
  unfold setProps
  split
  · rfl
  · split <;> rfl
  · rfl

mutual
theorem np_geom : ∀ j, NoNulls j → unmarshalGeom parse parseU j ≠ .panic
  | .obj kvs, h => by
    rw [NoNulls] at h
    have hc : ∀ {α : Type} (f : Json → Res α), (∀ j, f j ≠ .panic) →
        decodeField f (lookup kCoordinates kvs) ≠ .panic :=
      fun f hf => decodeField_np hf (lookup_np (k := kCoordinates) (by decide) h)
    have hg := np_geometries kvs none h (by simp)
    have hf := np_ff kvs {} h rfl
    have hfs := np_fs kvs h
    rw [unmarshalGeom]
    refine Res.bind_ne_panic (typeOf_np h) fun t _ => ?_
    split
    · exact Res.map_ne_panic (hc _ decPos_np)
    split
    · exact Res.map_ne_panic (hc _ (decSl_np (decSl_np decPos_np)))
    split
    · exact Res.map_ne_panic (hc _ (decSl_np decPos_np))
    split
    · exact Res.map_ne_panic (hc _ (decSl_np decPos_np))
    split
    · exact Res.map_ne_panic (hc _ (decSl_np (decSl_np decPos_np)))
    split
    · exact Res.map_ne_panic (hc _ (decSl_np (decSl_np (decSl_np decPos_np))))
    split
    · cases e : geometriesOf parse parseU kvs none with
      | none => simp
      | some r => exact Res.map_ne_panic fun er => hg (by rw [e, er])
    split
    · exact result_np hf
    split
    · cases e : featuresOf parse parseU kvs with
      | none => simp
      | some r => exact Res.map_ne_panic fun er => hfs (by rw [e, er])
    · simp
  | .null, _ => by simp [unmarshalGeom]
  | .bool _, _ => by simp [unmarshalGeom]
  | .num _, _ => by simp [unmarshalGeom]
  | .str _, _ => by simp [unmarshalGeom]
  | .arr _, _ => by simp [unmarshalGeom]
theorem np_geometries : ∀ kvs acc, NoNullsFields kvs → acc ≠ some .panic →
    geometriesOf parse parseU kvs acc ≠ some .panic
  | [], acc, _, ha => by rw [geometriesOf]; exact ha
  | (k, j) :: kvs, acc, h, ha => by
    rw [NoNullsFields] at h
    rw [geometriesOf]
    refine np_geometries kvs _ h.2.2.2 ?_
    split
    · rename_i e
      subst e
      simp only [ne_eq, Option.some.injEq]
      exact np_members j h.2.2.1 (h.1 (by decide)) (h.2.1 (by decide))
    · exact ha
theorem np_members : ∀ j, NoNulls j → j ≠ .null → (∀ js, j = .arr js → ∀ m ∈ js, m ≠ .null) →
    membersOf parse parseU j ≠ .panic
  | .arr js, h, _, hm => by
    rw [NoNulls] at h
    rw [membersOf]
    exact np_geoms js h (hm js rfl)
  | .null, _, h, _ => absurd rfl h
  | .bool _, _, _, _ => by simp [membersOf]
  | .num _, _, _, _ => by simp [membersOf]
  | .str _, _, _, _ => by simp [membersOf]
  | .obj _, _, _, _ => by simp [membersOf]
theorem np_geoms : ∀ js, NoNullsAll js → (∀ m ∈ js, m ≠ .null) → unmarshalGeoms parse parseU js ≠ .panic
  | [], _, _ => by simp [unmarshalGeoms]
  | j :: js, h, hm => by
    rw [NoNullsAll] at h
    have h1 := np_geom j h.1
    have h2 := np_geoms js h.2 fun m hm' => hm m (by simp [hm'])
    have h3 := hm j (by simp)
    have e : unmarshalGeoms parse parseU (j :: js) = (unmarshalGeom parse parseU j).bind fun g =>
        (unmarshalGeoms parse parseU js).bind fun gs => .ok (g :: gs) := by
      rw [unmarshalGeoms]; exact h3
    rw [e]
    exact Res.bind_ne_panic h1 fun _ _ => Res.bind_ne_panic h2 fun _ _ => by simp
theorem np_ff : ∀ kvs s, NoNullsFields kvs → s.crash = false →
    (featureFields parse parseU kvs s).crash = false
  | [], s, _, hs => by rw [featureFields]; exact hs
  | (k, j) :: kvs, s, h, hs => by
    rw [NoNullsFields] at h
    rw [featureFields]
    refine np_ff kvs _ h.2.2.2 ?_
    have hj := np_geom j h.2.2.1
    split
    · rw [setId_crash, hs]
    split
    · cases e : unmarshalGeom parse parseU j with
      | ok g => exact hs
      | err => exact hs
      | panic => exact absurd e hj
    split
    · rw [setProps_crash, hs]
    · exact hs
theorem np_fs : ∀ kvs, NoNullsFields kvs → featuresOf parse parseU kvs ≠ some .panic
  | [], _ => by rw [featuresOf]; simp
  | (k, j) :: kvs, h => by
    rw [NoNullsFields] at h
    rw [featuresOf]
    refine after_np ?_ (np_fs kvs h.2.2.2)
    split
    · simp only [ne_eq, Option.some.injEq]; exact np_arr j h.2.2.1
    · simp
theorem np_arr : ∀ j, NoNulls j → featureArr parse parseU j ≠ .panic
  | .arr js, h => by
    rw [NoNulls] at h
    rw [featureArr]
    exact Res.map_ne_panic (collect_np (np_elems js h))
  | .null, _ => by simp [featureArr]
  | .bool _, _ => by simp [featureArr]
  | .num _, _ => by simp [featureArr]
  | .str _, _ => by simp [featureArr]
  | .obj _, _ => by simp [featureArr]
theorem np_elems : ∀ js, NoNullsAll js → ∀ r ∈ featureElems parse parseU js, r ≠ .panic
  | [], _ => by rw [featureElems]; simp
  | j :: js, h => by
    rw [NoNullsAll] at h
    rw [featureElems]
    intro r hr
    rcases List.mem_cons.1 hr with e | e
    · rw [e]; exact np_elem j h.1
    · exact np_elems js h.2 r e
theorem np_elem : ∀ j, NoNulls j → featureElem parse parseU j ≠ .panic
  | .obj kvs, h => by
    rw [NoNulls] at h
    rw [featureElem]
    exact result_np (np_ff kvs {} h rfl)
  | .null, _ => by rw [featureElem]; exact result_np rfl
  | .bool _, _ => by simp [featureElem]
  | .num _, _ => by simp [featureElem]
  | .str _, _ => by simp [featureElem]
  | .arr _, _ => by simp [featureElem]
end

theorem topType_np (kvs : List (Str × Json)) : topType kvs ≠ .panic := by
  suffices ∀ (acc : Res Str), acc ≠ .panic →
      kvs.foldl (fun acc kv =>
        if fold kv.1 = kType then
          match kv.2 with
          | .str s => acc.bind fun _ => .ok s
          | .null => acc
          | _ => .err
        else acc) acc ≠ .panic from this _ (by simp)
  induction kvs with
  | nil => intro acc h; exact h
  | cons a kvs ih =>
    intro acc h
    rw [List.foldl_cons]
    refine ih _ ?_
    split
    · split
      · exact Res.bind_ne_panic h fun _ _ => by simp
      · exact h
      · simp
    · exact h

theorem np_unmarshal (j : Json) (h : NoNulls j) : unmarshal parse parseU j ≠ .panic := by
  cases j with
  | obj kvs =>
    rw [NoNulls] at h
    have hf := np_ff (parse := parse) (parseU := parseU) kvs {} h rfl
    have hfs := np_fs (parse := parse) (parseU := parseU) kvs h
    rw [unmarshal]
    refine Res.bind_ne_panic (topType_np kvs) fun t _ => ?_
    split
    · exact result_np hf
    split
    · cases e : featuresOf parse parseU kvs with
      | none => simp
      | some r => exact Res.map_ne_panic fun er => hfs (by rw [e, er])
    · simp
  | _ => simp [unmarshal]

end np

/-! ### Foreign members and member order -/

section members
variable {parse : List Byte → Option F64} {parseU : List Byte → Option (BitVec 64)}

theorem known_eq : knownNames = [kType, kCoordinates, kGeometries, kId, kGeometry, kProperties, kFeatures] := by
  decide

theorem foreign_fold {k : Str} (h : Foreign k) {n : Str} (hn : n ∈ knownNames) : fold k ≠ n := by
  intro e; exact h (by rw [show k.map Char.toLower = fold k from rfl, e]; exact hn)

theorem foreign_exact {k : Str} (h : Foreign k) {n : Str} (hn : n ∈ knownNames) (hf : fold n = n) : k ≠ n := by
  intro e; exact foreign_fold h hn (by rw [e, hf])

theorem lookup_foreign {k n : Str} (h : k ≠ n) (j : Json) (a b : List (Str × Json)) :
    lookup n (a ++ (k, j) :: b) = lookup n (a ++ b) := by
  simp [lookup, h]

theorem geometries_foreign {k : Str} (h : k ≠ kGeometries) (j : Json) (a b : List (Str × Json))
    (acc : Option (Res (List G))) :
    geometriesOf parse parseU (a ++ (k, j) :: b) acc = geometriesOf parse parseU (a ++ b) acc := by
  induction a generalizing acc with
  | nil => simp only [List.nil_append]; rw [geometriesOf, if_neg h]
  | cons x a ih => obtain ⟨k', j'⟩ := x; simp only [List.cons_append]; rw [geometriesOf, geometriesOf, ih]

theorem ff_foreign {k : Str} (h : Foreign k) (j : Json) (a b : List (Str × Json)) (s : FState) :
    featureFields parse parseU (a ++ (k, j) :: b) s = featureFields parse parseU (a ++ b) s := by
  induction a generalizing s with
  | nil =>
    simp only [List.nil_append]
    rw [featureFields, if_neg (foreign_fold h (by decide)), if_neg (foreign_fold h (by decide)),
      if_neg (foreign_fold h (by decide))]
  | cons x a ih => obtain ⟨k', j'⟩ := x; simp only [List.cons_append]; rw [featureFields, featureFields, ih]

theorem fs_foreign {k : Str} (h : Foreign k) (j : Json) (a b : List (Str × Json)) :
    featuresOf parse parseU (a ++ (k, j) :: b) = featuresOf parse parseU (a ++ b) := by
  induction a with
  | nil =>
    simp only [List.nil_append]
    rw [featuresOf, if_neg (foreign_fold h (by decide))]; rfl
  | cons x a ih => obtain ⟨k', j'⟩ := x; simp only [List.cons_append]; rw [featuresOf, featuresOf, ih]

theorem topType_foreign {k : Str} (h : Foreign k) (j : Json) (a b : List (Str × Json)) :
    topType (a ++ (k, j) :: b) = topType (a ++ b) := by
  simp only [topType, List.foldl_append, List.foldl_cons]
  rw [if_neg (foreign_fold h (by decide))]

theorem unmarshalGeom_foreign {k : Str} (h : Foreign k) (j : Json) (a b : List (Str × Json)) :
    unmarshalGeom parse parseU (.obj (a ++ (k, j) :: b)) = unmarshalGeom parse parseU (.obj (a ++ b)) := by
  have h1 : k ≠ kType := foreign_exact h (by decide) (by decide)
  have h2 : k ≠ kCoordinates := foreign_exact h (by decide) (by decide)
  have h3 : k ≠ kGeometries := foreign_exact h (by decide) (by decide)
  simp only [unmarshalGeom, typeOf, lookup_foreign h1, lookup_foreign h2, geometries_foreign h3,
    ff_foreign h, fs_foreign h]

theorem unmarshal_foreign {k : Str} (h : Foreign k) (j : Json) (a b : List (Str × Json)) :
    unmarshal parse parseU (.obj (a ++ (k, j) :: b)) = unmarshal parse parseU (.obj (a ++ b)) := by
  simp only [unmarshal, topType_foreign h, ff_foreign h, fs_foreign h]

/-- The names of an object, folded. -/
def names (kvs : List (Str × Json)) : List Str := kvs.map fun kv => fold kv.1

theorem names_perm {a b : List (Str × Json)} (h : a.Perm b) : (names a).Perm (names b) := h.map _

theorem lookup_perm {a b : List (Str × Json)} (h : a.Perm b) (hn : (names a).Nodup) (n : Str) :
    lookup n a = lookup n b := by
  suffices ∀ acc, a.foldl (fun acc kv => if kv.1 = n then some kv.2 else acc) acc =
      b.foldl (fun acc kv => if kv.1 = n then some kv.2 else acc) acc from this none
  induction h with
  | nil => intro acc; rfl
  | cons x _ ih =>
    intro acc; rw [List.foldl_cons, List.foldl_cons]
    exact ih (by simp only [names, List.map_cons, List.nodup_cons] at hn; exact hn.2) _
  | swap x y l =>
    intro acc
    simp only [List.foldl_cons]
    by_cases hx : x.1 = n <;> by_cases hy : y.1 = n
    · simp [names, hx, hy] at hn
    · simp [hx, hy]
    · simp [hx, hy]
    · simp [hx, hy]
  | trans h1 h2 ih1 ih2 =>
    intro acc; rw [ih1 hn, ih2 ((names_perm h1).nodup_iff.1 hn)]

theorem geometries_perm {a b : List (Str × Json)} (h : a.Perm b) (hn : (names a).Nodup)
    (acc : Option (Res (List G))) : geometriesOf parse parseU a acc = geometriesOf parse parseU b acc := by
  induction h generalizing acc with
  | nil => rfl
  | cons x _ ih =>
    obtain ⟨k, j⟩ := x
    rw [geometriesOf, geometriesOf]
    exact ih (by simp only [names, List.map_cons, List.nodup_cons] at hn; exact hn.2) _
  | swap x y l =>
    obtain ⟨k, j⟩ := x; obtain ⟨k', j'⟩ := y
    simp only [geometriesOf]
    by_cases hx : k = kGeometries <;> by_cases hy : k' = kGeometries
    · simp [names, hx, hy] at hn
    · simp [hx, hy]
    · simp [hx, hy]
    · simp [hx, hy]
  | trans h1 h2 ih1 ih2 => rw [ih1 hn, ih2 ((names_perm h1).nodup_iff.1 hn)]

theorem topType_perm {a b : List (Str × Json)} (h : a.Perm b) (hn : (names a).Nodup) :
    topType a = topType b := by
  suffices ∀ (acc : Res Str), a.foldl (fun acc kv =>
        if fold kv.1 = kType then
          match kv.2 with
          | .str s => acc.bind fun _ => .ok s
          | .null => acc
          | _ => .err
        else acc) acc = b.foldl (fun acc kv =>
        if fold kv.1 = kType then
          match kv.2 with
          | .str s => acc.bind fun _ => .ok s
          | .null => acc
          | _ => .err
        else acc) acc from this _
  induction h with
  | nil => intro acc; rfl
  | cons x _ ih =>
    intro acc; rw [List.foldl_cons, List.foldl_cons]
    exact ih (by simp only [names, List.map_cons, List.nodup_cons] at hn; exact hn.2) _
  | swap x y l =>
    intro acc
    simp only [List.foldl_cons]
    by_cases hx : fold x.1 = kType <;> by_cases hy : fold y.1 = kType
    · simp [names, hx, hy] at hn
    · rw [if_pos hx, if_neg hy, if_neg hy, if_pos hx]
    · rw [if_neg hx, if_pos hy, if_pos hy, if_neg hx]
    · rw [if_neg hx, if_neg hy, if_neg hy, if_neg hx]
  | trans h1 h2 ih1 ih2 =>
    intro acc; rw [ih1 hn, ih2 ((names_perm h1).nodup_iff.1 hn)]

theorem after_comm {α : Type} (a b c : Option (Res α)) (h : a = none ∨ b = none) :
    Res.after a (Res.after b c) = Res.after b (Res.after a c) := by
  rcases h with rfl | rfl <;> rfl

theorem fs_perm {a b : List (Str × Json)} (h : a.Perm b) (hn : (names a).Nodup) :
    featuresOf parse parseU a = featuresOf parse parseU b := by
  induction h with
  | nil => rfl
  | cons x _ ih =>
    obtain ⟨k, j⟩ := x
    rw [featuresOf, featuresOf, ih (by simp only [names, List.map_cons, List.nodup_cons] at hn; exact hn.2)]
  | swap x y l =>
    obtain ⟨k, j⟩ := x; obtain ⟨k', j'⟩ := y
    simp only [featuresOf]
    apply after_comm
    by_cases hx : fold k = kFeatures
    · by_cases hy : fold k' = kFeatures
      · simp [names, hx, hy] at hn
      · left; rw [if_neg hy]
    · right; rw [if_neg hx]
  | trans h1 h2 ih1 ih2 => rw [ih1 hn, ih2 ((names_perm h1).nodup_iff.1 hn)]

/-- One step of reading a Feature's members. -/
def ffStep (parse : List Byte → Option F64) (parseU : List Byte → Option (BitVec 64))
    (k : Str) (j : Json) (s : FState) : FState :=
  if fold k = kId then setId parseU j s
  else if fold k = kGeometry then setGeom (unmarshalGeom parse parseU j) s
  else if fold k = kProperties then setProps parse j s
  else s

theorem setId_eq (j : Json) :
    ∃ f : Option (BitVec 64) → Option (BitVec 64), ∃ b : Bool, ∀ s : FState,
      setId parseU j s = { s with id := f s.id, bad := s.bad || b } := by
  unfold setId
  split
  · exact ⟨fun _ => none, false, fun s => by simp⟩
  · split
    · rename_i n _; exact ⟨fun _ => some n, false, fun s => by simp⟩
    · exact ⟨id, true, fun s => by simp⟩
  · exact ⟨id, true, fun s => by simp⟩

theorem setGeom_eq (r : Res G) :
    ∃ f : G → G, ∃ b c : Bool, ∀ s : FState,
      setGeom r s = { s with g := f s.g, bad := s.bad || b, crash := s.crash || c } := by
  cases r with
  | ok g => exact ⟨fun _ => g, false, false, fun s => by simp [setGeom]⟩
  | err => exact ⟨id, true, false, fun s => by simp [setGeom]⟩
  | panic => exact ⟨id, false, true, fun s => by simp [setGeom]⟩

theorem setProps_eq (j : Json) :
    ∃ f : Props → Props × Bool, ∀ s : FState,
      setProps parse j s = { s with props := (f s.props).1, bad := s.bad || (f s.props).2 } := by
  refine ⟨fun p => match j with
    | .null => (none, false)
    | .obj kvs => match decFields parse kvs (p.getD []) with
      | .ok m => (some m, false)
      | _ => (p, true)
    | _ => (p, true), fun s => ?_⟩
  unfold setProps
  cases j with
  | obj kvs =>
    simp only []
    cases decFields parse kvs (s.props.getD []) <;> simp
  | _ => simp

theorem ffStep_comm (x y : Str × Json) (h : fold x.1 ≠ fold y.1) (s : FState) :
    ffStep parse parseU x.1 x.2 (ffStep parse parseU y.1 y.2 s) =
    ffStep parse parseU y.1 y.2 (ffStep parse parseU x.1 x.2 s) := by
  obtain ⟨k, j⟩ := x; obtain ⟨k', j'⟩ := y
  simp only [] at h ⊢
  obtain ⟨f1, b1, e1⟩ := setId_eq (parseU := parseU) j
  obtain ⟨f1', b1', e1'⟩ := setId_eq (parseU := parseU) j'
  obtain ⟨f2, b2, c2, e2⟩ := setGeom_eq (unmarshalGeom parse parseU j)
  obtain ⟨f2', b2', c2', e2'⟩ := setGeom_eq (unmarshalGeom parse parseU j')
  obtain ⟨f3, e3⟩ := setProps_eq (parse := parse) j
  obtain ⟨f3', e3'⟩ := setProps_eq (parse := parse) j'
  simp only [ffStep, e1, e1', e2, e2', e3, e3']
  have hig : kId ≠ kGeometry := by decide
  have hip : kId ≠ kProperties := by decide
  have hgp : kGeometry ≠ kProperties := by decide
  by_cases a1 : fold k = kId
  · by_cases a2 : fold k' = kId
    · exact absurd (a1.trans a2.symm) h
    · by_cases a3 : fold k' = kGeometry
      · simp [a1, a3, hig.symm, Bool.or_right_comm]
      · by_cases a4 : fold k' = kProperties
        · simp [a1, a4, hip.symm, hgp.symm, Bool.or_right_comm]
        · simp [a1, a2, a3, a4]
  · by_cases a2 : fold k = kGeometry
    · by_cases a3 : fold k' = kId
      · simp [a2, a3, hig.symm, Bool.or_right_comm]
      · by_cases a4 : fold k' = kGeometry
        · exact absurd (a2.trans a4.symm) h
        · by_cases a5 : fold k' = kProperties
          · simp [a2, a5, hig.symm, hip.symm, hgp.symm, Bool.or_right_comm]
          · simp [a2, a3, a4, a5, hig.symm]
    · by_cases a6 : fold k = kProperties
      · by_cases a3 : fold k' = kId
        · simp [a6, a3, hip.symm, hgp.symm, Bool.or_right_comm]
        · by_cases a4 : fold k' = kGeometry
          · simp [a6, a4, hig.symm, hip.symm, hgp.symm, Bool.or_right_comm]
          · by_cases a5 : fold k' = kProperties
            · exact absurd (a6.trans a5.symm) h
            · simp [a6, a3, a4, a5, hip.symm, hgp.symm]
      · simp [a1, a2, a6]

theorem ff_cons (k : Str) (j : Json) (kvs : List (Str × Json)) (s : FState) :
    featureFields parse parseU ((k, j) :: kvs) s =
      featureFields parse parseU kvs (ffStep parse parseU k j s) := by
  rw [featureFields]; rfl

theorem ff_perm {a b : List (Str × Json)} (h : a.Perm b) (hn : (names a).Nodup) (s : FState) :
    featureFields parse parseU a s = featureFields parse parseU b s := by
  induction h generalizing s with
  | nil => rfl
  | cons x _ ih =>
    obtain ⟨k, j⟩ := x
    rw [featureFields, featureFields]
    exact ih (by simp only [names, List.map_cons, List.nodup_cons] at hn; exact hn.2) _
  | swap x y l =>
    have hxy : fold x.1 ≠ fold y.1 := by
      intro e; simp [names, e] at hn
    have := ffStep_comm (parse := parse) (parseU := parseU) x y hxy s
    obtain ⟨k, j⟩ := x; obtain ⟨k', j'⟩ := y
    rw [ff_cons, ff_cons, ff_cons, ff_cons, this]
  | trans h1 h2 ih1 ih2 => rw [ih1 hn, ih2 ((names_perm h1).nodup_iff.1 hn)]

theorem unmarshalGeom_perm {a b : List (Str × Json)} (h : a.Perm b) (hn : (names a).Nodup) :
    unmarshalGeom parse parseU (.obj a) = unmarshalGeom parse parseU (.obj b) := by
  simp only [unmarshalGeom, typeOf, lookup_perm h hn, geometries_perm h hn, ff_perm h hn, fs_perm h hn]

theorem unmarshal_perm {a b : List (Str × Json)} (h : a.Perm b) (hn : (names a).Nodup) :
    unmarshal parse parseU (.obj a) = unmarshal parse parseU (.obj b) := by
  simp only [unmarshal, topType_perm h hn, ff_perm h hn, fs_perm h hn]

end members

end Verif.GeoJson
