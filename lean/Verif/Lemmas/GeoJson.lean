import Verif.Model.GeoJson
import Verif.Spec.GeoJson

/-! Helper lemmas for the GeoJSON properties. -/

namespace Verif.GeoJson
open Verif Verif.Spec.GeoJson
open Verif.Spec.Wkb (samePoint)

/-- Induction over geometry values. -/
theorem G.induct {P : G → Prop}
    (point : ∀ p, P (.point p)) (multiPoint : ∀ ps, P (.multiPoint ps))
    (lineString : ∀ ps, P (.lineString ps)) (multiLineString : ∀ ls, P (.multiLineString ls))
    (polygon : ∀ rs, P (.polygon rs)) (multiPolygon : ∀ ps, P (.multiPolygon ps))
    (colNone : P (.collection none))
    (col : ∀ gs, (∀ g ∈ gs, P g) → P (.collection (some gs)))
    (feature : ∀ id g props, P g → P (.feature id g props))
    (fsNone : P (.features none))
    (fs : ∀ gs, (∀ g ∈ gs, P g) → P (.features (some gs)))
    (other : P .other) : ∀ g, P g := by
  intro g
  refine G.rec (motive_1 := P) (motive_2 := fun o => ∀ gs ∈ o, ∀ g ∈ gs, P g)
    (motive_3 := fun gs => ∀ g ∈ gs, P g) point multiPoint lineString multiLineString polygon
    multiPolygon ?_ ?_ ?_ other ?_ ?_ ?_ ?_ g
  · intro o h; cases o with
    | none => exact colNone
    | some gs => exact col gs (h gs rfl)
  · intro id g props h; exact feature id g props h
  · intro o h; cases o with
    | none => exact fsNone
    | some gs => exact fs gs (h gs rfl)
  · intro gs h; cases h
  · intro gs h gs' h'; cases h'; exact h
  · intro g h; cases h
  · intro hd tl h1 h2 g hg
    cases hg with
    | head => exact h1
    | tail _ h => exact h2 g h

theorem Res.bind_ok {α β : Type} {r : Res α} {f : α → Res β} {b : β} :
    r.bind f = .ok b ↔ ∃ a, r = .ok a ∧ f a = .ok b := by
  cases r <;> simp [Res.bind]

theorem Res.map_ok {α β : Type} {r : Res α} {f : α → β} {b : β} :
    r.map f = .ok b ↔ ∃ a, r = .ok a ∧ f a = b := by
  cases r <;> simp [Res.bind, Res.map]

@[simp] theorem Res.map_ok' {α β : Type} {a : α} {f : α → β} : (Res.ok a).map f = .ok (f a) := rfl
@[simp] theorem Res.map_err {α β : Type} {f : α → β} : (Res.err : Res α).map f = .err := rfl
@[simp] theorem Res.map_panic {α β : Type} {f : α → β} : (Res.panic : Res α).map f = .panic := rfl
@[simp] theorem Res.bind_ok' {α β : Type} {a : α} {f : α → Res β} : (Res.ok a).bind f = f a := rfl
@[simp] theorem Res.bind_err {α β : Type} {f : α → Res β} : (Res.err : Res α).bind f = .err := rfl
@[simp] theorem Res.bind_panic {α β : Type} {f : α → Res β} : (Res.panic : Res α).bind f = .panic := rfl

theorem Res.map_ne_panic {α β : Type} {r : Res α} {f : α → β} (h : r ≠ .panic) : r.map f ≠ .panic := by
  cases r <;> simp_all

theorem Res.bind_ne_panic {α β : Type} {r : Res α} {f : α → Res β} (h : r ≠ .panic)
    (h' : ∀ a, r = .ok a → f a ≠ .panic) : r.bind f ≠ .panic := by
  cases r <;> simp_all

/-! ### Rings -/

theorem if_not_swap {α : Type} (b : Bool) (x y : α) :
    (if (!b) = true then x else y) = if b = true then y else x := by cases b <;> rfl

theorem closeRing_eq (r : List (Pt F64)) : closeRing r = closed r := by
  cases r with
  | nil => rfl
  | cons a t =>
    simp only [closeRing, closed, List.head?_cons, List.getLast?_eq_some_getLast (List.cons_ne_nil a t)]
    exact if_not_swap (samePoint a _) _ _

theorem closeRings_eq (rs : Sl (Sl (Pt F64))) : closeRings rs = rs.map (·.map (·.map closed)) := by
  have : closeRing = closed := funext closeRing_eq
  simp [closeRings, this]

theorem key_refl {f : F64} (h : f.isNaN = false) : F64.eq f f = true := by simp [F64.eq, h]

theorem fin_not (f : F64) : fin f ↔ (f.isNaN || f.isInf) = false := by
  simp only [fin, F64.isNaN, F64.isInf, Bool.or_eq_false_iff, decide_eq_false_iff_not]
  omega

theorem fin_isNaN {f : F64} (h : fin f) : f.isNaN = false := by
  have := (fin_not f).1 h
  simp at this; simp [this.1]

theorem samePoint_refl {p : Pt F64} (h1 : p.1.isNaN = false) (h2 : p.2.isNaN = false) :
    samePoint p p = true := by
  simp [samePoint, key_refl h1, key_refl h2]

theorem mem_closed {r : List (Pt F64)} {p : Pt F64} : p ∈ closed r ↔ p ∈ r := by
  cases r with
  | nil => simp [closed]
  | cons a t =>
    simp only [closed, List.head?_cons, List.getLast?_eq_some_getLast (List.cons_ne_nil a t)]
    split
    · simp
    · simp only [List.cons_append, List.mem_cons, List.mem_append, List.not_mem_nil, or_false]
      constructor
      · rintro (h | h | h) <;> simp [h]
      · rintro (h | h) <;> simp [h]

/-! ### Numbers and positions -/

theorem numJson_ok {fmt : F64 → List Byte} {f : F64} {j : Json} :
    numJson fmt f = .ok j ↔ fin f ∧ j = .num (fmt f) := by
  simp only [numJson, fin_not]
  cases h : (f.isNaN || f.isInf) <;> simp [eq_comm]

theorem numJson_ne_panic {fmt : F64 → List Byte} {f : F64} : numJson fmt f ≠ .panic := by
  simp only [numJson]; split <;> simp

theorem posJson_ok {fmt : F64 → List Byte} {p : Pt F64} {j : Json} :
    posJson fmt p = .ok j ↔ finPt p ∧ j = .arr [.num (fmt p.1), .num (fmt p.2)] := by
  simp only [posJson, Res.bind_ok, numJson_ok, finPt]
  constructor
  · rintro ⟨a, ⟨h1, rfl⟩, b, ⟨h2, rfl⟩, h⟩
    exact ⟨⟨h1, h2⟩, by cases h; rfl⟩
  · rintro ⟨⟨h1, h2⟩, rfl⟩
    exact ⟨_, ⟨h1, rfl⟩, _, ⟨h2, rfl⟩, rfl⟩

/-- Whether every element can be written decides whether a slice can. -/
theorem listJson_ok {α : Type} {f : α → Res Json} {l : List α} :
    (∃ js, listJson f l = .ok js) ↔ ∀ a ∈ l, ∃ j, f a = .ok j := by
  induction l with
  | nil => simp [listJson]
  | cons a l ih =>
    simp only [listJson, Res.bind_ok, List.forall_mem_cons, ← ih]
    constructor
    · rintro ⟨js, j, h1, js', h2, _⟩; exact ⟨⟨j, h1⟩, js', h2⟩
    · rintro ⟨⟨j, h1⟩, js', h2⟩; exact ⟨_, j, h1, js', h2, rfl⟩

theorem slJson_ok {α : Type} {f : α → Res Json} {s : Sl α} :
    (∃ j, slJson f s = .ok j) ↔ ∀ l ∈ s, ∀ a ∈ l, ∃ j, f a = .ok j := by
  cases s with
  | none => simp [slJson]
  | some l =>
    simp only [slJson, Res.map_ok, Option.mem_def, Option.some.injEq, forall_eq', ← listJson_ok]
    constructor
    · rintro ⟨j, js, h, _⟩; exact ⟨js, h⟩
    · rintro ⟨js, h⟩; exact ⟨_, js, h, rfl⟩

theorem listJson_ne_panic {α : Type} {f : α → Res Json} (h : ∀ a, f a ≠ .panic) (l : List α) :
    listJson f l ≠ .panic := by
  induction l with
  | nil => simp [listJson]
  | cons a l ih => exact Res.bind_ne_panic (h a) fun _ _ => Res.bind_ne_panic ih fun _ _ => by simp

theorem slJson_ne_panic {α : Type} {f : α → Res Json} (h : ∀ a, f a ≠ .panic) (s : Sl α) :
    slJson f s ≠ .panic := by
  cases s with
  | none => simp [slJson]
  | some l => exact Res.map_ne_panic (listJson_ne_panic h l)

theorem posJson_ne_panic {fmt : F64 → List Byte} (p : Pt F64) : posJson fmt p ≠ .panic :=
  Res.bind_ne_panic numJson_ne_panic fun _ _ => Res.bind_ne_panic numJson_ne_panic fun _ _ => by simp

/-! ### Reading back slices -/

theorem decList_rt {α : Type} {f : α → Res Json} {d : Json → Res α} {l : List α} {js : List Json}
    (h : ∀ a ∈ l, ∀ j, f a = .ok j → d j = .ok a) (hl : listJson f l = .ok js) :
    decList d js = .ok l := by
  induction l generalizing js with
  | nil => simp [listJson] at hl; subst hl; rfl
  | cons a l ih =>
    simp only [listJson, Res.bind_ok] at hl
    obtain ⟨j, h1, js', h2, h3⟩ := hl
    cases h3
    simp [decList, h a (by simp) j h1, ih (fun b hb => h b (by simp [hb])) h2]

theorem decSl_rt {α : Type} {f : α → Res Json} {d : Json → Res α} {s : Sl α} {j : Json}
    (h : ∀ a j, f a = .ok j → d j = .ok a) (hs : slJson f s = .ok j) : decSl d j = .ok s := by
  cases s with
  | none => simp [slJson] at hs; subst hs; rfl
  | some l =>
    simp only [slJson, Res.map_ok] at hs
    obtain ⟨js, h1, rfl⟩ := hs
    simp [decSl, decList_rt (fun a _ => h a) h1]

theorem slJson_null {α : Type} {f : α → Res Json} {s : Sl α} {j : Json} (h : slJson f s = .ok j) :
    j = .null ↔ s = none := by
  cases s with
  | none => simp [slJson] at h; simp [← h]
  | some l =>
    simp only [slJson, Res.map_ok] at h
    obtain ⟨js, _, rfl⟩ := h
    simp

theorem decPos_rt {fmt : F64 → List Byte} {parse : List Byte → Option F64}
    (hp : ∀ f, fin f → parse (fmt f) = some f) (p : Pt F64) (j : Json)
    (h : posJson fmt p = .ok j) : decPos parse j = .ok p := by
  obtain ⟨⟨h1, h2⟩, rfl⟩ := posJson_ok.1 h
  simp [decPos, decNum, hp _ h1, hp _ h2]

/-! ### Member lookup -/

theorem lookup_type (t : Str) (j : Json) :
    lookup kType [(kType, .str t), (kCoordinates, j)] = some (.str t) := by
  simp [lookup, kType, kCoordinates]

theorem lookup_coords (t : Str) (j : Json) :
    lookup kCoordinates [(kType, .str t), (kCoordinates, j)] = some j := by
  simp [lookup, kType, kCoordinates]

theorem typeOf_coords (t : Str) (j : Json) :
    typeOf [(kType, .str t), (kCoordinates, j)] = .ok t := by
  simp [typeOf, lookup_type, decodeField, decStr]

theorem decodeField_some {α : Type} {f : Json → Res α} {j : Json} (h : j ≠ .null) :
    decodeField f (some j) = f j := by
  cases j <;> simp_all [decodeField]

theorem decodeField_null {α : Type} {f : Json → Res α} :
    decodeField f (some .null) = .panic := rfl

/-! ### What can be written -/

theorem coordsObj_ok {t : Str} {c : Res Json} : (∃ j, coordsObj t c = .ok j) ↔ ∃ j, c = .ok j := by
  cases c <;> simp [coordsObj]

theorem posJson_ok' {fmt : F64 → List Byte} {p : Pt F64} : (∃ j, posJson fmt p = .ok j) ↔ finPt p := by
  simp [posJson_ok]

theorem marshalGeoms_ok {fmt : F64 → List Byte} {gs : List G}
    (ih : ∀ g ∈ gs, (∃ j, marshalGeom fmt g = .ok j) ↔ Writable g) :
    (∃ js, marshalGeoms fmt gs = .ok js) ↔ WritableAll gs := by
  induction gs with
  | nil => simp [marshalGeoms, WritableAll]
  | cons g gs ih' =>
    simp only [marshalGeoms, Res.bind_ok, WritableAll, ← ih g (by simp),
      ← ih' (fun g' hg => ih g' (by simp [hg]))]
    constructor
    · rintro ⟨js, j, h1, js', h2, _⟩; exact ⟨⟨j, h1⟩, js', h2⟩
    · rintro ⟨⟨j, h1⟩, js', h2⟩; exact ⟨_, j, h1, js', h2, rfl⟩

theorem finLine_closed (l : Sl (Pt F64)) : finLine (l.map closed) ↔ finLine l := by
  cases l <;> simp [finLine, mem_closed]

theorem marshalGeom_ok {fmt : F64 → List Byte} (g : G) :
    (∃ j, marshalGeom fmt g = .ok j) ↔ Writable g := by
  induction g using G.induct with
  | point p => simp only [marshalGeom, coordsObj_ok, posJson_ok', Writable]
  | multiPoint ps => simp only [marshalGeom, coordsObj_ok, slJson_ok, posJson_ok', Writable, finLine]
  | lineString ps => simp only [marshalGeom, coordsObj_ok, slJson_ok, posJson_ok', Writable, finLine]
  | multiLineString ls => simp only [marshalGeom, coordsObj_ok, slJson_ok, posJson_ok', Writable, finLine]
  | polygon rs =>
    simp only [marshalGeom, coordsObj_ok, slJson_ok, posJson_ok', Writable, closeRings_eq]
    cases rs with
    | none => simp
    | some rs =>
      simp only [Option.map_some, Option.mem_def, Option.some.injEq, forall_eq', List.mem_map,
        forall_exists_index, and_imp, forall_apply_eq_imp_iff₂]
      exact forall_congr' fun r => forall_congr' fun _ => finLine_closed r
  | multiPolygon ps =>
    simp only [marshalGeom, coordsObj_ok, slJson_ok, posJson_ok', Writable]
    cases ps with
    | none => simp
    | some ps =>
      simp only [Option.map_some, Option.mem_def, Option.some.injEq, forall_eq', List.mem_map,
        forall_exists_index, and_imp, forall_apply_eq_imp_iff₂, closeRings_eq]
      refine forall_congr' fun p => forall_congr' fun _ => ?_
      cases p with
      | none => simp
      | some p =>
        simp only [Option.map_some, Option.some.injEq, forall_eq', List.mem_map,
          forall_exists_index, and_imp, forall_apply_eq_imp_iff₂]
        exact forall_congr' fun r => forall_congr' fun _ => finLine_closed r
  | colNone => simp [marshalGeom, Writable]
  | col gs ih =>
    simp only [marshalGeom, Writable, ← marshalGeoms_ok ih, Res.map_ok]
    constructor
    · rintro ⟨j, js, h, _⟩; exact ⟨js, h⟩
    · rintro ⟨js, h⟩; exact ⟨_, js, h, rfl⟩
  | feature id g props _ => simp [marshalGeom, Writable]
  | fsNone => simp [marshalGeom, Writable]
  | fs gs _ => simp [marshalGeom, Writable]
  | other => simp [marshalGeom, Writable]

/-! ### Reading back a geometry -/

theorem marshalGeom_obj {fmt : F64 → List Byte} {g : G} {j : Json} (h : marshalGeom fmt g = .ok j) :
    ∃ kvs, j = .obj kvs := by
  have hc : ∀ t c, coordsObj t c = .ok j → ∃ kvs, j = .obj kvs := by
    intro t c h; obtain ⟨a, _, rfl⟩ := Res.map_ok.1 h; exact ⟨_, rfl⟩
  have hk : ∀ js, ∃ kvs, collectionObj js = .obj kvs := by
    intro js; cases js <;> exact ⟨_, rfl⟩
  cases g with
  | collection o =>
    cases o with
    | none => simp [marshalGeom] at h; rw [← h]; exact hk []
    | some gs =>
      simp only [marshalGeom, Res.map_ok] at h
      obtain ⟨js, _, rfl⟩ := h; exact hk js
  | feature _ _ _ => simp [marshalGeom] at h
  | features _ => simp [marshalGeom] at h
  | other => simp [marshalGeom] at h
  | _ => rw [marshalGeom] at h; exact hc _ _ h

section back
variable {fmt : F64 → List Byte} {parse : List Byte → Option F64}
  {parseU : List Byte → Option (BitVec 64)}

/-- Reading `{type: t, coordinates: j}` back when the coordinates are a slice. -/
theorem coords_back {α : Type} {f : α → Res Json} {d : Json → Res α} {s : Sl α} {t : Str}
    {k : Sl α → G} {j : Json}
    (hu : ∀ c, unmarshalGeom parse parseU (.obj [(kType, .str t), (kCoordinates, c)]) =
      (decodeField (decSl d) (some c)).map k)
    (hd : ∀ a j, f a = .ok j → d j = .ok a) (h : coordsObj t (slJson f s) = .ok j) :
    (s ≠ none → unmarshalGeom parse parseU j = .ok (k s)) ∧
    (s = none → unmarshalGeom parse parseU j = .panic) := by
  obtain ⟨c, hc, rfl⟩ := Res.map_ok.1 h
  rw [hu]
  constructor
  · intro hn
    rw [decodeField_some (fun e => hn ((slJson_null hc).1 e)), decSl_rt hd hc]; rfl
  · rintro rfl
    simp [slJson] at hc; subst hc; rfl

theorem back_point (c : Json) :
    unmarshalGeom parse parseU (.obj [(kType, .str tPoint), (kCoordinates, c)]) =
      (decodeField (decPos parse) (some c)).map .point := by
  simp only [unmarshalGeom, typeOf_coords, lookup_coords, Res.bind_ok']
  rw [if_pos trivial]

theorem back_multiPoint (c : Json) :
    unmarshalGeom parse parseU (.obj [(kType, .str tMultiPoint), (kCoordinates, c)]) =
      (decodeField (decSl (decPos parse)) (some c)).map .multiPoint := by
  simp only [unmarshalGeom, typeOf_coords, lookup_coords, Res.bind_ok']
  rw [if_neg (by decide), if_neg (by decide), if_neg (by decide), if_pos trivial]

theorem back_lineString (c : Json) :
    unmarshalGeom parse parseU (.obj [(kType, .str tLineString), (kCoordinates, c)]) =
      (decodeField (decSl (decPos parse)) (some c)).map .lineString := by
  simp only [unmarshalGeom, typeOf_coords, lookup_coords, Res.bind_ok']
  rw [if_neg (by decide), if_neg (by decide), if_pos trivial]

theorem back_polygon (c : Json) :
    unmarshalGeom parse parseU (.obj [(kType, .str tPolygon), (kCoordinates, c)]) =
      (decodeField (decSl (decSl (decPos parse))) (some c)).map .polygon := by
  simp only [unmarshalGeom, typeOf_coords, lookup_coords, Res.bind_ok']
  rw [if_neg (by decide), if_pos trivial]

theorem back_multiLineString (c : Json) :
    unmarshalGeom parse parseU (.obj [(kType, .str tMultiLineString), (kCoordinates, c)]) =
      (decodeField (decSl (decSl (decPos parse))) (some c)).map .multiLineString := by
  simp only [unmarshalGeom, typeOf_coords, lookup_coords, Res.bind_ok']
  rw [if_neg (by decide), if_neg (by decide), if_neg (by decide), if_neg (by decide), if_pos trivial]

theorem back_multiPolygon (c : Json) :
    unmarshalGeom parse parseU (.obj [(kType, .str tMultiPolygon), (kCoordinates, c)]) =
      (decodeField (decSl (decSl (decSl (decPos parse)))) (some c)).map .multiPolygon := by
  simp only [unmarshalGeom, typeOf_coords, lookup_coords, Res.bind_ok']
  rw [if_neg (by decide), if_neg (by decide), if_neg (by decide), if_neg (by decide),
    if_neg (by decide), if_pos trivial]

theorem back_collection (js : List Json) :
    unmarshalGeom parse parseU (collectionObj js) =
      (unmarshalGeoms parse parseU js).map fun gs => .collection (some gs) := by
  cases js with
  | nil =>
    simp only [collectionObj, unmarshalGeom]
    have : typeOf [(kType, .str tCollection)] = .ok tCollection := by
      simp [typeOf, lookup, decodeField, decStr]
    rw [this, Res.bind_ok', if_neg (by decide), if_neg (by decide), if_neg (by decide),
      if_neg (by decide), if_neg (by decide), if_neg (by decide), if_pos rfl]
    have : geometriesOf parse parseU [(kType, .str tCollection)] none = none := by
      rw [geometriesOf, geometriesOf, if_neg (by decide)]
    rw [this]; rfl
  | cons j js =>
    simp only [collectionObj, unmarshalGeom]
    have : typeOf [(kType, .str tCollection), (kGeometries, .arr (j :: js))] = .ok tCollection := by
      simp [typeOf, lookup, decodeField, decStr, kType, kGeometries]
    rw [this, Res.bind_ok', if_neg (by decide), if_neg (by decide), if_neg (by decide),
      if_neg (by decide), if_neg (by decide), if_neg (by decide), if_pos rfl]
    have : geometriesOf parse parseU [(kType, .str tCollection), (kGeometries, .arr (j :: js))] none
        = some (unmarshalGeoms parse parseU (j :: js)) := by
      rw [geometriesOf, geometriesOf, geometriesOf, if_pos rfl]; rfl
    rw [this]

theorem unmarshalGeoms_obj (kvs : List (Str × Json)) (js : List Json) :
    unmarshalGeoms parse parseU (.obj kvs :: js) = (unmarshalGeom parse parseU (.obj kvs)).bind fun g =>
      (unmarshalGeoms parse parseU js).bind fun gs => .ok (g :: gs) := by
  rw [unmarshalGeoms]; simp

theorem geoms_back {gs : List G} {js : List Json}
    (ih : ∀ g ∈ gs, ∀ j, marshalGeom fmt g = .ok j →
      (NoNil g → unmarshalGeom parse parseU j = .ok (closedGeom g)) ∧
      (¬ NoNil g → unmarshalGeom parse parseU j = .panic))
    (h : marshalGeoms fmt gs = .ok js) :
    (NoNilAll gs → unmarshalGeoms parse parseU js = .ok (closedGeoms gs)) ∧
    (¬ NoNilAll gs → unmarshalGeoms parse parseU js = .panic) := by
  induction gs generalizing js with
  | nil => simp [marshalGeoms] at h; subst h; simp [NoNilAll, unmarshalGeoms, closedGeoms]
  | cons g gs ih' =>
    simp only [marshalGeoms, Res.bind_ok] at h
    obtain ⟨j, h1, js', h2, h3⟩ := h
    cases h3
    obtain ⟨kvs, rfl⟩ := marshalGeom_obj h1
    have hg := ih g (by simp) _ h1
    have hgs := ih' (fun g' hg => ih g' (by simp [hg])) h2
    rw [unmarshalGeoms_obj]
    simp only [NoNilAll, closedGeoms]
    constructor
    · rintro ⟨a, b⟩; rw [hg.1 a, hgs.1 b]; rfl
    · intro hn
      by_cases ha : NoNil g
      · have hb : ¬ NoNilAll gs := fun hb => hn ⟨ha, hb⟩
        rw [hg.1 ha, hgs.2 hb]; rfl
      · rw [hg.2 ha]; rfl

theorem geom_back (hp : ∀ f, fin f → parse (fmt f) = some f) (g : G) :
    ∀ j, marshalGeom fmt g = .ok j →
      (NoNil g → unmarshalGeom parse parseU j = .ok (closedGeom g)) ∧
      (¬ NoNil g → unmarshalGeom parse parseU j = .panic) := by
  have hpos := decPos_rt (parse := parse) hp
  have hsl : ∀ (a : Sl (Pt F64)) j, slJson (posJson fmt) a = .ok j → decSl (decPos parse) j = .ok a :=
    fun a j h => decSl_rt hpos h
  have hsl2 : ∀ (a : Sl (Sl (Pt F64))) j, slJson (slJson (posJson fmt)) a = .ok j →
      decSl (decSl (decPos parse)) j = .ok a := fun a j h => decSl_rt hsl h
  induction g using G.induct with
  | point p =>
    intro j h
    rw [marshalGeom] at h
    obtain ⟨c, hc, rfl⟩ := Res.map_ok.1 h
    have hne : c ≠ .null := by obtain ⟨_, rfl⟩ := posJson_ok.1 hc; simp
    rw [back_point, decodeField_some hne, hpos p c hc]
    simp [NoNil, closedGeom]
  | multiPoint ps =>
    intro j h; rw [marshalGeom] at h
    simpa [NoNil, closedGeom] using coords_back back_multiPoint hpos h
  | lineString ps =>
    intro j h; rw [marshalGeom] at h
    simpa [NoNil, closedGeom] using coords_back back_lineString hpos h
  | multiLineString ls =>
    intro j h; rw [marshalGeom] at h
    simpa [NoNil, closedGeom] using coords_back back_multiLineString hsl h
  | polygon rs =>
    intro j h; rw [marshalGeom] at h
    simpa [NoNil, closedGeom, closeRings_eq] using coords_back back_polygon hsl h
  | multiPolygon ps =>
    intro j h; rw [marshalGeom] at h
    have := coords_back (parseU := parseU) back_multiPolygon hsl2 h
    have he : (fun x => closeRings x) = fun x : Sl (Sl (Pt F64)) => x.map (·.map (·.map closed)) :=
      funext closeRings_eq
    simpa [NoNil, closedGeom, he] using this
  | colNone =>
    intro j h; simp [marshalGeom] at h; subst h
    rw [back_collection]; simp [NoNil, closedGeom, unmarshalGeoms]
  | col gs ih =>
    intro j h; simp only [marshalGeom, Res.map_ok] at h
    obtain ⟨js, h1, rfl⟩ := h
    have := geoms_back ih h1
    rw [back_collection]
    simp only [NoNil, closedGeom]
    exact ⟨fun a => by rw [this.1 a]; rfl, fun a => by rw [this.2 a]; rfl⟩
  | feature id g props _ => intro j h; simp [marshalGeom] at h
  | fsNone => intro j h; simp [marshalGeom] at h
  | fs gs _ => intro j h; simp [marshalGeom] at h
  | other => intro j h; simp [marshalGeom] at h

end back

end Verif.GeoJson
