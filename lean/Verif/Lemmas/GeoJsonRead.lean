import Verif.Spec.GeoJsonRead
import Verif.Lemmas.GeoJsonFeat
import Mathlib.Data.List.Induction

/-! # Lemmas about what the GeoJSON decoder takes -/

namespace Verif.GeoJsonRead
open Verif Verif.GeoJson Verif.Spec.GeoJsonRead

theorem lookup_acc (k : Str) (kvs : List (Str × Json)) (acc : Option Json) (j : Json) :
    kvs.foldl (fun acc kv => if kv.1 = k then some kv.2 else acc) acc = some j ↔
      (∃ a b, kvs = a ++ (k, j) :: b ∧ ∀ kv ∈ b, kv.1 ≠ k) ∨ ((∀ kv ∈ kvs, kv.1 ≠ k) ∧ acc = some j) := by
  induction kvs generalizing acc with
  | nil => simp
  | cons kv kvs ih =>
    rw [List.foldl_cons, ih]
    constructor
    · rintro (⟨a, b, rfl, h⟩ | ⟨h, h'⟩)
      · exact Or.inl ⟨kv :: a, b, rfl, h⟩
      · split_ifs at h' with e
        · cases h'
          refine Or.inl ⟨[], kvs, ?_, h⟩
          obtain ⟨k', j'⟩ := kv
          subst e; rfl
        · exact Or.inr ⟨List.forall_mem_cons.2 ⟨e, h⟩, h'⟩
    · rintro (⟨a, b, e, h⟩ | ⟨h, h'⟩)
      · cases a with
        | nil =>
          cases e
          exact Or.inr ⟨h, if_pos rfl⟩
        | cons x a =>
          cases e
          exact Or.inl ⟨a, b, rfl, h⟩
      · rw [List.forall_mem_cons] at h
        exact Or.inr ⟨h.2, by rw [if_neg h.1]; exact h'⟩

theorem lookup_iff {kvs : List (Str × Json)} {name : String} {j : Json} :
    lookup name.toList kvs = some j ↔ Has kvs name j := by
  unfold lookup Has
  rw [lookup_acc]
  simp

theorem decodeField_ok {α : Type} {f : Json → Res α} {o : Option Json} {a : α} :
    decodeField f o = .ok a ↔ ∃ j, o = some j ∧ j ≠ .null ∧ f j = .ok a := by
  cases o with
  | none => simp [decodeField]
  | some j => cases j <;> simp [decodeField]

theorem typeOf_ok {kvs : List (Str × Json)} {t : Str} : typeOf kvs = .ok t ↔ Has kvs "type" (.str t) := by
  unfold typeOf
  rw [decodeField_ok]
  constructor
  · rintro ⟨j, h1, h2, h3⟩
    cases j <;> simp [decStr] at h3 h2
    subst h3
    exact lookup_iff.1 h1
  · intro h
    exact ⟨_, lookup_iff.2 h, by simp, rfl⟩

theorem type_unique {kvs : List (Str × Json)} {a b : Json} (h1 : Has kvs "type" a) (h2 : Has kvs "type" b) : a = b := by
  rw [← lookup_iff] at h1 h2
  exact Option.some.inj (h1.symm.trans h2)

theorem num_iff {parse : List Byte → Option F64} {c : Json} {f : F64} : decNum parse c = .ok f ↔ Number parse c f := by
  unfold Number
  cases c with
  | null =>
    rw [decNum, Res.ok.injEq]
    constructor
    · rintro rfl; exact Or.inr ⟨rfl, rfl⟩
    · rintro (⟨_, h, _⟩ | ⟨_, rfl⟩)
      · cases h
      · rfl
  | num lit =>
    simp only [decNum, Json.num.injEq, reduceCtorEq, false_and, or_false, exists_eq_left']
    cases parse lit <;> simp
  | _ => simp [decNum]

theorem pos_iff {parse : List Byte → Option F64} {c : Json} {p : Pt F64} : decPos parse c = .ok p ↔ Position parse c p := by
  constructor
  · intro h
    unfold decPos at h
    split at h
    · cases h; exact .null
    · cases h; exact .none
    · rw [Res.bind_ok] at h
      obtain ⟨x, h1, h2⟩ := h
      cases h2
      exact .one (num_iff.1 h1)
    · rw [Res.bind_ok] at h
      obtain ⟨x, h1, h2⟩ := h
      rw [Res.bind_ok] at h2
      obtain ⟨y, h2, h3⟩ := h2
      cases h3
      exact .two (num_iff.1 h1) (num_iff.1 h2)
    · cases h
  · intro h
    cases h with
    | null => rfl
    | none => rfl
    | one h => rw [decPos, num_iff.2 h]; rfl
    | two h h' => rw [decPos, num_iff.2 h, num_iff.2 h']; rfl

theorem list_iff {α : Type} {f : Json → Res α} {R : Json → α → Prop} (h : ∀ j a, f j = .ok a ↔ R j a) :
    ∀ (js : List Json) (l : List α), decList f js = .ok l ↔ List.Forall₂ R js l
  | [], l => by
    rw [decList, Res.ok.injEq]
    cases l <;> simp
  | j :: js, l => by
    rw [decList, Res.bind_ok]
    constructor
    · rintro ⟨a, h1, h2⟩
      rw [Res.bind_ok] at h2
      obtain ⟨as, h2, h3⟩ := h2
      cases h3
      exact .cons ((h j a).1 h1) ((list_iff h js as).1 h2)
    · intro h'
      cases h' with
      | cons h1 h2 => exact ⟨_, (h _ _).2 h1, by rw [(list_iff h js _).2 h2]; rfl⟩

theorem sl_iff {α : Type} {f : Json → Res α} {R : Json → α → Prop} (h : ∀ j a, f j = .ok a ↔ R j a) (c : Json)
    (s : Sl α) : decSl f c = .ok s ↔ Array R c s := by
  constructor
  · intro e
    unfold decSl at e
    split at e
    · cases e; exact .null
    · rw [Res.map_ok] at e
      obtain ⟨l, h1, rfl⟩ := e
      exact .array ((list_iff h _ l).1 h1)
    · cases e
  · intro e
    cases e with
    | null => rfl
    | array e => rw [decSl, (list_iff h _ _).2 e]; rfl

theorem coords_iff {α : Type} {kvs : List (Str × Json)} {f : Json → Res α} {R : Json → α → Prop}
    (h : ∀ j a, f j = .ok a ↔ R j a) {g : α → G} {x : G} :
    (decodeField f (lookup kCoordinates kvs)).map g = .ok x ↔ ∃ v, x = g v ∧ Coordinates kvs R v := by
  rw [Res.map_ok]
  constructor
  · rintro ⟨v, h1, rfl⟩
    rw [decodeField_ok] at h1
    obtain ⟨j, h1, h2, h3⟩ := h1
    exact ⟨v, rfl, j, lookup_iff.1 h1, h2, (h j v).1 h3⟩
  · rintro ⟨v, rfl, j, h1, h2, h3⟩
    exact ⟨v, decodeField_ok.2 ⟨j, lookup_iff.2 h1, h2, (h j v).2 h3⟩, rfl⟩

theorem geoms_iff (parse : List Byte → Option F64) (parseU : List Byte → Option (BitVec 64)) :
    ∀ (js : List Json) (gs : List G), unmarshalGeoms parse parseU js = .ok gs ↔
      List.Forall₂ (fun j g => unmarshalGeom parse parseU j = .ok g) js gs
  | [], gs => by
    rw [unmarshalGeoms, Res.ok.injEq]
    cases gs <;> simp
  | j :: js, gs => by
    have hnull : unmarshalGeom parse parseU .null = .err := by rw [unmarshalGeom]
    by_cases hj : j = .null
    · subst hj
      rw [unmarshalGeoms]
      constructor
      · intro h; cases h
      · intro h; cases h with | cons h1 _ => rw [hnull] at h1; cases h1
    · have e : unmarshalGeoms parse parseU (j :: js) = (unmarshalGeom parse parseU j).bind fun g =>
          (unmarshalGeoms parse parseU js).bind fun gs => .ok (g :: gs) := by
        rw [unmarshalGeoms]
        exact hj
      rw [e, Res.bind_ok]
      constructor
      · rintro ⟨a, h1, h2⟩
        rw [Res.bind_ok] at h2
        obtain ⟨as, h2, h3⟩ := h2
        cases h3
        exact .cons h1 ((geoms_iff parse parseU js as).1 h2)
      · intro h'
        cases h' with
        | cons h1 h2 => exact ⟨_, h1, by rw [(geoms_iff parse parseU js _).2 h2]; rfl⟩

theorem members_iff {parse : List Byte → Option F64} {parseU : List Byte → Option (BitVec 64)} {j : Json} {gs : List G} :
    membersOf parse parseU j = .ok gs ↔
      ∃ js, j = .arr js ∧ List.Forall₂ (fun j g => unmarshalGeom parse parseU j = .ok g) js gs := by
  cases j with
  | arr js =>
    rw [membersOf, geoms_iff]
    constructor
    · exact fun h => ⟨js, rfl, h⟩
    · rintro ⟨_, ⟨⟩, h⟩; exact h
  | _ => rw [membersOf] <;> simp

theorem geometriesOf_eq (parse : List Byte → Option F64) (parseU : List Byte → Option (BitVec 64)) :
    ∀ (kvs : List (Str × Json)) (acc : Option Json), geometriesOf parse parseU kvs (acc.map (membersOf parse parseU)) =
      (kvs.foldl (fun acc kv => if kv.1 = kGeometries then some kv.2 else acc) acc).map (membersOf parse parseU)
  | [], acc => by rw [geometriesOf]; rfl
  | (k, j) :: kvs, acc => by
    rw [geometriesOf, List.foldl_cons, ← geometriesOf_eq parse parseU kvs]
    congr 1
    split_ifs <;> rfl

theorem geometriesOf_lookup (parse : List Byte → Option F64) (parseU : List Byte → Option (BitVec 64))
    (kvs : List (Str × Json)) :
    geometriesOf parse parseU kvs none = (lookup kGeometries kvs).map (membersOf parse parseU) :=
  geometriesOf_eq parse parseU kvs none

theorem lookup_none {kvs : List (Str × Json)} {name : String} :
    lookup name.toList kvs = none ↔ ∀ j, (name.toList, j) ∉ kvs := by
  constructor
  · intro h j hj
    have : ∀ j, ¬ Has kvs name j := fun j hj => by rw [← lookup_iff, h] at hj; cases hj
    -- take the last one
    have : ∀ l : List (Str × Json), (∃ j, (name.toList, j) ∈ l) → ∃ j, Has l name j := by
      intro l
      induction l using List.reverseRecOn with
      | nil => rintro ⟨j, hj⟩; cases hj
      | append_singleton l kv ih =>
        rintro ⟨j, hj⟩
        by_cases e : kv.1 = name.toList
        · exact ⟨kv.2, l, [], by rw [← e], by simp⟩
        · rw [List.mem_append, List.mem_singleton] at hj
          rcases hj with hj | hj
          · obtain ⟨j', a, b, rfl, hb⟩ := ih ⟨j, hj⟩
            refine ⟨j', a, b ++ [kv], by simp, ?_⟩
            intro x hx
            rw [List.mem_append, List.mem_singleton] at hx
            rcases hx with hx | rfl
            · exact hb x hx
            · exact e
          · exact absurd (by rw [← hj]) e
    obtain ⟨j', hj'⟩ := this kvs ⟨j, hj⟩
    exact ‹∀ j, ¬ Has kvs name j› j' hj'
  · intro h
    cases e : lookup name.toList kvs with
    | none => rfl
    | some j =>
      obtain ⟨a, b, rfl, _⟩ := lookup_iff.1 e
      exact absurd (by simp) (h j)

theorem result_feature {s : FState} {g : G} (h : s.result = .ok g) : ∃ id x p, g = .feature id x p := by
  unfold FState.result at h
  split_ifs at h
  cases h
  exact ⟨_, _, _, rfl⟩

theorem collect_cons {r : Res G} {rs : List (Res G)} {fs : List G} (h : collectFeatures (r :: rs) = .ok fs) :
    ∃ g gs, r = .ok g ∧ collectFeatures rs = .ok gs ∧ fs = g :: gs := by
  cases hq : collectFeatures rs <;> cases r <;> simp [collectFeatures, hq] at h ⊢
  exact h.symm

theorem topType_acc (kvs : List (Str × Json)) (acc : Res Str) (t : Str)
    (h : kvs.foldl (fun acc kv =>
      if fold kv.1 = kType then
        match kv.2 with
        | .str s => acc.bind fun _ => .ok s
        | .null => acc
        | _ => .err
      else acc) acc = .ok t) : acc = .ok t ∨ ∃ kv ∈ kvs, fold kv.1 = kType ∧ kv.2 = .str t := by
  induction kvs generalizing acc with
  | nil => exact Or.inl h
  | cons kv kvs ih =>
    rw [List.foldl_cons] at h
    rcases ih _ h with h | ⟨x, hx, h⟩
    · split_ifs at h with e
      · obtain ⟨k, j⟩ := kv
        cases j <;> simp only [reduceCtorEq] at h
        · exact Or.inl h
        · rw [Res.bind_ok] at h
          obtain ⟨_, _, h⟩ := h
          cases h
          exact Or.inr ⟨_, List.mem_cons_self .., e, rfl⟩
      · exact Or.inl h
    · exact Or.inr ⟨x, List.mem_cons_of_mem _ hx, h⟩

theorem topType_ok {kvs : List (Str × Json)} {t : Str} (h : topType kvs = .ok t) :
    t = [] ∨ ∃ kv ∈ kvs, fold kv.1 = kType ∧ kv.2 = .str t := by
  rcases topType_acc kvs _ t h with h | h
  · cases h; exact Or.inl rfl
  · exact Or.inr h

end Verif.GeoJsonRead
