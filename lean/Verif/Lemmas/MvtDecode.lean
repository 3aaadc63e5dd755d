import Verif.Lemmas.MvtTile
import Verif.Spec.MvtDecode
import Verif.Props.Mvt
import Mathlib.Data.List.Forall2

/-!
# Tiles read back
-/

namespace Verif.Mvt
open Verif Verif.Spec.Mvt Verif.Spec.MvtDecode Verif.Spec.MvtTile Verif.Spec.MvtLayer

/-- Both loops of the decoder: stop at the first item that is not read. -/
def readAll {α β : Type} (f : α → Res β) : List α → Res (List β)
  | [] => .ok []
  | a :: as =>
    match f a with
    | .err => .err
    | .panic => .panic
    | .ok d =>
      match readAll f as with
      | .err => .err
      | .panic => .panic
      | .ok ds => .ok (d :: ds)

theorem readAll_ok {α β : Type} (f : α → Res β) (as : List α) : ∀ ds : List β,
    readAll f as = .ok ds ↔ List.Forall₂ (fun a d => f a = .ok d) as ds := by
  induction as with
  | nil => intro ds; cases ds <;> simp [readAll]
  | cons a as ih =>
    intro ds
    rw [readAll]
    cases h : f a with
    | err => cases ds <;> simp [h]
    | panic => cases ds <;> simp [h]
    | ok d =>
      cases h' : readAll f as with
      | err =>
        cases ds with
        | nil => simp
        | cons e es => have := ih es; rw [h'] at this; simp [← this]
      | panic =>
        cases ds with
        | nil => simp
        | cons e es => have := ih es; rw [h'] at this; simp [← this]
      | ok xs =>
        cases ds with
        | nil => simp
        | cons e es => have := ih es; rw [h'] at this; simp [← this, h]

theorem readAll_panic {α β : Type} (f : α → Res β) (as : List α) :
    readAll f as = .panic ↔ ∃ p a q, as = p ++ a :: q ∧ (∀ x ∈ p, ∃ d, f x = .ok d) ∧ f a = .panic := by
  induction as with
  | nil => simp [readAll]
  | cons a as ih =>
    rw [readAll]
    constructor
    · intro h
      cases h1 : f a with
      | err => simp [h1] at h
      | panic => exact ⟨[], a, as, rfl, by simp, h1⟩
      | ok d =>
        rw [h1] at h
        cases h2 : readAll f as with
        | err => simp [h2] at h
        | ok ds => simp [h2] at h
        | panic =>
          obtain ⟨p, x, q, e, hp, hx⟩ := ih.mp h2
          refine ⟨a :: p, x, q, by rw [e]; rfl, ?_, hx⟩
          intro y hy
          rcases List.mem_cons.mp hy with rfl | hy
          · exact ⟨d, h1⟩
          · exact hp y hy
    · rintro ⟨p, x, q, e, hp, hx⟩
      cases p with
      | nil => simp only [List.nil_append, List.cons.injEq] at e; rw [e.1, hx]
      | cons y p =>
        simp only [List.cons_append, List.cons.injEq] at e
        obtain ⟨d, hd⟩ := hp y (by simp)
        have := ih.mpr ⟨p, x, q, e.2, fun z hz => hp z (by simp [hz]), hx⟩
        rw [e.1, hd, this]

theorem decodeFeatures_eq (fs : List WireFeature) : decodeFeatures fs = readAll decodeFeature fs := by
  induction fs with
  | nil => rfl
  | cons f fs ih => rw [decodeFeatures, readAll, ih]; cases decodeFeature f <;> cases readAll decodeFeature fs <;> rfl

theorem decodeTile_eq (ls : List WireLayer) : decodeTile ls = readAll decodeLayer ls := by
  induction ls with
  | nil => rfl
  | cons f fs ih => rw [decodeTile, readAll, ih]; cases decodeLayer f <;> cases readAll decodeLayer fs <;> rfl

theorem decodeByNumber_num (n : Int) (t : GType) (h : Numbered n t) (ws : List Word) :
    decodeByNumber n ws = match decodeGeometry t ws with
      | .ok g => .ok g
      | .error .panic => .panic
      | .error _ => .err := by
  cases h
  · simp only [decodeByNumber, show ¬ ((1 : Int) = 2) by decide, if_false, if_true]
    rcases decodeGeometry .point ws with e | g
    · cases e <;> rfl
    · rfl
  · simp only [decodeByNumber, if_true]
    rcases decodeGeometry .lineString ws with e | g
    · cases e <;> rfl
    · rfl
  · simp only [decodeByNumber, show ¬ ((3 : Int) = 2) by decide, show ¬ ((3 : Int) = 1) by decide, if_false, if_true]
    rcases decodeGeometry .polygon ws with e | g
    · cases e <;> rfl
    · rfl

theorem decodeByNumber_other (n : Int) (h : ∀ t, ¬ Numbered n t) (ws : List Word) :
    decodeByNumber n ws = .panic := by
  have h1 : n ≠ 1 := fun e => h .point (e ▸ .point)
  have h2 : n ≠ 2 := fun e => h .lineString (e ▸ .line)
  have h3 : n ≠ 3 := fun e => h .polygon (e ▸ .polygon)
  simp [decodeByNumber, h1, h2, h3]

theorem numbered_unique {n : Int} {t t' : GType} (h : Numbered n t) (h' : Numbered n t') : t = t' := by
  cases h <;> cases h' <;> rfl

theorem decodeFeature_ok (f : WireFeature) (d : ReadFeature) :
    decodeFeature f = .ok d ↔ FeatureReads f d := by
  obtain ⟨id, tags, g⟩ := d
  rw [decodeFeature, FeatureReads]
  cases hf : f.type with
  | none => simp
  | some n =>
    simp only [Option.some.injEq, exists_and_left, exists_eq_left']
    by_cases hn : ∃ t, Numbered n t
    · obtain ⟨t, ht⟩ := hn
      rw [decodeByNumber_num n t ht]
      have key : (∃ t, Numbered n t ∧ decodeGeometry t f.geometry = .ok g)
          ↔ decodeGeometry t f.geometry = .ok g :=
        ⟨fun ⟨t', h', e⟩ => by rw [numbered_unique ht h']; exact e, fun e => ⟨t, ht, e⟩⟩
      rw [key]
      cases hd : decodeGeometry t f.geometry with
      | error e => cases e <;> simp
      | ok x =>
        simp only [Res.ok.injEq, ReadFeature.mk.injEq, Except.ok.injEq]
        constructor
        · rintro ⟨a, b, c⟩; exact ⟨a.symm, b.symm, c⟩
        · rintro ⟨a, b, c⟩; exact ⟨a.symm, b.symm, c⟩
    · push Not at hn
      rw [decodeByNumber_other n hn]
      simp [hn]

theorem decodeFeature_panic (f : WireFeature) : decodeFeature f = .panic ↔ FeatureBreaks f := by
  rw [decodeFeature, FeatureBreaks]
  cases hf : f.type with
  | none => simp
  | some n =>
    simp only [Option.some.injEq, exists_and_left, exists_eq_left', reduceCtorEq, false_or]
    by_cases hn : ∃ t, Numbered n t
    · obtain ⟨t, ht⟩ := hn
      rw [decodeByNumber_num n t ht]
      have key : (∃ t, Numbered n t ∧ decodeGeometry t f.geometry = .error .panic)
          ↔ decodeGeometry t f.geometry = .error .panic :=
        ⟨fun ⟨t', h', e⟩ => by rw [numbered_unique ht h']; exact e, fun e => ⟨t, ht, e⟩⟩
      have hno : ¬ ∀ t, ¬ Numbered n t := fun h => h t ht
      rw [key]
      simp only [hno, false_or]
      cases hd : decodeGeometry t f.geometry with
      | error e => cases e <;> simp
      | ok x => simp
    · push Not at hn
      rw [decodeByNumber_other n hn]
      simp [hn]

theorem decodeLayer_ok (l : WireLayer) (d : ReadLayer) : decodeLayer l = .ok d ↔ LayerReads l d := by
  obtain ⟨name, fs, ext⟩ := d
  rw [decodeLayer, LayerReads]
  cases he : l.extent with
  | none => simp
  | some e =>
    simp only [Option.some.injEq, exists_eq_left']
    have key : decodeFeatures l.features = .ok fs ↔ List.Forall₂ FeatureReads l.features fs := by
      rw [decodeFeatures_eq, readAll_ok]
      simp only [decodeFeature_ok]
    rw [← key]
    cases hd : decodeFeatures l.features with
    | err => simp
    | panic => simp
    | ok x =>
      simp only [Res.ok.injEq, ReadLayer.mk.injEq]
      constructor
      · rintro ⟨a, b, c⟩; exact ⟨a.symm, c.symm, b⟩
      · rintro ⟨a, b, c⟩; exact ⟨a.symm, c, b.symm⟩

theorem decodeLayer_panic (l : WireLayer) : decodeLayer l = .panic ↔ LayerBreaks l := by
  rw [decodeLayer, LayerBreaks]
  cases he : l.extent with
  | none => simp
  | some e =>
    have key := readAll_panic decodeFeature l.features
    rw [← decodeFeatures_eq] at key
    simp only [decodeFeature_ok, decodeFeature_panic] at key
    rw [← key]
    cases hd : decodeFeatures l.features <;> simp

theorem decodeTile_ok (ls : List WireLayer) (ds : List ReadLayer) :
    decodeTile ls = .ok ds ↔ List.Forall₂ LayerReads ls ds := by
  rw [decodeTile_eq, readAll_ok]
  simp only [decodeLayer_ok]

theorem decodeTile_panic (ls : List WireLayer) :
    decodeTile ls = .panic ↔
      ∃ a l b, ls = a ++ l :: b ∧ (∀ x ∈ a, ∃ d, LayerReads x d) ∧ LayerBreaks l := by
  rw [decodeTile_eq, readAll_panic]
  simp only [decodeLayer_ok, decodeLayer_panic]

/-! ## Round trip -/

theorem numbered_gtypeNumber (t : GType) : Numbered (gtypeNumber t) t := by
  cases t <;> constructor

theorem carried_back (g : Geom Int) (h : Carried g) :
    ∃ ws t, encodeGeometry g = .ok ws t ∧ decodeGeometry t ws = .ok (some (comesBack g)) := by
  cases g with
  | point p => obtain ⟨ws, a, b⟩ := Props.C07_point p h; exact ⟨ws, _, a, b⟩
  | multiPoint ps => obtain ⟨ws, a, b⟩ := Props.C07_multiPoint ps h.1 h.2.1 h.2.2; exact ⟨ws, _, a, b⟩
  | lineString l => obtain ⟨ws, a, b⟩ := Props.C07_lineString l h.1 h.2.1 h.2.2; exact ⟨ws, _, a, b⟩
  | multiLineString l =>
    obtain ⟨ws, a, b⟩ := Props.C07_multiLineString l h.1 h.2.1 h.2.2; exact ⟨ws, _, a, b⟩
  | polygon p => obtain ⟨ws, a, b⟩ := Props.C08_polygon p h.1 h.2.1 h.2.2; exact ⟨ws, _, a, b⟩
  | multiPolygon p =>
    obtain ⟨ws, a, b⟩ := Props.C08_multiPolygon p h.1 h.2.1 h.2.2.1 h.2.2.2; exact ⟨ws, _, a, b⟩
  | collection _ => exact h.elim
  | other => exact h.elim

theorem vtileFeature_back (keys : List String) (vals : List TagVal) (f : Feature)
    (h : Carried f.geometry) (o : Option TileFeature) (ho : vtileFeature keys vals f = .ok o) :
    ∃ tf, o = some tf ∧
      FeatureReads tf.wire ⟨f.id, [], some (comesBack f.geometry)⟩ := by
  obtain ⟨ws, t, h1, h2⟩ := carried_back _ h
  have hne : ws ≠ [] := by
    rintro rfl
    cases t <;> simp [decodeGeometry, decodeLineString, decodeLinesLoop, decodePoly, decodePolyLoop,
      decodePoints, Except.map] at h2
  rw [vtileFeature] at ho
  cases hk : keyvalTags keys vals f.tags2 with
  | none => simp [hk] at ho
  | some tags =>
    simp only [hk, h1, List.length_eq_zero_iff, hne, if_false, Res.ok.injEq] at ho
    exact ⟨_, ho.symm, rfl, rfl, _, t, rfl, numbered_gtypeNumber t, h2⟩

theorem vtileFeatures_back (cancelled : Nat → Bool) (keys : List String) (vals : List TagVal)
    (fs : List Feature) : ∀ (i : Nat) (out : List TileFeature),
    (∀ f ∈ fs, Carried f.geometry) → vtileFeatures cancelled keys vals i fs = .ok out →
    List.Forall₂ FeatureReads (out.map (·.wire))
      (fs.map fun f => ⟨f.id, [], some (comesBack f.geometry)⟩) := by
  induction fs with
  | nil =>
    intro i out _ h
    simp only [vtileFeatures, Res.ok.injEq] at h
    subst h
    exact .nil
  | cons f fs ih =>
    intro i out hc h
    rw [vtileFeatures] at h
    by_cases hx : cancelled i = true
    · simp [hx] at h
    · simp only [hx] at h
      cases h1 : vtileFeature keys vals f with
      | err => simp [h1] at h
      | panic => simp [h1] at h
      | ok o =>
        obtain ⟨tf, rfl, hr⟩ := vtileFeature_back keys vals f (hc f (by simp)) o h1
        cases h2 : vtileFeatures cancelled keys vals (i + 1) fs with
        | err => simp [h1, h2] at h
        | panic => simp [h1, h2] at h
        | ok tfs =>
          simp only [h1, h2] at h
          simp at h
          subst h
          exact .cons hr (ih (i + 1) tfs (fun g hg => hc g (by simp [hg])) h2)

theorem vtileLayer_back (cancelled : Nat → Bool) (l : Layer) (tl : TileLayer)
    (hc : ∀ f ∈ l.features, Carried f.geometry) (h : vtileLayer cancelled l = .ok tl) :
    LayerReads tl.wire ⟨l.name, l.features.map fun f => ⟨f.id, [], some (comesBack f.geometry)⟩,
      some (tl.extent.toNat : Int)⟩ := by
  have hn := (vtileLayer_fields cancelled l tl h).2.1
  refine ⟨hn.symm, ⟨tl.extent, rfl, rfl⟩, ?_⟩
  unfold vtileLayer at h
  cases hk : keyvalMaps ([], []) (l.features.map (·.tags1)) with
  | none => rw [hk] at h; cases h
  | some kv =>
    obtain ⟨keys, vals⟩ := kv
    rw [hk] at h
    dsimp only at h
    cases hf : vtileFeatures cancelled keys vals 0 l.features with
    | err => rw [hf] at h; cases h
    | panic => rw [hf] at h; cases h
    | ok fs =>
      rw [hf] at h
      cases h
      exact vtileFeatures_back cancelled keys vals l.features 0 fs hc hf

theorem tileGeomCollection_eq (ls : List ReadLayer) :
    tileGeomCollection ls = ls.flatMap (fun l => l.features.map (·.geometry)) := by
  have h1 : ∀ (fs : List ReadFeature) (acc : List (Option (Geom Int))),
      fs.foldl (fun acc f => acc ++ [f.geometry]) acc = acc ++ fs.map (·.geometry) := by
    intro fs
    induction fs with
    | nil => simp
    | cons f fs ih => intro acc; simp [ih]
  have h2 : ∀ (ls : List ReadLayer) (acc : List (Option (Geom Int))),
      ls.foldl (fun acc l => l.features.foldl (fun acc f => acc ++ [f.geometry]) acc) acc
        = acc ++ ls.flatMap (fun l => l.features.map (·.geometry)) := by
    intro ls
    induction ls with
    | nil => simp
    | cons l ls ih => intro acc; rw [List.foldl_cons, h1, ih]; simp
  simpa [tileGeomCollection] using h2 ls []

end Verif.Mvt
