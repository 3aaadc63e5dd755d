import Verif.Lemmas.MvtLayer
import Verif.Spec.MvtTile

/-!
# Whole tiles
-/

namespace Verif.Mvt
open Verif Verif.Spec.MvtLayer Verif.Spec.MvtTile

theorem encodeLine_none (c : Pt Int) (l : List (Pt Int)) : encodeLine c l = none ↔ l = [] := by
  cases l <;> simp [encodeLine]

theorem encodeLines_none (ls : List (List (Pt Int))) : ∀ c : Pt Int,
    encodeLines c ls = none ↔ ls.any (·.isEmpty) = true := by
  induction ls with
  | nil => intro c; simp [encodeLines]
  | cons l ls ih =>
    intro c
    rw [encodeLines]
    cases h : encodeLine c l with
    | none => simp [(encodeLine_none c l).mp h]
    | some e =>
      have hl : l ≠ [] := fun hl => by rw [(encodeLine_none c l).mpr hl] at h; cases h
      have hl' : l.isEmpty = false := by simpa using hl
      simp only [List.any_cons, hl', Bool.false_or, ← ih e.2]
      cases encodeLines e.2 ls <;> simp

theorem encodeGeometry_panic (g : Geom Int) : encodeGeometry g = .panic ↔ pointless g = true := by
  cases g with
  | lineString l =>
    rw [encodeGeometry, pointless, List.isEmpty_iff, ← encodeLine_none (0, 0)]
    cases encodeLine (0, 0) l <;> simp
  | multiLineString ls =>
    rw [encodeGeometry, pointless, ← encodeLines_none ls (0, 0)]
    cases encodeLines (0, 0) ls <;> simp
  | _ => simp [encodeGeometry, pointless]

theorem encodeGeometry_unknown (g : Geom Int) :
    encodeGeometry g = .unknownGeometry ↔ tileKind g = false := by
  cases g with
  | lineString l =>
    rw [encodeGeometry]
    cases encodeLine (0, 0) l <;> simp [tileKind]
  | multiLineString ls =>
    rw [encodeGeometry]
    cases encodeLines (0, 0) ls <;> simp [tileKind]
  | _ => simp [encodeGeometry, tileKind]

theorem keyvalTags_isSome (keys : List String) (vals : List TagVal) (ts : Tags)
    (hc : Covers (keys, vals) ts) : ∃ ws, keyvalTags keys vals ts = some ws := by
  induction ts with
  | nil => exact ⟨[], rfl⟩
  | cons kv ts ih =>
    obtain ⟨k, v⟩ := kv
    obtain ⟨ws, h1⟩ := ih (fun x hx => hc x (by simp [hx]))
    obtain ⟨c1, c2⟩ := hc (k, v) (by simp)
    rw [keyvalTags]
    cases h : keys.findIdx? (fun mk => mk == k) with
    | none =>
      rw [List.findIdx?_eq_none_iff] at h
      have := h k c1
      simp at this
    | some i =>
      by_cases hn : v = .nil
      · exact ⟨ws, by simp [hn, h1]⟩
      · cases h' : vals.findIdx? (fun mv => sameVal mv v) with
        | none =>
          rw [List.findIdx?_eq_none_iff] at h'
          obtain ⟨m, hm, hs⟩ := c2 hn
          have := h' m hm
          simp only [hs] at this
          simp at this
        | some j => exact ⟨_, by simp [hn, h1]; rfl⟩

/-- What kind of outcome: fine, an error, a panic. -/
inductive Verdict where
  | fine | error | panic
  deriving DecidableEq

def Res.verdict {α : Type} : Res α → Verdict
  | .ok _ => .fine
  | .err => .error
  | .panic => .panic

/-- What the first feature that cannot be written leads to. -/
def firstBad : List Feature → Verdict
  | [] => .fine
  | f :: fs =>
    if tileKind f.geometry = false then .error
    else if pointless f.geometry = true then .panic
    else firstBad fs

theorem firstBad_append (a b : List Feature) :
    firstBad (a ++ b) = if firstBad a = .fine then firstBad b else firstBad a := by
  induction a with
  | nil => simp [firstBad]
  | cons f fs ih =>
    simp only [List.cons_append, firstBad]
    by_cases h1 : tileKind f.geometry = false
    · simp [h1]
    · by_cases h2 : pointless f.geometry = true
      · simp [h1, h2]
      · simp [h1, h2, ih]

theorem vtileFeatures_verdict (keys : List String) (vals : List TagVal) (fs : List Feature) :
    ∀ i : Nat, (∀ f ∈ fs, Covers (keys, vals) f.tags2) →
    (vtileFeatures (fun _ => false) keys vals i fs).verdict = firstBad fs := by
  induction fs with
  | nil => intro i _; rfl
  | cons f fs ih =>
    intro i h
    have ih' := ih (i + 1) (fun x hx => h x (by simp [hx]))
    obtain ⟨ws, hw⟩ := keyvalTags_isSome keys vals f.tags2 (h f (by simp))
    rw [vtileFeatures, firstBad]
    simp only [Bool.false_eq_true, if_false, vtileFeature, hw]
    cases hg : encodeGeometry f.geometry with
    | panic =>
      have h1 := (encodeGeometry_panic _).mp hg
      have h2 : tileKind f.geometry ≠ false := fun hk => by
        rw [← encodeGeometry_unknown, hg] at hk; cases hk
      simp [h1, h2, Res.verdict]
    | unknownGeometry =>
      have h1 := (encodeGeometry_unknown _).mp hg
      simp [h1, Res.verdict]
    | ok gs t =>
      have h1 : tileKind f.geometry ≠ false := fun hk => by
        rw [← encodeGeometry_unknown, hg] at hk; cases hk
      have h2 : pointless f.geometry ≠ true := fun hk => by
        rw [← encodeGeometry_panic, hg] at hk; cases hk
      rw [if_neg h1, if_neg h2, ← ih']
      by_cases hl : gs.length = 0
      · simp only [hl, if_true]
        cases vtileFeatures (fun _ => false) keys vals (i + 1) fs <;> rfl
      · simp only [hl, if_false]
        cases vtileFeatures (fun _ => false) keys vals (i + 1) fs <;> rfl

theorem vtileLayer_verdict (l : Layer) (ho : ∀ f ∈ l.features, f.tags1.Perm f.tags2)
    (hs : ∀ f ∈ l.features, ∀ kv ∈ f.tags1, supported kv.2) :
    (vtileLayer (fun _ => false) l).verdict = firstBad l.features := by
  obtain ⟨⟨keys, vals⟩, a1, _, _, a4, _⟩ := keyvalMaps_spec (l.features.map (·.tags1)) ([], [])
    (by intro ts hts kv hkv
        obtain ⟨f, hf, rfl⟩ := List.mem_map.1 hts
        exact hs f hf kv hkv)
  rw [← vtileFeatures_verdict keys vals l.features 0
    (fun f hf kv hkv => a4 f.tags1 (List.mem_map.2 ⟨f, hf, rfl⟩) kv ((ho f hf).mem_iff.2 hkv))]
  rw [vtileLayer]
  simp only [a1]
  cases vtileFeatures (fun _ => false) keys vals 0 l.features <;> rfl

theorem vtile_verdict (ls : List Layer)
    (ho : ∀ l ∈ ls, ∀ f ∈ l.features, f.tags1.Perm f.tags2)
    (hs : ∀ l ∈ ls, ∀ f ∈ l.features, ∀ kv ∈ f.tags1, supported kv.2) :
    (vtile (fun _ => false) ls).verdict = firstBad (featuresOf ls) := by
  induction ls with
  | nil => rfl
  | cons l ls ih =>
    have h1 := vtileLayer_verdict l (ho l (by simp)) (hs l (by simp))
    have h2 := ih (fun x hx => ho x (by simp [hx])) (fun x hx => hs x (by simp [hx]))
    rw [featuresOf, List.flatMap_cons, firstBad_append, ← h1, ← featuresOf, ← h2, vtile]
    cases vtileLayer (fun _ => false) l with
    | err => rfl
    | panic => rfl
    | ok tl => cases vtile (fun _ => false) ls <;> rfl

theorem firstBad_fine (fs : List Feature) : firstBad fs = .fine ↔
    ∀ f ∈ fs, tileKind f.geometry = true ∧ pointless f.geometry = false := by
  induction fs with
  | nil => simp [firstBad]
  | cons f fs ih =>
    simp only [firstBad, List.forall_mem_cons, ← ih]
    cases tileKind f.geometry <;> cases pointless f.geometry <;> simp

theorem firstBad_panic (fs : List Feature) : firstBad fs = .panic ↔
    ∃ a f b, fs = a ++ f :: b ∧ (∀ x ∈ a, tileKind x.geometry = true ∧ pointless x.geometry = false)
      ∧ pointless f.geometry = true := by
  constructor
  · induction fs with
    | nil => intro h; cases h
    | cons f fs ih =>
      intro h
      rw [firstBad] at h
      by_cases h1 : tileKind f.geometry = false
      · simp [h1] at h
      · by_cases h2 : pointless f.geometry = true
        · exact ⟨[], f, fs, rfl, by simp, h2⟩
        · rw [if_neg h1, if_neg h2] at h
          obtain ⟨a, g, b, rfl, ha, hg⟩ := ih h
          refine ⟨f :: a, g, b, rfl, ?_, hg⟩
          intro x hx
          rcases List.mem_cons.mp hx with rfl | hx
          · exact ⟨by simpa using h1, by simpa using h2⟩
          · exact ha x hx
  · rintro ⟨a, f, b, rfl, ha, hf⟩
    have h1 := (firstBad_fine a).mpr ha
    rw [firstBad_append, if_pos h1, firstBad]
    have : tileKind f.geometry ≠ false := by
      revert hf
      cases f.geometry <;> simp [pointless, tileKind]
    rw [if_neg this, if_pos hf]

theorem vtile_forall (cancelled : Nat → Bool) (ls : List Layer) : ∀ out,
    vtile cancelled ls = .ok out → List.Forall₂ (fun l tl => vtileLayer cancelled l = .ok tl) ls out := by
  induction ls with
  | nil => intro out h; rw [vtile] at h; cases h; exact .nil
  | cons l ls ih =>
    intro out h
    rw [vtile] at h
    cases hl : vtileLayer cancelled l with
    | err => rw [hl] at h; cases h
    | panic => rw [hl] at h; cases h
    | ok tl =>
      rw [hl] at h
      cases hr : vtile cancelled ls with
      | err => rw [hr] at h; cases h
      | panic => rw [hr] at h; cases h
      | ok tls =>
        rw [hr] at h
        cases h
        exact .cons hl (ih tls hr)

theorem vtileLayer_fields (cancelled : Nat → Bool) (l : Layer) (tl : TileLayer)
    (h : vtileLayer cancelled l = .ok tl) :
    tl.version = 2 ∧ tl.name = l.name ∧ ∃ e, HasExtent l e ∧ tl.extent = BitVec.ofInt 32 e := by
  unfold vtileLayer at h
  cases hk : keyvalMaps ([], []) (l.features.map (·.tags1)) with
  | none => rw [hk] at h; cases h
  | some kv =>
    obtain ⟨keys, vals⟩ := kv
    rw [hk] at h
    dsimp only at h
    cases hf : vtileFeatures cancelled keys vals 0 l.features with
    | err => rw [hf] at h; cases h
    | panic => rw [hf] at h; cases h
    | ok fs =>
      rw [hf] at h
      cases h
      refine ⟨rfl, rfl, l.getExtent, ?_, rfl⟩
      unfold HasExtent Layer.getExtent
      cases l.extent <;> simp

end Verif.Mvt
