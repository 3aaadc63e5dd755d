import Verif.Spec.MvtLayer
import Mathlib.Data.List.Forall2

namespace Verif.Mvt
open Verif Verif.Spec.MvtLayer

theorem sameVal_refl (v : TagVal) (h : supported v) (hn : v ≠ .nil) : sameVal v v = true := by
  cases v <;> simp_all [sameVal, supported, F64.eq]

theorem sameVal_stands (m v : TagVal) (h : sameVal m v = true) (hp : ¬ plainInt v) :
    stands v (vectorTileValue m) := by
  cases m <;> cases v <;> simp_all [sameVal]
  case string.string => simp [stands, vectorTileValue]
  case stringer.stringer => simp [stands, vectorTileValue]
  case bool.bool => simp [stands, vectorTileValue]
  case float32.float32 => simpa [stands, vectorTileValue] using h
  case float64.float64 => simpa [stands, vectorTileValue] using h
  case num.num k a k' b =>
    obtain ⟨rfl, rfl⟩ := h
    cases k <;> simp_all [plainInt, stands, vectorTileValue]

/-- What the tables have to provide for the tags. -/
def Covers (t : List String × List TagVal) (ts : Tags) : Prop :=
  ∀ kv ∈ ts, kv.1 ∈ t.1 ∧ (kv.2 ≠ .nil → ∃ m ∈ t.2, sameVal m kv.2 = true)

theorem addTag_spec (t : List String × List TagVal) (kv : String × TagVal) (hs : supported kv.2) :
    ∃ t', addTag t kv = some t' ∧ (∀ k ∈ t.1, k ∈ t'.1) ∧ (∀ v ∈ t.2, v ∈ t'.2) ∧
      Covers t' [kv] ∧ (t.1.Nodup → t'.1.Nodup) ∧
      t'.1.length ≤ t.1.length + 1 ∧ t'.2.length ≤ t.2.length + 1 ∧
      (t.2.Pairwise (fun a b => sameVal a b = false) → t'.2.Pairwise (fun a b => sameVal a b = false)) ∧
      (∀ k ∈ t'.1, k ∈ t.1 ∨ k = kv.1) := by
  obtain ⟨k, v⟩ := kv
  have hkeys : ∃ ks, (if t.1.any (fun mk => k == mk) then t.1 else t.1 ++ [k]) = ks ∧
      (∀ a ∈ t.1, a ∈ ks) ∧ k ∈ ks ∧ (t.1.Nodup → ks.Nodup) ∧ ks.length ≤ t.1.length + 1 ∧
      (∀ a ∈ ks, a ∈ t.1 ∨ a = k) := by
    refine ⟨_, rfl, ?_⟩
    split
    · rename_i h
      simp only [List.any_eq_true, beq_iff_eq] at h
      obtain ⟨x, hx, rfl⟩ := h
      exact ⟨fun a h => h, hx, id, by omega, fun a h => .inl h⟩
    · rename_i h
      simp only [List.any_eq_true, beq_iff_eq, not_exists, not_and] at h
      refine ⟨fun a h => by simp [h], by simp, fun hn => ?_, by simp, fun a h => by simpa using h⟩
      rw [List.nodup_append]
      refine ⟨hn, by simp, ?_⟩
      intro a ha b hb
      simp at hb; subst hb
      exact fun hc => h a ha hc.symm
  obtain ⟨ks, hks, k1, k2, k3, k4, k5⟩ := hkeys
  have fin : ∀ v : TagVal, supported v → v ≠ .nil →
      (∃ t', some (ks, if t.2.any (fun mv => sameVal mv v) then t.2 else t.2 ++ [v]) = some t' ∧
      (∀ k ∈ t.1, k ∈ t'.1) ∧ (∀ v ∈ t.2, v ∈ t'.2) ∧
      Covers t' [(k, v)] ∧ (t.1.Nodup → t'.1.Nodup) ∧
      t'.1.length ≤ t.1.length + 1 ∧ t'.2.length ≤ t.2.length + 1 ∧
      (t.2.Pairwise (fun a b => sameVal a b = false) → t'.2.Pairwise (fun a b => sameVal a b = false)) ∧
      (∀ a ∈ t'.1, a ∈ t.1 ∨ a = k)) := by
    intro v hv hn
    refine ⟨_, rfl, k1, ?_, ?_, k3, k4, ?_, ?_, k5⟩
    · intro a ha
      split
      · exact ha
      · exact List.mem_append_left _ ha
    · intro kv' hkv
      simp only [List.mem_singleton] at hkv
      subst hkv
      refine ⟨k2, fun _ => ?_⟩
      simp only
      split
      · rename_i h
        simp only [List.any_eq_true] at h
        exact h
      · exact ⟨v, by simp, sameVal_refl v hv hn⟩
    · split <;> simp
    · intro hp
      split
      · exact hp
      · rename_i h
        simp only [List.any_eq_true, not_exists, not_and, Bool.not_eq_true] at h
        rw [List.pairwise_append]
        exact ⟨hp, by simp, fun a ha b hb => by simp at hb; subst hb; exact h a ha⟩
  unfold addTag
  simp only [hks]
  cases v with
  | nil =>
    refine ⟨_, rfl, k1, fun _ h => h, ?_, k3, k4, by simp, fun h => h, k5⟩
    intro kv' hkv
    simp only [List.mem_singleton] at hkv
    subst hkv
    exact ⟨k2, fun h => absurd rfl h⟩
  | unsupported => simp [supported] at hs
  | string s => exact fin _ hs (by simp)
  | stringer s => exact fin _ hs (by simp)
  | num a b => exact fin _ hs (by simp)
  | float32 f => exact fin _ hs (by simp)
  | float64 f => exact fin _ hs (by simp)
  | bool b => exact fin _ hs (by simp)

theorem covers_mono {t t' : List String × List TagVal} {ts : Tags} (h1 : ∀ k ∈ t.1, k ∈ t'.1)
    (h2 : ∀ v ∈ t.2, v ∈ t'.2) (h : Covers t ts) : Covers t' ts := by
  intro kv hkv
  obtain ⟨a, b⟩ := h kv hkv
  refine ⟨h1 _ a, fun hn => ?_⟩
  obtain ⟨m, hm, hs⟩ := b hn
  exact ⟨m, h2 m hm, hs⟩

theorem addTags_spec (ts : Tags) : ∀ (t : List String × List TagVal), (∀ kv ∈ ts, supported kv.2) →
    ∃ t', addTags t ts = some t' ∧ (∀ k ∈ t.1, k ∈ t'.1) ∧ (∀ v ∈ t.2, v ∈ t'.2) ∧
      Covers t' ts ∧ (t.1.Nodup → t'.1.Nodup) ∧
      t'.1.length ≤ t.1.length + ts.length ∧ t'.2.length ≤ t.2.length + ts.length ∧
      (t.2.Pairwise (fun a b => sameVal a b = false) → t'.2.Pairwise (fun a b => sameVal a b = false)) ∧
      (∀ k ∈ t'.1, k ∈ t.1 ∨ ∃ kv ∈ ts, k = kv.1) := by
  induction ts with
  | nil => intro t _; exact ⟨t, rfl, fun _ h => h, fun _ h => h, fun _ h => by simp at h, id, by simp, by simp, id, fun k h => .inl h⟩
  | cons kv ts ih =>
    intro t hs
    obtain ⟨t1, a1, a2, a3, a4, a5, a6, a7, a8, a9⟩ := addTag_spec t kv (hs kv (by simp))
    obtain ⟨t2, b1, b2, b3, b4, b5, b6, b7, b8, b9⟩ := ih t1 (fun x hx => hs x (by simp [hx]))
    refine ⟨t2, by simp [addTags, a1, b1], fun k h => b2 k (a2 k h), fun v h => b3 v (a3 v h), ?_,
      fun h => b5 (a5 h), by simp; omega, by simp; omega, fun h => b8 (a8 h), ?_⟩
    · intro x hx
      rcases List.mem_cons.1 hx with rfl | hx
      · exact covers_mono b2 b3 a4 x (by simp)
      · exact b4 x hx
    · intro k hk
      rcases b9 k hk with h | ⟨x, hx, rfl⟩
      · rcases a9 k h with h | h
        · exact .inl h
        · exact .inr ⟨kv, by simp, h⟩
      · exact .inr ⟨x, by simp [hx], rfl⟩

theorem keyvalMaps_spec (fs : List Tags) : ∀ (t : List String × List TagVal),
    (∀ f ∈ fs, ∀ kv ∈ f, supported kv.2) →
    ∃ t', keyvalMaps t fs = some t' ∧ (∀ k ∈ t.1, k ∈ t'.1) ∧ (∀ v ∈ t.2, v ∈ t'.2) ∧
      (∀ f ∈ fs, Covers t' f) ∧ (t.1.Nodup → t'.1.Nodup) ∧
      t'.1.length ≤ t.1.length + fs.flatten.length ∧ t'.2.length ≤ t.2.length + fs.flatten.length ∧
      (t.2.Pairwise (fun a b => sameVal a b = false) → t'.2.Pairwise (fun a b => sameVal a b = false)) ∧
      (∀ k ∈ t'.1, k ∈ t.1 ∨ ∃ f ∈ fs, ∃ kv ∈ f, k = kv.1) := by
  induction fs with
  | nil => intro t _; exact ⟨t, rfl, fun _ h => h, fun _ h => h, by simp, id, by simp, by simp, id, fun k h => .inl h⟩
  | cons f fs ih =>
    intro t hs
    obtain ⟨t1, a1, a2, a3, a4, a5, a6, a7, a8, a9⟩ := addTags_spec f t (hs f (by simp))
    obtain ⟨t2, b1, b2, b3, b4, b5, b6, b7, b8, b9⟩ := ih t1 (fun x hx => hs x (by simp [hx]))
    refine ⟨t2, by simp [keyvalMaps, a1, b1], fun k h => b2 k (a2 k h), fun v h => b3 v (a3 v h), ?_,
      fun h => b5 (a5 h), by simp at b6 ⊢; omega, by simp at b7 ⊢; omega, fun h => b8 (a8 h), ?_⟩
    · intro x hx
      rcases List.mem_cons.1 hx with rfl | hx
      · exact covers_mono b2 b3 a4
      · exact b4 x hx
    · intro k hk
      rcases b9 k hk with h | ⟨x, hx, h⟩
      · rcases a9 k h with h | h
        · exact .inl h
        · exact .inr ⟨f, by simp, h⟩
      · exact .inr ⟨x, by simp [hx], h⟩

theorem keyvalTags_spec (keys : List String) (vals : List TagVal) (hk : keys.length < 2 ^ 32)
    (hv : vals.length < 2 ^ 32) (ts : Tags) (hc : Covers (keys, vals) ts)
    (hp : ∀ kv ∈ ts, ¬ plainInt kv.2) :
    ∃ ws out, keyvalTags keys vals ts = some ws ∧
      readTags keys (vals.map vectorTileValue) ws = some out ∧ Recovers (present ts) out := by
  induction ts with
  | nil => exact ⟨[], [], rfl, rfl, trivial⟩
  | cons kv ts ih =>
    obtain ⟨k, v⟩ := kv
    obtain ⟨ws, out, h1, h2, h3⟩ := ih (fun x hx => hc x (by simp [hx])) (fun x hx => hp x (by simp [hx]))
    obtain ⟨c1, c2⟩ := hc (k, v) (by simp)
    rw [keyvalTags]
    have hf : ∃ i, keys.findIdx? (fun mk => mk == k) = some i := by
      cases h : keys.findIdx? (fun mk => mk == k) with
      | some i => exact ⟨i, rfl⟩
      | none =>
        rw [List.findIdx?_eq_none_iff] at h
        have := h k c1
        simp at this
    obtain ⟨i, hi⟩ := hf
    obtain ⟨hil, hik⟩ := List.findIdx?_eq_some_iff_getElem.1 hi
    simp only [hi]
    by_cases hn : v = .nil
    · rw [if_pos hn]
      refine ⟨ws, out, h1, h2, ?_⟩
      simpa [present, hn] using h3
    · rw [if_neg hn]
      have hf : ∃ j, vals.findIdx? (fun mv => sameVal mv v) = some j := by
        cases h : vals.findIdx? (fun mv => sameVal mv v) with
        | some i => exact ⟨i, rfl⟩
        | none =>
          rw [List.findIdx?_eq_none_iff] at h
          obtain ⟨m, hm, hs⟩ := c2 hn
          have := h m hm
          simp only [hs] at this
          simp at this
      obtain ⟨j, hj⟩ := hf
      obtain ⟨hjl, hjk⟩ := List.findIdx?_eq_some_iff_getElem.1 hj
      simp only [hj, h1, Option.map_some]
      refine ⟨_, (k, vectorTileValue vals[j]) :: out, rfl, ?_, ?_⟩
      · rw [readTags]
        have e1 : (BitVec.ofNat 32 i).toNat = i := by rw [BitVec.toNat_ofNat]; omega
        have e2 : (BitVec.ofNat 32 j).toNat = j := by rw [BitVec.toNat_ofNat]; omega
        have e3 : keys[i] = k := by simpa using hik.1
        rw [e1, e2, h2, List.getElem?_eq_getElem hil, List.getElem?_map, List.getElem?_eq_getElem hjl, e3]
        rfl
      · have : present ((k, v) :: ts) = (k, v) :: present ts := by simp [present, hn]
        rw [this]
        exact ⟨rfl, sameVal_stands _ _ hjk.1 (hp (k, v) (by simp)), h3⟩

theorem vtileFeatures_spec (cancelled : Nat → Bool) (keys : List String) (vals : List TagVal)
    (hk : keys.length < 2 ^ 32) (hv : vals.length < 2 ^ 32) (fs : List Feature) : ∀ (i : Nat),
    (∀ f ∈ fs, Covers (keys, vals) f.tags2) → (∀ f ∈ fs, ∀ kv ∈ f.tags2, ¬ plainInt kv.2) →
    (∀ f ∈ fs, ∃ ws t, encodeGeometry f.geometry = .ok ws t) → (∀ j, j < i + fs.length → cancelled j = false) →
    ∃ tfs, vtileFeatures cancelled keys vals i fs = .ok tfs ∧
      List.Forall₂ (fun f tf => tf.id = f.id ∧ encodeGeometry f.geometry = .ok tf.geometry tf.type ∧
        ∃ out, readTags keys (vals.map vectorTileValue) tf.tags = some out ∧ Recovers (present f.tags2) out)
        (fs.filter drawn) tfs := by
  induction fs with
  | nil => intro i _ _ _ _; exact ⟨[], rfl, by simp⟩
  | cons f fs ih =>
    intro i h1 h2 h3 h4
    obtain ⟨tfs, t1, t2⟩ := ih (i + 1) (fun x hx => h1 x (by simp [hx])) (fun x hx => h2 x (by simp [hx]))
      (fun x hx => h3 x (by simp [hx])) (fun j hj => h4 j (by simp; omega))
    obtain ⟨ws, out, k1, k2, k3⟩ := keyvalTags_spec keys vals hk hv f.tags2 (h1 f (by simp)) (h2 f (by simp))
    obtain ⟨gs, gt, hg⟩ := h3 f (by simp)
    rw [vtileFeatures, h4 i (by simp)]
    simp only [Bool.false_eq_true, if_false, vtileFeature, k1, hg, t1]
    cases gs with
    | nil =>
      refine ⟨tfs, by simp, ?_⟩
      have : drawn f = false := by simp [drawn, hg]
      simpa [this] using t2
    | cons w gs =>
      refine ⟨⟨f.id, ws, gt, w :: gs⟩ :: tfs, by simp, ?_⟩
      have : drawn f = true := by simp [drawn, hg]
      simp only [List.filter_cons, this, if_true]
      exact List.Forall₂.cons ⟨rfl, hg, out, k2, k3⟩ t2

mutual
theorem newFeatures_leaves {β τ : Type} (tags : τ) : ∀ (g : Tree β),
    ∃ ls, Leaves g ls ∧ newFeatures tags g = ls.map (fun l => (l, tags))
  | .nil => ⟨[], .nil, rfl⟩
  | .leaf g => ⟨[g], .leaf g, rfl⟩
  | .collection gs => by
    obtain ⟨ls, h1, h2⟩ := newFeaturesAll_leaves tags gs
    exact ⟨ls, h1, by rw [newFeatures, h2]⟩
theorem newFeaturesAll_leaves {β τ : Type} (tags : τ) : ∀ (gs : List (Tree β)),
    ∃ ls, Leaves (.collection gs) ls ∧ newFeaturesAll tags gs = ls.map (fun l => (l, tags))
  | [] => ⟨[], .empty, rfl⟩
  | g :: gs => by
    obtain ⟨a, h1, h2⟩ := newFeatures_leaves tags g
    obtain ⟨b, h3, h4⟩ := newFeaturesAll_leaves tags gs
    exact ⟨a ++ b, .member g gs a b h1 h3, by rw [newFeaturesAll, h2, h4, List.map_append]⟩
end

/-- The leaves of a tree are determined. -/
theorem leaves_unique {β : Type} {g : Tree β} {a b : List β} (ha : Leaves g a) (hb : Leaves g b) : a = b := by
  induction ha generalizing b with
  | nil => cases hb; rfl
  | leaf => cases hb; rfl
  | empty => cases hb; rfl
  | member g gs x y _ _ ih1 ih2 =>
    cases hb with
    | member _ _ x' y' h1 h2 => rw [ih1 h1, ih2 h2]

theorem without_nothing (idxs : List Int) (fs : List Feature) (h : ∀ i ∈ idxs, i < 0 ∨ (fs.length : Int) ≤ i) :
    without idxs fs = fs := by
  unfold without
  rw [List.filter_eq_self.2]
  · simp
  · intro p hp
    have := List.snd_lt_of_mem_zipIdx hp
    simp only [decide_eq_true_eq]
    intro hc
    rcases h _ hc with h | h <;> omega

theorem keepOthers_eq (idxs : List Int) : ∀ (fs : List Feature) (i : Nat),
    keepOthers idxs i fs = ((fs.zipIdx i).filter (fun p => decide ((p.2 : Int) ∉ idxs))).map (·.1)
  | [], _ => rfl
  | f :: fs, i => by
    rw [keepOthers, List.zipIdx_cons, List.filter_cons, keepOthers_eq idxs fs (i + 1)]
    by_cases h : (i : Int) ∈ idxs <;> simp [h]

theorem vtileFeatures_cancel (cancelled : Nat → Bool) (keys : List String) (vals : List TagVal)
    (fs : List Feature) : ∀ i, vtileFeatures cancelled keys vals i fs = .err ∨
      vtileFeatures cancelled keys vals i fs = vtileFeatures (fun _ => false) keys vals i fs ∨
      vtileFeatures cancelled keys vals i fs = .panic := by
  induction fs with
  | nil => intro i; exact .inr (.inl rfl)
  | cons f fs ih =>
    intro i
    simp only [vtileFeatures]
    by_cases hc : cancelled i = true
    · simp [hc]
    · simp only [hc, Bool.false_eq_true, if_false]
      cases vtileFeature keys vals f with
      | err => simp
      | panic => simp
      | ok tf =>
        rcases ih (i + 1) with h | h | h
        · simp [h]
        · simp [h]
        · simp [h]

end Verif.Mvt
