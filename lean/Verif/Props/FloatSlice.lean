import Verif.Props.Cmp
import Verif.Lemmas.FloatSlice
import Mathlib.Data.List.Sort

/-!
# Comparing lists of floats (C166)
-/

namespace Verif.Props
open Verif Verif.Cmp Verif.Spec.Cmp Verif.Spec.Extent

/-- **C166**, in full: two lists of numbers are equal just if they can be paired off. -/
def C166_full : Prop :=
  ∀ (c : Compare) (s : List F64 → List F64) (a b : List F64), Positive c → c.bit.toInt ≤ 2 ^ 52 → SortsFloats s →
    (∀ f ∈ a, num f) → (∀ f ∈ b, num f) → (c.floatSlice s a b = true ↔ PairOff c a b)

/-- **C166**: neither the order of the lists nor the sorting algorithm matters. -/
theorem C166_order_irrelevant (c : Compare) (s t : List F64 → List F64) (hs : SortsFloats s) (ht : SortsFloats t)
    (a a' b b' : List F64) (ha : ∀ f ∈ a, num f) (hb : ∀ f ∈ b, num f) (haa : a.Perm a') (hbb : b.Perm b') :
    c.floatSlice s a b = c.floatSlice t a' b' := by
  unfold Compare.floatSlice
  rw [haa.length_eq, hbb.length_eq]
  split
  · rfl
  · split
    · rfl
    · exact allPairs_congr _ (fun x y => x.eq y = true) (fun x x' y y' h1 h2 => float_congr c x x' y y' h1 h2)
        (float_sorts_agree hs ht ha haa) (float_sorts_agree hs ht hb hbb)

/-- **C166**: a list equals each of its permutations. -/
theorem C166_permutations (c : Compare) (s : List F64 → List F64) (hs : SortsFloats s) (hc : Positive c)
    (a b : List F64) (ha : ∀ f ∈ a, num f) (hab : a.Perm b) : c.floatSlice s a b = true := by
  rw [C166_order_irrelevant c s s hs hs a a b a ha (fun f h => ha f (hab.mem_iff.2 h)) (.refl _) hab.symm]
  unfold Compare.floatSlice
  rw [if_neg (by simp)]
  split
  · rfl
  · exact allPairs_refl _ _ (fun f _ => float_refl c f hc.1 hc.2)

/-- **C166**: the answer is yes only if the lists can be paired off. -/
theorem C166_sound (c : Compare) (s : List F64 → List F64) (hs : SortsFloats s)
    (a b : List F64) (ha : ∀ f ∈ a, num f) (hb : ∀ f ∈ b, num f) (h : c.floatSlice s a b = true) : PairOff c a b := by
  rw [floatSlice_iff c s hs a b ha hb] at h
  obtain ⟨b', h1, h2⟩ := forall₂_perm (R := fun q p => c.float p q = true) (hs a ha).1 (s b) h.flip
  exact ⟨b', h1.symm.trans (hs b hb).1, h2.flip⟩

/-- A sort, to show that the hypotheses can be met. -/
def insertSort (l : List F64) : List F64 := l.insertionSort (fun a b => a.key ≤ b.key)

theorem insertSort_sorts : SortsFloats insertSort := by
  intro l _
  refine ⟨List.perm_insertionSort _ l, ?_⟩
  have : (insertSort l).Pairwise (fun a b => a.key ≤ b.key) := by
    have : Std.Total (fun a b : F64 => a.key ≤ b.key) := ⟨fun a b => by omega⟩
    have : IsTrans F64 (fun a b : F64 => a.key ≤ b.key) := ⟨fun a b c h1 h2 => by omega⟩
    exact List.pairwise_insertionSort _ l
  refine this.imp ?_
  intro a b h hlt
  rw [F64.lt_iff] at hlt
  omega

example : SortsFloats insertSort ∧ Positive cmp4 ∧ (∀ f ∈ [f3, f1, F64.negZero], num f) ∧
    cmp4.floatSlice insertSort [f3, f1, F64.negZero] [f1, F64.zero, f3] = true :=
  ⟨insertSort_sorts, by decide, by simp [num]; decide, by decide +kernel⟩

/-- **C166**: where no float is a zero, in full. -/
theorem C166_nonzero_partial (c : Compare) (s : List F64 → List F64) (a b : List F64) (hc : Positive c)
    (hc2 : c.bit.toInt ≤ 2 ^ 52) (hs : SortsFloats s) (ha : ∀ f ∈ a, num f ∧ f.key ≠ 0)
    (hb : ∀ f ∈ b, num f ∧ f.key ≠ 0) : c.floatSlice s a b = true ↔ PairOff c a b := by
  have na : ∀ f ∈ a, num f := fun f h => (ha f h).1
  have nb : ∀ f ∈ b, num f := fun f h => (hb f h).1
  refine ⟨C166_sound c s hs a b na nb, ?_⟩
  rintro ⟨b', p, hf⟩
  rw [floatSlice_iff c s hs a b na nb]
  obtain ⟨a1, a2, a3⟩ := float_sorted hs na
  obtain ⟨b1, b2, b3⟩ := float_sorted hs nb
  obtain ⟨b'', h1, h2⟩ := forall₂_perm (R := fun q p => c.float p q = true) a1.symm b' hf.flip
  refine pair_sorted F64.key (fun x y => c.float x y = true) (fun f => num f ∧ f.key ≠ 0) ?_ (s a) (s b)
    (fun f h => ha f (a1.mem_iff.1 h)) (fun f h => hb f (b1.mem_iff.1 h)) a3 b3 b''
    (h1.symm.trans (p.trans b1.symm)) h2.flip
  -- which floats are near, in terms of their keys
  have near : ∀ x y : F64, num x ∧ x.key ≠ 0 → num y ∧ y.key ≠ 0 → (c.float x y = true ↔
      if x.key = F64.infMag ∨ x.key = -F64.infMag ∨ y.key = F64.infMag ∨ y.key = -F64.infMag then y.key = x.key
      else (x.key < 0 ↔ y.key < 0) ∧ x.key - y.key < c.bit.toInt ∧ y.key - x.key < c.bit.toInt) := by
    have kinf : ∀ x : F64, x.isInf = true ↔ (x.key = F64.infMag ∨ x.key = -F64.infMag) := by
      intro x
      simp only [F64.isInf, decide_eq_true_eq, F64.key]
      have : (0 : Int) < F64.infMag := by decide
      split <;> omega
    have keq : ∀ x y : F64, x.key ≠ 0 → (y = x ↔ y.key = x.key) := by
      intro x y h0
      refine ⟨fun h => by rw [h], fun h => ?_⟩
      apply BitVec.eq_of_toNat_eq
      simp only [F64.key, F64.sign, F64.mag, decide_eq_true_eq] at h h0
      have := x.isLt
      have := y.isLt
      split at h <;> split at h <;> split at h0 <;> omega
    intro x y hx hy
    split
    · rename_i h
      rw [← keq x y hx.2]
      rcases h with h | h | h | h
      · exact C26_inf c x y ((kinf x).2 (.inl h))
      · exact C26_inf c x y ((kinf x).2 (.inr h))
      · rw [float_symm c x y (by intro h; have h2 := hc.2; rw [h] at h2; exact absurd h2 (by decide)), C26_inf c y x ((kinf y).2 (.inl h))]
        exact eq_comm
      · rw [float_symm c x y (by intro h; have h2 := hc.2; rw [h] at h2; exact absurd h2 (by decide)), C26_inf c y x ((kinf y).2 (.inr h))]
        exact eq_comm
    · rename_i h
      have ix : x.isInf = false := by rw [Bool.eq_false_iff, Ne, kinf]; omega
      have iy : y.isInf = false := by rw [Bool.eq_false_iff, Ne, kinf]; omega
      rw [C26_near c x y ⟨hx.1, ix, hx.2⟩ ⟨hy.1, iy, hy.2⟩ hc.2 hc2]
      have sg : ∀ z : F64, z.key ≠ 0 → (z.sign = true ↔ z.key < 0) := by
        intro z hz
        unfold F64.key at hz ⊢
        cases hs : z.sign <;> (simp [hs] at hz ⊢; try omega)
      have : (x.sign = y.sign) ↔ (x.key < 0 ↔ y.key < 0) := by
        rw [← sg x hx.2, ← sg y hy.2]
        cases x.sign <;> cases y.sign <;> simp
      rw [this]
  intro x x' y y' hx hx' hy hy' l1 l2 r1 r2
  rw [near x y' hx hy'] at r1
  rw [near x' y hx' hy] at r2
  rw [near x y hx hy, near x' y' hx' hy']
  have b1 := F64.key_bounds hx.1
  have b2 := F64.key_bounds hx'.1
  have b3 := F64.key_bounds hy.1
  have b4 := F64.key_bounds hy'.1
  generalize F64.infMag = M at *
  have := hc.2
  split at r1 <;> split at r2 <;> split <;> split <;> omega

example : ∀ f ∈ [F64.negInf, f2, f1], num f ∧ f.key ≠ 0 := by simp [num]; decide

/-- **C166** is false in full: `[0, 1e-300]` and `[1e-300, 0.00005]` can be paired off by a comparison that takes all
within 0.0001 of zero for zero, and are not equal. -/
theorem C166_violated : ¬ C166_full := by
  intro h
  -- 0x01A56E1FC2F8F359 is 1e-300, 0x3F0A36E2EB1C432D is 0.00005, 0x3F1A36E2EB1C432D is 0.0001
  have := (h ⟨0x3F1A36E2EB1C432D#64, 10#64⟩ insertSort [F64.zero, 0x01A56E1FC2F8F359#64]
    [0x01A56E1FC2F8F359#64, 0x3F0A36E2EB1C432D#64] (by decide) (by decide) insertSort_sorts (by simp [num]; decide) (by simp [num]; decide)).2
    ⟨[0x3F0A36E2EB1C432D#64, 0x01A56E1FC2F8F359#64], .swap _ _ _, .cons (by decide) (.cons (by decide) .nil)⟩
  revert this
  decide +kernel

end Verif.Props
