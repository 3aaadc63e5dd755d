import Verif.Spec.Cmp
import Verif.Lemmas.F64
import Mathlib.Data.List.Forall2

namespace Verif.Cmp
open Verif Verif.Spec.Cmp Verif.Spec.Extent

/-! ### Float -/

/-- The test on the difference of the bit patterns. -/
def bitNear (bit : BitVec 64) (f1 f2 : F64) : Bool :=
  let d : BitVec 64 := f2 - f1
  if d.slt 0#64 then (-bit).slt d else d.slt bit

theorem bitNear_iff (bit : BitVec 64) (f1 f2 : F64) (hb : 0 ≤ bit.toInt) :
    bitNear bit f1 f2 = true ↔ -bit.toInt < (f2 - f1).toInt ∧ (f2 - f1).toInt < bit.toInt := by
  unfold bitNear
  have hlt := BitVec.toInt_lt (x := bit)
  have hneg : (-bit).toInt = -bit.toInt := by
    rw [BitVec.toInt_neg, Int.bmod_def]
    omega
  simp only
  have hz : (0#64).toInt = 0 := by decide
  split
  · rename_i h
    simp only [BitVec.slt, decide_eq_true_eq, hz, hneg] at h ⊢
    omega
  · rename_i h
    simp only [BitVec.slt, decide_eq_true_eq, hz] at h ⊢
    omega

theorem bitNear_symm (bit : BitVec 64) (f1 f2 : F64) (hb : bit ≠ BitVec.intMin 64) :
    bitNear bit f1 f2 = bitNear bit f2 f1 := by
  unfold bitNear
  have hz : (0#64).toInt = 0 := by decide
  have hb' : bit.toInt ≠ -2 ^ 63 := by
    intro h
    apply hb
    apply BitVec.eq_of_toInt_eq
    rw [h]; decide
  have h1 := BitVec.le_toInt bit
  have h2 := BitVec.toInt_lt (x := bit)
  have hneg : (-bit).toInt = -bit.toInt := by
    rw [BitVec.toInt_neg, Int.bmod_def]
    omega
  have e1 : (f2 - f1).toInt = (f2.toInt - f1.toInt).bmod (2 ^ 64) := BitVec.toInt_sub
  have e2 : (f1 - f2).toInt = (f1.toInt - f2.toInt).bmod (2 ^ 64) := BitVec.toInt_sub
  have b1 := BitVec.le_toInt f1
  have b2 := BitVec.toInt_lt (x := f1)
  have b3 := BitVec.le_toInt f2
  have b4 := BitVec.toInt_lt (x := f2)
  rw [Int.bmod_def] at e1 e2
  have key : (f1 - f2).toInt = -(f2 - f1).toInt ∨ ((f2 - f1).toInt = -2 ^ 63 ∧ (f1 - f2).toInt = -2 ^ 63) := by
    omega
  have hd1 := BitVec.le_toInt (f2 - f1)
  have hd2 := BitVec.toInt_lt (x := f2 - f1)
  simp only [BitVec.slt, decide_eq_true_eq, hz, hneg]
  rcases key with k | ⟨k1, k2⟩
  · rw [k]
    by_cases h0 : (f2 - f1).toInt = 0
    · simp [h0]
    · by_cases hn : (f2 - f1).toInt < 0
      · have : ¬ (-(f2 - f1).toInt < 0) := by omega
        simp only [hn, this, if_true, if_false, decide_eq_decide]; omega
      · have : (-(f2 - f1).toInt < 0) := by omega
        simp only [hn, this, if_true, if_false, decide_eq_decide]; omega
  · rw [k1, k2]

theorem sign_iff (f : F64) : f.sign = true ↔ 2 ^ 63 ≤ f.toNat := by simp [F64.sign]

theorem isInf_not_nan (f : F64) (h : f.isInf = true) : f.isNaN = false := by
  simp [F64.isInf, F64.isNaN] at h ⊢; omega

theorem eq_zero_symm_abs (f1 f2 : F64) (h : f1.eq F64.zero = true ∨ f2.eq F64.zero = true) :
    (absDiffZero f1 f2).lt = (absDiffZero f2 f1).lt := by
  unfold absDiffZero
  have habs : ∀ f : F64, f.eq F64.zero = true → abs f = 0#64 := by
    intro f hf
    rw [F64.eq_iff] at hf
    have hk : f.key = 0 := hf.2.2
    have hm : f.mag = 0 := by unfold F64.key at hk; split at hk <;> omega
    unfold abs
    apply BitVec.eq_of_toNat_eq
    rw [BitVec.toNat_and, show (0x7FFFFFFFFFFFFFFF#64).toNat = 2 ^ 63 - 1 from rfl, Nat.and_two_pow_sub_one_eq_mod]
    exact hm
  by_cases h1 : f1.eq F64.zero = true <;> by_cases h2 : f2.eq F64.zero = true
  · simp [h1, h2, habs f1 h1, habs f2 h2]
  · simp [h1, h2]
  · simp [h1, h2]
  · simp [h1, h2] at h

theorem float_symm (c : Compare) (f1 f2 : F64) (hb : c.bit ≠ BitVec.intMin 64) : c.float f1 f2 = c.float f2 f1 := by
  unfold Compare.float
  by_cases h1 : (f1.isInf || f2.isInf) = true
  · have h1' : (f2.isInf || f1.isInf) = true := by rwa [Bool.or_comm]
    rw [if_pos h1, if_pos h1', Bool.beq_comm, Bool.beq_comm (a := f1.isPosInf)]
  · have h1' : ¬ (f2.isInf || f1.isInf) = true := by rwa [Bool.or_comm]
    rw [if_neg h1, if_neg h1']
    by_cases h2 : (f1.eq F64.zero || f2.eq F64.zero) = true
    · have h2' : (f2.eq F64.zero || f1.eq F64.zero) = true := by rwa [Bool.or_comm]
      rw [if_pos h2, if_pos h2', eq_zero_symm_abs]
      simpa using h2
    · have h2' : ¬ (f2.eq F64.zero || f1.eq F64.zero) = true := by rwa [Bool.or_comm]
      rw [if_neg h2, if_neg h2']
      exact bitNear_symm c.bit f1 f2 hb

theorem abs_zero_lt (f tol : F64) (h : f.eq F64.zero = true) (ht : F64.zero.lt tol = true) : (abs f).lt tol = true := by
  have hk : f.key = 0 := (F64.eq_iff.1 h).2.2
  have hm : f.mag = 0 := by unfold F64.key at hk; split at hk <;> omega
  have : abs f = F64.zero := by
    unfold abs
    apply BitVec.eq_of_toNat_eq
    rw [BitVec.toNat_and, show (0x7FFFFFFFFFFFFFFF#64).toNat = 2 ^ 63 - 1 from rfl, Nat.and_two_pow_sub_one_eq_mod]
    exact hm
  rw [this]; exact ht

theorem float_refl (c : Compare) (f : F64) (ht : F64.zero.lt c.tol = true) (hb : 0 < c.bit.toInt) :
    c.float f f = true := by
  unfold Compare.float
  split
  · simp
  · split
    · rename_i h
      simp only [Bool.or_self] at h
      simp only [absDiffZero, h, if_true]
      exact abs_zero_lt f c.tol h ht
    · have : bitNear c.bit f f = true := by
        rw [bitNear_iff _ _ _ (by omega)]
        have e : f - f = 0#64 := by simp
        rw [e]
        have hz : (0#64).toInt = 0 := by decide
        omega
      exact this

/-- A zero may be replaced by the other zero. -/
theorem float_congr (c : Compare) (a a' b b' : F64) (ha : a.eq a' = true) (hb : b.eq b' = true) :
    c.float a b = c.float a' b' := by
  have zero_or : ∀ x y : F64, x.eq y = true → x = y ∨ (x.eq F64.zero = true ∧ y.eq F64.zero = true) := by
    intro x y h
    rw [F64.eq_iff] at h
    obtain ⟨h1, h2, h3⟩ := h
    by_cases h0 : x.key = 0
    · right
      rw [F64.eq_iff, F64.eq_iff, F64.key_zero]
      exact ⟨⟨h1, F64.nan_zero, h0⟩, h2, F64.nan_zero, by omega⟩
    · left
      apply BitVec.eq_of_toNat_eq
      have l1 := x.isLt
      have l2 := y.isLt
      unfold F64.key F64.sign F64.mag at h3 h0
      simp only [decide_eq_true_eq] at h3 h0
      split at h3 <;> split at h3 <;> omega
  have inf0 : ∀ x : F64, x.eq F64.zero = true → x.isInf = false := by
    intro x h
    have hk : x.key = 0 := (F64.eq_iff.1 h).2.2
    have hm : x.mag = 0 := by unfold F64.key at hk; split at hk <;> omega
    simp [F64.isInf, hm, F64.infMag]
  have abs0 : ∀ f : F64, f.eq F64.zero = true → abs f = 0#64 := by
    intro f hf
    have hk : f.key = 0 := (F64.eq_iff.1 hf).2.2
    have hm : f.mag = 0 := by unfold F64.key at hk; split at hk <;> omega
    unfold abs
    apply BitVec.eq_of_toNat_eq
    rw [BitVec.toNat_and, show (0x7FFFFFFFFFFFFFFF#64).toNat = 2 ^ 63 - 1 from rfl, Nat.and_two_pow_sub_one_eq_mod]
    exact hm
  rcases zero_or a a' ha with rfl | ⟨a1, a2⟩ <;> rcases zero_or b b' hb with rfl | ⟨b1, b2⟩
  · rfl
  · unfold Compare.float
    simp only [inf0 _ b1, inf0 _ b2, b1, b2, Bool.or_true, Bool.or_false, if_true, absDiffZero, abs0 _ b1, abs0 _ b2]
    by_cases h : a.isInf = true
    · simp [h, F64.isNegInf, F64.isPosInf, inf0 _ b1, inf0 _ b2]
    · simp [h]
  · unfold Compare.float
    simp only [inf0 _ a1, inf0 _ a2, a1, a2, Bool.true_or, Bool.false_or, if_true, absDiffZero]
    by_cases h : b.isInf = true
    · simp [h, F64.isNegInf, F64.isPosInf, inf0 _ a1, inf0 _ a2]
    · simp [h]
  · unfold Compare.float
    simp [inf0 _ a1, inf0 _ a2, inf0 _ b1, inf0 _ b2, a1, a2, absDiffZero, abs0 _ b1, abs0 _ b2]

/-! ### Points -/

/-- One number for a point; the lexicographic order of numeric points is the order of
these numbers. -/
def ptKey (p : Pt F64) : Int := p.1.key * 2 ^ 64 + p.2.key

theorem xyLess_iff (p q : Pt F64) (hp : numPt p) (hq : numPt q) : xyLess p q = true ↔ ptKey p < ptKey q := by
  have b1 := F64.key_bounds hp.2
  have b2 := F64.key_bounds hq.2
  have hi : F64.infMag = 0x7FF0000000000000 := rfl
  unfold xyLess ptKey
  split
  · rename_i h
    have : ¬ p.1.key = q.1.key := by
      intro hc
      have : p.1.eq q.1 = true := F64.eq_iff.2 ⟨hp.1, hq.1, hc⟩
      simp [this] at h
    rw [F64.lt_iff]
    simp only [show p.1.isNaN = false from hp.1, show q.1.isNaN = false from hq.1, true_and]
    omega
  · rename_i h
    have : p.1.key = q.1.key := by
      have : p.1.eq q.1 = true := by simpa using h
      exact (F64.eq_iff.1 this).2.2
    rw [F64.lt_iff]
    simp only [show p.2.isNaN = false from hp.2, show q.2.isNaN = false from hq.2, true_and]
    omega

theorem before_iff (p q : Pt F64) (hp : numPt p) (hq : numPt q) : before p q ↔ ptKey p < ptKey q := by
  have b1 := F64.key_bounds hp.2
  have b2 := F64.key_bounds hq.2
  have hi : F64.infMag = 0x7FF0000000000000 := rfl
  unfold before ptKey
  rw [F64.lt_iff, F64.lt_iff, F64.eq_iff]
  have n1 : p.1.isNaN = false := hp.1
  have n2 : q.1.isNaN = false := hq.1
  have n3 : p.2.isNaN = false := hp.2
  have n4 : q.2.isNaN = false := hq.2
  simp only [n1, n2, n3, n4, true_and]
  omega

theorem samePt_iff (p q : Pt F64) (hp : numPt p) (hq : numPt q) : samePt p q ↔ ptKey p = ptKey q := by
  have b1 := F64.key_bounds hp.2
  have b2 := F64.key_bounds hq.2
  have hi : F64.infMag = 0x7FF0000000000000 := rfl
  unfold samePt ptKey
  rw [F64.eq_iff, F64.eq_iff]
  have n1 : p.1.isNaN = false := hp.1
  have n2 : q.1.isNaN = false := hq.1
  have n3 : p.2.isNaN = false := hp.2
  have n4 : q.2.isNaN = false := hq.2
  simp only [n1, n2, n3, n4, true_and]
  omega

theorem pointEqual_congr (c : Compare) (p p' q q' : Pt F64) (hp : samePt p p') (hq : samePt q q') :
    c.pointEqual p q = c.pointEqual p' q' := by
  unfold Compare.pointEqual
  rw [float_congr c _ _ _ _ hp.1 hq.1, float_congr c _ _ _ _ hp.2 hq.2]

/-! ### Lists -/

theorem allPairs_iff {α : Type} (eq : α → α → Bool) (a : List α) : ∀ (b : List α), a.length = b.length →
    (allPairs eq a b = true ↔ List.Forall₂ (fun x y => eq x y = true) a b) := by
  induction a with
  | nil => intro b h; cases b with
    | nil => simp [allPairs]
    | cons => simp at h
  | cons x a ih =>
    intro b h
    cases b with
    | nil => simp at h
    | cons y b =>
      rw [allPairs, List.forall₂_cons]
      have := ih b (by simpa using h)
      by_cases he : eq x y = true
      · simp [he, this]
      · simp [he]

theorem allPairs_symm {α : Type} (eq : α → α → Bool) (h : ∀ x y, eq x y = eq y x) (a : List α) :
    ∀ b, allPairs eq a b = allPairs eq b a := by
  induction a with
  | nil => intro b; cases b <;> rfl
  | cons x a ih =>
    intro b
    cases b with
    | nil => rfl
    | cons y b => rw [allPairs, allPairs, h x y, ih b]

theorem allPairs_congr {α : Type} (eq : α → α → Bool) (S : α → α → Prop)
    (h : ∀ x x' y y', S x x' → S y y' → eq x y = eq x' y') {a a' : List α} (ha : List.Forall₂ S a a') :
    ∀ {b b' : List α}, List.Forall₂ S b b' → allPairs eq a b = allPairs eq a' b' := by
  induction ha with
  | nil => intro b b' hb; cases hb <;> rfl
  | cons hx _ ih =>
    intro b b' hb
    cases hb with
    | nil => rfl
    | cons hy hb => rw [allPairs, allPairs, h _ _ _ _ hx hy, ih hb]

theorem allPairs_refl {α : Type} (eq : α → α → Bool) (a : List α) (h : ∀ x ∈ a, eq x x = true) :
    allPairs eq a a = true := by
  induction a with
  | nil => rfl
  | cons x a ih =>
    rw [allPairs, h x (by simp), ih (fun y hy => h y (by simp [hy]))]
    rfl

/-- Two sorted arrangements of the same elements agree up to elements with the same
key. -/
theorem sorted_unique {α : Type} (k : α → Int) (l l' : List α) (hp : l.Perm l')
    (h1 : l.Pairwise (fun a b => k a ≤ k b)) (h2 : l'.Pairwise (fun a b => k a ≤ k b)) :
    l.map k = l'.map k := by
  apply List.Perm.eq_of_pairwise (le := fun a b => a ≤ b)
  · intro a b _ _ h h'; omega
  · rw [List.pairwise_map]; exact h1
  · rw [List.pairwise_map]; exact h2
  · exact hp.map k

theorem forall₂_of_map_eq {α β : Type} (k : α → β) : ∀ (l l' : List α), l.map k = l'.map k →
    List.Forall₂ (fun a b => k a = k b) l l'
  | [], [], _ => .nil
  | a :: l, b :: l', h => by
    simp only [List.map_cons, List.cons.injEq] at h
    exact .cons h.1 (forall₂_of_map_eq k l l' h.2)
  | [], _ :: _, h => by simp at h
  | _ :: _, [], h => by simp at h

theorem forall₂_mem {α β : Type} {R : α → β → Prop} {P : α → Prop} {Q : β → Prop} {l : List α} {l' : List β}
    (h : List.Forall₂ R l l') : (∀ a ∈ l, P a) → (∀ b ∈ l', Q b) →
    List.Forall₂ (fun a b => R a b ∧ P a ∧ Q b) l l' := by
  induction h with
  | nil => intro _ _; exact .nil
  | cons hx _ ih =>
    intro h1 h2
    exact .cons ⟨hx, h1 _ (by simp), h2 _ (by simp)⟩ (ih (fun a ha => h1 a (by simp [ha])) (fun b hb => h2 b (by simp [hb])))

theorem sorts_agree (s1 s2 : List (Pt F64) → List (Pt F64)) (h1 : SortsOn numPt before s1)
    (h2 : SortsOn numPt before s2) (l l' : List (Pt F64)) (hl : ∀ p ∈ l, numPt p) (hp : l.Perm l') :
    List.Forall₂ samePt (s1 l) (s2 l') := by
  have hl' : ∀ p ∈ l', numPt p := fun p h => hl p (hp.mem_iff.2 h)
  obtain ⟨a1, a2⟩ := h1 l hl
  obtain ⟨b1, b2⟩ := h2 l' hl'
  have m1 : ∀ p ∈ s1 l, numPt p := fun p h => hl p (a1.mem_iff.1 h)
  have m2 : ∀ p ∈ s2 l', numPt p := fun p h => hl' p (b1.mem_iff.1 h)
  have k1 : (s1 l).Pairwise (fun a b => ptKey a ≤ ptKey b) := by
    apply a2.imp_of_mem
    intro a b ha hb h
    rw [before_iff b a (m1 b hb) (m1 a ha)] at h
    omega
  have k2 : (s2 l').Pairwise (fun a b => ptKey a ≤ ptKey b) := by
    apply b2.imp_of_mem
    intro a b ha hb h
    rw [before_iff b a (m2 b hb) (m2 a ha)] at h
    omega
  have e := sorted_unique ptKey _ _ (a1.trans (hp.trans b1.symm)) k1 k2
  have := forall₂_mem (forall₂_of_map_eq ptKey _ _ e) m1 m2
  exact this.imp (fun a b ⟨h, ha, hb⟩ => (samePt_iff a b ha hb).2 h)

theorem forall₂_refl_of {α : Type} {R : α → α → Prop} : ∀ (l : List α), (∀ a ∈ l, R a a) → List.Forall₂ R l l
  | [], _ => .nil
  | a :: l, h => .cons (h a (by simp)) (forall₂_refl_of l (fun b hb => h b (by simp [hb])))

/-! ### Rotation -/

theorem findMinLoop_spec (ps : List (Pt F64)) : ∀ (i min : Nat) (m : Pt F64) (l : List (Pt F64)),
    l.drop i = ps → l[min]? = some m → min < i → i ≤ l.length →
    (∀ p ∈ l, numPt p) → (∀ p ∈ l.take i, ptKey m ≤ ptKey p) →
    ∃ m', l[findMinLoop i min m ps]? = some m' ∧ ∀ p ∈ l, ptKey m' ≤ ptKey p := by
  induction ps with
  | nil =>
    intro i min m l hd hm _ hi _ hall
    refine ⟨m, hm, ?_⟩
    have : l.take i = l := by
      apply List.take_of_length_le
      simpa using List.drop_eq_nil_iff.1 hd
    rw [this] at hall
    exact hall
  | cons p ps ih =>
    intro i min m l hd hm hmi hi hn hall
    have hil : i < l.length := by
      by_contra hc
      rw [List.drop_eq_nil_of_le (by omega)] at hd
      simp at hd
    have hp : l[i]? = some p := by
      have : (l.drop i)[0]? = some p := by rw [hd]; rfl
      simpa using this
    have hd' : l.drop (i + 1) = ps := by
      rw [← List.drop_drop, hd]; rfl
    have hpm : numPt p := hn p (List.mem_of_getElem? hp)
    have hmm : numPt m := hn m (List.mem_of_getElem? hm)
    have htake : l.take (i + 1) = l.take i ++ [p] := by
      rw [List.take_add_one, hp]; rfl
    rw [findMinLoop]
    split
    · rename_i h
      rw [xyLess_iff p m hpm hmm] at h
      apply ih (i + 1) i p l hd' hp (by omega) hil hn
      intro q hq
      rw [htake, List.mem_append] at hq
      rcases hq with hq | hq
      · have := hall q hq; omega
      · simp at hq; subst hq; omega
    · rename_i h
      rw [xyLess_iff p m hpm hmm] at h
      apply ih (i + 1) min m l hd' hm (by omega) hil hn
      intro q hq
      rw [htake, List.mem_append] at hq
      rcases hq with hq | hq
      · exact hall q hq
      · simp at hq; subst hq; omega

theorem findMinLoop_lt (ps : List (Pt F64)) : ∀ (i min : Nat) (m : Pt F64), min < i →
    findMinLoop i min m ps < i + ps.length := by
  induction ps with
  | nil => intro i min m h; simpa [findMinLoop] using h
  | cons p ps ih =>
    intro i min m h
    rw [findMinLoop]
    split
    · have := ih (i + 1) i p (by omega); simp; omega
    · have := ih (i + 1) min m (by omega); simp; omega

theorem findMin_lt (l : List (Pt F64)) (h : l ≠ []) : findMinPointIdx l < l.length := by
  match l, h with
  | p :: ps, _ =>
    have := findMinLoop_lt ps 1 0 p (by omega)
    simp only [findMinPointIdx, List.length_cons]; omega

theorem findMin_spec (l : List (Pt F64)) (h : l ≠ []) (hn : ∀ p ∈ l, numPt p) :
    ∃ m, l[findMinPointIdx l]? = some m ∧ ∀ p ∈ l, ptKey m ≤ ptKey p := by
  match l, h with
  | p :: ps, _ =>
    exact findMinLoop_spec ps 1 0 p (p :: ps) rfl rfl (by omega) (by simp) hn (by simp)

theorem rotate_eq (l : List (Pt F64)) :
    rotateToLeftMost l = l.drop (findMinPointIdx l) ++ l.take (findMinPointIdx l) := by
  unfold rotateToLeftMost rotateToIdx
  cases l with
  | nil => simp
  | cons p ps =>
    have := findMin_lt (p :: ps) (by simp)
    rw [if_neg (by simp)]
    congr 2
    omega

theorem rotate_length (l : List (Pt F64)) : (rotateToLeftMost l).length = l.length := by
  rw [rotate_eq]; simp; omega

theorem rotate_unique (x y : List (Pt F64)) (p : Pt F64) (hn : ∀ q ∈ x ++ p :: y, numPt q)
    (hu : ∀ q ∈ x ++ y, before p q) : rotateToLeftMost (x ++ p :: y) = p :: y ++ x := by
  obtain ⟨m, hm, hall⟩ := findMin_spec (x ++ p :: y) (by simp) hn
  have hpn : numPt p := hn p (by simp)
  have hi : findMinPointIdx (x ++ p :: y) = x.length := by
    by_contra hc
    have hmem : m ∈ x ++ y := by
      rcases Nat.lt_or_ge (findMinPointIdx (x ++ p :: y)) x.length with h | h
      · rw [List.getElem?_append_left h] at hm
        exact List.mem_append_left _ (List.mem_of_getElem? hm)
      · rw [List.getElem?_append_right h] at hm
        obtain ⟨k, hk⟩ : ∃ k, findMinPointIdx (x ++ p :: y) - x.length = k + 1 :=
          ⟨findMinPointIdx (x ++ p :: y) - x.length - 1, by omega⟩
        rw [hk, List.getElem?_cons_succ] at hm
        exact List.mem_append_right _ (List.mem_of_getElem? hm)
    have h1 := hu m hmem
    have hmn : numPt m := hn m (by simp at hmem ⊢; tauto)
    rw [before_iff p m hpn hmn] at h1
    have := hall p (by simp)
    omega
  rw [rotate_eq, hi]
  simp

theorem rotate_rotation (a b : List (Pt F64)) (p : Pt F64) (hn : ∀ q ∈ a, numPt q) (hr : Rotation a b)
    (hu : UniqueLeast p a) : rotateToLeftMost a = rotateToLeftMost b := by
  obtain ⟨x, y, rfl, hlt⟩ := hu
  obtain ⟨u, v, h1, rfl⟩ := hr
  rw [rotate_unique x y p hn hlt]
  rcases List.append_eq_append_iff.1 h1 with ⟨w, rfl, h2⟩ | ⟨w, rfl, h2⟩
  · -- u = x ++ w, p :: y = w ++ v
    cases w with
    | nil =>
      simp only [List.nil_append] at h2
      subst h2
      simp only [List.append_nil] at hlt ⊢
      have := rotate_unique [] (y ++ x) p (by
        intro q hq; apply hn; simp at hq ⊢; tauto) (by
        intro q hq; apply hlt; simp at hq ⊢; tauto)
      simpa using this.symm
    | cons w0 w =>
      simp only [List.cons_append, List.cons.injEq] at h2
      obtain ⟨rfl, rfl⟩ := h2
      have := rotate_unique (v ++ x) w p (by
        intro q hq; apply hn; simp at hq ⊢; tauto) (by
        intro q hq; apply hlt; simp at hq ⊢; tauto)
      simpa using this.symm
  · -- x = u ++ w, v = w ++ p :: y
    subst h2
    have := rotate_unique w (y ++ u) p (by
      intro q hq; apply hn; simp at hq ⊢; tauto) (by
      intro q hq; apply hlt; simp at hq ⊢; tauto)
    simpa using this.symm

theorem pointEqual_refl (c : Compare) (p : Pt F64) (ht : F64.zero.lt c.tol = true) (hb : 0 < c.bit.toInt) :
    c.pointEqual p p = true := by
  simp [Compare.pointEqual, float_refl c _ ht hb]

theorem pointEqual_symm (c : Compare) (p q : Pt F64) (hb : c.bit ≠ BitVec.intMin 64) :
    c.pointEqual p q = c.pointEqual q p := by
  simp [Compare.pointEqual, float_symm c _ _ hb]

theorem rotation_length {α : Type} {a b : List α} (h : Rotation a b) : a.length = b.length := by
  obtain ⟨u, v, rfl, rfl⟩ := h; simp; omega

theorem lineString_rotation (c : Compare) (a b : List (Pt F64)) (p : Pt F64) (ht : F64.zero.lt c.tol = true)
    (hb : 0 < c.bit.toInt) (hn : ∀ q ∈ a, numPt q) (hr : Rotation a b) (hu : UniqueLeast p a) :
    c.lineStringEqual a b = true := by
  unfold Compare.lineStringEqual
  rw [if_neg (by simp [rotation_length hr]), rotate_rotation a b p hn hr hu]
  exact allPairs_refl _ _ (fun q _ => pointEqual_refl c q ht hb)

theorem lineString_symm (c : Compare) (a b : List (Pt F64)) (hb : c.bit ≠ BitVec.intMin 64) :
    c.lineStringEqual a b = c.lineStringEqual b a := by
  unfold Compare.lineStringEqual
  rw [allPairs_symm _ (fun x y => pointEqual_symm c x y hb)]
  by_cases h : a.length = b.length
  · rw [if_neg (by simp [h]), if_neg (by simp [h])]
  · rw [if_pos h, if_pos (Ne.symm h)]

theorem multiLineLoop_iff (eq : List (Pt F64) → List (Pt F64) → Bool) (ml2 ml1 : List (List (Pt F64))) :
    multiLineLoop eq ml2 ml1 = true ↔ ∀ l ∈ ml1, ∃ m ∈ ml2, eq l m = true := by
  induction ml1 with
  | nil => simp [multiLineLoop]
  | cons l ls ih =>
    rw [multiLineLoop]
    split
    · rename_i h
      rw [ih]
      simp only [List.any_eq_true] at h
      simp [h]
    · rename_i h
      simp only [List.any_eq_true] at h
      simp [h]

/-- If every element of `as` has a partner in `bs`, no element of `bs` is the partner
of two positions of `as`, and `bs` is not longer, then every element of `bs` is a
partner. -/
theorem matching {α β : Type} (R : α → β → Prop) (as : List α) : ∀ (bs : List β), bs.length ≤ as.length →
    (∀ a ∈ as, ∃ b ∈ bs, R a b) → as.Pairwise (fun a a' => ∀ b ∈ bs, ¬ (R a b ∧ R a' b)) →
    ∀ b ∈ bs, ∃ a ∈ as, R a b := by
  induction as with
  | nil => intro bs h _ _ b hb; simp at h; subst h; simp at hb
  | cons a as ih =>
    intro bs hlen hex hpw b hb
    obtain ⟨b0, hb0, hab0⟩ := hex a (by simp)
    obtain ⟨l1, l2, rfl⟩ := List.append_of_mem hb0
    rw [List.pairwise_cons] at hpw
    have := ih (l1 ++ l2) (by simp at hlen ⊢; omega)
      (by
        intro a' ha'
        obtain ⟨b', hb', hr⟩ := hex a' (by simp [ha'])
        have hne : b' ≠ b0 := by
          rintro rfl
          exact hpw.1 a' ha' b' hb' ⟨hab0, hr⟩
        refine ⟨b', ?_, hr⟩
        simp at hb' ⊢; tauto)
      (hpw.2.imp (fun h b hb => h b (by simp at hb ⊢; tauto)))
    by_cases he : b = b0
    · subst he; exact ⟨a, by simp, hab0⟩
    · obtain ⟨a', ha', hr⟩ := this b (by simp at hb ⊢; tauto)
      exact ⟨a', by simp [ha'], hr⟩

/-! ### Polygons -/

/-- Sort key of a ring: its length, then its least vertex. -/
def ringKey (r : List (Pt F64)) : Int :=
  (r.length : Int) * 2 ^ 140 + (match r[findMinPointIdx r]? with | some p => ptKey p | none => 0)

theorem ptKey_bounds (p : Pt F64) (h : numPt p) : -2 ^ 138 < ptKey p ∧ ptKey p < 2 ^ 138 := by
  have b1 := F64.key_bounds h.1
  have b2 := F64.key_bounds h.2
  have hi : F64.infMag = 0x7FF0000000000000 := rfl
  unfold ptKey
  omega

theorem ringLess_eq (a b : List (Pt F64)) (ha : a ≠ []) (hb : b ≠ []) (hna : ∀ p ∈ a, numPt p)
    (hnb : ∀ p ∈ b, numPt p) : ringLess a b = some (decide (ringKey a < ringKey b)) := by
  obtain ⟨p, hp, _⟩ := findMin_spec a ha hna
  obtain ⟨q, hq, _⟩ := findMin_spec b hb hnb
  have np : numPt p := hna p (List.mem_of_getElem? hp)
  have nq : numPt q := hnb q (List.mem_of_getElem? hq)
  have bp := ptKey_bounds p np
  have bq := ptKey_bounds q nq
  unfold ringLess ringKey
  simp only [hp, hq]
  split
  · congr 1
    rw [decide_eq_decide]
    omega
  · congr 1
    rw [Bool.eq_iff_iff, xyLess_iff p q np nq, decide_eq_true_eq]
    omega

def goodRing (r : List (Pt F64)) : Prop := r ≠ [] ∧ ∀ p ∈ r, numPt p

theorem insertRing_spec (x : List (Pt F64)) (hx : goodRing x) : ∀ (ys : List (List (Pt F64))),
    (∀ y ∈ ys, goodRing y) → ys.Pairwise (fun a b => ringKey b ≤ ringKey a) →
    ∃ zs, insertRing x ys = some zs ∧ zs.Perm (x :: ys) ∧ zs.Pairwise (fun a b => ringKey b ≤ ringKey a)
  | [], _, _ => ⟨[x], rfl, List.Perm.refl _, by simp⟩
  | y :: ys, hg, hs => by
    rw [List.pairwise_cons] at hs
    have hy := hg y (by simp)
    rw [insertRing, ringLess_eq x y hx.1 hy.1 hx.2 hy.2]
    by_cases h : ringKey x < ringKey y
    · simp only [h, decide_true]
      obtain ⟨zs, h1, h2, h3⟩ := insertRing_spec x hx ys (fun z hz => hg z (by simp [hz])) hs.2
      refine ⟨y :: zs, by rw [h1]; rfl, ?_, ?_⟩
      · exact (List.Perm.cons y h2).trans (List.Perm.swap x y ys)
      · rw [List.pairwise_cons]
        refine ⟨?_, h3⟩
        intro z hz
        rcases List.mem_cons.1 (h2.mem_iff.1 hz) with rfl | hz
        · omega
        · exact hs.1 z hz
    · simp only [h, decide_false]
      refine ⟨x :: y :: ys, rfl, List.Perm.refl _, ?_⟩
      rw [List.pairwise_cons, List.pairwise_cons]
      refine ⟨?_, hs.1, hs.2⟩
      intro z hz
      rcases List.mem_cons.1 hz with rfl | hz
      · omega
      · have := hs.1 z hz; omega

theorem insertRings_spec (xs : List (List (Pt F64))) : ∀ (acc : List (List (Pt F64))),
    (∀ x ∈ acc, goodRing x) → (∀ x ∈ xs, goodRing x) → acc.Pairwise (fun a b => ringKey b ≤ ringKey a) →
    ∃ zs, insertRings acc xs = some zs ∧ zs.Perm (acc ++ xs) ∧ zs.Pairwise (fun a b => ringKey a ≤ ringKey b) := by
  induction xs with
  | nil =>
    intro acc _ _ hs
    refine ⟨acc.reverse, rfl, by simp, ?_⟩
    rw [List.pairwise_reverse]; exact hs
  | cons x xs ih =>
    intro acc ha hx hs
    obtain ⟨ys, h1, h2, h3⟩ := insertRing_spec x (hx x (by simp)) acc ha hs
    obtain ⟨zs, k1, k2, k3⟩ := ih ys (by
      intro z hz
      rcases List.mem_cons.1 (h2.mem_iff.1 hz) with rfl | hz
      · exact hx z (by simp)
      · exact ha z hz) (fun z hz => hx z (by simp [hz])) h3
    refine ⟨zs, by rw [insertRings, h1]; exact k1, ?_, k3⟩
    refine k2.trans ?_
    have := h2.append_right xs
    refine this.trans ?_
    rw [List.cons_append]
    exact List.perm_middle.symm

theorem sortRings_spec (r : List (Pt F64)) (rs : List (List (Pt F64))) (h : ∀ x ∈ rs, goodRing x) :
    ∃ zs, sortRings (r :: rs) = some (r :: zs) ∧ zs.Perm rs ∧ zs.Pairwise (fun a b => ringKey a ≤ ringKey b) := by
  obtain ⟨zs, h1, h2, h3⟩ := insertRings_spec rs [] (by simp) h (by simp)
  exact ⟨zs, by rw [sortRings, h1]; rfl, by simpa using h2, h3⟩

theorem extent_congr (c : Compare) (ht : F64.zero.lt c.tol = true) (hb : 0 < c.bit.toInt) (a b : Ext)
    (h1 : a.minx.eq b.minx = true) (h2 : a.miny.eq b.miny = true) (h3 : a.maxx.eq b.maxx = true)
    (h4 : a.maxy.eq b.maxy = true) : c.extent a b = true := by
  have refl : ∀ x y : F64, x.eq y = true → y.eq y = true := by
    intro x y h
    rw [F64.eq_iff] at h ⊢
    exact ⟨h.2.1, h.2.1, rfl⟩
  unfold Compare.extent
  rw [float_congr c _ _ _ _ h1 (refl _ _ h1), float_congr c _ _ _ _ h2 (refl _ _ h2),
    float_congr c _ _ _ _ h3 (refl _ _ h3), float_congr c _ _ _ _ h4 (refl _ _ h4)]
  simp [float_refl c _ ht hb]

theorem least_of_rotation {a b : List (Pt F64)} (hr : Rotation a b) {p : Pt F64} (hu : UniqueLeast p a) :
    UniqueLeast p b := by
  obtain ⟨x, y, rfl, hlt⟩ := hu
  obtain ⟨u, v, h1, rfl⟩ := hr
  rcases List.append_eq_append_iff.1 h1 with ⟨w, rfl, h2⟩ | ⟨w, rfl, h2⟩
  · cases w with
    | nil =>
      simp only [List.nil_append] at h2
      subst h2
      exact ⟨[], y ++ (x ++ []), by simp, by intro q hq; apply hlt; simp at hq ⊢; tauto⟩
    | cons w0 w =>
      simp only [List.cons_append, List.cons.injEq] at h2
      obtain ⟨rfl, rfl⟩ := h2
      exact ⟨v ++ x, w, by simp, by intro q hq; apply hlt; simp at hq ⊢; tauto⟩
  · subst h2
    exact ⟨w, y ++ u, by simp, by intro q hq; apply hlt; simp at hq ⊢; tauto⟩

theorem rotation_mem {α : Type} {a b : List α} (h : Rotation a b) (q : α) : q ∈ a ↔ q ∈ b := by
  obtain ⟨u, v, rfl, rfl⟩ := h; simp; tauto

theorem rotation_symm {α : Type} {a b : List α} (h : Rotation a b) : Rotation b a := by
  obtain ⟨u, v, rfl, rfl⟩ := h; exact ⟨v, u, rfl, rfl⟩

theorem rotation_perm {α : Type} {a b : List α} (h : Rotation a b) : a.Perm b := by
  obtain ⟨u, v, rfl, rfl⟩ := h; exact List.perm_append_comm

theorem findMin_unique (r : List (Pt F64)) (p : Pt F64) (hn : ∀ q ∈ r, numPt q) (hu : UniqueLeast p r) :
    r[findMinPointIdx r]? = some p := by
  obtain ⟨x, y, rfl, hlt⟩ := hu
  obtain ⟨m, hm, hall⟩ := findMin_spec (x ++ p :: y) (by simp) hn
  have hmem := List.mem_of_getElem? hm
  have hpn : numPt p := hn p (by simp)
  have : m = p ∨ m ∈ x ++ y := by simp at hmem ⊢; tauto
  rcases this with rfl | h
  · exact hm
  · have h1 := hlt m h
    rw [before_iff p m hpn (hn m hmem)] at h1
    have := hall p (by simp)
    omega

theorem ringKey_rotation {a b : List (Pt F64)} (hr : Rotation a b) {p : Pt F64} (hn : ∀ q ∈ a, numPt q)
    (hu : UniqueLeast p a) : ringKey a = ringKey b := by
  unfold ringKey
  rw [findMin_unique a p hn hu,
    findMin_unique b p (fun q hq => hn q ((rotation_mem hr q).2 hq)) (least_of_rotation hr hu),
    rotation_length hr]

theorem forall₂_perm {α β : Type} {R : α → β → Prop} {bs bs' : List β} (hp : bs.Perm bs') :
    ∀ (as : List α), List.Forall₂ R as bs → ∃ as', as.Perm as' ∧ List.Forall₂ R as' bs' := by
  induction hp with
  | nil => intro as h; exact ⟨as, List.Perm.refl _, h⟩
  | cons x _ ih =>
    intro as h
    cases h with
    | @cons a _ as _ h1 h2 =>
      obtain ⟨as', h3, h4⟩ := ih as h2
      exact ⟨a :: as', h3.cons a, .cons h1 h4⟩
  | swap x y l =>
    intro as h
    cases h with
    | @cons a _ as _ h1 h2 =>
      cases h2 with
      | @cons b _ as _ h3 h4 => exact ⟨b :: a :: as, List.Perm.swap _ _ _, .cons h3 (.cons h1 h4)⟩
  | trans _ _ ih1 ih2 =>
    intro as h
    obtain ⟨as', h1, h2⟩ := ih1 as h
    obtain ⟨as'', h3, h4⟩ := ih2 as' h2
    exact ⟨as'', h1.trans h3, h4⟩

theorem pairwise_inj {α β : Type} (k : α → β) (l : List α) (h : l.Pairwise (fun a b => k a ≠ k b)) :
    ∀ a ∈ l, ∀ b ∈ l, k a = k b → a = b := by
  induction l with
  | nil => simp
  | cons x l ih =>
    rw [List.pairwise_cons] at h
    intro a ha b hb e
    rcases List.mem_cons.1 ha with ha' | ha' <;> rcases List.mem_cons.1 hb with hb' | hb'
    · rw [ha', hb']
    · subst ha'; exact absurd e (h.1 b hb')
    · subst hb'; exact absurd e.symm (h.1 a ha')
    · exact ih h.2 a ha' b hb' e

theorem forall₂_rotation {α β : Type} {R : α → β → Prop} {as as' : List α} (hr : Rotation as as') :
    ∀ (bs : List β), List.Forall₂ R as bs → ∃ bs', Rotation bs bs' ∧ List.Forall₂ R as' bs' := by
  obtain ⟨u, v, rfl, rfl⟩ := hr
  intro bs h
  obtain ⟨b1, b2, h1, h2, rfl⟩ : ∃ b1 b2, List.Forall₂ R u b1 ∧ List.Forall₂ R v b2 ∧ bs = b1 ++ b2 := by
    clear * - h
    induction u generalizing bs with
    | nil => exact ⟨[], bs, .nil, h, rfl⟩
    | cons x u ih =>
      cases h with
      | @cons _ b _ bs h1 h2 =>
        obtain ⟨b1, b2, k1, k2, rfl⟩ := ih bs h2
        exact ⟨b :: b1, b2, .cons h1 k1, k2, rfl⟩
  refine ⟨b2 ++ b1, ⟨b1, b2, rfl, rfl⟩, ?_⟩
  clear h
  induction h2 with
  | nil => simpa using h1
  | cons h _ ih => exact .cons h ih

theorem rotation_trans {α : Type} {a b c : List α} (h1 : Rotation a b) (h2 : Rotation b c) : Rotation a c := by
  obtain ⟨x, y, rfl, rfl⟩ := h1
  obtain ⟨u, v, h, rfl⟩ := h2
  rcases List.append_eq_append_iff.1 h with ⟨w, rfl, rfl⟩ | ⟨w, rfl, rfl⟩
  · exact ⟨w, v ++ y, by simp, by simp⟩
  · exact ⟨x ++ u, w, by simp, by simp⟩

/-! ### SetDefault -/

theorem runSetters_inv {γ : Type} (P : γ → Prop) (sched : List Nat) : ∀ (v : γ) (ss : List (Setter γ)), P v →
    (∀ s ∈ ss, P (newOf s)) → (∀ s ∈ ss, ∀ n o, s = .loaded n o → P o) → (∀ s ∈ ss, ∀ o, returned s = some o → P o) →
    P (runSetters v ss sched).1 ∧ (∀ s ∈ (runSetters v ss sched).2, ∀ o, returned s = some o → P o) := by
  induction sched with
  | nil => intro v ss hv _ _ h3; exact ⟨hv, h3⟩
  | cons i is ih =>
    intro v ss hv h1 h2 h3
    rw [runSetters]
    split
    · exact ih v ss hv h1 h2 h3
    · rename_i s hs
      have hmem := List.mem_of_getElem? hs
      apply ih
      · cases s with
        | start n => exact hv
        | loaded n o => exact h1 _ hmem
        | done n o => exact hv
      · intro t ht
        rcases List.mem_or_eq_of_mem_set ht with ht | rfl
        · exact h1 t ht
        · have := h1 s hmem
          cases s <;> exact this
      · intro t ht n o hto
        rcases List.mem_or_eq_of_mem_set ht with ht | rfl
        · exact h2 t ht n o hto
        · cases s <;> simp [Setter.step] at hto
          rw [← hto.2]; exact hv
      · intro t ht o hto
        rcases List.mem_or_eq_of_mem_set ht with ht | rfl
        · exact h3 t ht o hto
        · cases s with
          | start n => simp [Setter.step, returned] at hto
          | loaded n o' =>
            simp [Setter.step, returned] at hto
            subst hto; exact h2 _ hmem n o' rfl
          | done n o' => exact h3 _ hmem o hto

theorem set_perm {γ δ : Type} (f : γ → Option δ) (ss : List γ) (i : Nat) (s t : γ) (o : δ) (h : ss[i]? = some s)
    (hs : f s = none) (ht : f t = some o) : ((ss.set i t).filterMap f).Perm (o :: ss.filterMap f) := by
  induction ss generalizing i with
  | nil => simp at h
  | cons a ss ih =>
    cases i with
    | zero =>
      simp only [List.getElem?_cons_zero, Option.some.injEq] at h
      subst h
      simp [hs, ht]
    | succ i =>
      rw [List.getElem?_cons_succ] at h
      rw [List.set_cons_succ]
      cases ha : f a with
      | none => simp only [List.filterMap_cons, ha]; exact ih i h
      | some b =>
        simp only [List.filterMap_cons, ha]
        exact ((ih i h).cons b).trans (List.Perm.swap _ _ _)

/-- What a call that has returned was given. -/
def given {γ : Type} : Setter γ → Option γ
  | .done n _ => some n
  | _ => none

theorem runSetters_serial {γ : Type} (init : γ) (order : List Nat) : ∀ (v : γ) (ss : List (Setter γ)),
    (∀ i ∈ order, ∃ n, ss[i]? = some (.start n)) → order.Nodup →
    (∀ j, j < ss.length → j ∈ order ∨ ∃ n o, ss[j]? = some (.done n o)) →
    (v :: ss.filterMap returned).Perm (init :: ss.filterMap given) →
    ((runSetters v ss (order.flatMap fun i => [i, i])).1 ::
      (runSetters v ss (order.flatMap fun i => [i, i])).2.filterMap returned).Perm
      (init :: (runSetters v ss (order.flatMap fun i => [i, i])).2.filterMap given) ∧
    (∀ s ∈ (runSetters v ss (order.flatMap fun i => [i, i])).2, ∃ n o, s = .done n o) ∧
    (runSetters v ss (order.flatMap fun i => [i, i])).2.map newOf = ss.map newOf := by
  induction order with
  | nil =>
    intro v ss _ _ hd h
    refine ⟨h, ?_, rfl⟩
    show ∀ s ∈ ss, _
    intro s hs
    obtain ⟨j, hj, rfl⟩ := List.getElem_of_mem hs
    rcases hd j hj with hc | ⟨n, o, hno⟩
    · simp at hc
    · exact ⟨n, o, by rw [List.getElem?_eq_getElem hj] at hno; exact Option.some.inj hno⟩
  | cons i is ih =>
    intro v ss hst hnd hd h
    obtain ⟨n, hn⟩ := hst i (by simp)
    rw [List.nodup_cons] at hnd
    have hlt : i < ss.length := (List.getElem?_eq_some_iff.1 hn).1
    have e : runSetters v ss ((i :: is).flatMap fun i => [i, i]) =
        runSetters n (ss.set i (.done n v)) (is.flatMap fun i => [i, i]) := by
      simp only [List.flatMap_cons, List.cons_append, List.nil_append]
      rw [runSetters, hn]
      simp only [Setter.step]
      rw [runSetters, List.getElem?_set_self hlt]
      simp only [Setter.step, List.set_set]
    have hmap : (ss.set i (.done n v)).map newOf = ss.map newOf := by
      rw [List.map_set]
      have : (ss.map newOf)[i]? = some n := by rw [List.getElem?_map, hn]; rfl
      apply List.ext_getElem?
      intro j
      rw [List.getElem?_set]
      split
      · rename_i hij
        subst hij
        simp [newOf, hlt] at this ⊢
        exact this.symm
      · rfl
    rw [e, ← hmap]
    apply ih
    · intro j hj
      obtain ⟨m, hm⟩ := hst j (by simp [hj])
      refine ⟨m, ?_⟩
      rw [List.getElem?_set_ne]
      · exact hm
      · rintro rfl; exact hnd.1 hj
    · exact hnd.2
    · intro j hj
      rw [List.length_set] at hj
      by_cases hij : i = j
      · subst hij; right; exact ⟨n, v, List.getElem?_set_self hlt⟩
      · rw [List.getElem?_set_ne hij]
        rcases hd j hj with hc | hc
        · left; simp at hc; rcases hc with rfl | hc
          · exact absurd rfl hij
          · exact hc
        · exact .inr hc
    · have p1 := set_perm returned ss i _ (.done n v) v hn rfl rfl
      have p2 := set_perm given ss i _ (.done n v) n hn rfl rfl
      exact (p1.cons n).trans ((h.cons n).trans ((List.Perm.swap _ _ _).trans (p2.symm.cons init)))

end Verif.Cmp
