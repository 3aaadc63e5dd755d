import Verif.Lemmas.Cmp
import Verif.Props.Extent

/-!
# Comparison properties (C26–C30, C56, C57)
-/

namespace Verif.Props
open Verif Verif.Cmp Verif.Spec.Extent Verif.Spec.Cmp

instance (c : Compare) : Decidable (Positive c) := inferInstanceAs (Decidable (_ ∧ _))
instance (f : F64) : Decidable (plain f) := inferInstanceAs (Decidable (_ ∧ _ ∧ _))
instance (p q : Pt F64) : Decidable (before p q) := inferInstanceAs (Decidable (_ ∨ _ ∧ _))
instance (p q : Pt F64) : Decidable (samePt p q) := inferInstanceAs (Decidable (_ ∧ _))

/-- Tolerance 1 next to zero, 4 bit patterns elsewhere. -/
def cmp4 : Compare := ⟨f1, 4#64⟩

/-! ## C26 -/

/-- C26: the answer does not depend on the order of the arguments (for every bit
tolerance but the least int64, which cannot be negated). -/
theorem C26_symm (c : Compare) (a b : F64) (hb : c.bit ≠ BitVec.intMin 64) : c.float a b = c.float b a :=
  float_symm c a b hb

example : cmp4.bit ≠ BitVec.intMin 64 := by decide

/-- C26: with the least int64 as bit tolerance the comparison is not symmetric. -/
theorem C26_symm_needs_bit : ∃ (c : Compare) (a b : F64), c.bit = BitVec.intMin 64 ∧ c.float a b ≠ c.float b a :=
  ⟨⟨f1, BitVec.intMin 64⟩, f1, 0x3FF0000000000001#64 ^^^ 0x8000000000000000#64, by decide, by decide⟩

/-- C26: with positive tolerances every float equals itself. -/
theorem C26_refl (c : Compare) (a : F64) (h : Positive c) : c.float a a = true := float_refl c a h.1 h.2

example : Positive cmp4 := by decide

/-- C26: an infinity equals itself only. -/
theorem C26_inf (c : Compare) (a b : F64) (h : a.isInf = true) : c.float a b = true ↔ b = a := by
  unfold Compare.float
  rw [if_pos (by simp [h])]
  have hm : a.mag = F64.infMag := by simpa [F64.isInf] using h
  constructor
  · intro h2
    have key : b.mag = F64.infMag ∧ b.sign = a.sign := by
      simp only [F64.isNegInf, F64.isPosInf, h, Bool.true_and, Bool.and_eq_true, beq_iff_eq] at h2
      cases hs : a.sign <;> cases hb : b.isInf <;> cases hs' : b.sign <;> simp_all [F64.isInf]
    have e1 := key.1
    have e2 := key.2
    unfold F64.mag at e1 hm
    unfold F64.sign at e2
    rw [decide_eq_decide] at e2
    apply BitVec.eq_of_toNat_eq
    have := a.isLt
    have := b.isLt
    omega
  · rintro rfl
    simp

example : F64.negInf.isInf = true := by decide

/-- C26: two finite floats, neither of them zero, are equal exactly when they have
the same sign and are fewer than the bit tolerance representable numbers apart. -/
theorem C26_near (c : Compare) (a b : F64) (ha : plain a) (hb : plain b) (h0 : 0 < c.bit.toInt)
    (h1 : c.bit.toInt ≤ 2 ^ 52) :
    c.float a b = true ↔ a.sign = b.sign ∧ a.key - b.key < c.bit.toInt ∧ b.key - a.key < c.bit.toInt := by
  have na : a.eq F64.zero = false := by
    have := ha.2.2
    rw [Bool.eq_false_iff, Ne, F64.eq_iff, F64.key_zero]; tauto
  have nb : b.eq F64.zero = false := by
    have := hb.2.2
    rw [Bool.eq_false_iff, Ne, F64.eq_iff, F64.key_zero]; tauto
  unfold Compare.float
  rw [if_neg (by simp [ha.2.1, hb.2.1]), if_neg (by simp [na, nb])]
  have := bitNear_iff c.bit a b (by omega)
  unfold bitNear at this
  rw [this]
  have ma : a.mag < F64.infMag := by
    have h1 := ha.1; have h2 := ha.2.1
    simp [num, F64.isNaN, F64.isInf] at h1 h2; omega
  have mb : b.mag < F64.infMag := by
    have h1 := hb.1; have h2 := hb.2.1
    simp [num, F64.isNaN, F64.isInf] at h1 h2; omega
  have hi : F64.infMag = 0x7FF0000000000000 := rfl
  have la := a.isLt
  have lb := b.isLt
  obtain ⟨k, hk⟩ : ∃ k : Int, (b - a).toInt = b.toNat - a.toNat + k * 18446744073709551616 := by
    refine ⟨((b - a).toInt - (b.toNat - a.toNat)) / 18446744073709551616, ?_⟩
    rw [BitVec.toInt_eq_toNat_bmod, BitVec.toNat_sub, Int.bmod_def]
    split <;> omega
  have l1 := BitVec.le_toInt (x := b - a)
  have l2 := BitVec.toInt_lt (x := b - a)
  generalize (b - a).toInt = d at *
  generalize c.bit.toInt = t at *
  have sa := sign_iff a
  have sb := sign_iff b
  unfold F64.key
  unfold F64.mag at ma mb ⊢
  rw [hi] at ma mb
  generalize a.toNat = x at *
  generalize b.toNat = y at *
  simp only [Nat.reducePow, Nat.reduceSub, Int.reducePow] at *
  cases hsa : a.sign <;> cases hsb : b.sign <;> simp only [hsa, hsb] at sa sb ⊢ <;>
    simp only [Bool.false_eq_true, false_iff, true_iff, if_false, if_true, true_and, false_and, iff_false,
      not_and, Bool.true_eq] at sa sb ⊢ <;> omega

example : plain f1 ∧ plain f2 ∧ 0 < cmp4.bit.toInt ∧ cmp4.bit.toInt ≤ 2 ^ 52 := by decide

/-- C26: a finite number equals zero exactly when it is closer to zero than the
tolerance. -/
theorem C26_zero (c : Compare) (z b : F64) (hz : z.eq F64.zero = true) (hb : b.isInf = false) :
    c.float z b = true ↔ (Cmp.abs b).lt c.tol = true := by
  unfold Compare.float
  have : z.isInf = false := by
    have := (F64.eq_iff.1 hz).2.2
    rw [F64.key_zero] at this
    have hm : z.mag = 0 := by unfold F64.key at this; split at this <;> omega
    simp [F64.isInf, hm, F64.infMag]
  rw [if_neg (by simp [this, hb]), if_pos (by simp [hz])]
  simp [absDiffZero, hz]

example : F64.negZero.eq F64.zero = true ∧ f1.isInf = false := by decide

/-- C26: equality within a tolerance is not transitive, whatever the bit tolerance. -/
theorem C26_not_transitive : ∃ (c : Compare) (x y z : F64), Positive c ∧
    c.float x y = true ∧ c.float y z = true ∧ c.float x z = false :=
  ⟨cmp4, f1, 0x3FF0000000000003#64, 0x3FF0000000000006#64, by decide, by decide, by decide, by decide⟩

/-! ## C27 -/

/-- C27: `XYLessPoint` / `PointLess` is the lexicographic order on numbers. -/
theorem C27_less_iff (p q : Pt F64) (hp : numPt p) (hq : numPt q) : xyLess p q = true ↔ before p q := by
  rw [xyLess_iff p q hp hq, before_iff p q hp hq]

/-- C27: no point is before itself. -/
theorem C27_irrefl (p : Pt F64) : xyLess p p = false := by
  unfold xyLess
  split <;> rw [Bool.eq_false_iff, Ne, F64.lt_iff] <;> omega

/-- C27: transitive. -/
theorem C27_trans (p q r : Pt F64) (hp : numPt p) (hq : numPt q) (hr : numPt r)
    (h1 : xyLess p q = true) (h2 : xyLess q r = true) : xyLess p r = true := by
  rw [xyLess_iff _ _ hp hq] at h1
  rw [xyLess_iff _ _ hq hr] at h2
  rw [xyLess_iff _ _ hp hr]
  omega

/-- C27: of two points one is before the other unless they are the same. -/
theorem C27_total (p q : Pt F64) (hp : numPt p) (hq : numPt q) :
    xyLess p q = true ∨ xyLess q p = true ∨ samePt p q := by
  rw [xyLess_iff _ _ hp hq, xyLess_iff _ _ hq hp, samePt_iff _ _ hp hq]
  omega

example : numPt (f1, f2) ∧ numPt (f1, f3) ∧ numPt (f2, F64.negInf) ∧ xyLess (f1, f2) (f1, f3) = true ∧
    xyLess (f1, f3) (f2, F64.negInf) = true := by decide

/-- C27: the order says nothing about points with NaN: incomparable to a point is not
transitive there. -/
theorem C27_nan : ∃ p q r : Pt F64, xyLess p q = false ∧ xyLess q p = false ∧ xyLess q r = false ∧
    xyLess r q = false ∧ xyLess p r = true :=
  ⟨(f1, f1), (F64.nan, f1), (f2, f1), by decide, by decide, by decide, by decide, by decide⟩

/-! ## C28 -/

/-- C28: permuting the lists, or sorting with another algorithm, does not change the
answer of `MultiPointEqual`. -/
theorem C28_permutation_invariant (c : Compare) (s1 s2 t1 t2 : List (Pt F64) → List (Pt F64))
    (hs1 : SortsOn numPt before s1) (hs2 : SortsOn numPt before s2)
    (ht1 : SortsOn numPt before t1) (ht2 : SortsOn numPt before t2)
    (a b a' b' : List (Pt F64)) (ha : ∀ p ∈ a, numPt p) (hb : ∀ p ∈ b, numPt p)
    (haa : a.Perm a') (hbb : b.Perm b') :
    c.multiPointEqual s1 s2 a b = c.multiPointEqual t1 t2 a' b' := by
  unfold Compare.multiPointEqual
  rw [haa.length_eq, hbb.length_eq]
  split
  · rfl
  · exact allPairs_congr _ samePt (fun x x' y y' h1 h2 => pointEqual_congr c x x' y y' h1 h2)
      (sorts_agree s1 t1 hs1 ht1 a a' ha haa) (sorts_agree s2 t2 hs2 ht2 b b' hb hbb)

/-- C28: a list equals each of its permutations. -/
theorem C28_permutations_equal (c : Compare) (s1 s2 : List (Pt F64) → List (Pt F64))
    (hs1 : SortsOn numPt before s1) (hs2 : SortsOn numPt before s2) (hc : Positive c)
    (a b : List (Pt F64)) (ha : ∀ p ∈ a, numPt p) (hab : a.Perm b) :
    c.multiPointEqual s1 s2 a b = true := by
  rw [C28_permutation_invariant c s1 s2 s1 s1 hs1 hs2 hs1 hs1 a b a a ha
    (fun p hp => ha p (hab.mem_iff.2 hp)) (List.Perm.refl a) hab.symm]
  unfold Compare.multiPointEqual
  rw [if_neg (by simp)]
  exact allPairs_refl _ _ (fun p _ => pointEqual_refl c p hc.1 hc.2)

/-- C28: the answer is yes only if the points can be paired off so that each is equal,
within the tolerance, to its partner. -/
theorem C28_sound (c : Compare) (s1 s2 : List (Pt F64) → List (Pt F64))
    (hs1 : SortsOn numPt before s1) (hs2 : SortsOn numPt before s2)
    (a b : List (Pt F64)) (ha : ∀ p ∈ a, numPt p) (hb : ∀ p ∈ b, numPt p)
    (h : c.multiPointEqual s1 s2 a b = true) :
    ∃ b', b'.Perm b ∧ List.Forall₂ (fun p q => c.pointEqual p q = true) a b' := by
  unfold Compare.multiPointEqual at h
  split at h
  · cases h
  · rename_i hl
    simp only [ne_eq, Decidable.not_not] at hl
    have p1 := (hs1 a ha).1
    have p2 := (hs2 b hb).1
    rw [allPairs_iff _ _ _ (by rw [p1.length_eq, p2.length_eq, hl])] at h
    obtain ⟨b', h1, h2⟩ := forall₂_perm (R := fun q p => c.pointEqual p q = true) p1 (s2 b) h.flip
    exact ⟨b', h1.symm.trans p2, h2.flip⟩

/-- A sort to show the hypotheses can be met. -/
def mergeSorts (l : List (Pt F64)) : List (Pt F64) := l.mergeSort (fun p q => !xyLess q p)

example : SortsOn numPt before mergeSorts := by
  intro l hl
  refine ⟨List.mergeSort_perm l _, ?_⟩
  -- sort the attached list, where the order is total and transitive
  have hsub : mergeSorts l = ((l.pmap (fun p h => (⟨p, h⟩ : {p // numPt p})) hl).mergeSort
      (fun p q => !xyLess q.1 p.1)).map Subtype.val := by
    unfold mergeSorts
    rw [List.map_mergeSort (f := Subtype.val) (r := fun p q : {p // numPt p} => !xyLess q.1 p.1)
      (s := fun p q => !xyLess q p) (by intros; rfl)]
    rw [List.map_pmap]
    simp
  rw [hsub, List.pairwise_map]
  have := List.pairwise_mergeSort (le := fun p q : {p // numPt p} => !xyLess q.1 p.1)
    (by
      rintro ⟨p, hp⟩ ⟨q, hq⟩ ⟨r, hr⟩ h1 h2
      simp only [Bool.not_eq_true', ← Bool.not_eq_true, xyLess_iff _ _ hq hp, xyLess_iff _ _ hr hq,
        xyLess_iff _ _ hr hp] at *
      omega)
    (by
      rintro ⟨p, hp⟩ ⟨q, hq⟩
      simp only [Bool.or_eq_true, Bool.not_eq_true', ← Bool.not_eq_true, xyLess_iff _ _ hq hp, xyLess_iff _ _ hp hq]
      omega) (l.pmap (fun p h => (⟨p, h⟩ : {p // numPt p})) hl)
  refine this.imp ?_
  rintro ⟨p, hp⟩ ⟨q, hq⟩ h
  rw [← C27_less_iff q p hq hp]
  simpa using h

example : (∀ p ∈ [(f1, f2), (f3, f1), (f1, F64.negZero)], numPt p) ∧ ([(f1, f2), (f3, f1)] : List (Pt F64)).Perm [(f3, f1), (f1, f2)] :=
  ⟨by decide, List.Perm.swap _ _ _⟩

/-! ## C29 -/

/-- C29: the vertices keep their cyclic order. -/
theorem C29_rotation (l : List (Pt F64)) : Rotation l (rotateToLeftMost l) := by
  rw [rotate_eq]
  exact ⟨l.take _, l.drop _, (List.take_append_drop _ _).symm, rfl⟩

/-- C29: no vertex is before the new first one. -/
theorem C29_least_first (l : List (Pt F64)) (hl : l ≠ []) (hn : ∀ p ∈ l, numPt p) :
    ∃ p rest, rotateToLeftMost l = p :: rest ∧ ∀ q ∈ l, ¬ before q p := by
  obtain ⟨m, hm, hall⟩ := findMin_spec l hl hn
  have hlt := findMin_lt l hl
  rw [List.getElem?_eq_getElem hlt] at hm
  cases hm
  refine ⟨l[findMinPointIdx l], l.drop (findMinPointIdx l + 1) ++ l.take (findMinPointIdx l), ?_, ?_⟩
  · rw [rotate_eq, List.drop_eq_getElem_cons hlt]; rfl
  · intro q hq hb
    rw [before_iff q _ (hn q hq) (hn _ (List.getElem_mem hlt))] at hb
    have := hall q hq
    omega

/-- C29: among equal least vertices the earliest comes first (so rotating twice
changes nothing). -/
theorem C29_idempotent (l : List (Pt F64)) (hn : ∀ p ∈ l, numPt p) :
    rotateToLeftMost (rotateToLeftMost l) = rotateToLeftMost l := by
  cases l with
  | nil => rfl
  | cons a as =>
    obtain ⟨p, rest, h1, h2⟩ := C29_least_first (a :: as) (by simp) hn
    have hmem : ∀ q, q ∈ p :: rest ↔ q ∈ a :: as := fun q => by
      rw [← h1]; exact (rotation_mem (C29_rotation (a :: as)) q).symm
    rw [h1]
    have hnp : numPt p := hn p ((hmem p).1 (by simp))
    have hloop : ∀ (ps : List (Pt F64)) (i : Nat), (∀ q ∈ ps, numPt q ∧ ¬ before q p) → findMinLoop i 0 p ps = 0 := by
      intro ps
      induction ps with
      | nil => intro i _; rfl
      | cons q qs ih =>
        intro i h
        rw [findMinLoop, if_neg]
        · exact ih (i + 1) (fun r hr => h r (by simp [hr]))
        · rw [C27_less_iff q p (h q (by simp)).1 hnp]; exact (h q (by simp)).2
    have : findMinPointIdx (p :: rest) = 0 := hloop rest 1 (by
      intro q hq
      have := (hmem q).1 (by simp [hq])
      exact ⟨hn q this, h2 q this⟩)
    rw [rotate_eq, this]
    simp

example : ([(f2, f1), (f1, f3), (f1, f2)] : List (Pt F64)) ≠ [] ∧
    (∀ p ∈ [(f2, f1), (f1, f3), (f1, f2)], numPt p) ∧
    rotateToLeftMost [(f2, f1), (f1, f3), (f1, f2)] = [(f1, f2), (f2, f1), (f1, f3)] := by decide

/-- C29: a linestring with a unique least vertex equals its rotations. -/
theorem C29_rotations_equal (c : Compare) (a b : List (Pt F64)) (p : Pt F64) (hc : Positive c)
    (hn : ∀ q ∈ a, numPt q) (hr : Rotation a b) (hu : UniqueLeast p a) :
    c.lineStringEqual a b = true :=
  lineString_rotation c a b p hc.1 hc.2 hn hr hu

example : (∀ q ∈ [(f2, f1), (f1, f3), (f1, f2)], numPt q) ∧ Rotation [(f2, f1), (f1, f3), (f1, f2)] [(f1, f3), (f1, f2), (f2, f1)] ∧
    UniqueLeast (f1, f2) [(f2, f1), (f1, f3), (f1, f2)] :=
  ⟨by decide, ⟨[(f2, f1)], [(f1, f3), (f1, f2)], rfl, rfl⟩, ⟨[(f2, f1), (f1, f3)], [], rfl, by decide⟩⟩

/-- C29: linestrings that compare equal are equal vertex by vertex, within the
tolerance, after a rotation of one of them. -/
theorem C29_sound (c : Compare) (a b : List (Pt F64)) (h : c.lineStringEqual a b = true) :
    ∃ b', Rotation b b' ∧ List.Forall₂ (fun p q => c.pointEqual p q = true) a b' := by
  unfold Compare.lineStringEqual at h
  split at h
  · cases h
  · rename_i hl
    simp only [ne_eq, Decidable.not_not] at hl
    rw [allPairs_iff _ _ _ (by rw [rotate_length, rotate_length, hl])] at h
    obtain ⟨b', h1, h2⟩ := forall₂_rotation (rotation_symm (C29_rotation a)) _ h
    exact ⟨b', rotation_trans (C29_rotation b) h1, h2⟩

example : cmp4.lineStringEqual [(f2, f1), (f1, f3)] [(f1, f3), (f2, f1)] = true := by decide

/-- C29: uniqueness of the least vertex cannot be dropped. -/
theorem C29_unique_needed : ∃ (c : Compare) (a b : List (Pt F64)), Positive c ∧ (∀ q ∈ a, numPt q) ∧
    Rotation a b ∧ c.lineStringEqual a b = false :=
  ⟨cmp4, [(f1, f1), (f2, f2), (f1, f1), (f3, f3)], [(f1, f1), (f3, f3), (f1, f1), (f2, f2)], by decide, by decide,
    ⟨[(f1, f1), (f2, f2)], [(f1, f1), (f3, f3)], rfl, rfl⟩, by decide⟩

/-- C29: `LineStringEqual` is symmetric and reflexive. -/
theorem C29_symm_refl (c : Compare) (a b : List (Pt F64)) :
    (c.bit ≠ BitVec.intMin 64 → c.lineStringEqual a b = c.lineStringEqual b a) ∧
    (Positive c → c.lineStringEqual a a = true) := by
  refine ⟨lineString_symm c a b, fun h => ?_⟩
  unfold Compare.lineStringEqual
  rw [if_neg (by simp)]
  exact allPairs_refl _ _ (fun q _ => pointEqual_refl c q h.1 h.2)

/-! ## C30 -/

/-- C30, full claim: `MultiLineEqual` is symmetric. -/
def C30_full : Prop := ∀ (c : Compare) (a b : List (List (Pt F64))), Positive c →
  c.multiLineEqual a b = c.multiLineEqual b a

/-- C30 fails: `[l, l]` equals `[l, m]` but not the other way round. -/
theorem C30_violated : ¬ C30_full := by
  intro h
  have := h cmp4 [[(f1, f1)], [(f1, f1)]] [[(f1, f1)], [(f2, f2)]] (by decide)
  revert this
  decide

/-- C30, weaker: symmetric when no line on either side equals two lines of the other
side.  Missing: the repeated lines of `C30_violated`. -/
theorem C30_symm_partial (c : Compare) (a b : List (List (Pt F64))) (hb : c.bit ≠ BitVec.intMin 64)
    (h1 : a.Pairwise (fun l l' => ∀ m ∈ b, ¬ (c.lineStringEqual l m = true ∧ c.lineStringEqual l' m = true)))
    (h2 : b.Pairwise (fun l l' => ∀ m ∈ a, ¬ (c.lineStringEqual l m = true ∧ c.lineStringEqual l' m = true))) :
    c.multiLineEqual a b = c.multiLineEqual b a := by
  have half : ∀ a b : List (List (Pt F64)),
      a.Pairwise (fun l l' => ∀ m ∈ b, ¬ (c.lineStringEqual l m = true ∧ c.lineStringEqual l' m = true)) →
      c.multiLineEqual a b = true → c.multiLineEqual b a = true := by
    intro a b hp h
    unfold Compare.multiLineEqual at h ⊢
    split at h
    · cases h
    · rename_i hl
      simp only [ne_eq, Decidable.not_not] at hl
      rw [if_neg (by simp [hl])]
      rw [multiLineLoop_iff] at h ⊢
      intro m hm
      obtain ⟨l, hl', h'⟩ := matching (fun l m => c.lineStringEqual l m = true) a b (by omega) h hp m hm
      exact ⟨l, hl', by rw [lineString_symm c m l hb]; exact h'⟩
  rw [Bool.eq_iff_iff]
  exact ⟨half a b h1, half b a h2⟩

example : ([[(f1, f1)], [(f2, f2), (f1, f3)]] : List (List (Pt F64))).Pairwise (fun l l' => ∀ m ∈ [[(f1, f3), (f2, f2)], [(f1, f1)]],
    ¬ (cmp4.lineStringEqual l m = true ∧ cmp4.lineStringEqual l' m = true)) := by decide

/-- C30: what `MultiLineEqual` does decide: the same number of lines, and each line of
the first has an equal one in the second. -/
theorem C30_meaning (c : Compare) (a b : List (List (Pt F64))) :
    c.multiLineEqual a b = true ↔
      a.length = b.length ∧ ∀ l ∈ a, ∃ m ∈ b, c.lineStringEqual l m = true := by
  unfold Compare.multiLineEqual
  split
  · rename_i h; simp [h]
  · rename_i h
    simp only [ne_eq, Decidable.not_not] at h
    rw [multiLineLoop_iff]; simp [h]

/-- C30: a multiline equals each of its permutations. -/
theorem C30_permutation (c : Compare) (a b : List (List (Pt F64))) (hc : Positive c) (h : a.Perm b) :
    c.multiLineEqual a b = true := by
  rw [C30_meaning]
  exact ⟨h.length_eq, fun l hl => ⟨l, h.mem_iff.1 hl, (C29_symm_refl c l l).2 hc⟩⟩

/-! ## C56 -/

/-- C56, full claim: `PolygonEqual` holds between any two descriptions of a polygon
(with up to twelve rings). -/
def C56_full : Prop := ∀ (dflt c : Compare) (p q : List (List (Pt F64))), Positive dflt → Positive c →
  p.length ≤ 12 → PlainRings p → SamePolygon p q →
  ∃ p' q', polygonEqual dflt c p q = some (true, p', q')

/-- C56 fails: two interior rings of the same length that touch in their least vertex. -/
theorem C56_violated : ¬ C56_full := by
  intro h
  have := h cmp4 cmp4 [[(F64.zero, F64.zero)], [(f1, f1), (f2, f2)], [(f1, f1), (f3, f3)]]
    [[(F64.zero, F64.zero)], [(f1, f1), (f3, f3)], [(f1, f1), (f2, f2)]] (by decide) (by decide) (by decide)
    (by
      intro r hr
      simp only [List.mem_cons, List.not_mem_nil, or_false] at hr
      rcases hr with rfl | rfl | rfl
      · exact ⟨by decide, (F64.zero, F64.zero), [], [], rfl, by decide⟩
      · exact ⟨by decide, (f1, f1), [], [(f2, f2)], rfl, by decide⟩
      · exact ⟨by decide, (f1, f1), [], [(f3, f3)], rfl, by decide⟩)
    ⟨_, _, _, _, [[(f1, f1), (f3, f3)], [(f1, f1), (f2, f2)]], rfl, rfl, ⟨[], _, rfl, by simp⟩, List.Perm.swap _ _ _,
      forall₂_refl_of _ (fun a _ => ⟨[], a, rfl, by simp⟩)⟩
  obtain ⟨p', q', h⟩ := this
  have h2 : (polygonEqual cmp4 cmp4 [[(F64.zero, F64.zero)], [(f1, f1), (f2, f2)], [(f1, f1), (f3, f3)]]
    [[(F64.zero, F64.zero)], [(f1, f1), (f3, f3)], [(f1, f1), (f2, f2)]]).map (·.1) = some false := by decide +kernel
  rw [h] at h2
  cases h2

/-- C56, weaker: interior rings of the same length have different least vertices. -/
theorem C56_descriptions_equal_partial (dflt c : Compare) (p q : List (List (Pt F64))) (hd : Positive dflt)
    (hc : Positive c) (_h12 : p.length ≤ 12) (hp : PlainRings p)
    (hk : p.tail.Pairwise (fun a b => a.length = b.length → ∀ v w, UniqueLeast v a → UniqueLeast w b → ¬ samePt v w))
    (hpq : SamePolygon p q) : ∃ p' q', polygonEqual dflt c p q = some (true, p', q') := by
  obtain ⟨r, rs, r', rs', ms, rfl, rfl, hr, hperm, hrot⟩ := hpq
  have good : ∀ x ∈ r :: rs, goodRing x := by
    intro x hx
    obtain ⟨h1, v, a, b, h2, _⟩ := hp x hx
    exact ⟨by rw [h2]; simp, h1⟩
  have plainMs : ∀ x ∈ ms, (∀ v ∈ x, numPt v) ∧ ∃ v, UniqueLeast v x :=
    fun x hx => hp x (by simp [hperm.mem_iff.2 hx])
  have good' : ∀ x ∈ rs', goodRing x := by
    intro x hx
    obtain ⟨m, hm, hmx⟩ : ∃ m ∈ ms, Rotation m x := by
      clear * - hrot hx
      induction hrot with
      | nil => simp at hx
      | cons h _ ih =>
        rcases List.mem_cons.1 hx with rfl | hx
        · exact ⟨_, by simp, h⟩
        · obtain ⟨m, hm, h⟩ := ih hx; exact ⟨m, by simp [hm], h⟩
    have := good m (by simp [hperm.mem_iff.2 hm])
    refine ⟨?_, fun v hv => this.2 v ((rotation_mem hmx v).2 hv)⟩
    have hl := rotation_length hmx
    intro h0
    subst h0
    exact this.1 (List.length_eq_zero_iff.1 hl)
  obtain ⟨zs, hz1, hz2, hz3⟩ := sortRings_spec r rs (fun x hx => good x (by simp [hx]))
  obtain ⟨zs', hz1', hz2', hz3'⟩ := sortRings_spec r' rs' good'
  -- a copy of `ms` in the order of the second sorted list
  obtain ⟨ms', hms1, hms2⟩ : ∃ ms', ms'.Perm ms ∧ List.Forall₂ Rotation ms' zs' := by
    obtain ⟨y, h1, h2⟩ := forall₂_perm hz2'.symm ms hrot
    exact ⟨y, h1.symm, h2⟩
  have hkeys : ms'.map ringKey = zs'.map ringKey := by
    have : ∀ x ∈ ms', (∀ v ∈ x, numPt v) ∧ ∃ v, UniqueLeast v x := fun x hx => plainMs x (hms1.mem_iff.1 hx)
    clear * - hms2 this
    induction hms2 with
    | nil => rfl
    | @cons a _ _ _ h _ ih =>
      obtain ⟨hn, v, hv⟩ := this a (by simp)
      rw [List.map_cons, List.map_cons, ringKey_rotation h hn hv, ih (fun x hx => this x (by simp [hx]))]
  have hsorted : ms'.Pairwise (fun a b => ringKey a ≤ ringKey b) := by
    have : (zs'.map ringKey).Pairwise (· ≤ ·) := by rw [List.pairwise_map]; exact hz3'
    rw [← hkeys, List.pairwise_map] at this
    exact this
  have hzm : zs.Perm ms' := hz2.trans (hperm.trans hms1.symm)
  have hdist : ∀ a ∈ rs, ∀ b ∈ rs, ringKey a = ringKey b → a = b := by
    have key_ne : ∀ a ∈ rs, ∀ b ∈ rs,
        (a.length = b.length → ∀ v w, UniqueLeast v a → UniqueLeast w b → ¬ samePt v w) → ringKey a ≠ ringKey b := by
      intro a ha b hb h hkey
      obtain ⟨hna, v, hv⟩ := hp a (by simp [ha])
      obtain ⟨hnb, w, hw⟩ := hp b (by simp [hb])
      have e1 := findMin_unique a v hna hv
      have e2 := findMin_unique b w hnb hw
      have nv : numPt v := hna v (List.mem_of_getElem? e1)
      have nw : numPt w := hnb w (List.mem_of_getElem? e2)
      have b1 := ptKey_bounds v nv
      have b2 := ptKey_bounds w nw
      unfold ringKey at hkey
      simp only [e1, e2] at hkey
      refine h (by omega) v w hv hw ?_
      rw [samePt_iff v w nv nw]
      have : a.length = b.length := by omega
      rw [this] at hkey
      omega
    simp only [List.tail_cons] at hk
    have hk' : rs.Pairwise (fun a b => ringKey a ≠ ringKey b) := by
      refine List.Pairwise.imp_of_mem ?_ hk
      intro a b ha hb h
      exact key_ne a ha b hb h
    intro a ha b hb hkey
    by_contra hne
    exact hne (pairwise_inj ringKey rs hk' a ha b hb hkey)
  have hzs : zs = ms' := by
    refine List.Perm.eq_of_pairwise (le := fun a b => ringKey a ≤ ringKey b) ?_ hz3 hsorted hzm
    intro a b ha hb h1 h2
    exact hdist a (hz2.mem_iff.1 ha) b (hz2.mem_iff.1 (hzm.mem_iff.2 hb)) (by omega)
  subst hzs
  have hlen : rs.length = rs'.length := by rw [hperm.length_eq, hrot.length_eq]
  have hflat : (r :: rs).flatten.Perm (r' :: rs').flatten := by
    simp only [List.flatten_cons]
    refine (rotation_perm hr).append ?_
    refine hperm.flatten.trans ?_
    clear * - hrot
    induction hrot with
    | nil => exact List.Perm.refl _
    | cons h _ ih => simp only [List.flatten_cons]; exact (rotation_perm h).append ih
  have hnum : ∀ v ∈ (r :: rs).flatten, numPt v := by
    intro v hv
    obtain ⟨x, hx, hvx⟩ := List.mem_flatten.1 hv
    exact (good x hx).2 v hvx
  have hext : dflt.extent (Ext.extent (Ext.newExtent (r :: rs).flatten)) (Ext.extent (Ext.newExtent (r' :: rs').flatten)) = true := by
    have hne : (r :: rs).flatten ≠ [] := by
      have := (good r (by simp)).1
      simp [this]
    obtain ⟨e, he, _⟩ := C20_newExtent_tight _ hne hnum
    obtain ⟨e', he', _⟩ := C20_newExtent_tight (r' :: rs').flatten (by
      intro h0; rw [h0] at hflat; exact hne hflat.eq_nil) (fun v hv => hnum v (hflat.mem_iff.2 hv))
    obtain ⟨s1, s2, s3, s4⟩ := C20_extent_order_irrelevant _ _ hflat hnum e e' he he'
    rw [he, he']
    exact extent_congr dflt hd.1 hd.2 e e' s1 s2 s3 s4
  refine ⟨r :: zs, r' :: zs', ?_⟩
  unfold polygonEqual
  rw [if_neg (by simp [hlen]), if_neg (by rw [hext]; simp), hz1, hz1']
  simp only [Option.some.injEq, Prod.mk.injEq, and_true]
  rw [allPairs_iff _ _ _ (by simp [hz2.length_eq, hz2'.length_eq, hlen])]
  refine .cons ?_ ?_
  · obtain ⟨hn, v, hv⟩ := hp r (by simp)
    exact lineString_rotation c r r' v hc.1 hc.2 hn hr hv
  · have : ∀ x ∈ zs, (∀ v ∈ x, numPt v) ∧ ∃ v, UniqueLeast v x := fun x hx => hp x (by simp [hz2.mem_iff.1 hx])
    clear * - hms2 this hc
    induction hms2 with
    | nil => exact .nil
    | @cons a _ _ _ h _ ih =>
      obtain ⟨hn, v, hv⟩ := this a (by simp)
      exact .cons (lineString_rotation c _ _ v hc.1 hc.2 hn h hv) (ih (fun x hx => this x (by simp [hx])))

example : ([[(f1, f1), (f2, f2)], [(f1, f2), (f3, f3)]] : List (List (Pt F64))).Pairwise
    (fun a b => a.length = b.length → ∀ v w, UniqueLeast v a → UniqueLeast w b → ¬ samePt v w) := by
  rw [List.pairwise_cons]
  refine ⟨?_, by simp⟩
  intro b hb _ v w hv hw h
  simp only [List.mem_cons, List.not_mem_nil, or_false] at hb
  subst hb
  have e1 := findMin_unique _ v (by decide) hv
  have e2 := findMin_unique _ w (by decide) hw
  have e1' : ([(f1, f1), (f2, f2)] : List (Pt F64))[findMinPointIdx [(f1, f1), (f2, f2)]]? = some (f1, f1) := by decide
  have e2' : ([(f1, f2), (f3, f3)] : List (Pt F64))[findMinPointIdx [(f1, f2), (f3, f3)]]? = some (f1, f2) := by decide
  rw [e1'] at e1; rw [e2'] at e2
  cases e1; cases e2
  revert h; decide

/-- C56: polygons that compare equal have equal exterior rings, and their interior
rings can be paired off so that each equals its partner. -/
theorem C56_sound (dflt c : Compare) (r r' : List (Pt F64)) (rs rs' p' q' : List (List (Pt F64)))
    (hp : ∀ x ∈ rs, x ≠ [] ∧ ∀ v ∈ x, numPt v) (hq : ∀ x ∈ rs', x ≠ [] ∧ ∀ v ∈ x, numPt v)
    (h : polygonEqual dflt c (r :: rs) (r' :: rs') = some (true, p', q')) :
    c.lineStringEqual r r' = true ∧
    ∃ ms, ms.Perm rs' ∧ List.Forall₂ (fun x y => c.lineStringEqual x y = true) rs ms := by
  unfold polygonEqual at h
  split at h
  · cases h
  · rename_i hl
    split at h
    · cases h
    · obtain ⟨zs, h1, h2, _⟩ := sortRings_spec r rs hp
      obtain ⟨zs', h1', h2', _⟩ := sortRings_spec r' rs' hq
      rw [h1, h1'] at h
      simp only [Option.some.injEq, Prod.mk.injEq] at h
      obtain ⟨h, _, _⟩ := h
      have hl' : (r :: zs).length = (r' :: zs').length := by
        have := h2.length_eq; have := h2'.length_eq
        simp at hl ⊢; omega
      rw [allPairs_iff _ _ _ hl', List.forall₂_cons] at h
      refine ⟨h.1, ?_⟩
      obtain ⟨ms, k1, k2⟩ := forall₂_perm (R := fun y x => c.lineStringEqual x y = true) h2 zs' h.2.flip
      exact ⟨ms, k1.symm.trans h2', k2.flip⟩

example : (polygonEqual cmp4 cmp4 [[(f1, f1)], [(f2, f2), (f1, f1)], [(f2, f3)]] [[(f1, f1)], [(f2, f3)], [(f2, f2), (f1, f1)]]).map (·.1) =
    some true := by decide +kernel

/-- C56: a polygon without empty interior rings equals itself. -/
theorem C56_refl (dflt c : Compare) (p : List (List (Pt F64))) (hd : Positive dflt) (hc : Positive c)
    (_h12 : p.length ≤ 12) (hp : ∀ r ∈ p.tail, r ≠ [] ∧ ∀ v ∈ r, numPt v) :
    ∃ p', polygonEqual dflt c p p = some (true, p', p') := by
  unfold polygonEqual
  have hext : ∀ e : Ext, dflt.extent e e = true := by
    intro e; simp [Compare.extent, float_refl dflt _ hd.1 hd.2]
  rw [if_neg (by simp), if_neg (by simp [hext])]
  cases p with
  | nil => exact ⟨[], rfl⟩
  | cons r rs =>
    obtain ⟨zs, h1, _, _⟩ := sortRings_spec r rs hp
    refine ⟨r :: zs, ?_⟩
    rw [h1]
    simp only [Option.some.injEq, Prod.mk.injEq, and_true]
    exact allPairs_refl _ _ (fun x _ => (C29_symm_refl c x x).2 hc)

example : ∀ r ∈ ([[], [(f1, f1)], [(f3, F64.zero), (f2, f2)]] : List (List (Pt F64))).tail, r ≠ [] ∧ ∀ v ∈ r, numPt v := by
  decide

/-- C56: the comparison leaves the caller's polygons with their interior rings in
another order; the rings are the same. -/
theorem C56_reorders (dflt c : Compare) (p q p' q' : List (List (Pt F64))) (b : Bool)
    (hp : ∀ r ∈ p.tail, r ≠ [] ∧ ∀ v ∈ r, numPt v) (hq : ∀ r ∈ q.tail, r ≠ [] ∧ ∀ v ∈ r, numPt v)
    (h : polygonEqual dflt c p q = some (b, p', q')) :
    p'.Perm p ∧ p'.head? = p.head? ∧ q'.Perm q ∧ q'.head? = q.head? := by
  have sorted : ∀ p : List (List (Pt F64)), (∀ r ∈ p.tail, r ≠ [] ∧ ∀ v ∈ r, numPt v) →
      ∃ s, sortRings p = some s ∧ s.Perm p ∧ s.head? = p.head? := by
    intro p hp
    cases p with
    | nil => exact ⟨[], rfl, List.Perm.refl _, rfl⟩
    | cons r rs =>
      obtain ⟨zs, h1, h2, _⟩ := sortRings_spec r rs hp
      exact ⟨r :: zs, h1, h2.cons r, rfl⟩
  obtain ⟨s1, e1, k1, k2⟩ := sorted p hp
  obtain ⟨s2, e2, k3, k4⟩ := sorted q hq
  unfold polygonEqual at h
  split at h
  · cases h; simp
  · split at h
    · cases h; simp
    · rw [e1, e2] at h
      cases h
      exact ⟨k1, k2, k3, k4⟩

/-- C56: that reordering is visible to the caller. -/
theorem C56_mutates : ∃ (dflt c : Compare) (p p' : List (List (Pt F64))),
    polygonEqual dflt c p p = some (true, p', p') ∧ p' ≠ p :=
  ⟨cmp4, cmp4, [[(F64.zero, F64.zero)], [(f1, f1), (f2, f2)], [(f1, f1)]],
    [[(F64.zero, F64.zero)], [(f1, f1)], [(f1, f1), (f2, f2)]], by decide +kernel, by decide⟩

/-- C56: with two empty interior rings the comparison panics. -/
theorem C56_panics (dflt c : Compare) (r : List (Pt F64)) (hd : Positive dflt) :
    polygonEqual dflt c [r, [], []] [r, [], []] = none := by
  unfold polygonEqual
  have hext : ∀ e : Ext, dflt.extent e e = true := by
    intro e; simp [Compare.extent, float_refl dflt _ hd.1 hd.2]
  rw [if_neg (by simp), if_neg (by simp [hext])]
  rfl

/-! ## C57 -/

/-- C57, full claim: concurrent calls of `SetDefault` behave as swaps: when all have
returned, the values handed out together with the one left are the initial value
and the values put in, each once. -/
def C57_full : Prop := ∀ (γ : Type) (init : γ) (news : List γ) (sched : List Nat),
  finished (runSetters init (calls news) sched).2 →
  ((runSetters init (calls news) sched).1 :: (runSetters init (calls news) sched).2.filterMap returned).Perm
    (init :: news)

/-- C57 fails: two calls that both load before either stores. -/
theorem C57_violated : ¬ C57_full := by
  intro h
  have := h Nat 0 [1, 2] [0, 1, 0, 1] (by
    intro s hs
    simp [runSetters, calls, Setter.step] at hs
    rcases hs with rfl | rfl <;> exact ⟨_, rfl⟩)
  simp only [runSetters, calls, Setter.step, returned, List.map_cons, List.map_nil, List.getElem?_cons_zero,
    List.getElem?_cons_succ, List.set_cons_zero, List.set_cons_succ, List.filterMap_cons, List.filterMap_nil] at this
  revert this
  decide

/-- C57: in every interleaving, finished or not, the default and every value returned
is the initial comparison or one that was set; nothing else ever appears. -/
theorem C57_no_stray_value {γ : Type} (init : γ) (news : List γ) (sched : List Nat) :
    (runSetters init (calls news) sched).1 ∈ init :: news ∧
    ∀ s ∈ (runSetters init (calls news) sched).2, ∀ o, returned s = some o → o ∈ init :: news := by
  apply runSetters_inv (fun x => x ∈ init :: news) sched init (calls news) (by simp)
  · intro s hs
    simp only [calls, List.mem_map] at hs
    obtain ⟨n, hn, rfl⟩ := hs
    simp [newOf, hn]
  · intro s hs n o h
    simp only [calls, List.mem_map] at hs
    obtain ⟨m, _, rfl⟩ := hs
    cases h
  · intro s hs o h
    simp only [calls, List.mem_map] at hs
    obtain ⟨m, _, rfl⟩ := hs
    simp [returned] at h

/-- C57, weaker: calls that do not overlap, in any order, behave as swaps.  Missing:
the overlapping calls of `C57_violated`. -/
theorem C57_serial_swaps_partial {γ : Type} (init : γ) (news : List γ) (order : List Nat)
    (ho : order.Perm (List.range news.length)) :
    finished (runSetters init (calls news) (order.flatMap fun i => [i, i])).2 ∧
    ((runSetters init (calls news) (order.flatMap fun i => [i, i])).1 ::
      (runSetters init (calls news) (order.flatMap fun i => [i, i])).2.filterMap returned).Perm (init :: news) := by
  have key := runSetters_serial init order init (calls news)
    (by
      intro i hi
      have : i < news.length := List.mem_range.1 (ho.mem_iff.1 hi)
      exact ⟨news[i], by simp [calls, this]⟩)
    (ho.nodup_iff.2 List.nodup_range)
    (by
      intro j hj
      left
      exact ho.mem_iff.2 (List.mem_range.2 (by simpa [calls] using hj)))
    (by
      have : ∀ l : List γ, (calls l).filterMap returned = [] ∧ (calls l).filterMap given = [] := by
        intro l; induction l with
        | nil => exact ⟨rfl, rfl⟩
        | cons a l ih => exact ih
      rw [(this news).1, (this news).2])
  obtain ⟨h1, h2, h3⟩ := key
  refine ⟨?_, ?_⟩
  · intro s hs
    obtain ⟨n, o, rfl⟩ := h2 s hs
    exact ⟨o, rfl⟩
  · have hg : ∀ l : List (Setter γ), (∀ s ∈ l, ∃ n o, s = .done n o) → l.filterMap given = l.map newOf := by
      intro l
      induction l with
      | nil => intro _; rfl
      | cons a l ih =>
        intro h
        obtain ⟨n, o, rfl⟩ := h a (by simp)
        simp only [List.filterMap_cons, given, List.map_cons, newOf]
        rw [ih (fun s hs => h s (by simp [hs]))]
    rw [hg _ h2, h3] at h1
    have : (calls news).map newOf = news := by
      unfold calls
      rw [List.map_map]
      exact List.map_id news
    rw [this] at h1
    exact h1

example : ([1, 0, 2] : List Nat).Perm (List.range ([10, 20, 30] : List Nat).length) := by decide

end Verif.Props
