import Verif.Model.Destructure
import Verif.Spec.Destructure
import Verif.Lemmas.ClipWalk
import Verif.Lemmas.Sweep

/-! Helper lemmas for cutting into segments: order along a segment, and the pieces of one segment. -/

set_option linter.unusedSectionVars false

namespace Verif.Lemmas.Destructure
open Verif.Planar (Line)
open Verif.KdTree (Box)
open Verif.Clip (pointLess)
open Verif.Destructure
open Verif.Spec.Planar Verif.Spec.Clip Verif.Spec.Destructure
open Verif.Lemmas.Clip (at' at_inj at_zero at_one)

variable {K : Type} [Field K] [LinearOrder K] [IsStrictOrderedRing K]

/-- Not after. -/
def Le (p q : Pt K) : Prop := Before p q ∨ p = q

theorem less_iff {p q : Pt K} : pointLess p q = true ↔ Before p q := by
  unfold pointLess Before
  by_cases h : p.1 = q.1
  · simp [h]
  · simp [h]

theorem before_irrefl (p : Pt K) : ¬ Before p p := by
  rintro (h | ⟨-, h⟩) <;> exact lt_irrefl _ h

theorem before_trans {p q r : Pt K} (h1 : Before p q) (h2 : Before q r) : Before p r := by
  rcases h1 with h1 | ⟨e1, h1⟩ <;> rcases h2 with h2 | ⟨e2, h2⟩
  · exact Or.inl (h1.trans h2)
  · exact Or.inl (e2 ▸ h1)
  · exact Or.inl (e1 ▸ h2)
  · exact Or.inr ⟨e1.trans e2, h1.trans h2⟩

theorem before_tri (p q : Pt K) : Before p q ∨ p = q ∨ Before q p := by
  rcases lt_trichotomy p.1 q.1 with h | h | h
  · exact Or.inl (Or.inl h)
  · rcases lt_trichotomy p.2 q.2 with h2 | h2 | h2
    · exact Or.inl (Or.inr ⟨h, h2⟩)
    · exact Or.inr (Or.inl (Prod.ext h h2))
    · exact Or.inr (Or.inr (Or.inr ⟨h.symm, h2⟩))
  · exact Or.inr (Or.inr (Or.inl h))

theorem le_iff {p q : Pt K} : Le p q ↔ ¬ Before q p := by
  constructor
  · rintro (h | rfl) h2
    · exact before_irrefl _ (before_trans h h2)
    · exact before_irrefl _ h2
  · intro h
    rcases before_tri p q with h1 | h1 | h1
    · exact Or.inl h1
    · exact Or.inr h1
    · exact absurd h1 h

theorem le_refl' (p : Pt K) : Le p p := Or.inr rfl

theorem le_trans' {p q r : Pt K} (h1 : Le p q) (h2 : Le q r) : Le p r := by
  rcases h1 with h1 | rfl
  · rcases h2 with h2 | rfl
    · exact Or.inl (before_trans h1 h2)
    · exact Or.inl h1
  · exact h2

theorem before_of_le_before {p q r : Pt K} (h1 : Le p q) (h2 : Before q r) : Before p r := by
  rcases h1 with h1 | rfl
  · exact before_trans h1 h2
  · exact h2

theorem before_of_before_le {p q r : Pt K} (h1 : Before p q) (h2 : Le q r) : Before p r := by
  rcases h2 with h2 | rfl
  · exact before_trans h1 h2
  · exact h1

theorem le_antisymm' {p q : Pt K} (h1 : Le p q) (h2 : Le q p) : p = q := by
  rcases h1 with h1 | rfl
  · exact absurd h1 (le_iff.1 h2)
  · rfl

theorem le_total' (p q : Pt K) : Le p q ∨ Le q p := by
  rcases before_tri p q with h | h | h
  · exact Or.inl (Or.inl h)
  · exact Or.inl (Or.inr h)
  · exact Or.inr (Or.inl h)

/-- Along a line with direction forwards the order is that of the parameters. -/
theorem before_at {a b : Pt K} (hab : Before a b) {s t : K} : Before (at' a b s) (at' a b t) ↔ s < t := by
  unfold Before at'
  simp only
  rcases hab with h | ⟨h1, h2⟩
  · have hp : 0 < b.1 - a.1 := sub_pos.2 h
    constructor
    · rintro (h3 | ⟨h3, h4⟩)
      · by_contra hc
        have := mul_le_mul_of_nonneg_right (not_lt.1 hc) hp.le
        linarith
      · have : s = t := by
          have : s * (b.1 - a.1) = t * (b.1 - a.1) := by linarith
          exact mul_right_cancel₀ hp.ne' this
        subst this; exact absurd h4 (lt_irrefl _)
    · intro h3
      left
      have := mul_lt_mul_of_pos_right h3 hp
      linarith
  · have hp : 0 < b.2 - a.2 := sub_pos.2 h2
    have h0 : b.1 - a.1 = 0 := by rw [h1]; ring
    rw [h0]
    constructor
    · rintro (h3 | ⟨-, h4⟩)
      · simp at h3
      · by_contra hc
        have := mul_le_mul_of_nonneg_right (not_lt.1 hc) hp.le
        linarith
    · intro h3
      right
      refine ⟨by ring, ?_⟩
      have := mul_lt_mul_of_pos_right h3 hp
      linarith

theorem le_at {a b : Pt K} (hab : Before a b) {s t : K} : Le (at' a b s) (at' a b t) ↔ s ≤ t := by
  rw [le_iff, before_at hab, not_lt]

theorem onLine_at {a b : Pt K} (t : K) : OnLine (at' a b t) a b := ⟨t, rfl⟩

theorem onLine_left (a b : Pt K) : OnLine a a b := ⟨0, by simp⟩
theorem onLine_right (a b : Pt K) : OnLine b a b := ⟨1, by simp⟩

theorem onLine_of_onSegment {p a b : Pt K} (h : OnSegment p a b) : OnLine p a b := by
  obtain ⟨t, -, -, h⟩ := h
  exact ⟨t, h⟩

theorem onLine_symm {p a b : Pt K} (h : OnLine p a b) : OnLine p b a := by
  obtain ⟨t, rfl⟩ := h
  refine ⟨1 - t, ?_⟩
  ext <;> simp <;> ring

/-- On a line with direction forwards, to be on the segment is to be between in the order. -/
theorem onSegment_iff_fwd {a b x y p : Pt K} (hab : Before a b) (hx : OnLine x a b) (hy : OnLine y a b)
    (hxy : Before x y) : OnSegment p x y ↔ OnLine p a b ∧ Le x p ∧ Le p y := by
  obtain ⟨s, rfl⟩ := hx
  obtain ⟨t, rfl⟩ := hy
  have hst : s < t := (before_at hab).1 hxy
  constructor
  · rintro ⟨u, u0, u1, rfl⟩
    have he : ((a.1 + s * (b.1 - a.1) + u * (a.1 + t * (b.1 - a.1) - (a.1 + s * (b.1 - a.1))),
        a.2 + s * (b.2 - a.2) + u * (a.2 + t * (b.2 - a.2) - (a.2 + s * (b.2 - a.2)))) : Pt K)
        = at' a b (s + u * (t - s)) := by
      unfold at'; ext <;> simp <;> ring
    rw [he]
    have h0 : 0 ≤ u * (t - s) := mul_nonneg u0 (sub_nonneg.2 hst.le)
    have h1 : u * (t - s) ≤ 1 * (t - s) := mul_le_mul_of_nonneg_right u1 (sub_nonneg.2 hst.le)
    exact ⟨onLine_at _, (le_at hab).2 (by linarith), (le_at hab).2 (by linarith)⟩
  · rintro ⟨⟨u, rfl⟩, h1, h2⟩
    have h1 := (le_at hab).1 h1
    have h2 := (le_at hab).1 h2
    have hd : 0 < t - s := sub_pos.2 hst
    refine ⟨(u - s) / (t - s), div_nonneg (by linarith) hd.le, (div_le_one hd).2 (by linarith), ?_⟩
    have e : ∀ c : K, (u - s) / (t - s) * (c * (t - s)) = c * (u - s) := by
      intro c; field_simp
    ext
    · simp only
      have := e (b.1 - a.1)
      have h3 : (a.1 + t * (b.1 - a.1) - (a.1 + s * (b.1 - a.1))) = (b.1 - a.1) * (t - s) := by ring
      rw [h3, this]; ring
    · simp only
      have := e (b.2 - a.2)
      have h3 : (a.2 + t * (b.2 - a.2) - (a.2 + s * (b.2 - a.2))) = (b.2 - a.2) * (t - s) := by ring
      rw [h3, this]; ring

theorem onSegment_iff {a b x y p : Pt K} (hab : a ≠ b) (hx : OnLine x a b) (hy : OnLine y a b)
    (hxy : Before x y) : OnSegment p x y ↔ OnLine p a b ∧ Le x p ∧ Le p y := by
  rcases before_tri a b with h | h | h
  · exact onSegment_iff_fwd h hx hy hxy
  · exact absurd h hab
  · rw [onSegment_iff_fwd h (onLine_symm hx) (onLine_symm hy) hxy]
    exact and_congr_left (fun _ => ⟨onLine_symm, onLine_symm⟩)

/-! ### Sorting -/

theorem notLess_iff {p q : Pt K} : pointLess q p = false ↔ Le p q := by
  rw [Bool.eq_false_iff, Ne, less_iff, ← le_iff]

theorem sorted_sortPts (pts : List (Pt K)) : (sortPts pts).Pairwise Le := by
  have : Std.Total (fun p q : Pt K => pointLess q p = false) :=
    ⟨fun a b => by rw [notLess_iff, notLess_iff]; exact le_total' _ _⟩
  have : IsTrans (Pt K) (fun p q : Pt K => pointLess q p = false) :=
    ⟨fun a b c => by rw [notLess_iff, notLess_iff, notLess_iff]; exact le_trans'⟩
  unfold sortPts
  exact (List.pairwise_insertionSort (fun p q : Pt K => pointLess q p = false) pts).imp (fun h => notLess_iff.1 h)

theorem mem_sortPts {pts : List (Pt K)} {p : Pt K} : p ∈ sortPts pts ↔ p ∈ pts :=
  (List.perm_insertionSort _ pts).mem_iff

/-! ### The pieces of sorted points -/

/-- The pieces when nothing is dropped. -/
theorem mem_cutLoop {peq : Pt K → Pt K → Bool} (hp : ∀ a b, peq a b = true ↔ a = b) {keep : Line K → Bool} :
    ∀ {l : List (Pt K)} {x y : Pt K}, l.Pairwise Le → (x, y) ∈ cutLoop peq keep l →
      x ∈ l ∧ y ∈ l ∧ Before x y ∧ keep (x, y) = true ∧ ∀ z ∈ l, Le z x ∨ Le y z
  | [], _, _, _, h => by simp [cutLoop] at h
  | [a], _, _, _, h => by simp [cutLoop] at h
  | a :: b :: l, x, y, hs, h => by
    have hs' := hs
    rw [List.pairwise_cons] at hs
    obtain ⟨h1, h2⟩ := hs
    have hrec : (x, y) ∈ cutLoop peq keep (b :: l) →
        x ∈ a :: b :: l ∧ y ∈ a :: b :: l ∧ Before x y ∧ keep (x, y) = true ∧
          ∀ z ∈ a :: b :: l, Le z x ∨ Le y z := by
      intro h
      obtain ⟨i1, i2, i3, i4, i5⟩ := mem_cutLoop hp h2 h
      refine ⟨List.mem_cons_of_mem _ i1, List.mem_cons_of_mem _ i2, i3, i4, ?_⟩
      intro z hz
      rcases List.mem_cons.1 hz with rfl | hz
      · exact Or.inl (h1 x i1)
      · exact i5 z hz
    unfold cutLoop at h
    by_cases hab : peq a b = true
    · rw [if_pos hab] at h; exact hrec h
    · rw [if_neg hab] at h
      by_cases hk : keep (a, b) = true
      · rw [hk] at h
        simp only [Bool.not_true, Bool.false_eq_true, if_false, List.mem_cons] at h
        rcases h with h | h
        · cases h
          have hne : a ≠ b := fun e => hab ((hp a b).2 e)
          refine ⟨by simp, by simp, ?_, hk, ?_⟩
          · rcases h1 b (by simp) with h | h
            · exact h
            · exact absurd h hne
          · intro z hz
            rw [List.pairwise_cons] at h2
            rcases List.mem_cons.1 hz with rfl | hz
            · exact Or.inl (le_refl' _)
            · rcases List.mem_cons.1 hz with rfl | hz
              · exact Or.inr (le_refl' _)
              · exact Or.inr (h2.1 z hz)
        · exact hrec h
      · rw [Bool.eq_false_iff.2 hk] at h
        simp only [Bool.not_false, if_true] at h
        exact hrec h

/-- A point between two of the sorted points is in a piece, if that is kept. -/
theorem cutLoop_cover {peq : Pt K → Pt K → Bool} (hp : ∀ a b, peq a b = true ↔ a = b) {keep : Line K → Bool}
    {v : Pt K} : ∀ {l : List (Pt K)} {u p : Pt K}, (u :: l).Pairwise Le → v ∈ u :: l → Before u v → Le u p → Le p v →
      ∃ x y, x ∈ u :: l ∧ y ∈ u :: l ∧ Before x y ∧ Le x p ∧ Le p y ∧ (∀ z ∈ u :: l, Le z x ∨ Le y z) ∧
        (keep (x, y) = true → (x, y) ∈ cutLoop peq keep (u :: l))
  | [], u, p, _, hv, huv, _, _ => by
    simp only [List.mem_singleton] at hv
    subst hv
    exact absurd huv (before_irrefl _)
  | b :: l, u, p, hs, hv, huv, hup, hpv => by
    have hs' := hs
    rw [List.pairwise_cons] at hs
    obtain ⟨h1, h2⟩ := hs
    have hvl : v ∈ b :: l := by
      rcases List.mem_cons.1 hv with rfl | h
      · exact absurd huv (before_irrefl _)
      · exact h
    by_cases hub : u = b
    · subst hub
      obtain ⟨x, y, i1, i2, i3, i4, i5, i6, i7⟩ := cutLoop_cover hp (keep := keep) h2 hvl huv hup hpv
      refine ⟨x, y, List.mem_cons_of_mem _ i1, List.mem_cons_of_mem _ i2, i3, i4, i5, ?_, ?_⟩
      · intro z hz
        rcases List.mem_cons.1 hz with rfl | hz
        · exact i6 _ (by simp)
        · exact i6 z hz
      · intro hk
        unfold cutLoop
        rw [if_pos ((hp _ _).2 rfl)]
        exact i7 hk
    · have hlt : Before u b := by
        rcases h1 b (by simp) with h | h
        · exact h
        · exact absurd h hub
      rcases le_total' p b with hpb | hbp
      · refine ⟨u, b, by simp, by simp, hlt, hup, hpb, ?_, ?_⟩
        · intro z hz
          rw [List.pairwise_cons] at h2
          rcases List.mem_cons.1 hz with rfl | hz
          · exact Or.inl (le_refl' _)
          · rcases List.mem_cons.1 hz with rfl | hz
            · exact Or.inr (le_refl' _)
            · exact Or.inr (h2.1 z hz)
        · intro hk
          unfold cutLoop
          rw [if_neg (fun e => hub ((hp _ _).1 e)), hk]
          simp
      · by_cases hbv : b = v
        · subst hbv
          have : p = b := le_antisymm' hpv hbp
          subst this
          refine ⟨u, p, by simp, by simp, hlt, hup, le_refl' _, ?_, ?_⟩
          · intro z hz
            rw [List.pairwise_cons] at h2
            rcases List.mem_cons.1 hz with rfl | hz
            · exact Or.inl (le_refl' _)
            · rcases List.mem_cons.1 hz with rfl | hz
              · exact Or.inr (le_refl' _)
              · exact Or.inr (h2.1 z hz)
          · intro hk
            unfold cutLoop
            rw [if_neg (fun e => hub ((hp _ _).1 e)), hk]
            simp
        · have hbv' : Before b v := by
            rcases List.mem_cons.1 hvl with h | h
            · exact absurd h.symm hbv
            · rw [List.pairwise_cons] at h2
              rcases h2.1 v h with h | h
              · exact h
              · exact absurd h hbv
          obtain ⟨x, y, i1, i2, i3, i4, i5, i6, i7⟩ := cutLoop_cover hp (keep := keep) h2 hvl hbv' hbp hpv
          refine ⟨x, y, List.mem_cons_of_mem _ i1, List.mem_cons_of_mem _ i2, i3, i4, i5, ?_, ?_⟩
          · intro z hz
            rcases List.mem_cons.1 hz with rfl | hz
            · exact Or.inl (h1 x i1)
            · exact i6 z hz
          · intro hk
            unfold cutLoop
            rw [if_neg (fun e => hub ((hp _ _).1 e))]
            split
            · exact i7 hk
            · exact List.mem_cons_of_mem _ (i7 hk)

theorem cutLoop_nodup {peq : Pt K → Pt K → Bool} (hp : ∀ a b, peq a b = true ↔ a = b) {keep : Line K → Bool} :
    ∀ {l : List (Pt K)}, l.Pairwise Le → (cutLoop peq keep l).Nodup
  | [], _ => by simp [cutLoop]
  | [_], _ => by simp [cutLoop]
  | a :: b :: l, hs => by
    have hs' := hs
    rw [List.pairwise_cons] at hs
    have ih := cutLoop_nodup hp (keep := keep) hs.2
    unfold cutLoop
    split
    · exact ih
    · rename_i hab
      split
      · exact ih
      · rw [List.nodup_cons]
        refine ⟨?_, ih⟩
        intro hmem
        obtain ⟨h1, -⟩ := mem_cutLoop hp hs.2 hmem
        have h2 : Le b a := by
          rcases List.mem_cons.1 h1 with h | h
          · exact Or.inr h.symm
          · have := hs.2; rw [List.pairwise_cons] at this; exact this.1 a h
        exact hab ((hp _ _).2 (le_antisymm' (hs.1 b (by simp)) h2))

/-! ### unique -/

/-- The elements that differ from the one before. -/
def news (prev : Option (Line K)) : List (Line K) → List (Line K)
  | [] => []
  | s :: l => if prev = some s then news (some s) l else s :: news (some s) l

theorem news_append (s : Line K) : ∀ (A : List (Line K)) (prev : Option (Line K)),
    news prev (A ++ [s]) = news prev A ++ (if (A.getLast?).or prev = some s then [] else [s])
  | [], prev => by
    simp only [List.nil_append, news, List.getLast?_nil, Option.none_or]
    congr
  | a :: A, prev => by
    have ih := news_append s A (some a)
    have hl : ((a :: A).getLast?).or prev = (A.getLast?).or (some a) := by
      cases A with
      | nil => simp
      | cons b A => simp [List.getLast?_cons]
    rw [List.cons_append, news, news, hl, ih]
    split <;> simp

theorem news_sublist : ∀ (l : List (Line K)) (prev : Option (Line K)), (news prev l).Sublist l
  | [], _ => by simp [news]
  | s :: l, prev => by
    unfold news
    split
    · exact (news_sublist l _).cons _
    · exact (news_sublist l _).cons_cons _

theorem mem_news : ∀ (l : List (Line K)) (prev : Option (Line K)) (x : Line K), x ∈ l →
    x ∈ news prev l ∨ prev = some x
  | [], _, x, h => by simp at h
  | s :: l, prev, x, h => by
    unfold news
    rcases List.mem_cons.1 h with rfl | h
    · by_cases hp : prev = some x
      · exact Or.inr hp
      · rw [if_neg hp]; exact Or.inl (by simp)
    · rcases mem_news l (some s) x h with h | h
      · split
        · exact Or.inl h
        · exact Or.inl (List.mem_cons_of_mem _ h)
      · cases h
        by_cases hp : prev = some s
        · exact Or.inr hp
        · rw [if_neg hp]; exact Or.inl (by simp)

theorem news_nodup : ∀ (l : List (Line K)) (prev : Option (Line K)), l.Nodup → (∀ x ∈ l, prev ≠ some x) →
    news prev l = l
  | [], _, _, _ => rfl
  | s :: l, prev, h, hp => by
    rw [List.nodup_cons] at h
    unfold news
    rw [if_neg (hp s (by simp)), news_nodup l (some s) h.2]
    rintro x hx hc
    cases hc
    exact h.1 hx

theorem uniqueLoop_eq {ueq : Pt K → Pt K → Bool} (hu : ∀ a b, ueq a b = true ↔ a = b) :
    ∀ (B A : List (Line K)), uniqueLoop ueq B.length A.length (news none A).length
        (news none A ++ (A ++ B).drop (news none A).length)
      = news none (A ++ B) ++ (A ++ B).drop (news none (A ++ B)).length
  | [], A => by simp [uniqueLoop]
  | s :: B, A => by
    have hsub := news_sublist A none
    have hk : (news none A).length ≤ A.length := hsub.length_le
    have ih := uniqueLoop_eq hu B (A ++ [s])
    have hget : ∀ j, A.length ≤ j + 1 → (news none A ++ (A ++ s :: B).drop (news none A).length)[j]? = (A ++ s :: B)[j]? := by
      intro j hj
      by_cases hkj : (news none A).length ≤ j
      · rw [List.getElem?_append_right hkj, List.getElem?_drop]
        congr 1; omega
      · have hlen : (news none A).length = A.length := by omega
        have he : news none A = A := hsub.eq_of_length hlen
        rw [he]; simp
    have hi := hget A.length (by omega)
    have hi' : (A ++ s :: B)[A.length]? = some s := by simp
    rw [hi'] at hi
    have hprev : A.length ≠ 0 → (news none A ++ (A ++ s :: B).drop (news none A).length)[A.length - 1]? = A.getLast? := by
      intro h0
      rw [hget _ (by omega), List.getElem?_append_left (by omega), List.getLast?_eq_getElem?]
    rw [List.length_cons, uniqueLoop]
    rw [hi]
    simp only
    have hnew : isNew ueq (news none A ++ (A ++ s :: B).drop (news none A).length) A.length s
        = decide ((A.getLast?).or none ≠ some s) := by
      unfold isNew
      cases A with
      | nil => simp
      | cons a A' =>
        have hp := hprev (by simp)
        rw [if_neg (by simp), hp]
        obtain ⟨t, ht⟩ : ∃ t, (a :: A').getLast? = some t := ⟨_, List.getLast?_eq_some_getLast (by simp)⟩
        rw [ht]
        simp only [Option.some_or]
        by_cases hts : t = s
        · subst hts
          have e1 := (hu t.1 t.1).2 rfl
          have e2 := (hu t.2 t.2).2 rfl
          simp [e1, e2]
        · have : ¬ (ueq s.1 t.1 = true ∧ ueq s.2 t.2 = true) := by
            rw [hu, hu]
            rintro ⟨h1, h2⟩
            exact hts (Prod.ext h1.symm h2.symm)
          simp only [ne_eq, Option.some.injEq, hts, not_false_eq_true, decide_true, Bool.not_eq_true']
          rw [Bool.eq_false_iff, Ne, Bool.and_eq_true]
          exact this
    rw [hnew]
    have hns := news_append s A none
    by_cases hc : (A.getLast?).or none = some s
    · rw [if_pos hc, List.append_nil] at hns
      rw [hns] at ih
      simp only [List.length_append, List.length_singleton, List.append_assoc, List.singleton_append] at ih
      simp only [ne_eq, hc, not_true, decide_false, Bool.false_eq_true, if_false]
      exact ih
    · rw [if_neg hc] at hns
      rw [hns] at ih
      simp only [List.length_append, List.length_singleton, List.append_assoc, List.singleton_append] at ih
      simp only [ne_eq, hc, not_false_eq_true, decide_true, if_true]
      rw [← ih]
      congr 1
      rw [List.set_append_right _ _ (le_refl _), Nat.sub_self]
      congr 1
      have hlt : (news none A).length < (A ++ s :: B).length := by simp; omega
      rw [List.drop_eq_getElem_cons hlt, List.set_cons_zero]

theorem unique_eq {ueq : Pt K → Pt K → Bool} (hu : ∀ a b, ueq a b = true ↔ a = b) (l : List (Line K)) :
    ∃ S, S.Perm l ∧ unique ueq l = news none S ++ S.drop (news none S).length := by
  refine ⟨l.insertionSort (fun a b => lineLess ueq b a = false), List.perm_insertionSort _ l, ?_⟩
  unfold unique
  have := uniqueLoop_eq hu (l.insertionSort (fun a b => lineLess ueq b a = false)) []
  simpa [news] using this

theorem mem_unique {ueq : Pt K → Pt K → Bool} (hu : ∀ a b, ueq a b = true ↔ a = b) {l : List (Line K)} {x : Line K} :
    x ∈ unique ueq l ↔ x ∈ l := by
  obtain ⟨S, hp, h⟩ := unique_eq hu l
  rw [h, ← hp.mem_iff, List.mem_append]
  constructor
  · rintro (h | h)
    · exact (news_sublist _ _).mem h
    · exact List.mem_of_mem_drop h
  · intro h
    rcases mem_news S none x h with h | h
    · exact Or.inl h
    · simp at h

theorem length_unique {ueq : Pt K → Pt K → Bool} (hu : ∀ a b, ueq a b = true ↔ a = b) (l : List (Line K)) :
    (unique ueq l).length = l.length := by
  obtain ⟨S, hp, h⟩ := unique_eq hu l
  have := (news_sublist S none).length_le
  rw [h, ← hp.length_eq, List.length_append, List.length_drop]
  omega

theorem nodup_unique {ueq : Pt K → Pt K → Bool} (hu : ∀ a b, ueq a b = true ↔ a = b) {l : List (Line K)} (hl : l.Nodup) :
    (unique ueq l).Perm l := by
  obtain ⟨S, hp, h⟩ := unique_eq hu l
  have hS : S.Nodup := hp.nodup_iff.2 hl
  rw [h, news_nodup S none hS (by simp)]
  simpa using hp

theorem lineLess_iff {ueq : Pt K → Pt K → Bool} (hu : ∀ a b, ueq a b = true ↔ a = b) {l m : Line K} :
    lineLess ueq l m = true ↔ LineBefore l m := by
  unfold lineLess LineBefore
  rw [Bool.or_eq_true, Bool.and_eq_true, hu, less_iff, less_iff]

theorem before_or (p q : Pt K) : Before p q ∨ p = q ∨ Before q p := by
  unfold Before
  rcases lt_trichotomy p.1 q.1 with h | h | h
  · exact .inl (.inl h)
  · rcases lt_trichotomy p.2 q.2 with h' | h' | h'
    · exact .inl (.inr ⟨h, h'⟩)
    · exact .inr (.inl (Prod.ext h h'))
    · exact .inr (.inr (.inr ⟨h.symm, h'⟩))
  · exact .inr (.inr (.inl h))

theorem lineBefore_trans {l m n : Line K} (h1 : LineBefore l m) (h2 : LineBefore m n) : LineBefore l n := by
  rcases h1 with h1 | ⟨e1, h1⟩ <;> rcases h2 with h2 | ⟨e2, h2⟩
  · exact .inl (before_trans h1 h2)
  · exact .inl (e2 ▸ h1)
  · exact .inl (e1 ▸ h2)
  · exact .inr ⟨e1.trans e2, before_trans h1 h2⟩

theorem lineBefore_irrefl (l : Line K) : ¬ LineBefore l l := by
  rintro (h | ⟨-, h⟩) <;> exact before_irrefl _ h

theorem lineBefore_or (l m : Line K) : LineBefore l m ∨ l = m ∨ LineBefore m l := by
  unfold LineBefore
  rcases before_or l.1 m.1 with h | h | h
  · exact .inl (.inl h)
  · rcases before_or l.2 m.2 with h' | h' | h'
    · exact .inl (.inr ⟨h, h'⟩)
    · exact .inr (.inl (Prod.ext h h'))
    · exact .inr (.inr (.inr ⟨h.symm, h'⟩))
  · exact .inr (.inr (.inl h))

theorem lineNotLess_iff {ueq : Pt K → Pt K → Bool} (hu : ∀ a b, ueq a b = true ↔ a = b) {l m : Line K} :
    lineLess ueq m l = false ↔ l = m ∨ LineBefore l m := by
  rw [Bool.eq_false_iff, Ne, lineLess_iff hu]
  constructor
  · intro h
    rcases lineBefore_or l m with h' | h' | h'
    · exact .inr h'
    · exact .inl h'
    · exact absurd h' h
  · rintro (rfl | h) hc
    · exact lineBefore_irrefl _ hc
    · exact lineBefore_irrefl _ (lineBefore_trans h hc)

theorem news_sorted : ∀ (l : List (Line K)) (prev : Option (Line K)),
    l.Pairwise (fun a b => a = b ∨ LineBefore a b) → (∀ s ∈ prev, ∀ x ∈ l, s = x ∨ LineBefore s x) →
    (news prev l).Pairwise LineBefore ∧ ∀ s ∈ prev, ∀ x ∈ news prev l, LineBefore s x
  | [], _, _, _ => by simp [news]
  | s :: l, prev, h, hp => by
    rw [List.pairwise_cons] at h
    obtain ⟨i1, i2⟩ := news_sorted l (some s) h.2 (by simpa using fun a b => h.1 (a, b))
    unfold news
    split_ifs with hs
    · subst hs
      exact ⟨i1, i2⟩
    · refine ⟨List.pairwise_cons.2 ⟨fun x hx => i2 s rfl x hx, i1⟩, fun t ht x hx => ?_⟩
      have hts : LineBefore t s := (hp t ht s (by simp)).resolve_left (by
        rintro rfl
        exact hs ht)
      rcases List.mem_cons.1 hx with rfl | hx
      · exact hts
      · exact lineBefore_trans hts (i2 s rfl x hx)

/-- The front of the slice after `unique`. -/
theorem unique_front {ueq : Pt K → Pt K → Bool} (hu : ∀ a b, ueq a b = true ↔ a = b) (l : List (Line K)) :
    ∃ front rest, unique ueq l = front ++ rest ∧ front.Pairwise LineBefore ∧ ∀ x ∈ rest, x ∈ front := by
  have i1 : Std.Total (fun a b : Line K => lineLess ueq b a = false) :=
    ⟨fun a b => by
      rw [lineNotLess_iff hu, lineNotLess_iff hu]
      rcases lineBefore_or a b with h | h | h
      · exact .inl (.inr h)
      · exact .inl (.inl h)
      · exact .inr (.inr h)⟩
  have i2 : IsTrans (Line K) (fun a b : Line K => lineLess ueq b a = false) :=
    ⟨fun a b c => by
      rw [lineNotLess_iff hu, lineNotLess_iff hu, lineNotLess_iff hu]
      rintro (rfl | h1) (rfl | h2)
      · exact .inl rfl
      · exact .inr h2
      · exact .inr h1
      · exact .inr (lineBefore_trans h1 h2)⟩
  have hs := (List.pairwise_insertionSort (fun a b : Line K => lineLess ueq b a = false) l).imp
    (fun h => (lineNotLess_iff hu).1 h)
  have e := uniqueLoop_eq hu (l.insertionSort (fun a b => lineLess ueq b a = false)) []
  generalize hS : l.insertionSort (fun a b => lineLess ueq b a = false) = S at *
  refine ⟨news none S, S.drop (news none S).length, ?_, (news_sorted S none hs (by simp)).1, ?_⟩
  · unfold unique
    rw [hS]
    simpa [news] using e
  · intro x hx
    exact (mem_news S none x (List.mem_of_mem_drop hx)).resolve_right (by simp)

end Verif.Lemmas.Destructure
