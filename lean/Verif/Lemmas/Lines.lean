import Verif.Spec.Lines
import Verif.Lemmas.Cmp
import Mathlib.Data.List.Sort

namespace Verif.Lemmas.Lines
open Verif Verif.Cmp Verif.Lines Verif.Spec.Extent Verif.Spec.Cmp Verif.Spec.Lines

/-! ### The loop in place -/

/-- The elements that differ from the one before. -/
def changes {α : Type} (same : α → α → Bool) : Option α → List α → List α
  | _, [] => []
  | none, a :: l => a :: changes same (some a) l
  | some p, a :: l => if same a p then changes same (some a) l else a :: changes same (some a) l

/-- The comparison of the loop. -/
def sameStr (c : Compare) (a b : Line) : Bool := c.lineStringEqual [a.1, a.2] [b.1, b.2]

theorem uniqueLoop_eq (c : Compare) (r : Nat) : ∀ (lines : List Line) (k : Nat) (pre post : List Line),
    lines = pre ++ post → r = post.length → k ≤ pre.length →
    uniqueLoop c r lines k = lines.take k ++ changes (sameStr c) pre.getLast? post := by
  induction r with
  | zero =>
    intro lines k pre post h1 h2 h3
    obtain rfl : post = [] := by simpa using h2.symm
    simp [uniqueLoop, changes]
  | succ r ih =>
    intro lines k pre post h1 h2 h3
    obtain ⟨l, post, rfl⟩ : ∃ l t, post = l :: t := by
      cases post with
      | nil => simp at h2
      | cons l t => exact ⟨l, t, rfl⟩
    have hi : lines.length - (r + 1) = pre.length := by
      rw [h1]; simp at h2 ⊢; omega
    have hr : r = post.length := by simpa using h2
    have hl : lines[pre.length]? = some l := by rw [h1]; simp
    have keep : uniqueLoop c r (lines.set k l) (k + 1) =
        lines.take k ++ l :: changes (sameStr c) (some l) post := by
      have hlen : lines.length = pre.length + (post.length + 1) := by rw [h1]; simp
      have hs : lines.set k l = ((pre ++ [l]).set k l) ++ post := by
        rw [h1, show pre ++ l :: post = (pre ++ [l]) ++ post by simp, List.set_append_left _ _ (by simp; omega)]
      have hlast : ((pre ++ [l]).set k l).getLast? = some l := by
        rw [List.getLast?_eq_getElem?]
        simp only [List.length_set, List.length_append, List.length_singleton, Nat.add_sub_cancel]
        by_cases hk : k = pre.length
        · subst hk; simp
        · rw [List.getElem?_set_ne hk]; simp
      rw [ih _ (k + 1) ((pre ++ [l]).set k l) post hs hr (by simp; omega), hlast]
      rw [List.take_add_one, List.getElem?_set_self (by omega), List.take_set_of_le (le_refl _)]
      simp
    have drop : uniqueLoop c r lines k = lines.take k ++ changes (sameStr c) (some l) post := by
      rw [ih lines k (pre ++ [l]) post (by simp [h1]) hr (by simp; omega)]
      simp
    unfold uniqueLoop
    simp only [hi, hl]
    rcases pre.eq_nil_or_concat with rfl | ⟨pre', p, rfl⟩
    · simp only [List.length_nil, List.getLast?_nil, changes]
      exact keep
    · rw [List.concat_eq_append] at *
      have hp : lines[(pre' ++ [p]).length - 1]? = some p := by rw [h1]; simp
      rw [hp]
      simp only [List.getLast?_append, List.getLast?_singleton, Option.some_or, changes, sameStr]
      have h0 : ((pre' ++ [p]).length == 0) = false := by simp
      simp only [h0, Bool.false_or]
      by_cases hc : c.lineStringEqual [l.1, l.2] [p.1, p.2] = true
      · simpa [hc] using drop
      · simpa [hc] using keep

theorem normalizeUnique_eq (c : Compare) (sort : List Line → List Line) (lines : List Line) :
    normalizeUniqueLines c sort lines = changes (sameStr c) none (sort (normalizeLines lines)) := by
  unfold normalizeUniqueLines
  simp only []
  rw [uniqueLoop_eq c _ (sort (normalizeLines lines)) 0 [] _ rfl rfl (Nat.zero_le _)]
  simp

theorem changes_sublist {α : Type} (same : α → α → Bool) (l : List α) : ∀ p, (changes same p l).Sublist l := by
  induction l with
  | nil => intro p; simp [changes]
  | cons a l ih =>
    intro p
    cases p with
    | none => exact (ih _).cons_cons a
    | some p =>
      simp only [changes]
      split_ifs
      · exact (ih _).cons a
      · exact (ih _).cons_cons a

/-- Where `same` is equality of keys, the changes of a sorted list have each key once. -/
theorem changes_keys {α : Type} (same : α → α → Bool) (k : α → Int) (l : List α) :
    ∀ p : Option α, (∀ a ∈ l, ∀ b ∈ l, same a b = true ↔ k a = k b) →
    (∀ q ∈ p, ∀ a ∈ l, (same a q = true ↔ k a = k q) ∧ k q ≤ k a) →
    l.Pairwise (fun a b => k a ≤ k b) →
    (changes same p l).Pairwise (fun a b => k a < k b) ∧
      (∀ q ∈ p, ∀ a ∈ changes same p l, k q < k a) ∧
      ∀ a ∈ l, (∃ q ∈ p, k q = k a) ∨ ∃ b ∈ changes same p l, k b = k a := by
  induction l with
  | nil => intro p _ _ _; simp [changes]
  | cons a l ih =>
    intro p hs hp hw
    rw [List.pairwise_cons] at hw
    obtain ⟨i1, i2, i3⟩ := ih (some a) (fun x hx y hy => hs x (by simp [hx]) y (by simp [hy]))
      (by
        intro q hq x hx
        obtain rfl : a = q := by simpa using hq
        exact ⟨hs x (by simp [hx]) a (by simp), hw.1 x hx⟩) hw.2
    have kept : (a :: changes same (some a) l).Pairwise (fun a b => k a < k b) ∧
        ∀ x ∈ a :: l, ∃ b ∈ a :: changes same (some a) l, k b = k x := by
      constructor
      · rw [List.pairwise_cons]
        exact ⟨fun x hx => i2 a (by simp) x hx, i1⟩
      · intro x hx
        rcases List.mem_cons.1 hx with rfl | hx
        · exact ⟨x, by simp, rfl⟩
        · rcases i3 x hx with ⟨q, hq, he⟩ | ⟨b, hb, he⟩
          · obtain rfl : a = q := by simpa using hq
            exact ⟨a, by simp, he⟩
          · exact ⟨b, by simp [hb], he⟩
    cases p with
    | none => exact ⟨kept.1, by simp, fun x hx => .inr (kept.2 x hx)⟩
    | some q =>
      obtain ⟨e1, e2⟩ := hp q (by simp) a (by simp)
      simp only [changes]
      split_ifs with h
      · have hk := e1.1 h
        refine ⟨i1, ?_, ?_⟩
        · intro q' hq' x hx
          obtain rfl : q = q' := by simpa using hq'
          rw [← hk]
          exact i2 a (by simp) x hx
        · intro x hx
          rcases List.mem_cons.1 hx with rfl | hx
          · exact .inl ⟨q, by simp, hk.symm⟩
          · rcases i3 x hx with ⟨q', hq', he⟩ | hb
            · obtain rfl : a = q' := by simpa using hq'
              exact .inl ⟨q, by simp, by omega⟩
            · exact .inr hb
      · have hlt : k q < k a := by
          have : k a ≠ k q := fun hc => h (e1.2 hc)
          omega
        refine ⟨kept.1, ?_, fun x hx => .inr (kept.2 x hx)⟩
        intro q' hq' x hx
        obtain rfl : q = q' := by simpa using hq'
        rcases List.mem_cons.1 hx with rfl | hx
        · exact hlt
        · exact hlt.trans (i2 a (by simp) x hx)

/-! ### Keys of lines -/

/-- One number for a segment. -/
def lineKey (l : Line) : Int := ptKey l.1 * 2 ^ 140 + ptKey l.2

theorem lineKey_eq {a b : Line} (ha : numPt a.2) (hb : numPt b.2) :
    lineKey a = lineKey b ↔ ptKey a.1 = ptKey b.1 ∧ ptKey a.2 = ptKey b.2 := by
  have h1 := ptKey_bounds _ ha
  have h2 := ptKey_bounds _ hb
  unfold lineKey
  omega

theorem lineKey_lt {a b : Line} (ha : numPt a.2) (hb : numPt b.2) :
    lineKey a < lineKey b ↔ ptKey a.1 < ptKey b.1 ∨ ptKey a.1 = ptKey b.1 ∧ ptKey a.2 < ptKey b.2 := by
  have h1 := ptKey_bounds _ ha
  have h2 := ptKey_bounds _ hb
  unfold lineKey
  omega

/-- Numeric ends, in order. -/
def Normal (l : Line) : Prop := numPt l.1 ∧ numPt l.2 ∧ ptKey l.1 ≤ ptKey l.2

theorem mem_normalize {lines : List Line} {o : Line} (h : o ∈ normalizeLines lines) :
    ∃ l ∈ lines, o = l ∨ o = (l.2, l.1) := by
  unfold normalizeLines at h
  obtain ⟨l, hl, he⟩ := List.mem_map.1 h
  refine ⟨l, hl, ?_⟩
  split_ifs at he
  · exact .inr he.symm
  · exact .inl he.symm

theorem normalize_normal {lines : List Line} (hn : ∀ p ∈ ends lines, numPt p) :
    ∀ o ∈ normalizeLines lines, Normal o := by
  intro o ho
  unfold normalizeLines at ho
  obtain ⟨l, hl, he⟩ := List.mem_map.1 ho
  have h1 : numPt l.1 := hn _ (List.mem_flatMap.2 ⟨l, hl, by simp⟩)
  have h2 : numPt l.2 := hn _ (List.mem_flatMap.2 ⟨l, hl, by simp⟩)
  have hx := xyLess_iff l.1 l.2 h1 h2
  split_ifs at he with hc
  · subst he
    have : xyLess l.1 l.2 = false := by simpa using hc
    refine ⟨h2, h1, ?_⟩
    by_contra hh
    have := hx.2 (by simp only at hh; omega)
    simp_all
  · subst he
    have : xyLess l.1 l.2 = true := by simpa using hc
    exact ⟨h1, h2, (hx.1 this).le⟩

theorem ends_normalize {lines : List Line} {o : Line} (h : o ∈ normalizeLines lines) :
    o.1 ∈ ends lines ∧ o.2 ∈ ends lines := by
  obtain ⟨l, hl, rfl | rfl⟩ := mem_normalize h
  · exact ⟨List.mem_flatMap.2 ⟨_, hl, by simp⟩, List.mem_flatMap.2 ⟨_, hl, by simp⟩⟩
  · exact ⟨List.mem_flatMap.2 ⟨_, hl, by simp⟩, List.mem_flatMap.2 ⟨_, hl, by simp⟩⟩

/-- What the tolerance does to separated points. -/
theorem separated_iff {c : Compare} (hc : Positive c) {pts : List (Pt F64)} (hs : Separated c pts)
    (hn : ∀ p ∈ pts, numPt p) {p q : Pt F64} (hp : p ∈ pts) (hq : q ∈ pts) :
    c.pointEqual p q = true ↔ ptKey p = ptKey q := by
  rw [← samePt_iff p q (hn p hp) (hn q hq)]
  refine ⟨hs p hp q hq, fun h => ?_⟩
  rw [pointEqual_congr c p q q q h ((samePt_iff q q (hn q hq) (hn q hq)).2 rfl)]
  exact pointEqual_refl c q hc.1 hc.2

theorem rotate_two {p q : Pt F64} (hp : numPt p) (hq : numPt q) (h : ptKey p ≤ ptKey q) :
    rotateToLeftMost [p, q] = [p, q] := by
  have : xyLess q p = false := by
    by_contra hc
    have := (xyLess_iff q p hq hp).1 (by simpa using hc)
    omega
  rw [rotate_eq]
  simp [findMinPointIdx, findMinLoop, this]

theorem sameStr_eq {c : Compare} {a b : Line} (ha : Normal a) (hb : Normal b) :
    sameStr c a b = (c.pointEqual a.1 b.1 && c.pointEqual a.2 b.2) := by
  unfold sameStr Compare.lineStringEqual
  rw [if_neg (by simp), rotate_two ha.1 ha.2.1 ha.2.2, rotate_two hb.1 hb.2.1 hb.2.2]
  simp only [allPairs]
  cases c.pointEqual a.1 b.1 <;> cases c.pointEqual a.2 b.2 <;> rfl

theorem lineLess_iff {c : Compare} (hc : Positive c) {lines : List Line}
    (hs : Separated c (ends lines)) (hn : ∀ p ∈ ends lines, numPt p) {a b : Line}
    (ha : a ∈ normalizeLines lines) (hb : b ∈ normalizeLines lines) :
    lineLess c a b = true ↔ lineKey a < lineKey b := by
  have na := normalize_normal hn a ha
  have nb := normalize_normal hn b hb
  have e1 := separated_iff hc hs hn (ends_normalize ha).1 (ends_normalize hb).1
  rw [lineKey_lt na.2.1 nb.2.1]
  unfold lineLess
  split_ifs with h
  · have : c.pointEqual a.1 b.1 = false := by simpa using h
    have hne : ptKey a.1 ≠ ptKey b.1 := fun hh => by simp [e1.2 hh] at this
    rw [xyLess_iff _ _ na.1 nb.1]
    omega
  · have : c.pointEqual a.1 b.1 = true := by simpa using h
    have := e1.1 this
    rw [xyLess_iff _ _ na.2.1 nb.2.1]
    omega

theorem weak_order {c : Compare} (hc : Positive c) {lines : List Line}
    (hs : Separated c (ends lines)) (hn : ∀ p ∈ ends lines, numPt p) :
    WeakOrder (lineLess c) (normalizeLines lines) := by
  refine ⟨fun a ha => ?_, fun a ha b hb d hd h1 h2 => ?_, fun a ha b hb d hd h1 => ?_⟩
  · by_contra h
    have := (lineLess_iff hc hs hn ha ha).1 (by simpa using h)
    omega
  · rw [lineLess_iff hc hs hn ha hb] at h1
    rw [lineLess_iff hc hs hn hb hd] at h2
    exact (lineLess_iff hc hs hn ha hd).2 (h1.trans h2)
  · rw [lineLess_iff hc hs hn ha hd] at h1
    rw [lineLess_iff hc hs hn ha hb, lineLess_iff hc hs hn hb hd]
    omega

/-- The result, by keys. -/
theorem unique_keys {c : Compare} (hc : Positive c) {sort : List Line → List Line}
    (hsort : GoSorts (lineLess c) sort) {lines : List Line}
    (hs : Separated c (ends lines)) (hn : ∀ p ∈ ends lines, numPt p) :
    (normalizeUniqueLines c sort lines).Pairwise (fun a b => lineKey a < lineKey b) ∧
      ∀ a ∈ normalizeLines lines, ∃ b ∈ normalizeUniqueLines c sort lines, lineKey b = lineKey a := by
  obtain ⟨hp, hw⟩ := hsort (normalizeLines lines)
  have hw := hw (weak_order hc hs hn)
  have hm : ∀ {a}, a ∈ sort (normalizeLines lines) → a ∈ normalizeLines lines := fun h => hp.mem_iff.1 h
  rw [normalizeUnique_eq]
  have := changes_keys (sameStr c) lineKey (sort (normalizeLines lines)) none
    (fun a ha b hb => by
      have na := normalize_normal hn a (hm ha)
      have nb := normalize_normal hn b (hm hb)
      rw [sameStr_eq na nb, Bool.and_eq_true,
        separated_iff hc hs hn (ends_normalize (hm ha)).1 (ends_normalize (hm hb)).1,
        separated_iff hc hs hn (ends_normalize (hm ha)).2 (ends_normalize (hm hb)).2,
        lineKey_eq na.2.1 nb.2.1])
    (by simp)
    (hw.imp_of_mem fun {a b} ha hb h => by
      by_contra hh
      have := (lineLess_iff hc hs hn (hm hb) (hm ha)).2 (by omega)
      simp [this] at h)
  refine ⟨this.1, fun a ha => ?_⟩
  rcases this.2.2 a (hp.mem_iff.2 ha) with ⟨q, hq, _⟩ | h
  · simp at hq
  · exact h

/-- There are sorting functions. -/
theorem exists_sort {α : Type} (less : α → α → Bool) : ∃ sort, GoSorts less sort := by
  classical
  have : ∀ l : List α, ∃ l' : List α, l'.Perm l ∧
      (WeakOrder less l → l'.Pairwise fun a b => less b a = false) := by
    intro l
    by_cases hw : WeakOrder less l
    · let r : {x // x ∈ l} → {x // x ∈ l} → Prop := fun a b => less b.1 a.1 = false
      have : Std.Total r := ⟨fun a b => by
        by_contra h
        rw [not_or] at h
        have h1 : less b.1 a.1 = true := by simpa [r] using h.1
        have h2 : less a.1 b.1 = true := by simpa [r] using h.2
        have := hw.2.1 _ a.2 _ b.2 _ a.2 h2 h1
        rw [hw.1 _ a.2] at this
        exact absurd this (by simp)⟩
      have : IsTrans _ r := ⟨fun a b d h1 h2 => by
        by_contra h
        have h3 : less d.1 a.1 = true := by simpa [r] using h
        rcases hw.2.2 _ d.2 _ b.2 _ a.2 h3 with h4 | h4
        · rw [show less d.1 b.1 = false from h2] at h4; simp at h4
        · rw [show less b.1 a.1 = false from h1] at h4; simp at h4⟩
      refine ⟨(l.attach.insertionSort r).map Subtype.val, ?_, fun _ => ?_⟩
      · have := (List.perm_insertionSort r l.attach).map Subtype.val
        rwa [List.attach_map_subtype_val] at this
      · rw [List.pairwise_map]
        exact List.pairwise_insertionSort r l.attach
    · exact ⟨l, .refl _, fun h => absurd h hw⟩
  choose f hf using this
  exact ⟨f, hf⟩

end Verif.Lemmas.Lines
