import Verif.Model.FromLines
import Verif.Spec.FromLines
import Verif.Lemmas.SubWalk
import Verif.Lemmas.Resolve

/-!
# Helper lemmas for subdivisions made of lines
-/

namespace Verif.Lemmas.FromLines
open Verif Verif.Quad Verif.Spec.Quad Verif.Resolve Verif.Spec.Resolve Verif.Subdivision Verif.Spec.Subdivision
open Verif.FromLines Verif.Spec.FromLines Verif.Lemmas.Quad Verif.Lemmas.Resolve Verif.Lemmas.SubWalk

/-! ## Linking one new edge -/

section link
variable {P : Type} {s s1 : Store P}

/-- The store `s'` has one edge `e` more than `s`, linked to the rings of `oa` and `ob`. -/
structure Linked (s s' : Store P) (e : E) (oa ob : Option E) : Prop where
  inv : Inv s'
  size : s.size < s'.size
  eq : e.q < s'.size ∧ s.size ≤ e.q ∧ Primal e
  v : ∀ x, x.q < s.size → s'.v x = s.v x
  old : ∀ x y, Primal x → x.q < s.size → (Around s' x y ↔ Around s x y ∨
    (y = e ∧ ∃ o ∈ oa, Around s o x) ∨ (y = sym e ∧ ∃ o ∈ ob, Around s o x))
  new : ∀ y, Around s' e y ↔ y = e ∨ ∃ o ∈ oa, Around s o y
  newSym : ∀ y, Around s' (sym e) y ↔ y = sym e ∨ ∃ o ∈ ob, Around s o y

theorem around_new (o d : Option P) (x y : E) (hi : Inv s) (hx : x.q < s.size) :
    Around (newWithEndPoints s o d).1 x y ↔ Around s x y := by
  constructor
  · intro h
    induction h with
    | refl => exact .refl
    | next _ ih =>
      have := ih.next
      unfold onext at this ⊢
      rw [newE_next _ _ _ ((hi.around_alloc ih).2 hx)]
      exact this
  · intro h
    induction h with
    | refl => exact .refl
    | next h1 ih =>
      have := ih.next
      unfold onext at this ⊢
      rwa [newE_next _ _ _ ((hi.around_alloc h1).2 hx)] at this

theorem around_fixed {x : E} (h : s.next x = x) (y : E) : Around s x y ↔ y = x := by
  constructor
  · intro hy
    induction hy with
    | refl => rfl
    | next _ ih => rw [ih]; exact h
  · rintro rfl; exact .refl

theorem linked_new (hi : Inv s) (o d : Option P) :
    Linked s (newWithEndPoints s o d).1 ⟨s.size, 0⟩ none none where
  inv := inv_newWithEndPoints hi o d
  size := Nat.lt_succ_self _
  eq := ⟨Nat.lt_succ_self _, Nat.le_refl _, Or.inl rfl⟩
  v := fun x hx => newE_v o d hx
  old := fun x y _ hx => by
    rw [around_new o d x y hi hx]
    simp
  new := fun y => by
    rw [around_fixed (newE_self o d)]
    simp
  newSym := fun y => by
    rw [around_fixed (newE_sym o d)]
    simp

theorem joined_symm {R R' : E → E → Prop} {a b : E} (hk : SameKind a b) (h : Joined R R' a b) :
    Joined R R' b a := by
  intro x y hx
  rw [h x y (hx.trans hk.symm)]
  tauto

/-- The ring of `e` is joined with another. -/
theorem linked_a {e o : E} {ob : Option E} {s' : Store P} (hi : Inv s) (hL : Linked s s1 e none ob) (ho : o.q < s.size)
    (ko : Primal o) (hn : ∀ o' ∈ ob, ¬ Around s o' o) (hi' : Inv s') (hs : s'.size = s1.size) (hv : s'.v = s1.v)
    (hj : Joined (Around s1) (Around s') e o) : Linked s s' e (some o) ob where
  inv := hi'
  size := by rw [hs]; exact hL.size
  eq := by rw [hs]; exact hL.eq
  v := fun x hx => by rw [hv]; exact hL.v x hx
  old := fun x y kx hx => by
    have hxe : x ≠ e := by rintro rfl; exact absurd hx (Nat.not_lt.2 hL.eq.2.1)
    have hxs : x ≠ sym e := by rintro rfl; rw [sym_q] at hx; exact absurd hx (Nat.not_lt.2 hL.eq.2.1)
    have h1 : Around s1 e x ↔ x = e := by rw [hL.new]; simp
    have h2 : Around s1 e y ↔ y = e := by rw [hL.new]; simp
    have h3 : ∀ z, Around s1 o z ↔ Around s o z := by
      intro z
      rw [hL.old o z ko ho]
      simp only [Option.mem_def, reduceCtorEq, false_and, exists_false, and_false, false_or]
      constructor
      · rintro (h | ⟨_, o', ho', h⟩)
        · exact h
        · exact absurd h (hn o' ho')
      · exact Or.inl
    rw [hj x y (iff_of_true kx hL.eq.2.2), hL.old x y kx hx, h1, h2, h3, h3]
    simp only [Option.mem_def, reduceCtorEq, false_and, exists_false, and_false, false_or,
      Option.some.injEq, exists_eq_left', hxe]
    constructor
    · rintro ((h | h) | ⟨h, h' | h'⟩)
      · exact Or.inl h
      · exact Or.inr (Or.inr h)
      · exact Or.inr (Or.inl ⟨h', h⟩)
      · exact Or.inl (around_trans (hi.around_symm h) h')
    · rintro (h | ⟨h, h'⟩ | h)
      · exact Or.inl (Or.inl h)
      · exact Or.inr ⟨h', Or.inl h⟩
      · exact Or.inl (Or.inr h)
  new := fun y => by
    have h2 : Around s1 e y ↔ y = e := by rw [hL.new]; simp
    have h3 : ∀ z, Around s1 o z ↔ Around s o z := by
      intro z
      rw [hL.old o z ko ho]
      simp only [Option.mem_def, reduceCtorEq, false_and, exists_false, and_false, false_or]
      constructor
      · rintro (h | ⟨_, o', ho', h⟩)
        · exact h
        · exact absurd h (hn o' ho')
      · exact Or.inl
    rw [hj e y Iff.rfl, h2, h3, h3]
    simp only [Option.mem_def, Option.some.injEq, exists_eq_left']
    have : Around s1 e e := .refl
    tauto
  newSym := fun y => by
    have hse : sym e ≠ e := sym_ne e
    have h2 : Around s1 e (sym e) ↔ sym e = e := by rw [hL.new]; simp
    have h3 : ¬ Around s1 o (sym e) := by
      rw [hL.old o _ ko ho]
      simp only [Option.mem_def, reduceCtorEq, false_and, exists_false, and_false, false_or, true_and]
      rintro (h | ⟨o', ho', h⟩)
      · have := (hi.around_alloc h).2 ho
        rw [sym_q] at this
        exact absurd this (Nat.not_lt.2 hL.eq.2.1)
      · exact hn o' ho' h
    rw [hj (sym e) y (primal_sym e), h2, hL.newSym]
    simp only [h3, hse, or_self, false_and, or_false]

/-- The ring of the other end of `e` is joined with another. -/
theorem linked_b {e o : E} {oa : Option E} {s' : Store P} (hi : Inv s) (hL : Linked s s1 e oa none) (ho : o.q < s.size)
    (ko : Primal o) (hn : ∀ o' ∈ oa, ¬ Around s o' o) (hi' : Inv s') (hs : s'.size = s1.size) (hv : s'.v = s1.v)
    (hj : Joined (Around s1) (Around s') (sym e) o) : Linked s s' e oa (some o) := by
  -- the reverse of the edge is linked as the edge is
  have flip : ∀ {t : Store P} {oa ob : Option E} {e : E}, Linked s t e oa ob → Linked s t (sym e) ob oa := by
    intro t oa ob e h
    refine ⟨h.inv, h.size, ?_, h.v, ?_, h.newSym, ?_⟩
    · rw [sym_q, primal_sym]; exact h.eq
    · intro x y kx hx
      rw [h.old x y kx hx, sym_sym, or_comm (a := _ ∧ _)]
    · rw [sym_sym]; exact h.new
  have h1 := linked_a hi (flip hL) ho ko hn hi' hs hv hj
  have h2 := flip h1
  rwa [sym_sym] at h2

theorem linked_orig (hi : Inv s) {oe : E} (o d : Option P) (ho : oe.q < s.size) (ko : Primal oe) :
    Linked s (splice (newWithEndPoints s o d).1 oe ⟨s.size, 0⟩) ⟨s.size, 0⟩ (some oe) none := by
  have hL := linked_new hi o d
  have h0 := hL.inv
  have q1 : oe.q < (newWithEndPoints s o d).1.size := Nat.lt_trans ho hL.size
  have hk : Primal oe ↔ Primal (⟨s.size, 0⟩ : E) := iff_of_true ko hL.eq.2.2
  refine linked_a hi hL ho ko (by simp) (inv_splice h0 q1 hL.eq.1 hk) rfl rfl ?_
  refine joined_symm hk (merge h0 q1 hL.eq.1 hk ?_)
  rw [around_new o d _ _ hi ho]
  intro h
  exact absurd ((hi.around_alloc h).2 ho) (Nat.lt_irrefl _)

theorem linked_dest (hi : Inv s) {de : E} (o d : Option P) (ho : de.q < s.size) (ko : Primal de) :
    Linked s (splice (newWithEndPoints s o d).1 de (sym ⟨s.size, 0⟩)) ⟨s.size, 0⟩ none (some de) := by
  have hL := linked_new hi o d
  have h0 := hL.inv
  have q1 : de.q < (newWithEndPoints s o d).1.size := Nat.lt_trans ho hL.size
  have q2 : (sym ⟨s.size, 0⟩ : E).q < (newWithEndPoints s o d).1.size := by rw [sym_q]; exact hL.eq.1
  have hk : Primal de ↔ Primal (sym ⟨s.size, 0⟩ : E) := iff_of_true ko ((primal_sym _).2 hL.eq.2.2)
  refine linked_b hi hL ho ko (by simp) (inv_splice h0 q1 q2 hk) rfl rfl ?_
  refine joined_symm hk (merge h0 q1 q2 hk ?_)
  rw [around_new o d _ _ hi ho]
  intro h
  have := (hi.around_alloc h).2 ho
  rw [sym_q] at this
  exact absurd this (Nat.lt_irrefl _)

theorem linked_connect (hi : Inv s) {oe bb : E} (ho : oe.q < s.size) (ko : Primal oe) (hb : bb.q < s.size)
    (kb : Primal bb) (hn : ¬ Around s oe bb) :
    ∃ a, Around s oe a ∧ Linked s (connectTo s (sym oe) bb).1 ⟨s.size, 0⟩ (some a) (some bb) := by
  have hL := linked_new hi (dest s (sym oe)) (orig s bb)
  have h0 := hL.inv
  set n := (newWithEndPoints s (dest s (sym oe)) (orig s bb)).1 with hnn
  set a := lnext n (sym oe) with ha
  have ea : a = oprev n oe := by rw [ha, Inv.lnext_eq, sym_sym]
  have A : Around n oe a := by
    apply h0.around_symm
    have : Around n a (onext n a) := Around.next .refl
    have e : onext n a = oe := by rw [ea]; exact h0.next_oprev _
    rwa [e] at this
  have A' : Around s oe a := (around_new _ _ _ _ hi ho).1 A
  have qa : a.q < s.size := (hi.around_alloc A').2 ho
  have ka : Primal a := (around_primal hi A').2 ko
  have qa' : a.q < n.size := Nat.lt_trans qa hL.size
  have hk : Primal (⟨s.size, 0⟩ : E) ↔ Primal a := iff_of_true hL.eq.2.2 ka
  have h1 := inv_splice h0 hL.eq.1 qa' hk
  have L1 : Linked s (splice n ⟨s.size, 0⟩ a) ⟨s.size, 0⟩ (some a) none := by
    refine linked_a hi hL qa ka (by simp) h1 rfl rfl (merge h0 hL.eq.1 qa' hk ?_)
    rw [hL.new]
    rintro (h | ⟨o, h, _⟩)
    · rw [h] at qa; exact absurd qa (Nat.lt_irrefl _)
    · cases h
  have hk2 : Primal (sym ⟨s.size, 0⟩ : E) ↔ Primal bb := iff_of_true ((primal_sym _).2 hL.eq.2.2) kb
  have q2 : (sym ⟨s.size, 0⟩ : E).q < (splice n ⟨s.size, 0⟩ a).size := by rw [sym_q]; exact hL.eq.1
  have q3 : bb.q < (splice n ⟨s.size, 0⟩ a).size := Nat.lt_trans hb hL.size
  refine ⟨a, A', linked_b hi L1 hb kb ?_ (inv_splice h1 q2 q3 hk2) rfl rfl (merge h1 q2 q3 hk2 ?_)⟩
  · intro o' ho' h
    cases ho'
    exact hn (around_trans A' h)
  · intro h'
    rcases (L1.newSym bb).1 h' with h | ⟨o, h, _⟩
    · rw [h, sym_q] at hb; exact absurd hb (Nat.lt_irrefl _)
    · cases h

end link

/-! ## The map of the points -/

section index
variable {K : Type} [LinearOrder K]

theorem get_some {m : Index K} {p : Pt K} {e : E} (h : m.get p = some e) : (p, e) ∈ m := by
  unfold Index.get at h
  rw [Option.map_eq_some_iff] at h
  obtain ⟨kv, h1, rfl⟩ := h
  have := List.find?_some h1
  rw [← of_decide_eq_true this]
  exact List.mem_of_find?_eq_some h1

theorem get_none {m : Index K} {p : Pt K} (h : m.get p = none) (e : E) : (p, e) ∉ m := by
  unfold Index.get at h
  rw [Option.map_eq_none_iff, List.find?_eq_none] at h
  intro he
  exact h _ he (by simp)

theorem set_new {m : Index K} {p : Pt K} (h : ∀ e, (p, e) ∉ m) (e : E) : m.set p e = m ++ [(p, e)] := by
  unfold Index.set
  rw [if_neg]
  intro h'
  rw [List.any_eq_true] at h'
  obtain ⟨kv, h1, h2⟩ := h'
  rw [decide_eq_true_eq] at h2
  exact h kv.2 (by rw [← h2]; exact h1)

end index

/-! ## What holds in the loop -/

section loop
variable {K : Type}

/-- What holds of the edges and the map after the lines `L`. -/
structure Good (s : Store (Pt K)) (m : Index K) (L : List (Pt K × Pt K)) : Prop where
  inv : Inv s
  keys : (m.map (·.1)).Nodup
  alloc : ∀ p e, (p, e) ∈ m → Primal e ∧ e.q < s.size
  star : ∀ p e, (p, e) ∈ m → ∀ y, Around s e y → orig s y = some p ∧
    ∃ q f, dest s y = some q ∧ q ≠ p ∧ Join L p q ∧ (q, f) ∈ m ∧ Around s f (sym y)
  has : ∀ p q, (p, q) ∈ L → ∃ e, (p, e) ∈ m ∧ ∃ y, Around s e y ∧ dest s y = some q
  uniq : ∀ p e, (p, e) ∈ m → ∀ y y', Around s e y → Around s e y' → dest s y = dest s y' → y = y'

theorem Good.same {s : Store (Pt K)} {m : Index K} {L : List (Pt K × Pt K)} (h : Good s m L) {p : Pt K} {e e' : E}
    (h1 : (p, e) ∈ m) (h2 : (p, e') ∈ m) : e = e' := by
  have := List.inj_on_of_nodup_map h.keys h1 h2 rfl
  exact (Prod.mk.inj this).2

theorem Good.isStar {s : Store (Pt K)} {m : Index K} {L : List (Pt K × Pt K)} (h : Good s m L) {p : Pt K} {e : E}
    (h1 : (p, e) ∈ m) : Star s e p := by
  refine ⟨(h.alloc p e h1).1, fun y hy => ?_⟩
  obtain ⟨a, q, f, b, c, _⟩ := h.star p e h1 y hy
  exact ⟨a, q, b, c⟩

/-- A new edge that is on no ring of the map. -/
theorem Good.orphan {s : Store (Pt K)} {m : Index K} {L : List (Pt K × Pt K)} (h : Good s m L) (o d : Option (Pt K)) :
    Good (newWithEndPoints s o d).1 m L := by
  have hL := linked_new h.inv o d
  have ar : ∀ p e, (p, e) ∈ m → ∀ y, Around (newWithEndPoints s o d).1 e y ↔ Around s e y := fun p e he y =>
    around_new o d e y h.inv (h.alloc p e he).2
  have al : ∀ p e, (p, e) ∈ m → ∀ y, Around s e y → y.q < s.size := fun p e he y hy =>
    (h.inv.around_alloc hy).2 (h.alloc p e he).2
  have hv : ∀ y : E, y.q < s.size → orig (newWithEndPoints s o d).1 y = orig s y := fun y hy => hL.v y hy
  have hd : ∀ y : E, y.q < s.size → dest (newWithEndPoints s o d).1 y = dest s y := fun y hy =>
    hL.v (sym y) (by rw [sym_q]; exact hy)
  refine ⟨hL.inv, h.keys, fun p e he => ⟨(h.alloc p e he).1, Nat.lt_trans (h.alloc p e he).2 hL.size⟩, ?_, ?_, ?_⟩
  · intro p e he y hy
    rw [ar p e he] at hy
    obtain ⟨a, q, f, b, c, d', i, j⟩ := h.star p e he y hy
    have hq := al p e he y hy
    exact ⟨by rw [hv y hq]; exact a, q, f, by rw [hd y hq]; exact b, c, d', i, (ar q f i _).2 j⟩
  · intro p q hpq
    obtain ⟨e, he, y, hy, hy'⟩ := h.has p q hpq
    exact ⟨e, he, y, (ar p e he y).2 hy, by rw [hd y (al p e he y hy)]; exact hy'⟩
  · intro p e he y y' hy hy' hdd
    rw [ar p e he] at hy hy'
    rw [hd y (al p e he y hy), hd y' (al p e he y' hy')] at hdd
    exact h.uniq p e he y y' hy hy' hdd

/-- The map after the new edge. -/
def grown (m : Index K) (o d : Pt K) (e : E) (oa ob : Option E) : Index K :=
  m ++ (if oa = none then [(o, e)] else []) ++ (if ob = none then [(d, sym e)] else [])

theorem mem_grown {m : Index K} {o d : Pt K} {e : E} {oa ob : Option E} {kv : Pt K × E} :
    kv ∈ grown m o d e oa ob ↔ kv ∈ m ∨ (oa = none ∧ kv = (o, e)) ∨ (ob = none ∧ kv = (d, sym e)) := by
  unfold grown
  rw [List.mem_append, List.mem_append, or_assoc]
  refine or_congr_right (or_congr ?_ ?_) <;> split_ifs with h <;> simp [h]

theorem Good.grow {s s' : Store (Pt K)} {m : Index K} {L : List (Pt K × Pt K)} (h : Good s m L) {o d : Pt K} (hne : o ≠ d)
    {e : E} {oa ob : Option E} (hL : Linked s s' e oa ob) (ho : orig s' e = some o) (hd : dest s' e = some d)
    (ha : ∀ a, oa = some a → ∃ f, (o, f) ∈ m ∧ Around s f a) (ha' : oa = none → ∀ f, (o, f) ∉ m)
    (hb : ∀ b, ob = some b → ∃ f, (d, f) ∈ m ∧ Around s f b) (hb' : ob = none → ∀ f, (d, f) ∉ m)
    (hno : ∀ f, (o, f) ∈ m → ∀ y, Around s f y → dest s y ≠ some d) :
    Good s' (grown m o d e oa ob) ((o, d) :: L) := by
  have al : ∀ p f, (p, f) ∈ m → ∀ y, Around s f y → y.q < s.size := fun p f he y hy =>
    (h.inv.around_alloc hy).2 (h.alloc p f he).2
  have hv : ∀ y : E, y.q < s.size → orig s' y = orig s y := fun y hy => hL.v y hy
  have hd' : ∀ y : E, y.q < s.size → dest s' y = dest s y := fun y hy =>
    hL.v (sym y) (by rw [sym_q]; exact hy)
  -- which ring of the map an edge is on is told by its origin
  have key : ∀ p f, (p, f) ∈ m → ∀ p' f', (p', f') ∈ m → ∀ y, Around s f y → Around s f' y → p = p' ∧ f = f' := by
    intro p f h1 p' f' h2 y h3 h4
    have := (h.star p f h1 y h3).1.symm.trans (h.star p' f' h2 y h4).1
    obtain rfl := Option.some.inj this
    exact ⟨rfl, h.same h1 h2⟩
  have hdo : dest s' (sym e) = some o := by unfold dest; rw [sym_sym]; exact ho
  have hod : orig s' (sym e) = some d := hd
  -- the ring of a key of the old map
  have ring : ∀ p f, (p, f) ∈ m → ∀ y, Around s' f y ↔ Around s f y ∨ (y = e ∧ p = o) ∨ (y = sym e ∧ p = d) := by
    intro p f hf y
    rw [hL.old f y (h.alloc p f hf).1 (h.alloc p f hf).2]
    refine or_congr_right (or_congr (and_congr_right fun _ => ?_) (and_congr_right fun _ => ?_))
    · constructor
      · rintro ⟨a, h1, h2⟩
        obtain ⟨g, hg, hg'⟩ := ha a h1
        have h3 : Around s g f := around_trans hg' h2
        exact (key _ _ hf _ _ hg f .refl h3).1
      · rintro rfl
        cases hoa : oa with
        | none => exact absurd hf (ha' hoa f)
        | some a =>
          obtain ⟨g, hg, hg'⟩ := ha a hoa
          obtain rfl := h.same hf hg
          exact ⟨a, rfl, h.inv.around_symm hg'⟩
    · constructor
      · rintro ⟨a, h1, h2⟩
        obtain ⟨g, hg, hg'⟩ := hb a h1
        have h3 : Around s g f := around_trans hg' h2
        exact (key _ _ hf _ _ hg f .refl h3).1
      · rintro rfl
        cases hoa : ob with
        | none => exact absurd hf (hb' hoa f)
        | some a =>
          obtain ⟨g, hg, hg'⟩ := hb a hoa
          obtain rfl := h.same hf hg
          exact ⟨a, rfl, h.inv.around_symm hg'⟩
  -- both ends of the new edge are on rings of the new map
  have ino : ∃ f, (o, f) ∈ grown m o d e oa ob ∧ Around s' f e := by
    cases hoa : oa with
    | none => exact ⟨e, by rw [mem_grown]; exact Or.inr (Or.inl ⟨rfl, rfl⟩), .refl⟩
    | some a =>
      obtain ⟨g, hg, _⟩ := ha a hoa
      exact ⟨g, by rw [mem_grown]; exact Or.inl hg, (ring o g hg e).2 (Or.inr (Or.inl ⟨rfl, rfl⟩))⟩
  have ind : ∃ f, (d, f) ∈ grown m o d e oa ob ∧ Around s' f (sym e) := by
    cases hoa : ob with
    | none => exact ⟨sym e, by rw [mem_grown]; exact Or.inr (Or.inr ⟨rfl, rfl⟩), .refl⟩
    | some a =>
      obtain ⟨g, hg, _⟩ := hb a hoa
      exact ⟨g, by rw [mem_grown]; exact Or.inl hg, (ring d g hg _).2 (Or.inr (Or.inr ⟨rfl, rfl⟩))⟩
  have self_o : oa = none → ∀ y, Around s' e y → y = e := by
    intro h1 y hy
    rw [hL.new] at hy
    rcases hy with hy | ⟨_, h2, _⟩
    · exact hy
    · rw [h1] at h2; cases h2
  have self_d : ob = none → ∀ y, Around s' (sym e) y → y = sym e := by
    intro h1 y hy
    rw [hL.newSym] at hy
    rcases hy with hy | ⟨_, h2, _⟩
    · exact hy
    · rw [h1] at h2; cases h2
  have edge_o : orig s' e = some o ∧ ∃ q f, dest s' e = some q ∧ q ≠ o ∧ Join ((o, d) :: L) o q ∧
      (q, f) ∈ grown m o d e oa ob ∧ Around s' f (sym e) := by
    obtain ⟨f, hf, hf'⟩ := ind
    exact ⟨ho, d, f, hd, hne.symm, Or.inl (List.mem_cons_self ..), hf, hf'⟩
  have edge_d : orig s' (sym e) = some d ∧ ∃ q f, dest s' (sym e) = some q ∧ q ≠ d ∧ Join ((o, d) :: L) d q ∧
      (q, f) ∈ grown m o d e oa ob ∧ Around s' f (sym (sym e)) := by
    obtain ⟨f, hf, hf'⟩ := ino
    exact ⟨hod, o, f, hdo, hne, Or.inr (List.mem_cons_self ..), hf, by rw [sym_sym]; exact hf'⟩
  have hno' : ∀ f, (d, f) ∈ m → ∀ y, Around s f y → dest s y ≠ some o := by
    intro f hf y hy hyd
    obtain ⟨a, q, g, b, _, _, hg, hg'⟩ := h.star d f hf y hy
    obtain rfl := Option.some.inj (b.symm.trans hyd)
    refine hno g hg _ hg' ?_
    unfold dest
    rw [sym_sym]; exact a
  refine ⟨hL.inv, ?_, ?_, ?_, ?_, ?_⟩
  · unfold grown
    rw [List.map_append, List.map_append, List.nodup_append, List.nodup_append]
    refine ⟨⟨h.keys, ?_, ?_⟩, ?_, ?_⟩
    · split_ifs <;> simp
    · intro a h1 b h2
      split_ifs at h2 with hoa
      · simp at h2
        rintro rfl
        rw [h2, List.mem_map] at h1
        obtain ⟨⟨x, y⟩, hx, rfl⟩ := h1
        exact ha' hoa y hx
      · simp at h2
    · split_ifs <;> simp
    · intro a h1 b h2
      split_ifs at h2 with hob
      · simp at h2
        rintro rfl
        rw [h2, List.mem_append] at h1
        rcases h1 with h1 | h1
        · rw [List.mem_map] at h1
          obtain ⟨⟨x, y⟩, hx, rfl⟩ := h1
          exact hb' hob y hx
        · split_ifs at h1
          · simp at h1; exact hne h1.symm
          · simp at h1
      · simp at h2
  · intro p f hf
    rw [mem_grown] at hf
    rcases hf with hf | ⟨_, hf⟩ | ⟨_, hf⟩
    · exact ⟨(h.alloc p f hf).1, Nat.lt_trans (h.alloc p f hf).2 hL.size⟩
    · cases hf; exact ⟨hL.eq.2.2, hL.eq.1⟩
    · cases hf; exact ⟨(primal_sym _).2 hL.eq.2.2, by rw [sym_q]; exact hL.eq.1⟩
  · intro p f hf y hy
    rw [mem_grown] at hf
    rcases hf with hf | ⟨h1, hf⟩ | ⟨h1, hf⟩
    · rw [ring p f hf] at hy
      rcases hy with hy | ⟨rfl, rfl⟩ | ⟨rfl, rfl⟩
      · have hq := al p f hf y hy
        obtain ⟨a, q, g, b, c, j, hg, hg'⟩ := h.star p f hf y hy
        refine ⟨by rw [hv y hq]; exact a, q, g, by rw [hd' y hq]; exact b, c, ?_, ?_, ?_⟩
        · exact j.imp (List.mem_cons_of_mem _) (List.mem_cons_of_mem _)
        · rw [mem_grown]; exact Or.inl hg
        · rw [ring q g hg]; exact Or.inl hg'
      · exact edge_o
      · exact edge_d
    · cases hf
      rw [self_o h1 y hy]
      exact edge_o
    · cases hf
      rw [self_d h1 y hy]
      exact edge_d
  · intro p q hpq
    rw [List.mem_cons] at hpq
    rcases hpq with hpq | hpq
    · cases hpq
      obtain ⟨f, hf, hf'⟩ := ino
      exact ⟨f, hf, e, hf', hd⟩
    · obtain ⟨f, hf, y, hy, hyd⟩ := h.has p q hpq
      refine ⟨f, by rw [mem_grown]; exact Or.inl hf, y, (ring p f hf y).2 (Or.inl hy), ?_⟩
      rw [hd' y (al p f hf y hy)]; exact hyd
  · intro p f hf y y' hy hy' hdd
    rw [mem_grown] at hf
    rcases hf with hf | ⟨h1, hf⟩ | ⟨h1, hf⟩
    · rw [ring p f hf] at hy hy'
      rcases hy with hy | ⟨rfl, rfl⟩ | ⟨rfl, rfl⟩ <;> rcases hy' with hy' | ⟨rfl, e'⟩ | ⟨rfl, e'⟩
      · rw [hd' y (al p f hf y hy), hd' y' (al p f hf y' hy')] at hdd
        exact h.uniq p f hf y y' hy hy' hdd
      · subst e'
        rw [hd' y (al p f hf y hy), hd] at hdd
        exact absurd hdd (hno f hf y hy)
      · subst e'
        rw [hd' y (al p f hf y hy), hdo] at hdd
        exact absurd hdd (hno' f hf y hy)
      · rw [hd' y' (al _ f hf y' hy'), hd] at hdd
        exact absurd hdd.symm (hno f hf y' hy')
      · rfl
      · exact absurd e' hne
      · rw [hd' y' (al _ f hf y' hy'), hdo] at hdd
        exact absurd hdd.symm (hno' f hf y' hy')
      · exact absurd e'.symm hne
      · rfl
    · cases hf
      rw [self_o h1 y hy, self_o h1 y' hy']
    · cases hf
      rw [self_d h1 y hy, self_d h1 y' hy']

end loop

set_option linter.unusedSectionVars false

section steps
variable {K : Type} [Field K] [LinearOrder K] [IsStrictOrderedRing K]

theorem resolve_ok (yd : Bool) {s : Store (Pt K)} (hi : Inv s) {e : E} (he : e.q < s.size) {o d : Pt K} (hS : Star s e o)
    (hne : d ≠ o) : ∃ x r, resolveEdge (fun p q => decide (p = q)) yd s e d = r ∧ r.candidate = some x ∧ r ≠ .panic ∧
      Around s e x := by
  obtain ⟨L, hL⟩ := around_onceRound hi e
  obtain ⟨w, r, hw, hr, hfs⟩ := resolve_ends (yd := yd) hne hS hL
  have heq : resolveEdge (fun p q => decide (p = q)) yd s e d = r := by
    unfold resolveEdge
    rw [(hS.2 e .refl).1]
    simp only
    rw [if_neg (by simpa using fun h => hne h.symm), resolve_walk hi he hS hL, hfs]
    rfl
  unfold out at hr
  obtain ⟨_, a, ha, _⟩ := hS.2 w hw
  obtain ⟨_, b, hb, _⟩ := hS.2 _ hw.next
  simp only [ha, hb] at hr
  cases hst : resolveStep yd o a b d <;> rw [hst] at hr <;> cases hr
  · exact ⟨w, _, heq, rfl, (by simp), hw⟩
  · exact ⟨w, _, heq, rfl, (by simp), hw⟩
  · exact ⟨_, _, heq, rfl, (by simp), hw.next⟩
  · exact ⟨w, _, heq, rfl, (by simp), hw⟩

theorem place_ok (yd : Bool) {s : Store (Pt K)} (hi : Inv s) {e : E} (he : e.q < s.size) {o d : Pt K} (hS : Star s e o)
    (hne : d ≠ o) : ∃ x, place yd s e d = some x ∧ Around s e x := by
  obtain ⟨x, r, h1, h2, h3, h4⟩ := resolve_ok yd hi he hS hne
  refine ⟨x, ?_, h4⟩
  unfold place
  rw [h1]
  cases r with
  | panic => exact absurd rfl h3
  | _ => exact congrArg (fun c : Option E => some (c.getD e)) h2

/-- An end of the new edge: it is not in the map, or its ring is known. -/
def Known (s : Store (Pt K)) (m : Index K) (p : Pt K) : Option E → Prop
  | none => ∀ f, (p, f) ∉ m
  | some a => ∃ f, (p, f) ∈ m ∧ Around s f a

/-- What holds of the variables of the loop after the lines `L`. -/
structure Loop (st : State K) (L : List (Pt K × Pt K)) : Prop where
  good : Good st.store st.index L
  last : ∀ e, st.last = some e → ∃ p f, (p, f) ∈ st.index ∧ Around st.store f e
  some : L ≠ [] → st.last ≠ none

theorem link_ok (yd : Bool) {st : State K} {L : List (Pt K × Pt K)} (h : Good st.store st.index L) {o d : Pt K} (hne : o ≠ d)
    {oa ob : Option E} (ha : Known st.store st.index o oa) (hb : Known st.store st.index d ob)
    (hno : ∀ f, (o, f) ∈ st.index → ∀ y, Around st.store f y → dest st.store y ≠ some d) :
    ∃ st', link yd st o d oa ob = some st' ∧ Loop st' ((o, d) :: L) := by
  have hi := h.inv
  obtain ⟨s, m, l⟩ := st
  simp only at h ha hb hno hi
  have hL0 := linked_new hi (some o) (some d)
  have vo : (newWithEndPoints s (some o) (some d)).1.v ⟨s.size, 0⟩ = some o := newE_v_self _ _
  have vd : (newWithEndPoints s (some o) (some d)).1.v (sym ⟨s.size, 0⟩) = some d := newE_v_sym _ _
  cases oa with
  | none =>
    cases ob with
    | none =>
      have G := h.grow hne hL0 vo vd (by simp) (fun _ => ha) (by simp) (fun _ => hb) hno
      refine ⟨_, rfl, ?_, ?_, by simp⟩
      · show Good (newWithEndPoints s (some o) (some d)).1 ((m.set o ⟨s.size, 0⟩).set d (sym ⟨s.size, 0⟩)) _
        rw [set_new ha, set_new]
        · exact G
        · intro e he
          rw [List.mem_append] at he
          rcases he with he | he
          · exact hb e he
          · simp at he; exact hne he.1.symm
      · rintro e ⟨⟩
        refine ⟨o, ⟨s.size, 0⟩, ?_, .refl⟩
        show _ ∈ (m.set o ⟨s.size, 0⟩).set d (sym ⟨s.size, 0⟩)
        rw [set_new ha, set_new]
        · simp
        · intro e he
          rw [List.mem_append] at he
          rcases he with he | he
          · exact hb e he
          · simp at he; exact hne he.1.symm
    | some de =>
      obtain ⟨f, hf, hf'⟩ := hb
      have ke : Primal de := (around_primal hi hf').2 (h.alloc d f hf).1
      have qe : de.q < s.size := (hi.around_alloc hf').2 (h.alloc d f hf).2
      have hL := linked_dest hi (some o) (some d) qe ke
      have G := h.grow hne hL vo vd (by simp) (fun _ => ha)
        (fun b hb => by cases hb; exact ⟨f, hf, hf'⟩) (by simp) hno
      refine ⟨_, rfl, ?_, ?_, by simp⟩
      · show Good (splice (newWithEndPoints s (some o) (some d)).1 de (sym ⟨s.size, 0⟩)) (m.set o ⟨s.size, 0⟩) _
        rw [set_new ha]
        simpa [grown] using G
      · rintro e ⟨⟩
        refine ⟨o, ⟨s.size, 0⟩, ?_, .refl⟩
        show _ ∈ m.set o ⟨s.size, 0⟩
        rw [set_new ha]
        simp
  | some oe =>
    obtain ⟨g, hg, hg'⟩ := ha
    have ko : Primal oe := (around_primal hi hg').2 (h.alloc o g hg).1
    have qo : oe.q < s.size := (hi.around_alloc hg').2 (h.alloc o g hg).2
    cases ob with
    | none =>
      have hL := linked_orig hi (some o) (some d) qo ko
      have G := h.grow hne hL vo vd (fun b hb => by cases hb; exact ⟨g, hg, hg'⟩) (by simp) (by simp) (fun _ => hb) hno
      refine ⟨_, rfl, ?_, ?_, by simp⟩
      · show Good (splice (newWithEndPoints s (some o) (some d)).1 oe ⟨s.size, 0⟩) (m.set d (sym ⟨s.size, 0⟩)) _
        rw [set_new hb]
        simpa [grown] using G
      · rintro e ⟨⟩
        refine ⟨o, g, ?_, ?_⟩
        · show _ ∈ m.set d (sym ⟨s.size, 0⟩)
          rw [set_new hb]
          exact List.mem_append_left _ hg
        · show Around (splice (newWithEndPoints s (some o) (some d)).1 oe ⟨s.size, 0⟩) g ⟨s.size, 0⟩
          rw [hL.old g _ (h.alloc o g hg).1 (h.alloc o g hg).2]
          exact Or.inr (Or.inl ⟨rfl, oe, rfl, hi.around_symm hg'⟩)
    | some de =>
      obtain ⟨f, hf, hf'⟩ := hb
      have h0 := h.orphan (some o) (some d)
      have hi0 := h0.inv
      set n := (newWithEndPoints s (some o) (some d)).1 with hn
      have hf0 : Around n f de := (around_new _ _ _ _ hi (h.alloc d f hf).2).2 hf'
      have hg0 : Around n g oe := (around_new _ _ _ _ hi (h.alloc o g hg).2).2 hg'
      have dd : dest n (sym oe) = some o := by
        unfold dest
        rw [sym_sym]
        exact (h0.star o g hg oe hg0).1
      have kd : Primal de := (around_primal hi0 hf0).2 (h0.alloc d f hf).1
      have qd : de.q < n.size := (hi0.around_alloc hf0).2 (h0.alloc d f hf).2
      have qo' : oe.q < n.size := (hi0.around_alloc hg0).2 (h0.alloc o g hg).2
      have hS : Star n de d := by
        refine ⟨kd, fun y hy => ?_⟩
        obtain ⟨a, q, _, b, c, _⟩ := h0.star d f hf y (around_trans hf0 hy)
        exact ⟨a, q, b, c⟩
      obtain ⟨bb, r, e1, e2, _, e3⟩ := resolve_ok yd hi0 qd hS hne
      have hfb := around_trans hf0 e3
      have hnb : ¬ Around n oe bb := by
        intro hx
        have := (h0.star o g hg bb (around_trans hg0 hx)).1.symm.trans (h0.star d f hf bb hfb).1
        exact hne (Option.some.inj this)
      have kb : Primal bb := (around_primal hi0 hfb).2 (h0.alloc d f hf).1
      have qb : bb.q < n.size := (hi0.around_alloc hfb).2 (h0.alloc d f hf).2
      obtain ⟨a, ha, hL⟩ := linked_connect hi0 qo' ko qb kb hnb
      have ob : orig n bb = some d := (h0.star d f hf bb hfb).1
      have v1 : orig (connectTo n (sym oe) bb).1 ⟨n.size, 0⟩ = some o := by
        unfold orig
        rw [connect_v, newE_v_self, dd]
      have v2 : dest (connectTo n (sym oe) bb).1 ⟨n.size, 0⟩ = some d := by
        unfold dest orig
        rw [connect_v, newE_v_sym, ob]
      have hno0 : ∀ f, (o, f) ∈ m → ∀ y, Around n f y → dest n y ≠ some d := by
        intro f' hf' y hy
        have hy' := (around_new _ _ _ _ hi (h.alloc o f' hf').2).1 hy
        have : dest n y = dest s y := hL0.v (sym y) (by
          rw [sym_q]; exact (hi.around_alloc hy').2 (h.alloc o f' hf').2)
        rw [this]
        exact hno f' hf' y hy'
      have G := h0.grow hne hL v1 v2 (fun x hx => by cases hx; exact ⟨g, hg, around_trans hg0 ha⟩) (by simp)
        (fun x hx => by cases hx; exact ⟨f, hf, hfb⟩) (by simp) hno0
      have hcon : connect yd n (sym oe) de = some (connectTo n (sym oe) bb) := by
        unfold connect
        rw [dd]
        simp only
        rw [e1, e2]
      have hl : link yd ⟨s, m, l⟩ o d (some oe) (some de) =
          some ⟨(connectTo n (sym oe) bb).1, m, some (connectTo n (sym oe) bb).2⟩ := by
        show (connect yd n (sym oe) de).map _ = _
        rw [hcon]
        rfl
      refine ⟨_, hl, ?_, ?_, by simp⟩
      · simpa [grown] using G
      · rintro e ⟨⟩
        refine ⟨o, g, hg, ?_⟩
        show Around (connectTo n (sym oe) bb).1 g ⟨n.size, 0⟩
        rw [hL.old g _ (h0.alloc o g hg).1 (h0.alloc o g hg).2]
        exact Or.inr (Or.inl ⟨rfl, a, rfl, hi0.around_symm (around_trans hg0 ha)⟩)

theorem stepDest_ok (yd : Bool) {st : State K} {L : List (Pt K × Pt K)} (h : Good st.store st.index L) {o d : Pt K}
    (hne : o ≠ d) {oa : Option E} (ha : Known st.store st.index o oa)
    (hno : ∀ f, (o, f) ∈ st.index → ∀ y, Around st.store f y → dest st.store y ≠ some d) :
    ∃ st', stepDest yd st o d oa = some st' ∧ Loop st' ((o, d) :: L) := by
  unfold stepDest
  cases hg : st.index.get d with
  | none => exact link_ok yd h hne ha (ob := none) (get_none hg) hno
  | some e =>
    have he := get_some hg
    obtain ⟨x, h1, h2⟩ := place_ok yd h.inv (h.alloc d e he).2 (h.isStar he) hne
    simp only
    rw [h1]
    exact link_ok yd h hne ha (ob := some x) ⟨e, he, h2⟩ hno

theorem step_ok (yd : Bool) {st : State K} {L : List (Pt K × Pt K)} (h : Loop st L) {o d : Pt K} (hne : o ≠ d) :
    ∃ st', step yd st o d = some st' ∧ Loop st' ((o, d) :: L) := by
  unfold step
  cases hg : st.index.get o with
  | none => exact stepDest_ok yd h.good hne (oa := none) (get_none hg) (fun f hf => absurd hf (get_none hg f))
  | some e =>
    have he := get_some hg
    obtain ⟨R, hR⟩ := around_onceRound h.good.inv e
    have hf : findONextDest st.store (fun p => decide (p = d)) e =
        some (R.find? fun x => (dest st.store x).elim false (fun p => decide (p = d))) := by
      refine find_all hR (fun x hx => round_alloc h.good.inv (h.good.alloc o e he).2 ((mem_round hR).1 hx)) ?_
      intro x hx
      obtain ⟨_, q, _, b, _⟩ := h.good.star o e he x ((mem_round hR).1 hx)
      rw [b]; simp
    simp only
    rw [hf]
    cases hr : R.find? fun x => (dest st.store x).elim false (fun p => decide (p = d)) with
    | some x =>
      refine ⟨st, rfl, ⟨?_, h.last, ?_⟩⟩
      · have hx := (mem_round hR).1 (List.mem_of_find?_eq_some hr)
        have hx' := List.find?_some hr
        obtain ⟨_, q, f, b, c, j, _⟩ := h.good.star o e he x hx
        rw [b] at hx'
        have hqd : q = d := by simpa using hx'
        subst hqd
        refine ⟨h.good.inv, h.good.keys, h.good.alloc, ?_, ?_, h.good.uniq⟩
        · intro p f hf y hy
          obtain ⟨a, q', g, b, c, j, i⟩ := h.good.star p f hf y hy
          exact ⟨a, q', g, b, c, j.imp (List.mem_cons_of_mem _) (List.mem_cons_of_mem _), i⟩
        · intro p q' hpq
          rw [List.mem_cons] at hpq
          rcases hpq with hpq | hpq
          · cases hpq
            exact ⟨e, he, x, hx, b⟩
          · exact h.good.has p q' hpq
      · intro _
        apply h.some
        rintro rfl
        obtain ⟨_, _, _, _, _, j, _⟩ := h.good.star o e he e .refl
        rcases j with j | j <;> cases j
    | none =>
      obtain ⟨x, h1, h2⟩ := place_ok yd h.good.inv (h.good.alloc o e he).2 (h.good.isStar he) hne.symm
      simp only
      rw [h1]
      refine stepDest_ok yd h.good hne (oa := some x) ⟨e, he, h2⟩ ?_
      intro f hf' y hy hyd
      obtain rfl := h.good.same he hf'
      rw [List.find?_eq_none] at hr
      refine hr y ((mem_round hR).2 hy) ?_
      rw [hyd]; simp

theorem loop_ok (yd : Bool) (ls : List (Pt K × Pt K)) : ∀ {st : State K} {L : List (Pt K × Pt K)}, Loop st L →
    (∀ l ∈ ls, l.1 ≠ l.2) → ∃ st', loop yd st ls = some st' ∧ Loop st' (ls.reverse ++ L) := by
  induction ls with
  | nil => intro st L h _; exact ⟨st, rfl, h⟩
  | cons l ls ih =>
    intro st L h hne
    obtain ⟨st1, h1, h2⟩ := step_ok yd h (hne l (List.mem_cons_self ..))
    obtain ⟨st2, h3, h4⟩ := ih h2 (fun x hx => hne x (List.mem_cons_of_mem _ hx))
    refine ⟨st2, ?_, ?_⟩
    · show (step yd st l.1 l.2).bind _ = _
      rw [h1]
      exact h3
    · simpa using h4

theorem loop_start : Loop (⟨Store.empty, [], none⟩ : State K) [] where
  good := ⟨inv_empty, by simp, by simp, by simp, by simp, by simp⟩
  last := by simp
  some := by simp

omit [Field K] [IsStrictOrderedRing K] in
theorem extent_ok (l : Pt K × Pt K) (ls : List (Pt K × Pt K)) : extent (l :: ls) ≠ none := by
  unfold extent
  simp [Delaunay.extentOf]

/-! ## The whole -/

theorem Good.congr {s : Store (Pt K)} {m : Index K} {L L' : List (Pt K × Pt K)} (h : Good s m L)
    (hL : ∀ l, l ∈ L ↔ l ∈ L') : Good s m L' := by
  refine ⟨h.inv, h.keys, h.alloc, ?_, fun p q hpq => h.has p q ((hL _).2 hpq), h.uniq⟩
  intro p e he y hy
  obtain ⟨a, q, f, b, c, d, i⟩ := h.star p e he y hy
  exact ⟨a, q, f, b, c, d.imp (hL _).1 (hL _).1, i⟩

variable {s : Store (Pt K)} {m : Index K} {L : List (Pt K × Pt K)}

theorem Good.hasJoin (h : Good s m L) {p q : Pt K} (hj : Join L p q) :
    ∃ e, (p, e) ∈ m ∧ ∃ y, Around s e y ∧ Goes s y p q := by
  rcases hj with hj | hj
  · obtain ⟨e, he, y, hy, hd⟩ := h.has p q hj
    exact ⟨e, he, y, hy, (h.star p e he y hy).1, hd⟩
  · obtain ⟨e, he, y, hy, hd⟩ := h.has q p hj
    obtain ⟨a, q', f, b, _, _, hf, hf'⟩ := h.star q e he y hy
    obtain rfl := Option.some.inj (b.symm.trans hd)
    refine ⟨f, hf, sym y, hf', hd, ?_⟩
    unfold dest
    rw [sym_sym]; exact a

/-- An edge that hangs together with an edge of the map is on a ring of the map. -/
theorem Good.connected (h : Good s m L) {p : Pt K} {f start : E} (hf : (p, f) ∈ m) (hs : Around s f start) {y : E}
    (hy : Connected s start y) : ∃ q g, (q, g) ∈ m ∧ Around s g y ∧ Path L p q := by
  induction hy with
  | refl => exact ⟨p, f, hf, hs, .refl⟩
  | next _ ih =>
    obtain ⟨q, g, hg, hg', hp⟩ := ih
    exact ⟨q, g, hg, hg'.next, hp⟩
  | sym _ ih =>
    obtain ⟨q, g, hg, hg', hp⟩ := ih
    obtain ⟨_, q', g', _, _, j, i1, i2⟩ := h.star q g hg _ hg'
    exact ⟨q', g', i1, i2, hp.tail j⟩

theorem around_conn {P : Type} {s : Store P} {x y z : E} (h : Connected s x y) (h' : Around s y z) : Connected s x z := by
  induction h' with
  | refl => exact h
  | next _ ih => exact ih.next

theorem Good.reach (h : Good s m L) {p : Pt K} {f start : E} (hf : (p, f) ∈ m) (hs : Around s f start) {q : Pt K}
    (hq : Path L p q) : ∀ g, (q, g) ∈ m → Connected s start g := by
  induction hq with
  | refl =>
    intro g hg
    obtain rfl := h.same hf hg
    exact around_conn .refl (h.inv.around_symm hs)
  | tail hp j ih =>
    intro g hg
    obtain ⟨e, he, y, hy, hg1, hg2⟩ := h.hasJoin j
    obtain ⟨_, q', g', b, _, _, i1, i2⟩ := h.star _ e he y hy
    obtain rfl := Option.some.inj (b.symm.trans hg2)
    obtain rfl := h.same hg i1
    exact around_conn (around_conn (ih e he) hy).sym (h.inv.around_symm i2)

theorem Good.count (h : Good s m L) : m.length = (ends L).length := by
  have hm : ∀ p, p ∈ m.map (·.1) ↔ p ∈ ends L := by
    intro p
    unfold ends
    rw [List.mem_dedup, List.mem_flatMap, List.mem_map]
    constructor
    · rintro ⟨⟨p', e⟩, he, rfl⟩
      obtain ⟨_, q, _, _, _, j, _⟩ := h.star p' e he e .refl
      rcases j with j | j
      · exact ⟨_, j, by simp⟩
      · exact ⟨_, j, by simp⟩
    · rintro ⟨⟨a, b⟩, hl, hp⟩
      simp only [List.mem_cons, List.not_mem_nil, or_false] at hp
      rcases hp with rfl | rfl
      · obtain ⟨e, he, _⟩ := h.hasJoin (p := p) (q := b) (Or.inl hl)
        exact ⟨_, he, rfl⟩
      · obtain ⟨e, he, _⟩ := h.hasJoin (p := p) (q := a) (Or.inr hl)
        exact ⟨_, he, rfl⟩
  have hn : (ends L).Nodup := List.nodup_dedup _
  have := (List.perm_ext_iff_of_nodup h.keys hn).2 hm
  rw [← this.length_eq, List.length_map]

theorem made (yd : Bool) {lines : List (Pt K × Pt K)} (hl : lines ≠ []) (hne : ∀ l ∈ lines, l.1 ≠ l.2) :
    ∃ r m p f, newSubdivisionFromGeomLines yd lines = some r ∧ Good r.sd.store m lines ∧ r.sd.ptcount = m.length ∧
      (p, f) ∈ m ∧ Around r.sd.store f r.sd.start := by
  obtain ⟨st, h1, h2⟩ := loop_ok yd lines loop_start hne
  have hG : Good st.store st.index lines := h2.good.congr (by simp)
  cases hs : st.last with
  | none => exact absurd hs (h2.some (by simpa using hl))
  | some e =>
    obtain ⟨p, f, hf, hf'⟩ := h2.last e hs
    cases hx : extent lines with
    | none =>
      cases lines with
      | nil => exact absurd rfl hl
      | cons l ls => exact absurd hx (extent_ok l ls)
    | some x =>
      refine ⟨⟨⟨st.store, e, st.index.length, Shapes.triangleForExtent x.1 x.2.1 x.2.2.1 x.2.2.2 0⟩, false⟩,
        st.index, p, f, ?_, hG, rfl, hf, hf'⟩
      unfold newSubdivisionFromGeomLines
      rw [h1]
      show st.last.bind _ = _
      rw [hs]
      show (extent lines).map _ = _
      rw [hx]
      rfl

end steps

end Verif.Lemmas.FromLines
