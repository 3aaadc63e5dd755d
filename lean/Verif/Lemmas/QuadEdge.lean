import Verif.Spec.QuadEdge
import Mathlib.Logic.Function.Iterate
import Mathlib.Data.Fintype.Prod
import Mathlib.Data.Fintype.EquivFin
import Mathlib.Data.Fintype.Pigeonhole
import Mathlib.Tactic.FinCases

/-!
# Helper lemmas for the quad-edge structure
-/

namespace Verif.Lemmas.Quad
open Verif.Quad Verif.Spec.Quad

set_option linter.unusedSimpArgs false
set_option linter.unusedVariables false

variable {P : Type}

section pure

theorem E.cases4 {p : E → Prop} (h0 : ∀ q, p ⟨q, 0⟩) (h1 : ∀ q, p ⟨q, 1⟩) (h2 : ∀ q, p ⟨q, 2⟩)
    (h3 : ∀ q, p ⟨q, 3⟩) (e : E) : p e := by
  obtain ⟨q, n⟩ := e
  match n with
  | 0 => exact h0 q
  | 1 => exact h1 q
  | 2 => exact h2 q
  | 3 => exact h3 q

theorem rot4 (e : E) : rot (rot (rot (rot e))) = e := by
  induction e using E.cases4 <;> simp [rot, invRot, sym, initNext, nth]
theorem sym_rot (e : E) : sym e = rot (rot e) := by
  induction e using E.cases4 <;> simp [rot, invRot, sym, initNext, nth]
theorem invRot_rot (e : E) : invRot (rot e) = e := by
  induction e using E.cases4 <;> simp [rot, invRot, sym, initNext, nth]
theorem rot_invRot (e : E) : rot (invRot e) = e := by
  induction e using E.cases4 <;> simp [rot, invRot, sym, initNext, nth]
theorem sym_sym (e : E) : sym (sym e) = e := by
  induction e using E.cases4 <;> simp [rot, invRot, sym, initNext, nth]
theorem rot_sym (e : E) : rot (sym e) = invRot e := by
  induction e using E.cases4 <;> simp [rot, invRot, sym, initNext, nth]
theorem sym_rot' (e : E) : sym (rot e) = invRot e := by
  induction e using E.cases4 <;> simp [rot, invRot, sym, initNext, nth]
theorem sym_invRot (e : E) : sym (invRot e) = rot e := by
  induction e using E.cases4 <;> simp [rot, invRot, sym, initNext, nth]
theorem invRot_sym (e : E) : invRot (sym e) = rot e := by
  induction e using E.cases4 <;> simp [rot, invRot, sym, initNext, nth]
theorem rot_rot (e : E) : rot (rot e) = sym e := (sym_rot e).symm
theorem invRot_invRot (e : E) : invRot (invRot e) = sym e := by
  induction e using E.cases4 <;> simp [rot, invRot, sym, initNext, nth]
theorem rot_q (e : E) : (rot e).q = e.q := by
  induction e using E.cases4 <;> simp [rot, invRot, sym, initNext, nth]
theorem invRot_q (e : E) : (invRot e).q = e.q := by
  induction e using E.cases4 <;> simp [rot, invRot, sym, initNext, nth]
theorem sym_q (e : E) : (sym e).q = e.q := by
  induction e using E.cases4 <;> simp [rot, invRot, sym, initNext, nth]
theorem initNext_q (e : E) : (initNext e).q = e.q := by
  induction e using E.cases4 <;> simp [rot, invRot, sym, initNext, nth]
theorem sym_ne (e : E) : sym e ≠ e := by
  obtain ⟨q, n⟩ := e
  match n with
  | 0 | 1 | 2 | 3 => intro h; have := congrArg E.num h; revert this; simp [sym, nth]

theorem initNext_inv (e : E) : rot (initNext (rot (initNext e))) = e := by
  induction e using E.cases4 <;> simp [rot, invRot, sym, initNext, nth]

theorem rot_inj {a b : E} (h : rot a = rot b) : a = b := by
  rw [← invRot_rot a, h, invRot_rot]
theorem sym_inj {a b : E} (h : sym a = sym b) : a = b := by
  rw [← sym_sym a, h, sym_sym]

theorem primal_rot (e : E) : Primal (rot e) ↔ ¬ Primal e := by
  obtain ⟨q, n⟩ := e
  match n with
  | 0 | 1 | 2 | 3 => simp [Primal, rot, nth]
theorem primal_sym (e : E) : Primal (sym e) ↔ Primal e := by
  rw [sym_rot, primal_rot, primal_rot]; grind
theorem primal_invRot (e : E) : Primal (invRot e) ↔ ¬ Primal e := by
  have := primal_rot (invRot e); rw [rot_invRot] at this; grind
theorem primal_initNext (e : E) : Primal (initNext e) ↔ Primal e := by
  obtain ⟨q, n⟩ := e
  match n with
  | 0 | 1 | 2 | 3 => simp [Primal, initNext]

/-- Two edges of the same quad-edge and kind are equal or opposite. -/
theorem same_quad {x e : E} (hq : x.q = e.q) (hk : Primal x ↔ Primal e) : x = e ∨ x = sym e := by
  obtain ⟨q, n⟩ := x
  obtain ⟨q', n'⟩ := e
  obtain rfl : q = q' := hq
  match n, n' with
  | 0, 0 | 0, 1 | 0, 2 | 0, 3 | 1, 0 | 1, 1 | 1, 2 | 1, 3
  | 2, 0 | 2, 1 | 2, 2 | 2, 3 | 3, 0 | 3, 1 | 3, 2 | 3, 3 => revert hk; simp [Primal, sym, nth]

end pure

/-- The invariant of the store. -/
structure Inv (s : Store P) : Prop where
  kind : ∀ e, Primal (s.next e) ↔ Primal e
  inv : ∀ e, rot (s.next (rot (s.next e))) = e
  alloc : ∀ e, e.q < s.size → (s.next e).q < s.size
  fresh : ∀ e, s.size ≤ e.q → s.next e = initNext e

theorem Inv.inv' {s : Store P} (h : Inv s) (e : E) : s.next (rot (s.next (rot e))) = e :=
  rot_inj (h.inv (rot e))

theorem Inv.inj {s : Store P} (h : Inv s) {a b : E} (he : s.next a = s.next b) : a = b := by
  rw [← h.inv a, he, h.inv b]

theorem Inv.next_oprev {s : Store P} (h : Inv s) (e : E) : s.next (oprev s e) = e := h.inv' e

theorem Inv.oprev_next {s : Store P} (h : Inv s) (e : E) : oprev s (s.next e) = e := h.inv e

theorem Inv.kind_oprev {s : Store P} (h : Inv s) (e : E) : Primal (oprev s e) ↔ Primal e := by
  have := h.kind (oprev s e); rw [h.next_oprev] at this; exact this.symm

theorem Inv.alloc_iff {s : Store P} (h : Inv s) (e : E) : (s.next e).q < s.size ↔ e.q < s.size := by
  refine ⟨fun h1 => ?_, h.alloc e⟩
  by_contra h2
  rw [h.fresh e (by omega), initNext_q] at h1
  exact h2 h1

theorem Inv.alloc_oprev {s : Store P} (h : Inv s) (e : E) :
    (oprev s e).q < s.size ↔ e.q < s.size := by
  have := h.alloc_iff (oprev s e); rw [h.next_oprev] at this; exact this.symm

theorem Inv.lnext_eq {s : Store P} (e : E) : lnext s e = oprev s (sym e) := by
  unfold lnext oprev onext; rw [rot_sym]

theorem inv_empty : Inv (Store.empty : Store P) where
  kind := primal_initNext
  inv := initNext_inv
  alloc := fun e h => absurd h (Nat.not_lt_zero _)
  fresh := fun _ _ => rfl

theorem inv_new {s : Store P} (h : Inv s) : Inv (new s).1 := by
  constructor
  · intro e
    simp only [new]; split
    · exact primal_initNext e
    · exact h.kind e
  · intro e
    simp only [new]
    by_cases he : e.q = s.size
    · rw [if_pos he, if_pos (by rw [rot_q, initNext_q, he])]
      exact initNext_inv e
    · rw [if_neg he]
      have : (s.next e).q ≠ s.size := by
        intro h1
        by_cases h2 : e.q < s.size
        · have := h.alloc e h2; omega
        · rw [h.fresh e (by omega), initNext_q] at h1; exact he h1
      rw [if_neg (by rw [rot_q]; exact this)]
      exact h.inv e
  · intro e he
    simp only [new] at he ⊢
    split
    · rw [initNext_q]; omega
    · have := h.alloc e (by omega); omega
  · intro e he
    simp only [new] at he ⊢
    split
    · rfl
    · exact h.fresh e (by omega)

theorem inv_endPoints {s : Store P} (h : Inv s) (e : E) (o d : Option P) :
    Inv (endPoints s e o d) := ⟨h.kind, h.inv, h.alloc, h.fresh⟩

theorem inv_newWithEndPoints {s : Store P} (h : Inv s) (o d : Option P) :
    Inv (newWithEndPoints s o d).1 := inv_endPoints (inv_new h) _ _ _

/-- What a splice does to the argument of `next`. -/
def tau (a b α β x : E) : E :=
  if x = a then b else if x = b then a else if x = α then β else if x = β then α else x

theorem splice_next {s : Store P} (h : Inv s) {a b : E} (hk : Primal a ↔ Primal b) (x : E) :
    (splice s a b).next x = s.next (tau a b (rot (s.next a)) (rot (s.next b)) x) := by
  have k1 := h.kind a
  have k2 := h.kind b
  have k3 := primal_rot (s.next a)
  have k4 := primal_rot (s.next b)
  have n1 : a ≠ rot (s.next a) := fun he => by rw [← he] at k3; grind
  have n2 : a ≠ rot (s.next b) := fun he => by rw [← he] at k4; grind
  have n3 : b ≠ rot (s.next a) := fun he => by rw [← he] at k3; grind
  have n4 : b ≠ rot (s.next b) := fun he => by rw [← he] at k4; grind
  simp only [splice, onext, setNext, tau]
  by_cases h1 : x = a
  · subst h1
    by_cases h2 : x = b
    · subst h2; simp [n1]
    · simp [n1, n2, h2]
  · by_cases h2 : x = b
    · subst h2; simp [n3, n4, h1]
    · by_cases h3 : x = rot (s.next a)
      · subst h3
        by_cases h4 : rot (s.next a) = rot (s.next b)
        · have := h.inj (rot_inj h4); subst this; simp [h1]
        · simp [h1, h2, h4]
      · by_cases h4 : x = rot (s.next b)
        · subst h4; simp [h1, h2, h3]
        · simp [h1, h2, h3, h4]

/-- On the edges of the kind of the two spliced edges, splicing swaps the successors of those two
and changes nothing else. -/
theorem splice_next_kind {s : Store P} (h : Inv s) {a b : E} (hk : Primal a ↔ Primal b) {x : E}
    (hx : Primal x ↔ Primal a) :
    (splice s a b).next x = s.next (if x = a then b else if x = b then a else x) := by
  rw [splice_next h hk]
  have k1 := h.kind a
  have k2 := h.kind b
  have k3 := primal_rot (s.next a)
  have k4 := primal_rot (s.next b)
  have n1 : x ≠ rot (s.next a) := fun he => by rw [← he] at k3; grind
  have n2 : x ≠ rot (s.next b) := fun he => by rw [← he] at k4; grind
  simp [tau, n1, n2]

theorem splice_size (s : Store P) (a b : E) : (splice s a b).size = s.size := rfl

theorem tau_comm_right (a b α β x : E) : tau a b β α x = tau a b α β x := by
  unfold tau; grind

theorem tau_comm_left (a b α β x : E) : tau b a α β x = tau a b α β x := by
  unfold tau; grind

theorem tau_tau (a b α β x : E) (hx : a ≠ α) (h1 : a ≠ β) (h2 : b ≠ α) (h3 : b ≠ β)
    (hab : a = b ↔ α = β) : tau a b α β (tau a b α β x) = x := by
  unfold tau
  by_cases e1 : x = a
  · subst e1
    by_cases e2 : x = b
    · subst e2; simp
    · simp [Ne.symm e2]
  · by_cases e2 : x = b
    · subst e2; simp [e1]
    · by_cases e3 : x = α
      · subst e3
        by_cases e4 : x = β
        · subst e4; simp [e1, e2]
        · simp [e1, e2, Ne.symm e4, Ne.symm h1, Ne.symm h3]
      · by_cases e4 : x = β
        · subst e4; simp [e1, e2, e3, Ne.symm hx, Ne.symm h2]
        · simp [e1, e2, e3, e4]

/-- The facts about the four edges of a splice. -/
theorem splice_facts {s : Store P} (h : Inv s) {a b : E} (hk : Primal a ↔ Primal b) :
    a ≠ rot (s.next a) ∧ a ≠ rot (s.next b) ∧ b ≠ rot (s.next a) ∧ b ≠ rot (s.next b) ∧
      (a = b ↔ rot (s.next a) = rot (s.next b)) := by
  have k1 := h.kind a
  have k2 := h.kind b
  have k3 := primal_rot (s.next a)
  have k4 := primal_rot (s.next b)
  refine ⟨fun he => by rw [← he] at k3; grind, fun he => by rw [← he] at k4; grind,
    fun he => by rw [← he] at k3; grind, fun he => by rw [← he] at k4; grind,
    fun he => by rw [he], fun he => h.inj (rot_inj he)⟩

theorem splice_tau_tau {s : Store P} (h : Inv s) {a b : E} (hk : Primal a ↔ Primal b) (x : E) :
    tau a b (rot (s.next a)) (rot (s.next b)) (tau a b (rot (s.next a)) (rot (s.next b)) x) = x :=
  let ⟨h1, h2, h3, h4, h5⟩ := splice_facts h hk
  tau_tau a b _ _ x h1 h2 h3 h4 h5

theorem tau_iota {s : Store P} (h : Inv s) {a b : E} (hk : Primal a ↔ Primal b) (x : E) :
    rot (s.next (tau a b (rot (s.next a)) (rot (s.next b)) x)) =
      tau a b (rot (s.next a)) (rot (s.next b)) (rot (s.next x)) := by
  obtain ⟨n1, n2, n3, n4, n5⟩ := splice_facts h hk
  have key : ∀ y z : E, rot (s.next y) = z ↔ y = rot (s.next z) :=
    fun y z => ⟨fun e => by rw [← e, h.inv], fun e => by rw [e, h.inv]⟩
  unfold tau
  by_cases e1 : x = a
  · subst e1; simp [Ne.symm n1, Ne.symm n3]
  · by_cases e2 : x = b
    · subst e2
      have h' : rot (s.next x) ≠ rot (s.next a) := fun h' => e1 (n5.2 h'.symm).symm
      simp [e1, Ne.symm n2, Ne.symm n4, h']
    · by_cases e3 : x = rot (s.next a)
      · subst e3; simp [e1, e2, h.inv]
      · by_cases e4 : x = rot (s.next b)
        · subst e4
          simp only [e1, e2, e3, if_false, if_true, h.inv]
          by_cases e5 : b = a
          · subst e5; exact absurd rfl e3
          · simp [e5]
        · have h1 : rot (s.next x) ≠ a := fun he => e3 ((key _ _).1 he)
          have h2 : rot (s.next x) ≠ b := fun he => e4 ((key _ _).1 he)
          have h3 : rot (s.next x) ≠ rot (s.next a) := fun he => e1 (h.inj (rot_inj he))
          have h4 : rot (s.next x) ≠ rot (s.next b) := fun he => e2 (h.inj (rot_inj he))
          simp [e1, e2, e3, e4, h1, h2, h3, h4]

theorem primal_tau {s : Store P} (h : Inv s) {a b : E} (hk : Primal a ↔ Primal b) (x : E) :
    Primal (tau a b (rot (s.next a)) (rot (s.next b)) x) ↔ Primal x := by
  have k1 := h.kind a
  have k2 := h.kind b
  have k3 := primal_rot (s.next a)
  have k4 := primal_rot (s.next b)
  unfold tau
  split
  · next e => subst e; grind
  · split
    · next e => subst e; grind
    · split
      · next e => subst e; grind
      · split
        · next e => subst e; grind
        · exact Iff.rfl

theorem inv_splice {s : Store P} (h : Inv s) {a b : E} (ha : a.q < s.size) (hb : b.q < s.size)
    (hk : Primal a ↔ Primal b) : Inv (splice s a b) := by
  have qa : (rot (s.next a)).q < s.size := by rw [rot_q]; exact h.alloc a ha
  have qb : (rot (s.next b)).q < s.size := by rw [rot_q]; exact h.alloc b hb
  constructor
  · intro e
    rw [splice_next h hk, h.kind, primal_tau h hk]
  · intro e
    rw [splice_next h hk, splice_next h hk, tau_iota h hk, tau_iota h hk]
    conv_lhs => rw [tau_iota h hk]
    rw [splice_tau_tau h hk, h.inv]
  · intro e he
    rw [splice_next h hk, splice_size]
    rw [splice_size] at he
    apply h.alloc
    unfold tau
    repeat' split
    all_goals first | assumption
  · intro e he
    rw [splice_size] at he
    rw [splice_next h hk]
    have : tau a b (rot (s.next a)) (rot (s.next b)) e = e := by
      unfold tau
      rw [if_neg (fun e1 => by subst e1; omega), if_neg (fun e1 => by subst e1; omega),
        if_neg (fun e1 => by subst e1; omega), if_neg (fun e1 => by subst e1; omega)]
    rw [this]; exact h.fresh e he

theorem splice_splice {s : Store P} (h : Inv s) {a b : E} (ha : a.q < s.size) (hb : b.q < s.size)
    (hk : Primal a ↔ Primal b) : splice (splice s a b) a b = s := by
  have h' := inv_splice h ha hb hk
  have e1 : (splice s a b).next a = s.next b := by
    rw [splice_next h hk]; simp [tau]
  have e2 : (splice s a b).next b = s.next a := by
    rw [splice_next h hk]; unfold tau
    by_cases e : b = a
    · rw [if_pos e, e]
    · rw [if_neg e, if_pos rfl]
  have : (splice (splice s a b) a b).next = s.next := by
    funext x
    rw [splice_next h' hk, splice_next h hk, e1, e2]
    congr 1
    rw [show tau a b (rot (s.next b)) (rot (s.next a)) x =
      tau a b (rot (s.next a)) (rot (s.next b)) x from ?_, splice_tau_tau h hk]
    exact tau_comm_right a b _ _ x
  cases s
  simp only [splice] at this ⊢
  rw [this]

theorem splice_comm {s : Store P} (h : Inv s) {a b : E} (hk : Primal a ↔ Primal b) :
    splice s a b = splice s b a := by
  have : (splice s a b).next = (splice s b a).next := by
    funext x
    rw [splice_next h hk, splice_next h hk.symm]
    congr 1
    rw [tau_comm_left, tau_comm_right]
  cases s
  simp only [splice] at this ⊢
  rw [this]

/-- Splicing two edges is splicing the two dual edges to the left of which their successors run. -/
theorem splice_dual {s : Store P} (h : Inv s) {a b : E} (hk : Primal a ↔ Primal b) :
    splice s a b = splice s (rot (s.next a)) (rot (s.next b)) := by
  have hk' : Primal (rot (s.next a)) ↔ Primal (rot (s.next b)) := by
    rw [primal_rot, primal_rot, h.kind, h.kind, hk]
  have : (splice s a b).next = (splice s (rot (s.next a)) (rot (s.next b))).next := by
    funext x
    rw [splice_next h hk, splice_next h hk', h.inv, h.inv]
    congr 1
    obtain ⟨n1, n2, n3, n4, n5⟩ := splice_facts h hk
    unfold tau
    by_cases c1 : x = a
    · subst c1; simp [n1, n2]
    · by_cases c2 : x = b
      · subst c2; simp [c1, n3, n4]
      · simp [c1, c2]
  cases s
  simp only [splice] at this ⊢
  rw [this]

/-! ## Rings -/

theorem around_iff {s : Store P} {x y : E} : Around s x y ↔ ∃ n : Nat, s.next^[n] x = y := by
  constructor
  · intro h
    induction h with
    | refl => exact ⟨0, rfl⟩
    | next _ ih =>
      obtain ⟨n, hn⟩ := ih
      exact ⟨n + 1, by rw [Function.iterate_succ_apply', hn]; rfl⟩
  · rintro ⟨n, rfl⟩
    induction n with
    | zero => exact .refl
    | succ n ih => rw [Function.iterate_succ_apply']; exact .next ih

theorem around_trans {s : Store P} {x y z : E} (h1 : Around s x y) (h2 : Around s y z) :
    Around s x z := by
  induction h2 with
  | refl => exact h1
  | next _ ih => exact .next ih

theorem Inv.around_kind {s : Store P} (h : Inv s) {x y : E} (h1 : Around s x y) :
    Primal y ↔ Primal x := by
  induction h1 with
  | refl => exact Iff.rfl
  | next _ ih => exact (h.kind _).trans ih

theorem Inv.around_alloc {s : Store P} (h : Inv s) {x y : E} (h1 : Around s x y) :
    y.q < s.size ↔ x.q < s.size := by
  induction h1 with
  | refl => exact Iff.rfl
  | next _ ih => exact (h.alloc_iff _).trans ih

/-- Going round comes back. -/
theorem Inv.periodic {s : Store P} (h : Inv s) (x : E) : ∃ n : Nat, 0 < n ∧ s.next^[n] x = x := by
  by_cases hx : x.q < s.size
  · let A := {e : E // e.q < s.size}
    let g : A → Fin s.size × Fin 4 := fun e => (⟨e.1.q, e.2⟩, e.1.num)
    have hg : Function.Injective g := by
      rintro ⟨⟨q, n⟩, hq⟩ ⟨⟨q', n'⟩, hq'⟩ he
      simp only [g, Prod.mk.injEq, Fin.mk.injEq] at he
      obtain ⟨rfl, rfl⟩ := he
      rfl
    have : Finite A := Finite.of_injective g hg
    have hal : ∀ n : Nat, (s.next^[n] x).q < s.size := by
      intro n
      induction n with
      | zero => exact hx
      | succ n ih => rw [Function.iterate_succ_apply']; exact h.alloc _ ih
    have hinj : Function.Injective s.next := fun _ _ he => h.inj he
    obtain ⟨i, j, hij, he⟩ :=
      Finite.exists_ne_map_eq_of_infinite (fun n : Nat => (⟨s.next^[n] x, hal n⟩ : A))
    have he' : s.next^[i] x = s.next^[j] x := congrArg Subtype.val he
    rcases Nat.lt_or_gt_of_ne hij with hl | hl
    · refine ⟨j - i, by omega, ?_⟩
      apply hinj.iterate i
      rw [← Function.iterate_add_apply, Nat.add_sub_cancel' (by omega), he']
    · refine ⟨i - j, by omega, ?_⟩
      apply hinj.iterate j
      rw [← Function.iterate_add_apply, Nat.add_sub_cancel' (by omega), he']
  · refine ⟨2, by omega, ?_⟩
    have h1 : s.next x = initNext x := h.fresh x (by omega)
    have h2 : s.next (initNext x) = initNext (initNext x) :=
      h.fresh _ (by rw [initNext_q]; omega)
    show s.next (s.next x) = x
    rw [h1, h2]
    induction x using E.cases4 <;> simp [rot, invRot, sym, initNext, nth]

theorem Inv.around_symm {s : Store P} (h : Inv s) {x y : E} (h1 : Around s x y) : Around s y x := by
  obtain ⟨n, rfl⟩ := around_iff.1 h1
  obtain ⟨m, hm, hp⟩ := h.periodic x
  rw [around_iff]
  refine ⟨m * n - n + 0, ?_⟩
  rw [← Function.iterate_add_apply]
  have : m * n - n + 0 + n = m * n := by
    have : n ≤ m * n := Nat.le_mul_of_pos_left n hm
    omega
  rw [this]
  have hh : ∀ k : Nat, s.next^[m * k] x = x := by
    intro k
    induction k with
    | zero => rfl
    | succ k ih => rw [Nat.mul_succ, Function.iterate_add_apply, hp, ih]
  exact hh n

end Verif.Lemmas.Quad
