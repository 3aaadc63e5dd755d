import Verif.Lemmas.SubLocate

/-!
# Helper lemmas: what the operations on a subdivision do to the edges round a face
-/

namespace Verif.Lemmas.SubTables
open Verif.Quad Verif.Spec.Quad Verif.Lemmas.Quad Verif.Spec.Subdivision

set_option linter.unusedSectionVars false

variable {P : Type} {s : Store P}

attribute [local irreducible] splice delete swap

theorem lnext_inj (hi : Inv s) {a b : E} (h : lnext s a = lnext s b) : a = b := by
  have h1 := next_lnext hi a
  rw [h, next_lnext hi b] at h1
  exact (sym_inj h1).symm

/-- What can be come by going round faces and to the other side of edges is connected. -/
theorem connected_ind (hi : Inv s) {p : E → Prop} {z : E} (hz : p z) (hs : ∀ y, p y → p (sym y))
    (hl : ∀ y, p y → p (lnext s y)) : ∀ {y}, Connected s z y → p y := by
  have hf : ∀ x y, AroundFace s x y → p x → p y := by
    intro x y h hx
    induction h with
    | refl => exact hx
    | next _ ih => exact hl _ ih
  intro y h
  induction h with
  | refl => exact hz
  | @next y _ ih =>
    have h1 : lnext s (sym (onext s y)) = y := lnext_of_next hi (by rw [sym_sym]; rfl)
    have h2 : AroundFace s (sym (onext s y)) y := by
      have := AroundFace.next (s := s) (x := sym (onext s y)) .refl
      rwa [h1] at this
    have h3 : AroundFace s y (sym (onext s y)) := by
      rw [hi.face_iff] at h2 ⊢
      exact hi.around_symm h2
    have := hs _ (hf _ _ h3 ih)
    rwa [sym_sym] at this
  | sym _ ih => exact hs _ ih

/-! ## Connect -/

theorem connect_size (s : Store P) (a b : E) : (connectTo s a b).1.size = s.size + 1 := by
  unfold connectTo
  simp only [splice_size]
  rfl

theorem connect_table (hi : Inv s) {a b p : E} (ha : a.q < s.size) (hb : b.q < s.size) (ka : Primal a)
    (kb : Primal b) (hne : lnext s a ≠ b) (hp : lnext s p = b) {y : E} (ky : Primal y) (hy : y.q ≤ s.size) :
    lnext (connectTo s a b).1 y =
      if y = a then ⟨s.size, 0⟩ else if y = ⟨s.size, 0⟩ then b
      else if y = sym ⟨s.size, 0⟩ then lnext s a else if y = p then sym ⟨s.size, 0⟩ else lnext s y := by
  have hi' := inv_connectTo hi ha hb ka kb
  have N : ∀ {x : E}, Primal x → x.q ≤ s.size → _ := fun {x} kx hx =>
    connect_next' hi ha hb ka kb (x := x) kx hx
  have kn : Primal (⟨s.size, 0⟩ : E) := Or.inl rfl
  have ksn : Primal (sym ⟨s.size, 0⟩ : E) := (primal_sym _).2 kn
  split_ifs with h1 h2 h3 h4
  · subst h1; exact connect_lnext_a hi ha hb ka kb
  · subst h2; exact connect_lnext_e hi ha hb ka kb
  · subst h3
    apply lnext_of_next hi'
    have q1 := (inv_lnext_alloc hi a).2 ha
    rw [N ((inv_lnext_kind hi a).2 ka) (le_of_lt q1), if_neg (ne_new_sym q1), if_neg hne,
      if_neg (ne_new q1), if_pos rfl, sym_sym]
  · subst h4
    apply lnext_of_next hi'
    rw [N ksn (by rw [sym_q]), if_pos rfl, if_neg hne.symm, ← hp, next_lnext hi]
  · apply lnext_of_next hi'
    have hy' : y.q < s.size := by
      refine lt_of_le_of_ne hy fun h => ?_
      rcases same_quad (x := y) (e := ⟨s.size, 0⟩) h (iff_of_true ky kn) with h | h <;> contradiction
    have q1 := (inv_lnext_alloc hi y).2 hy'
    rw [N ((inv_lnext_kind hi y).2 ky) (le_of_lt q1), if_neg (ne_new_sym q1), if_neg, if_neg (ne_new q1),
      if_neg, next_lnext hi]
    · exact fun h => h1 (lnext_inj hi h)
    · rw [← hp]; exact fun h => h4 (lnext_inj hi h)

/-! ## A new edge, hung up at the origin of another -/

theorem hang_table (hi : Inv s) {a p : E} (ha : a.q < s.size) (ka : Primal a) (hp : lnext s p = a)
    (o d : Option P) {y : E} (ky : Primal y) (hy : y.q ≤ s.size) :
    Inv (splice (newWithEndPoints s o d).1 ⟨s.size, 0⟩ a) ∧
    lnext (splice (newWithEndPoints s o d).1 ⟨s.size, 0⟩ a) y =
      if y = p then ⟨s.size, 0⟩ else if y = ⟨s.size, 0⟩ then sym ⟨s.size, 0⟩
      else if y = sym ⟨s.size, 0⟩ then a else lnext s y := by
  have kn : Primal (⟨s.size, 0⟩ : E) := Or.inl rfl
  have ksn : Primal (sym ⟨s.size, 0⟩ : E) := (primal_sym _).2 kn
  have h0 := inv_newWithEndPoints hi o d
  have a0 : a.q < (newWithEndPoints s o d).1.size := Nat.lt_succ_of_lt ha
  have e0 : (⟨s.size, 0⟩ : E).q < (newWithEndPoints s o d).1.size := Nat.lt_succ_self _
  have hi' := inv_splice h0 e0 a0 (iff_of_true kn ka)
  refine ⟨hi', ?_⟩
  have N : ∀ {x : E}, Primal x → (splice (newWithEndPoints s o d).1 ⟨s.size, 0⟩ a).next x =
      if x = ⟨s.size, 0⟩ then s.next a else if x = a then ⟨s.size, 0⟩
      else (newWithEndPoints s o d).1.next x := by
    intro x kx
    rw [attach_next h0 (iff_of_true kn ka) (newE_self o d) (iff_of_true kx kn), newE_next o d a ha]
  have qp : p.q < s.size := by rw [← inv_lnext_alloc hi p, hp]; exact ha
  split_ifs with h1 h2 h3
  · subst h1
    apply lnext_of_next hi'
    rw [N kn, if_pos rfl, ← hp, next_lnext hi]
  · subst h2
    apply lnext_of_next hi'
    rw [N ksn, if_neg (sym_ne _), if_neg (ne_new_sym ha).symm, newE_sym]
  · subst h3
    apply lnext_of_next hi'
    rw [N ka, if_neg (ne_new ha), if_pos rfl, sym_sym]
  · apply lnext_of_next hi'
    have hy' : y.q < s.size := by
      refine lt_of_le_of_ne hy fun h => ?_
      rcases same_quad (x := y) (e := ⟨s.size, 0⟩) h (iff_of_true ky kn) with h | h <;> contradiction
    have q1 := (inv_lnext_alloc hi y).2 hy'
    rw [N ((inv_lnext_kind hi y).2 ky), if_neg (ne_new q1), if_neg, newE_next o d _ q1, next_lnext hi]
    rw [← hp]; exact fun h => h1 (lnext_inj hi h)

/-! ## Delete -/

theorem delete_table (hi : Inv s) {e l r : E} (he : e.q < s.size) (ke : Primal e) (hl : lnext s l = e)
    (hr : lnext s r = sym e) (h1 : lnext s e ≠ sym e) (h2 : lnext s (sym e) ≠ e) (h3 : lnext s e ≠ e)
    (h4 : lnext s (sym e) ≠ sym e) {y : E} (ky : Primal y) :
    lnext (delete s e) y = if y = l then lnext s (sym e) else if y = r then lnext s e
      else if y = e then sym e else if y = sym e then e else lnext s y := by
  have hi' := inv_delete hi he
  have N : ∀ {x : E}, Primal x → (delete s e).next x =
      if x = sym e then sym e else
        if (if x = e then e else if s.next x = e then s.next e else s.next x) = sym e then
          (if sym e = e then e else if s.next (sym e) = e then s.next e else s.next (sym e))
        else (if x = e then e else if s.next x = e then s.next e else s.next x) := by
    intro x kx
    rw [delete_next hi he (iff_of_true kx ke), detach_next hi e (iff_of_true kx ke),
      detach_next hi e (iff_of_true ((primal_sym e).2 ke) ke)]
  have n1 : s.next (lnext s (sym e)) = e := by rw [next_lnext hi, sym_sym]
  have n2 : s.next e = sym l := by rw [← hl, next_lnext hi]
  have n3 : s.next (lnext s e) = sym e := next_lnext hi e
  have n4 : s.next (sym e) = sym r := by rw [← hr, next_lnext hi]
  have k1 : Primal (lnext s (sym e)) := (inv_lnext_kind hi _).2 ((primal_sym e).2 ke)
  have k2 : Primal (lnext s e) := (inv_lnext_kind hi _).2 ke
  have se : sym e ≠ e := sym_ne e
  have le : l ≠ e := fun h => h3 (by rw [← h, hl, h])
  have re : r ≠ sym e := fun h => h4 (by rw [← h, hr, h])
  have ls : l ≠ sym e := fun h => h2 (by rw [← h, hl])
  have rs : r ≠ e := fun h => h1 (by rw [← h, hr, h])
  split_ifs with c1 c2 c3 c4
  · subst c1
    apply lnext_of_next hi'
    rw [N k1, if_neg h4, if_neg h2, if_pos n1, n2, if_neg]
    exact fun h => le (sym_inj h)
  · subst c2
    apply lnext_of_next hi'
    rw [N k2, if_neg h1, if_neg h3, n3, if_neg se, if_pos rfl, if_neg se, n4, if_neg]
    exact fun h => rs (by rw [← sym_sym y, h]; exact absurd (by rw [← sym_sym y, h]) re)
  · subst c3
    apply lnext_of_next hi'
    rw [N ((primal_sym _).2 ke), if_pos rfl]
  · subst c4
    apply lnext_of_next hi'
    rw [N ke, if_neg se.symm, if_pos rfl, if_neg se.symm, sym_sym]
  · apply lnext_of_next hi'
    have g1 : lnext s y ≠ sym e := by rw [← hr]; exact fun h => c2 (lnext_inj hi h)
    have g2 : lnext s y ≠ e := by rw [← hl]; exact fun h => c1 (lnext_inj hi h)
    have g3 : sym y ≠ e := fun h => c4 (by rw [← h, sym_sym])
    have g4 : sym y ≠ sym e := fun h => c3 (sym_inj h)
    rw [N ((inv_lnext_kind hi y).2 ky), if_neg g1, if_neg g2, next_lnext hi, if_neg g3, if_neg g4]

/-! ## Swap -/

theorem swap_size (s : Store P) (e : E) : (swap s e).size = s.size := by
  rw [swap_def]
  unfold attach2
  simp only [endPoints, splice_size]

theorem swap_table (hi : Inv s) {e l1 l2 r1 r2 : E} (he : e.q < s.size) (ke : Primal e)
    (a1 : lnext s e = l1) (a2 : lnext s l1 = l2) (a3 : lnext s l2 = e)
    (b1 : lnext s (sym e) = r1) (b2 : lnext s r1 = r2) (b3 : lnext s r2 = sym e)
    (hd : [e, l1, l2, sym e, r1, r2].Nodup) {y : E} (ky : Primal y) :
    Turnable s e ∧
    lnext (swap s e) y = if y = e then l2 else if y = l2 then r1 else if y = r1 then e
      else if y = sym e then r2 else if y = r2 then l1 else if y = l1 then sym e else lnext s y := by
  simp only [List.nodup_cons, List.mem_cons, List.not_mem_nil, or_false, not_or, not_false_eq_true,
    List.nodup_nil, and_true] at hd
  obtain ⟨⟨d1, d2, d3, d4, d5⟩, ⟨d6, d7, d8, d9⟩, ⟨d10, d11, d12⟩, ⟨d13, d14⟩, d15⟩ := hd
  have o1 : oprev s e = r1 := by rw [← b1, Inv.lnext_eq, sym_sym]
  have o2 : oprev s (sym e) = l1 := by rw [← a1, Inv.lnext_eq]
  have kl1 : Primal l1 := by rw [← a1, inv_lnext_kind hi]; exact ke
  have kl2 : Primal l2 := by rw [← a2, inv_lnext_kind hi]; exact kl1
  have kse := (primal_sym e).2 ke
  have kr1 : Primal r1 := by rw [← b1, inv_lnext_kind hi]; exact kse
  have kr2 : Primal r2 := by rw [← b2, inv_lnext_kind hi]; exact kr1
  have hT : Turnable s e := by
    unfold Turnable
    rw [o1, o2]
    constructor
    · intro h
      rcases same_quad h (iff_of_true kr1 ke) with h | h
      · exact d4 h.symm
      · exact d13 h.symm
    · intro h
      rcases same_quad h (iff_of_true kl1 ke) with h | h
      · exact d1 h.symm
      · exact d7 h
  refine ⟨hT, ?_⟩
  obtain ⟨L1, L2, F⟩ := swap_facts hi he hT
  have hi' := inv_swap hi he
  have hD := inv_delete hi he
  have D : ∀ {y : E}, Primal y → lnext (delete s e) y = if y = l2 then r1 else if y = r2 then l1
      else if y = e then sym e else if y = sym e then e else lnext s y := by
    intro y ky
    rw [delete_table hi he ke a3 b3 (by rw [a1]; exact d7) (by rw [b1]; exact Ne.symm d4)
      (by rw [a1]; exact Ne.symm d1) (by rw [b1]; exact fun h => d13 h.symm) ky, a1, b1]
  have e1 : L1 = r2 := by
    have := lnext_of_next hD F.d1
    rw [o1, D kr1, if_neg (Ne.symm d11), if_neg d15, if_neg (Ne.symm d4), if_neg (Ne.symm d13), b2] at this
    exact this.symm
  have e2 : L2 = l2 := by
    have := lnext_of_next hD F.d2
    rw [o2, D kl1, if_neg d6, if_neg d9, if_neg (Ne.symm d1), if_neg d7, a2] at this
    exact this.symm
  have nx : ∀ {x : E}, Primal x → (swap s e).next x =
      if x = e then sym r1 else if x = sym e then sym l1
      else if x = r2 then e else if x = l2 then sym e else (delete s e).next x := by
    intro x kx
    rw [F.nx x (iff_of_true kx ke), o1, o2, e1, e2]
  split_ifs with c1 c2 c3 c4 c5 c6
  · subst c1
    apply lnext_of_next hi'
    rw [nx kl2, if_neg (Ne.symm d2), if_neg d10, if_neg d12, if_pos rfl]
  · subst c2
    apply lnext_of_next hi'
    rw [nx kr1, if_neg (Ne.symm d4), if_neg (Ne.symm d13), if_neg d15, if_neg (Ne.symm d11)]
    have := next_lnext hD y
    rwa [D ky, if_pos rfl] at this
  · subst c3
    apply lnext_of_next hi'
    rw [nx ke, if_pos rfl]
  · subst c4
    apply lnext_of_next hi'
    rw [nx kr2, if_neg (Ne.symm d5), if_neg (Ne.symm d14), if_pos rfl, sym_sym]
  · subst c5
    apply lnext_of_next hi'
    rw [nx kl1, if_neg (Ne.symm d1), if_neg d7, if_neg d9, if_neg d6]
    have := next_lnext hD y
    rwa [D ky, if_neg (Ne.symm d12), if_pos rfl] at this
  · subst c6
    apply lnext_of_next hi'
    rw [nx kse, if_neg (sym_ne e), if_pos rfl]
  · apply lnext_of_next hi'
    have g1 : lnext s y ≠ e := by rw [← a3]; exact fun h => c2 (lnext_inj hi h)
    have g2 : lnext s y ≠ sym e := by rw [← b3]; exact fun h => c5 (lnext_inj hi h)
    have g3 : lnext s y ≠ r2 := by rw [← b2]; exact fun h => c3 (lnext_inj hi h)
    have g4 : lnext s y ≠ l2 := by rw [← a2]; exact fun h => c6 (lnext_inj hi h)
    rw [nx ((inv_lnext_kind hi y).2 ky), if_neg g1, if_neg g2, if_neg g3, if_neg g4]
    have := next_lnext hD y
    rwa [D ky, if_neg c2, if_neg c5, if_neg c1, if_neg c4] at this

end Verif.Lemmas.SubTables
