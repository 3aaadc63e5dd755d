import Verif.Lemmas.QuadRings

/-!
# Helper lemmas for the quad-edge structure: `Connect` and `Swap`
-/

namespace Verif.Lemmas.Quad
open Verif.Quad Verif.Spec.Quad

variable {P : Type} {s : Store P}

theorem splice_v (s : Store P) (a b : E) : (splice s a b).v = s.v := rfl
theorem delete_v (s : Store P) (e : E) : (delete s e).v = s.v := rfl
theorem delete_size (s : Store P) (e : E) : (delete s e).size = s.size := rfl
theorem delete_def (s : Store P) (e : E) : delete s e =
    splice (splice s e (oprev s e)) (sym e) (oprev (splice s e (oprev s e)) (sym e)) := rfl
theorem endPoints_next (s : Store P) (e : E) (o d : Option P) : (endPoints s e o d).next = s.next :=
  rfl

/-- The last two splices of `Swap`, applied after the first two. -/
def attach2 (t : Store P) (e a b : E) : Store P :=
  splice (splice t e (lnext t a)) (sym e) (lnext (splice t e (lnext t a)) b)

theorem swap_def (s : Store P) (e : E) : swap s e =
    endPoints (attach2 (splice (splice s e (oprev s e)) (sym e) (oprev s (sym e))) e (oprev s e)
      (oprev s (sym e))) e
      (dest (attach2 (splice (splice s e (oprev s e)) (sym e) (oprev s (sym e))) e (oprev s e)
        (oprev s (sym e))) (oprev s e))
      (dest (attach2 (splice (splice s e (oprev s e)) (sym e) (oprev s (sym e))) e (oprev s e)
        (oprev s (sym e))) (oprev s (sym e))) := rfl

attribute [local irreducible] splice delete swap

/-- The successors after `Connect`. -/
theorem connect_next' (h : Inv s) {a b : E} (ha : a.q < s.size) (hb : b.q < s.size)
    (ka : Primal a) (kb : Primal b) {x : E} (kx : Primal x) (hx : x.q ≤ s.size) :
    (connectTo s a b).1.next x =
      if x = sym ⟨s.size, 0⟩ then (if b = lnext s a then ⟨s.size, 0⟩ else s.next b)
      else if x = b then sym ⟨s.size, 0⟩
      else if x = ⟨s.size, 0⟩ then sym a
      else if x = lnext s a then ⟨s.size, 0⟩
      else s.next x := by
  obtain ⟨L, _, _, hL, he⟩ := connect_next h ha hb ka kb kx hx
  have : L = lnext s a := by rw [Inv.lnext_eq, ← hL, h.oprev_next]
  rw [this] at he
  exact he

theorem next_lnext (h : Inv s) (a : E) : s.next (lnext s a) = sym a := by
  rw [Inv.lnext_eq, h.next_oprev]

theorem lnext_of_next (h : Inv s) {a e : E} (he : s.next e = sym a) : lnext s a = e := by
  rw [Inv.lnext_eq, ← he, h.oprev_next]

theorem ne_new {x : E} (hx : x.q < s.size) : x ≠ ⟨s.size, 0⟩ := by
  rintro rfl; exact absurd hx (Nat.lt_irrefl _)

theorem ne_new_sym {x : E} (hx : x.q < s.size) : x ≠ sym ⟨s.size, 0⟩ := by
  rintro rfl; rw [sym_q] at hx; exact absurd hx (Nat.lt_irrefl _)

theorem connect_skip (h : Inv s) {a b : E} (ha : a.q < s.size) (hb : b.q < s.size)
    (ka : Primal a) (kb : Primal b) {x : E} (kx : Primal x) (hx : x.q < s.size) :
    FirstAfterSkipping (connectTo s a b).1 s.size x (s.next x) := by
  have N : ∀ {y : E}, Primal y → y.q ≤ s.size → _ := fun {y} ky hy =>
    connect_next' h ha hb ka kb (x := y) ky hy
  have ke : Primal (⟨s.size, 0⟩ : E) := Or.inl rfl
  have kse : Primal (sym ⟨s.size, 0⟩ : E) := (primal_sym _).2 ke
  have ne : (connectTo s a b).1.next ⟨s.size, 0⟩ = sym a := by
    rw [N ke (Nat.le_refl _), if_neg (sym_ne _).symm, if_neg (ne_new hb).symm, if_pos rfl]
  have nse := N kse (by rw [sym_q])
  rw [if_pos rfl] at nse
  have nx := N kx (Nat.le_of_lt hx)
  rw [if_neg (ne_new_sym hx), if_neg (ne_new hx)] at nx
  have qn : (s.next x).q ≠ s.size := Nat.ne_of_lt (h.alloc x hx)
  by_cases c1 : x = b
  · subst c1
    rw [if_pos rfl] at nx
    refine .skip (by show (Store.next _ x).q = _; rw [nx, sym_q]) ?_
    show FirstAfterSkipping _ _ (Store.next _ x) _
    rw [nx]
    by_cases c2 : x = lnext s a
    · rw [if_pos c2] at nse
      refine .skip (by show (Store.next _ _).q = _; rw [nse]) ?_
      show FirstAfterSkipping _ _ (Store.next _ _) _
      rw [nse]
      have : s.next x = sym a := by rw [c2, next_lnext h]
      rw [this, ← ne]
      refine .here ?_
      show (Store.next _ _).q ≠ _
      rw [ne, sym_q]; omega
    · rw [if_neg c2] at nse
      rw [← nse]
      refine .here ?_
      show (Store.next _ _).q ≠ _
      rw [nse]; exact qn
  · rw [if_neg c1] at nx
    by_cases c2 : x = lnext s a
    · rw [if_pos c2] at nx
      refine .skip (by show (Store.next _ x).q = _; rw [nx]) ?_
      show FirstAfterSkipping _ _ (Store.next _ x) _
      rw [nx]
      have : s.next x = sym a := by rw [c2, next_lnext h]
      rw [this, ← ne]
      refine .here ?_
      show (Store.next _ _).q ≠ _
      rw [ne, sym_q]; omega
    · rw [if_neg c2] at nx
      rw [← nx]
      refine .here ?_
      show (Store.next _ _).q ≠ _
      rw [nx]; exact qn

theorem connect_lnext_a (h : Inv s) {a b : E} (ha : a.q < s.size) (hb : b.q < s.size)
    (ka : Primal a) (kb : Primal b) : lnext (connectTo s a b).1 a = (connectTo s a b).2 := by
  apply lnext_of_next (inv_connectTo h ha hb ka kb)
  show (connectTo s a b).1.next ⟨s.size, 0⟩ = sym a
  rw [connect_next' h ha hb ka kb (Or.inl rfl) (Nat.le_refl _), if_neg (sym_ne _).symm,
    if_neg (ne_new hb).symm, if_pos rfl]

theorem connect_lnext_e (h : Inv s) {a b : E} (ha : a.q < s.size) (hb : b.q < s.size)
    (ka : Primal a) (kb : Primal b) : lnext (connectTo s a b).1 (connectTo s a b).2 = b := by
  apply lnext_of_next (inv_connectTo h ha hb ka kb)
  show (connectTo s a b).1.next b = sym ⟨s.size, 0⟩
  rw [connect_next' h ha hb ka kb kb (Nat.le_of_lt hb), if_neg (ne_new_sym hb), if_pos rfl]

theorem newE_v (o d : Option P) {x : E} (hx : x.q < s.size) :
    (newWithEndPoints s o d).1.v x = s.v x := by
  show setV (setV _ _ _) _ _ x = _
  unfold setV
  show (if x = sym ⟨s.size, 0⟩ then _ else if x = ⟨s.size, 0⟩ then _
    else if x.q = s.size then _ else s.v x) = _
  rw [if_neg (ne_new_sym hx), if_neg (ne_new hx), if_neg (Nat.ne_of_lt hx)]

theorem newE_v_self (o d : Option P) : (newWithEndPoints s o d).1.v ⟨s.size, 0⟩ = o := by
  show (if _ = sym ⟨s.size, 0⟩ then _ else if _ = _ then _ else _) = _
  rw [if_neg (sym_ne _).symm]; exact if_pos rfl

theorem newE_v_sym (o d : Option P) : (newWithEndPoints s o d).1.v (sym ⟨s.size, 0⟩) = d := by
  show (if _ = sym ⟨s.size, 0⟩ then _ else if _ = _ then _ else _) = _
  rw [if_pos rfl]

theorem connect_v (a b : E) :
    (connectTo s a b).1.v = (newWithEndPoints s (dest s a) (orig s b)).1.v := by
  unfold connectTo; simp only [splice_v]

/-! ## Swap -/

theorem inv_attach2 {t : Store P} (h : Inv t) {e a b : E} (he : e.q < t.size) (qa : a.q < t.size)
    (qb : b.q < t.size) (ka : Primal a ↔ Primal e) (kb : Primal b ↔ Primal e) :
    Inv (attach2 t e a b) := by
  have h3 := inv_splice h (a := e) (b := lnext t a) he ((inv_lnext_alloc h _).2 qa)
    (by rw [inv_lnext_kind h]; exact ka.symm)
  refine inv_splice h3 (a := sym e) (by rw [sym_q, splice_size]; exact he)
    ((inv_lnext_alloc h3 _).2 (by rw [splice_size]; exact qb))
    (by rw [inv_lnext_kind h3]; exact (primal_sym e).trans kb.symm)

theorem inv_swap (h : Inv s) {e : E} (he : e.q < s.size) : Inv (swap s e) := by
  have h1 := inv_detach h he
  have kb : Primal (oprev s (sym e)) ↔ Primal e := (h.kind_oprev _).trans (primal_sym e)
  have ka : Primal (oprev s e) ↔ Primal e := h.kind_oprev _
  have qb : (oprev s (sym e)).q < s.size := (h.alloc_oprev _).2 (by rw [sym_q]; exact he)
  have qa : (oprev s e).q < s.size := (h.alloc_oprev _).2 he
  have h2 := inv_splice h1 (a := sym e) (b := oprev s (sym e))
    (by rw [sym_q, splice_size]; exact he) (by rw [splice_size]; exact qb)
    ((primal_sym e).trans kb.symm)
  rw [swap_def]
  refine inv_endPoints (inv_attach2 h2 ?_ ?_ ?_ ka kb) _ _ _
  all_goals rw [splice_size, splice_size]; assumption

/-- The first half of `Swap` is `Delete`. -/
theorem swap_first_half (h : Inv s) {e : E} (he : e.q < s.size) (hT : Turnable s e) :
    splice (splice s e (oprev s e)) (sym e) (oprev s (sym e)) = delete s e := by
  have h1 := inv_detach h he
  rw [delete_def]
  congr 1
  have kb : Primal (oprev s (sym e)) ↔ Primal e := (h.kind_oprev _).trans (primal_sym e)
  have : (splice s e (oprev s e)).next (oprev s (sym e)) = sym e := by
    rw [detach_next h e kb, if_neg, if_neg, h.next_oprev]
    · rw [h.next_oprev]; exact sym_ne e
    · intro h2; exact hT.2 (by rw [h2])
  rw [← h1.oprev_next (oprev s (sym e)), this]

/-- Everything about the successors after `Swap`. -/
structure SwapFacts (s : Store P) (e L1 L2 : E) : Prop where
  q1 : L1.q ≠ e.q
  q2 : L2.q ≠ e.q
  ne : L1 ≠ L2
  k1 : Primal L1 ↔ Primal e
  k2 : Primal L2 ↔ Primal e
  d1 : (delete s e).next L1 = sym (oprev s e)
  d2 : (delete s e).next L2 = sym (oprev s (sym e))
  nx : ∀ x, (Primal x ↔ Primal e) → (swap s e).next x =
    if x = e then sym (oprev s e) else if x = sym e then sym (oprev s (sym e))
    else if x = L1 then e else if x = L2 then sym e else (delete s e).next x

theorem swap_facts (h : Inv s) {e : E} (he : e.q < s.size) (hT : Turnable s e) :
    ∃ L1 L2, SwapFacts s e L1 L2 := by
  have hD := inv_delete h he
  have sD : (delete s e).size = s.size := delete_size s e
  have kb : Primal (oprev s (sym e)) ↔ Primal e := (h.kind_oprev _).trans (primal_sym e)
  have ka : Primal (oprev s e) ↔ Primal e := h.kind_oprev _
  have qb : (oprev s (sym e)).q < s.size := (h.alloc_oprev _).2 (by rw [sym_q]; exact he)
  have qa : (oprev s e).q < s.size := (h.alloc_oprev _).2 he
  have De := delete_self h he
  have Ds := delete_sym h he
  have hab : oprev s e ≠ oprev s (sym e) := by
    intro h1
    apply sym_ne e
    rw [← h.next_oprev (sym e), ← h1, h.next_oprev]
  have hq : ∀ y, (Primal y ↔ Primal e) → ((delete s e).next y).q ≠ e.q → y.q ≠ e.q := by
    intro y ky h1 h2
    rcases same_quad h2 ky with h3 | h3
    · rw [h3, De] at h1; exact h1 rfl
    · rw [h3, Ds, sym_q] at h1; exact h1 rfl
  have n1 : (delete s e).next (lnext (delete s e) (oprev s e)) = sym (oprev s e) := next_lnext hD _
  have kL1 : Primal (lnext (delete s e) (oprev s e)) ↔ Primal e := (inv_lnext_kind hD _).trans ka
  have aL1 : (lnext (delete s e) (oprev s e)).q < (delete s e).size :=
    (inv_lnext_alloc hD _).2 (by rw [sD]; exact qa)
  have qL1 : (lnext (delete s e) (oprev s e)).q ≠ e.q :=
    hq _ kL1 (by rw [n1, sym_q]; exact hT.1)
  have sw : (swap s e).next = (splice (splice (delete s e) e (lnext (delete s e) (oprev s e)))
      (sym e) (lnext (splice (delete s e) e (lnext (delete s e) (oprev s e)))
        (oprev s (sym e)))).next := by
    rw [swap_def, swap_first_half h he hT, endPoints_next]; rfl
  generalize lnext (delete s e) (oprev s e) = L1 at *
  have h3 := inv_splice hD (a := e) (b := L1) (by rw [sD]; exact he) aL1 kL1.symm
  have n3 : ∀ x, (Primal x ↔ Primal e) → (splice (delete s e) e L1).next x =
      if x = e then sym (oprev s e) else if x = L1 then e else (delete s e).next x := by
    intro x kx
    rw [attach_next hD kL1.symm De kx, n1]
  have n4 : (splice (delete s e) e L1).next
      (lnext (splice (delete s e) e L1) (oprev s (sym e))) = sym (oprev s (sym e)) :=
    next_lnext h3 _
  have kL2 : Primal (lnext (splice (delete s e) e L1) (oprev s (sym e))) ↔ Primal e :=
    (inv_lnext_kind h3 _).trans kb
  generalize lnext (splice (delete s e) e L1) (oprev s (sym e)) = L2 at *
  have eL1 : e ≠ L1 := fun h1 => qL1 (by rw [← h1])
  have sL1 : sym e ≠ L1 := fun h1 => qL1 (by rw [← h1, sym_q])
  have hne : L1 ≠ L2 := by
    intro h1
    rw [← h1, n3 L1 kL1, if_neg eL1.symm, if_pos rfl] at n4
    exact hT.2 (by rw [← sym_q, ← n4])
  have eL2 : e ≠ L2 := by
    intro h1
    rw [← h1, n3 e Iff.rfl, if_pos rfl] at n4
    exact hab (sym_inj n4)
  have n4' := n4
  rw [n3 L2 kL2, if_neg eL2.symm, if_neg hne.symm] at n4'
  have qL2 : L2.q ≠ e.q := hq _ kL2 (by rw [n4', sym_q]; exact hT.2)
  refine ⟨L1, L2, qL1, qL2, hne, kL1, kL2, n1, n4', ?_⟩
  intro x kx
  have nse : (splice (delete s e) e L1).next (sym e) = sym e := by
    rw [n3 _ (primal_sym e), if_neg (sym_ne e), if_neg sL1, Ds]
  have : (swap s e).next x = (splice (splice (delete s e) e L1) (sym e) L2).next x := by
    rw [sw]
  rw [this, attach_next h3 ((primal_sym e).trans kL2.symm) nse (kx.trans (primal_sym e).symm), n4,
    n3 x kx]
  by_cases c1 : x = e
  · have : x ≠ sym e := fun h1 => sym_ne e (h1.symm.trans c1)
    have h2 : x ≠ L2 := fun h1 => eL2 (c1.symm.trans h1)
    rw [if_neg this, if_neg h2, if_pos c1, if_pos c1]
  · rw [if_neg c1, if_neg c1]
    by_cases c2 : x = sym e
    · rw [if_pos c2, if_pos c2]
    · rw [if_neg c2, if_neg c2]
      by_cases c3 : x = L2
      · rw [if_pos c3, if_neg (fun h1 => hne (h1.symm.trans c3)), if_pos c3]
      · rw [if_neg c3, if_neg c3]

theorem swap_lnext_a (h : Inv s) {e : E} (he : e.q < s.size) (hT : Turnable s e) :
    lnext (swap s e) (oprev s e) = e := by
  obtain ⟨L1, L2, F⟩ := swap_facts h he hT
  apply lnext_of_next (inv_swap h he)
  rw [F.nx e Iff.rfl, if_pos rfl]

theorem swap_lnext_b (h : Inv s) {e : E} (he : e.q < s.size) (hT : Turnable s e) :
    lnext (swap s e) (oprev s (sym e)) = sym e := by
  obtain ⟨L1, L2, F⟩ := swap_facts h he hT
  apply lnext_of_next (inv_swap h he)
  rw [F.nx (sym e) (primal_sym e), if_neg (sym_ne e), if_pos rfl]

/-- What comes after an edge that is not of the quad-edge, once that is deleted, is not of the
quad-edge. -/
theorem delete_out (h : Inv s) {e : E} (he : e.q < s.size) {x : E} (kx : Primal x ↔ Primal e)
    (hx : x.q ≠ e.q) : ((delete s e).next x).q ≠ e.q := by
  intro h1
  have hD := inv_delete h he
  rcases same_quad h1 ((hD.kind x).trans kx) with h2 | h2
  · exact hx (by rw [hD.inj (h2.trans (delete_self h he).symm)])
  · exact hx (by rw [hD.inj (h2.trans (delete_sym h he).symm), sym_q])

theorem swap_skip (h : Inv s) {e : E} (he : e.q < s.size) (hT : Turnable s e) {x : E}
    (kx : Primal x ↔ Primal e) (hx : x.q ≠ e.q) :
    FirstAfterSkipping (swap s e) e.q x ((delete s e).next x) := by
  obtain ⟨L1, L2, F⟩ := swap_facts h he hT
  have ne := F.nx e Iff.rfl
  rw [if_pos rfl] at ne
  have ns := F.nx (sym e) (primal_sym e)
  rw [if_neg (sym_ne e), if_pos rfl] at ns
  have nx := F.nx x kx
  rw [if_neg (fun h1 => hx (by rw [h1])), if_neg (fun h1 => hx (by rw [h1, sym_q]))] at nx
  have out := delete_out h he kx hx
  by_cases c1 : x = L1
  · rw [if_pos c1] at nx
    refine .skip (by show (Store.next _ x).q = _; rw [nx]) ?_
    show FirstAfterSkipping _ _ (Store.next _ x) _
    rw [nx, c1, F.d1, ← ne]
    refine .here ?_
    show (Store.next _ _).q ≠ _
    rw [ne, sym_q]; exact hT.1
  · rw [if_neg c1] at nx
    by_cases c2 : x = L2
    · rw [if_pos c2] at nx
      refine .skip (by show (Store.next _ x).q = _; rw [nx, sym_q]) ?_
      show FirstAfterSkipping _ _ (Store.next _ x) _
      rw [nx, c2, F.d2, ← ns]
      refine .here ?_
      show (Store.next _ _).q ≠ _
      rw [ns, sym_q]; exact hT.2
    · rw [if_neg c2] at nx
      rw [← nx]
      refine .here ?_
      show (Store.next _ _).q ≠ _
      rw [nx]; exact out

theorem swap_skip_iff (h : Inv s) {e : E} (he : e.q < s.size) (hT : Turnable s e) {x y : E}
    (kx : Primal x ↔ Primal e) (hx : x.q ≠ e.q) :
    FirstAfterSkipping (swap s e) e.q x y ↔ FirstAfterSkipping s e.q x y := by
  rw [delete_skip_iff h he kx hx]
  have := swap_skip h he hT kx hx
  exact ⟨fun h1 => skip_unique this h1, fun h1 => h1 ▸ this⟩

theorem swap_v (e : E) : (swap s e).v =
    setV (setV s.v e (s.v (sym (oprev s e)))) (sym e) (s.v (sym (oprev s (sym e)))) := by
  rw [swap_def]
  unfold endPoints dest orig attach2
  simp only [splice_v]

theorem swap_orig (e : E) : orig (swap s e) e = dest s (oprev s e) := by
  show (swap s e).v e = _
  rw [swap_v]; unfold setV
  rw [if_neg (sym_ne e).symm, if_pos rfl]; rfl

theorem swap_dest (e : E) : dest (swap s e) e = dest s (oprev s (sym e)) := by
  show (swap s e).v (sym e) = _
  rw [swap_v]; unfold setV
  rw [if_pos rfl]; rfl

theorem swap_v_other (e : E) {x : E} (hx : x.q ≠ e.q) : (swap s e).v x = s.v x := by
  rw [swap_v]; unfold setV
  rw [if_neg (fun h1 => hx (by rw [h1, sym_q])), if_neg (fun h1 => hx (by rw [h1]))]

/-! ## Origins -/

theorem origins_iff (h : Inv s) :
    OriginsAgree s ↔ ∀ x, Primal x → s.v (s.next x) = s.v x := by
  constructor
  · intro h1 x hx
    exact h1 x _ hx (.next .refl)
  · intro h1 x y hx hxy
    induction hxy with
    | refl => rfl
    | @next z hz ih =>
      show s.v (s.next z) = _
      rw [h1 z ((h.around_kind hz).2 hx)]; exact ih

theorem origins_new (h : Inv s) (ho : OriginsAgree s) (o d : Option P) :
    OriginsAgree (newWithEndPoints s o d).1 := by
  have h0 := inv_newWithEndPoints h o d
  rw [origins_iff h0]
  rw [origins_iff h] at ho
  intro x hx
  rcases Nat.lt_trichotomy x.q s.size with c | c | c
  · rw [newE_next _ _ _ c, newE_v _ _ c, newE_v _ _ (h.alloc x c), ho x hx]
  · rcases same_quad (x := x) (e := ⟨s.size, 0⟩) c (iff_of_true hx (Or.inl rfl)) with c1 | c1
    · rw [c1, newE_self]
    · rw [c1, newE_sym]
  · have c1 : s.next x = x := by
      rw [h.fresh x (by omega)]
      rcases hx with hx | hx <;> (obtain ⟨q, n⟩ := x; simp only at hx; subst hx; rfl)
    have : (newWithEndPoints s o d).1.next x = s.next x := by
      show (if x.q = s.size then _ else _) = _
      rw [if_neg (by omega)]
    rw [this, c1]

theorem origins_splice (h : Inv s) (ho : OriginsAgree s) {a b : E} (ha : a.q < s.size)
    (hb : b.q < s.size) (ka : Primal a) (kb : Primal b) (hv : s.v a = s.v b) :
    OriginsAgree (splice s a b) := by
  have hk := iff_of_true ka kb
  rw [origins_iff (inv_splice h ha hb hk)]
  rw [origins_iff h] at ho
  intro x hx
  rw [splice_next_kind h hk (iff_of_true hx ka)]
  rw [splice_v]
  by_cases c1 : x = a
  · rw [if_pos c1, ho b kb, c1, hv]
  · rw [if_neg c1]
    by_cases c2 : x = b
    · rw [if_pos c2, ho a ka, c2, hv]
    · rw [if_neg c2, ho x hx]

theorem oprev_v (h : Inv s) (ho : OriginsAgree s) {x : E} (hx : Primal x) :
    s.v (oprev s x) = s.v x := by
  rw [origins_iff h] at ho
  rw [← ho (oprev s x) ((h.kind_oprev x).2 hx), h.next_oprev]

theorem origins_delete (h : Inv s) (ho : OriginsAgree s) {e : E} (he : e.q < s.size)
    (ke : Primal e) : OriginsAgree (delete s e) := by
  have h1 := inv_detach h he
  have o1 := origins_splice h ho he ((h.alloc_oprev e).2 he) ke ((h.kind_oprev e).2 ke)
    (oprev_v h ho ke).symm
  have ks := (primal_sym e).2 ke
  have hs : (sym e).q < (splice s e (oprev s e)).size := by rw [sym_q, splice_size]; exact he
  rw [delete_def]
  exact origins_splice h1 o1 hs ((h1.alloc_oprev _).2 hs) ks ((h1.kind_oprev _).2 ks)
    (oprev_v h1 o1 ks).symm

theorem origins_connect (h : Inv s) (ho : OriginsAgree s) {a b : E} (ha : a.q < s.size)
    (hb : b.q < s.size) (ka : Primal a) (kb : Primal b) : OriginsAgree (connectTo s a b).1 := by
  have h0 := inv_newWithEndPoints h (dest s a) (orig s b)
  have o0 := origins_new h ho (dest s a) (orig s b)
  have ke : Primal (⟨s.size, 0⟩ : E) := Or.inl rfl
  have a0 : a.q < (newWithEndPoints s (dest s a) (orig s b)).1.size := Nat.lt_succ_of_lt ha
  have kL : Primal (lnext (newWithEndPoints s (dest s a) (orig s b)).1 a) :=
    (inv_lnext_kind h0 a).2 ka
  have aL := (inv_lnext_alloc h0 a).2 a0
  have e0 : (⟨s.size, 0⟩ : E).q < (newWithEndPoints s (dest s a) (orig s b)).1.size :=
    Nat.lt_succ_self _
  have h1 := inv_splice h0 e0 aL (iff_of_true ke kL)
  have o1 := origins_splice h0 o0 e0 aL ke kL (by
    rw [newE_v_self, Inv.lnext_eq, oprev_v h0 o0 ((primal_sym a).2 ka),
      newE_v _ _ (by rw [sym_q]; exact ha)]
    rfl)
  refine origins_splice h1 o1 (a := sym ⟨s.size, 0⟩) (by rw [sym_q, splice_size]; exact e0)
    (by rw [splice_size]; exact Nat.lt_succ_of_lt hb) ((primal_sym _).2 ke) kb ?_
  rw [splice_v, newE_v_sym, newE_v _ _ hb]; rfl

theorem origins_swap (h : Inv s) (ho : OriginsAgree s) {e : E} (he : e.q < s.size)
    (ke : Primal e) (hT : Turnable s e) : OriginsAgree (swap s e) := by
  have hD := inv_delete h he
  have oD := (origins_iff hD).1 (origins_delete h ho he ke)
  obtain ⟨L1, L2, F⟩ := swap_facts h he hT
  rw [origins_iff (inv_swap h he)]
  have vD : (delete s e).v = s.v := delete_v s e
  rw [vD] at oD
  have v1 := swap_orig (s := s) e
  have v2 := swap_dest (s := s) e
  intro x hx
  have kx := iff_of_true hx ke
  rw [F.nx x kx]
  by_cases c1 : x = e
  · rw [if_pos c1, c1, swap_v_other e (by rw [sym_q]; exact hT.1)]
    exact v1.symm
  · rw [if_neg c1]
    by_cases c2 : x = sym e
    · rw [if_pos c2, c2, swap_v_other e (by rw [sym_q]; exact hT.2)]
      exact v2.symm
    · rw [if_neg c2]
      have hq : x.q ≠ e.q := by
        intro h1
        rcases same_quad h1 kx with h2 | h2 <;> contradiction
      rw [swap_v_other e hq]
      by_cases c3 : x = L1
      · rw [if_pos c3, c3, ← oD L1 (F.k1.2 ke), F.d1]; exact v1
      · rw [if_neg c3]
        by_cases c4 : x = L2
        · rw [if_pos c4, c4, ← oD L2 (F.k2.2 ke), F.d2]; exact v2
        · rw [if_neg c4, swap_v_other e (delete_out h he kx hq), oD x hx]

end Verif.Lemmas.Quad
