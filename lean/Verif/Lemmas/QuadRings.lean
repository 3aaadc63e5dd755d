import Verif.Lemmas.QuadEdge

/-!
# Helper lemmas for the quad-edge structure: rings, and the derived operations
-/

namespace Verif.Lemmas.Quad
open Verif.Quad Verif.Spec.Quad

variable {P : Type}

/-! ## What a splice does to the rings -/

section rings
variable {s : Store P} {a b : E}

theorem splice_other (h : Inv s) (hk : Primal a ↔ Primal b) {x : E} (hx : Primal x ↔ Primal a)
    (h1 : x ≠ a) (h2 : x ≠ b) : (splice s a b).next x = s.next x := by
  rw [splice_next_kind h hk hx, if_neg h1, if_neg h2]

theorem splice_right (h : Inv s) (hk : Primal a ↔ Primal b) : (splice s a b).next b = s.next a := by
  rw [splice_next_kind h hk hk.symm]
  by_cases e : b = a
  · rw [if_pos e, e]
  · rw [if_neg e, if_pos rfl]

theorem splice_left (h : Inv s) (hk : Primal a ↔ Primal b) : (splice s a b).next a = s.next b := by
  rw [splice_next_kind h hk Iff.rfl, if_pos rfl]

/-- Merging: going round from `b` after the splice meets everything that was around `a`. -/
theorem merge_half (h : Inv s) (hk : Primal a ↔ Primal b) (hd : ¬ Around s a b) {y : E}
    (hy : Around s a y) : Around (splice s a b) b y := by
  have hy' : Around s (s.next a) y :=
    around_trans (h.around_symm (Around.next Around.refl)) hy
  obtain ⟨n, hn⟩ := around_iff.1 hy'
  -- induction on the number of steps, with the first time taken
  have key : ∀ n : Nat, (∀ m, m < n → s.next^[m] (s.next a) ≠ a) →
      Around (splice s a b) b (s.next^[n] (s.next a)) := by
    intro n
    induction n with
    | zero =>
      intro _
      have : (splice s a b).next b = s.next a := splice_right h hk
      show Around (splice s a b) b (s.next a)
      rw [← this]; exact .next .refl
    | succ n ih =>
      intro hm
      have h1 := ih (fun m hm' => hm m (by omega))
      have h2 : s.next^[n] (s.next a) ≠ a := hm n (by omega)
      have hr : Around s a (s.next^[n] (s.next a)) :=
        around_iff.2 ⟨n + 1, by rw [Function.iterate_succ_apply]⟩
      have h3 : s.next^[n] (s.next a) ≠ b := fun e => hd (e ▸ hr)
      rw [Function.iterate_succ_apply', ← splice_other h hk (h.around_kind hr) h2 h3]
      exact .next h1
  classical
  have hex : ∃ n, s.next^[n] (s.next a) = y := ⟨n, hn⟩
  have hmin := Nat.find_spec hex
  have hlt : ∀ m, m < Nat.find hex → s.next^[m] (s.next a) ≠ y := fun m hm => Nat.find_min hex hm
  generalize Nat.find hex = k at hmin hlt
  rw [← hmin]
  apply key
  intro m hm he
  apply hlt (k - m - 1) (by omega)
  rw [← hmin]
  conv_rhs => rw [show k = (k - m - 1) + 1 + m by omega]
  rw [Function.iterate_add_apply _ _ m, he, Function.iterate_succ_apply]

theorem merge (h : Inv s) (ha : a.q < s.size) (hb : b.q < s.size) (hk : Primal a ↔ Primal b)
    (hd : ¬ Around s a b) : Joined (Around s) (Around (splice s a b)) a b := by
  have h' := inv_splice h ha hb hk
  have hd' : ¬ Around s b a := fun e => hd (h.around_symm e)
  have A : ∀ {y}, Around s a y → Around (splice s a b) b y := merge_half h hk hd
  have B : ∀ {y}, Around s b y → Around (splice s a b) a y := by
    rw [splice_comm h hk]; exact merge_half h hk.symm hd'
  have AB : Around (splice s a b) b a := A .refl
  have all : ∀ {y}, (Around s a y ∨ Around s b y) → Around (splice s a b) b y := by
    intro y hy
    rcases hy with hy | hy
    · exact A hy
    · exact around_trans AB (B hy)
  intro x y hx
  constructor
  · intro hxy
    by_cases hR : Around s a x ∨ Around s b x
    · right
      refine ⟨hR, ?_⟩
      induction hxy with
      | refl => exact hR
      | @next z hz ih =>
        show Around s a ((splice s a b).next z) ∨ Around s b ((splice s a b).next z)
        by_cases e1 : z = a
        · subst e1; rw [splice_left h hk]; right; exact .next .refl
        · by_cases e2 : z = b
          · subst e2; rw [splice_right h hk]; left; exact .next .refl
          · have kz : Primal z ↔ Primal a := by
              rcases ih with i | i
              · exact h.around_kind i
              · exact (h.around_kind i).trans hk.symm
            rw [splice_other h hk kz e1 e2]
            exact ih.imp .next .next
    · left
      induction hxy with
      | refl => exact .refl
      | @next z hz ih =>
        show Around s x ((splice s a b).next z)
        have e1 : z ≠ a := by
          rintro rfl; exact hR (Or.inl (h.around_symm ih))
        have e2 : z ≠ b := by
          rintro rfl; exact hR (Or.inr (h.around_symm ih))
        rw [splice_other h hk ((h.around_kind ih).trans hx) e1 e2]
        exact .next ih
  · intro hxy
    rcases hxy with hxy | ⟨h1, h2⟩
    · by_cases hR : Around s a x ∨ Around s b x
      · have hRy : Around s a y ∨ Around s b y := hR.imp (around_trans · hxy) (around_trans · hxy)
        exact around_trans (h'.around_symm (all hR)) (all hRy)
      · induction hxy with
        | refl => exact .refl
        | @next z hz ih =>
          show Around _ x (s.next z)
          have e1 : z ≠ a := by
            rintro rfl; exact hR (Or.inl (h.around_symm hz))
          have e2 : z ≠ b := by
            rintro rfl; exact hR (Or.inr (h.around_symm hz))
          rw [← splice_other h hk ((h.around_kind hz).trans hx) e1 e2]
          exact .next ih
    · exact around_trans (h'.around_symm (all h1)) (all h2)

theorem split_apart (h : Inv s) (ha : a.q < s.size) (hb : b.q < s.size) (hk : Primal a ↔ Primal b)
    (hne : a ≠ b) (hd : Around s a b) : ¬ Around (splice s a b) a b := by
  have h' := inv_splice h ha hb hk
  intro hab
  have hba := h'.around_symm hab
  classical
  have hex : ∃ n, s.next^[n] a = b := around_iff.1 hd
  have hmin := Nat.find_spec hex
  have hlt : ∀ m, m < Nat.find hex → s.next^[m] a ≠ b := fun m hm => Nat.find_min hex hm
  generalize Nat.find hex = n at hmin hlt
  have hn : 0 < n := by
    rcases Nat.eq_zero_or_pos n with e | e
    · subst e; exact absurd hmin hne
    · exact e
  have hna : ∀ i, 0 < i → i ≤ n → s.next^[i] a ≠ a := by
    intro i h1 h2 he
    rcases Nat.eq_or_lt_of_le h2 with e | e
    · subst e; rw [hmin] at he; exact hne he.symm
    · apply hlt (n - i) (by omega)
      rw [← hmin]
      conv_rhs => rw [show n = (n - i) + i by omega]
      rw [Function.iterate_add_apply, he]
  have inS : ∀ x, Around (splice s a b) b x → ∃ i, 0 < i ∧ i ≤ n ∧ s.next^[i] a = x := by
    intro x hx
    induction hx with
    | refl => exact ⟨n, hn, Nat.le_refl n, hmin⟩
    | @next z hz ih =>
      obtain ⟨i, h1, h2, rfl⟩ := ih
      show ∃ j, 0 < j ∧ j ≤ n ∧ s.next^[j] a = (splice s a b).next (s.next^[i] a)
      have hr : Around s a (s.next^[i] a) := around_iff.2 ⟨i, rfl⟩
      rcases Nat.eq_or_lt_of_le h2 with e | e
      · subst e
        rw [hmin, splice_right h hk]
        exact ⟨1, by omega, by omega, rfl⟩
      · rw [splice_other h hk (h.around_kind hr) (hna i h1 h2) (hlt i e)]
        exact ⟨i + 1, by omega, by omega, by rw [Function.iterate_succ_apply']⟩
  obtain ⟨i, h1, h2, h3⟩ := inS a hba
  exact hna i h1 h2 h3

theorem split (h : Inv s) (ha : a.q < s.size) (hb : b.q < s.size) (hk : Primal a ↔ Primal b)
    (hne : a ≠ b) (hd : Around s a b) :
    ¬ Around (splice s a b) a b ∧ Joined (Around (splice s a b)) (Around s) a b := by
  have hn := split_apart h ha hb hk hne hd
  refine ⟨hn, ?_⟩
  have := merge (s := splice s a b) (inv_splice h ha hb hk) ha hb hk hn
  rwa [splice_splice h ha hb hk] at this

end rings

/-! ## Faces -/

theorem Inv.invRot_lnext {s : Store P} (_ : Inv s) (e : E) :
    invRot (lnext s e) = s.next (invRot e) := by
  unfold lnext onext; rw [invRot_rot]

theorem Inv.face_iff {s : Store P} (h : Inv s) {x y : E} :
    AroundFace s x y ↔ Around s (invRot x) (invRot y) := by
  constructor
  · intro h1
    induction h1 with
    | refl => exact .refl
    | next _ ih => rw [h.invRot_lnext]; exact .next ih
  · intro h1
    have : ∀ z, Around s (invRot x) z → AroundFace s x (rot z) := by
      intro z hz
      induction hz with
      | refl => rw [rot_invRot]; exact .refl
      | @next w _ ih =>
        have : rot (onext s w) = lnext s (rot w) := by unfold lnext; rw [invRot_rot]
        rw [this]; exact .next ih
    have := this _ h1
    rwa [rot_invRot] at this

/-- Both edges of a splice are on the left face, as seen in the dual. -/
theorem Inv.around_alpha {s : Store P} (h : Inv s) (a : E) :
    Around s (rot (s.next a)) (invRot a) := by
  have : s.next (rot (s.next a)) = invRot a := by
    rw [← invRot_rot (s.next (rot (s.next a))), h.inv]
  rw [← this]; exact .next .refl

theorem splice_around_beta {s : Store P} (h : Inv s) {a b : E} (ha : a.q < s.size)
    (hb : b.q < s.size) (hk : Primal a ↔ Primal b) :
    Around (splice s a b) (rot (s.next b)) (invRot a) := by
  have h' := inv_splice h ha hb hk
  have := h'.around_alpha a
  rwa [splice_left h hk] at this

theorem splice_around_alpha {s : Store P} (h : Inv s) {a b : E} (ha : a.q < s.size)
    (hb : b.q < s.size) (hk : Primal a ↔ Primal b) :
    Around (splice s a b) (rot (s.next a)) (invRot b) := by
  have h' := inv_splice h ha hb hk
  have := h'.around_alpha b
  rwa [splice_right h hk] at this

/-- If `a` and `a'`, `b` and `b'` are on one ring each, one may be put for the other. -/
theorem around_congr {s : Store P} (h : Inv s) {a a' x : E} (h1 : Around s a a') :
    Around s a x ↔ Around s a' x :=
  ⟨fun h2 => around_trans (h.around_symm h1) h2, fun h2 => around_trans h1 h2⟩

theorem face_merge {s : Store P} (h : Inv s) {a b : E} (ha : a.q < s.size) (hb : b.q < s.size)
    (hk : Primal a ↔ Primal b) (hd : ¬ AroundFace s a b) :
    Joined (AroundFace s) (AroundFace (splice s a b)) a b := by
  have h' := inv_splice h ha hb hk
  have qa : (rot (s.next a)).q < s.size := by rw [rot_q]; exact h.alloc a ha
  have qb : (rot (s.next b)).q < s.size := by rw [rot_q]; exact h.alloc b hb
  have hk' : Primal (rot (s.next a)) ↔ Primal (rot (s.next b)) := by
    rw [primal_rot, primal_rot, h.kind, h.kind, hk]
  have ea := h.around_alpha a
  have eb := h.around_alpha b
  rw [h.face_iff] at hd
  have hd' : ¬ Around s (rot (s.next a)) (rot (s.next b)) := by
    intro h1
    exact hd (around_trans ((around_congr h ea).1 h1) eb)
  have := merge h qa qb hk' hd'
  rw [← splice_dual h hk] at this
  intro x y hx
  rw [h'.face_iff, h.face_iff, h.face_iff, h.face_iff, h.face_iff, h.face_iff]
  have h2 := this (invRot x) (invRot y) (by
    unfold SameKind at hx ⊢
    rw [primal_invRot, primal_rot, h.kind, hx])
  rw [h2, around_congr h ea, around_congr h eb, around_congr h ea, around_congr h eb]

theorem face_split {s : Store P} (h : Inv s) {a b : E} (ha : a.q < s.size) (hb : b.q < s.size)
    (hk : Primal a ↔ Primal b) (hne : a ≠ b) (hd : AroundFace s a b) :
    ¬ AroundFace (splice s a b) a b ∧
      Joined (AroundFace (splice s a b)) (AroundFace s) a b := by
  have h' := inv_splice h ha hb hk
  have qa : (rot (s.next a)).q < s.size := by rw [rot_q]; exact h.alloc a ha
  have qb : (rot (s.next b)).q < s.size := by rw [rot_q]; exact h.alloc b hb
  have hk' : Primal (rot (s.next a)) ↔ Primal (rot (s.next b)) := by
    rw [primal_rot, primal_rot, h.kind, h.kind, hk]
  have ea := h.around_alpha a
  have eb := h.around_alpha b
  have n5 := (splice_facts h hk).2.2.2.2
  rw [h.face_iff] at hd
  have hd' : Around s (rot (s.next a)) (rot (s.next b)) :=
    around_trans (around_trans ea hd) (h.around_symm eb)
  obtain ⟨h1, h2⟩ := split h qa qb hk' (fun e => hne (n5.2 e)) hd'
  rw [← splice_dual h hk] at h1 h2
  have fa := splice_around_beta h ha hb hk
  have fb := splice_around_alpha h ha hb hk
  refine ⟨?_, ?_⟩
  · rw [h'.face_iff]
    intro h3
    exact h1 (h'.around_symm (around_trans (around_trans fa h3) (h'.around_symm fb)))
  · intro x y hx
    rw [h'.face_iff, h.face_iff, h'.face_iff, h'.face_iff, h'.face_iff, h'.face_iff]
    have h3 := h2 (invRot x) (invRot y) (by
      unfold SameKind at hx ⊢
      rw [primal_invRot, primal_rot, h.kind, hx])
    rw [h3, around_congr h' fa, around_congr h' fb, around_congr h' fa, around_congr h' fb,
      or_comm (a := Around (splice s a b) (invRot a) (invRot x)),
      or_comm (a := Around (splice s a b) (invRot a) (invRot y))]

/-! ## Delete -/

theorem inv_detach {s : Store P} (h : Inv s) {e : E} (he : e.q < s.size) :
    Inv (splice s e (oprev s e)) :=
  inv_splice h he ((h.alloc_oprev e).2 he) (h.kind_oprev e).symm

/-- Splicing an edge with the one before it takes it out of its ring. -/
theorem detach_next {s : Store P} (h : Inv s) (e : E) {x : E} (hx : Primal x ↔ Primal e) :
    (splice s e (oprev s e)).next x =
      if x = e then e else if s.next x = e then s.next e else s.next x := by
  rw [splice_next_kind h (h.kind_oprev e).symm hx]
  by_cases h1 : x = e
  · rw [if_pos h1, if_pos h1, h.next_oprev]
  · rw [if_neg h1, if_neg h1]
    by_cases h2 : x = oprev s e
    · rw [if_pos h2, h2, h.next_oprev, if_pos rfl]
    · rw [if_neg h2, if_neg]
      intro h3
      apply h2
      rw [← h3, h.oprev_next]

theorem inv_delete {s : Store P} (h : Inv s) {e : E} (he : e.q < s.size) : Inv (delete s e) := by
  have h1 := inv_detach h he
  exact inv_detach h1 (e := sym e) (by rw [sym_q]; exact he)

theorem delete_next {s : Store P} (h : Inv s) {e : E} (he : e.q < s.size) {x : E}
    (hx : Primal x ↔ Primal e) :
    (delete s e).next x =
      if x = sym e then sym e
      else if (splice s e (oprev s e)).next x = sym e then (splice s e (oprev s e)).next (sym e)
      else (splice s e (oprev s e)).next x := by
  have h1 := inv_detach h he
  unfold delete
  exact detach_next h1 (sym e) (hx.trans (primal_sym e).symm)

theorem delete_self {s : Store P} (h : Inv s) {e : E} (he : e.q < s.size) :
    (delete s e).next e = e := by
  rw [delete_next h he Iff.rfl, if_neg (fun h1 => sym_ne e h1.symm),
    detach_next h e Iff.rfl, if_pos rfl, if_neg (fun h1 => sym_ne e h1.symm)]

theorem delete_sym {s : Store P} (h : Inv s) {e : E} (he : e.q < s.size) :
    (delete s e).next (sym e) = sym e := by
  rw [delete_next h he (primal_sym e), if_pos rfl]

theorem delete_skip {s : Store P} (h : Inv s) {e : E} (he : e.q < s.size) {x : E}
    (hx : Primal x ↔ Primal e) (hq : x.q ≠ e.q) :
    FirstAfterSkipping s e.q x ((delete s e).next x) := by
  have hxe : x ≠ e := fun h1 => hq (by rw [h1])
  have hxs : x ≠ sym e := fun h1 => hq (by rw [h1, sym_q])
  have hse := sym_ne e
  have out : ∀ y, (Primal y ↔ Primal e) → y ≠ e → y ≠ sym e → y.q ≠ e.q := by
    intro y hy h1 h2 h3
    rcases same_quad h3 hy with h4 | h4 <;> contradiction
  have kx := (h.kind x).trans hx
  have ke := h.kind e
  have ks := (h.kind (sym e)).trans (primal_sym e)
  rw [delete_next h he hx, if_neg hxs, detach_next h e hx, if_neg hxe,
    detach_next h e (primal_sym e), if_neg hse]
  have i1 : s.next x = s.next e → False := fun h1 => hxe (h.inj h1)
  have i2 : s.next x = s.next (sym e) → False := fun h1 => hxs (h.inj h1)
  have i3 : s.next (sym e) = s.next e → False := fun h1 => hse (h.inj h1)
  by_cases c1 : s.next x = e
  · simp only [c1, if_true]
    by_cases c2 : s.next e = sym e
    · simp only [c2, if_true]
      have c3 : s.next (sym e) ≠ e := fun h1 => i2 (c1.trans h1.symm)
      rw [if_neg c3]
      have c4 : s.next (sym e) ≠ sym e := fun h1 => i3 (h1.trans c2.symm)
      refine .skip (by show (s.next x).q = e.q; rw [c1]) ?_
      show FirstAfterSkipping s e.q (s.next x) _
      rw [c1]
      refine .skip (by show (s.next e).q = e.q; rw [c2, sym_q]) ?_
      show FirstAfterSkipping s e.q (s.next e) _
      rw [c2]
      exact .here (out _ ks c3 c4)
    · simp only [c2, if_false]
      have c3 : s.next e ≠ e := fun h1 => i1 (c1.trans h1.symm)
      refine .skip (by show (s.next x).q = e.q; rw [c1]) ?_
      show FirstAfterSkipping s e.q (s.next x) _
      rw [c1]
      exact .here (out _ ke c3 c2)
  · simp only [c1, if_false]
    by_cases c2 : s.next x = sym e
    · simp only [c2, if_true]
      have c4 : s.next e ≠ sym e := fun h1 => i1 (c2.trans h1.symm)
      have c5 : s.next (sym e) ≠ sym e := fun h1 => i2 (c2.trans h1.symm)
      refine .skip (by show (s.next x).q = e.q; rw [c2, sym_q]) ?_
      show FirstAfterSkipping s e.q (s.next x) _
      rw [c2]
      by_cases c3 : s.next (sym e) = e
      · simp only [c3, if_true]
        have c6 : s.next e ≠ e := fun h1 => i3 (c3.trans h1.symm)
        refine .skip (by show (s.next (sym e)).q = e.q; rw [c3]) ?_
        show FirstAfterSkipping s e.q (s.next (sym e)) _
        rw [c3]
        exact .here (out _ ke c6 c4)
      · simp only [c3, if_false]
        exact .here (out _ ks c3 c5)
    · simp only [c2, if_false]
      exact .here (out _ kx c1 c2)

theorem skip_unique {s : Store P} {q : Nat} {x y y' : E} (h1 : FirstAfterSkipping s q x y)
    (h2 : FirstAfterSkipping s q x y') : y = y' := by
  induction h1 with
  | here h =>
    cases h2 with
    | here => rfl
    | skip h3 => exact absurd h3 h
  | skip h _ ih =>
    cases h2 with
    | here h3 => exact absurd h h3
    | skip _ h4 => exact ih h4

theorem delete_skip_iff {s : Store P} (h : Inv s) {e : E} (he : e.q < s.size) {x y : E}
    (hx : Primal x ↔ Primal e) (hq : x.q ≠ e.q) :
    FirstAfterSkipping s e.q x y ↔ (delete s e).next x = y := by
  have := delete_skip h he hx hq
  exact ⟨fun h1 => skip_unique this h1, fun h1 => h1 ▸ this⟩

/-! ## Connect and Swap -/

/-- Splicing an edge that is alone with another one puts it in after that one. -/
theorem attach_next {s : Store P} (h : Inv s) {e c : E} (hk : Primal e ↔ Primal c)
    (he : s.next e = e) {x : E} (hx : Primal x ↔ Primal e) :
    (splice s e c).next x = if x = e then s.next c else if x = c then e else s.next x := by
  rw [splice_next_kind h hk hx]
  by_cases h1 : x = e
  · rw [if_pos h1, if_pos h1]
  · rw [if_neg h1, if_neg h1]
    by_cases h2 : x = c
    · rw [if_pos h2, if_pos h2, he]
    · rw [if_neg h2, if_neg h2]

theorem inv_lnext_kind {s : Store P} (h : Inv s) (e : E) : Primal (lnext s e) ↔ Primal e := by
  rw [Inv.lnext_eq, h.kind_oprev, primal_sym]

theorem inv_lnext_alloc {s : Store P} (h : Inv s) (e : E) :
    (lnext s e).q < s.size ↔ e.q < s.size := by
  rw [Inv.lnext_eq, h.alloc_oprev, sym_q]

theorem newE_next {s : Store P} (o d : Option P) (x : E) (hx : x.q < s.size) :
    (newWithEndPoints s o d).1.next x = s.next x := by
  show (if x.q = s.size then _ else _) = _
  rw [if_neg (by omega)]

theorem newE_self {s : Store P} (o d : Option P) :
    (newWithEndPoints s o d).1.next ⟨s.size, 0⟩ = ⟨s.size, 0⟩ := by
  show (if s.size = s.size then _ else _) = _
  rw [if_pos rfl]; rfl

theorem newE_sym {s : Store P} (o d : Option P) :
    (newWithEndPoints s o d).1.next (sym ⟨s.size, 0⟩) = sym ⟨s.size, 0⟩ := by
  show (if (sym ⟨s.size, 0⟩ : E).q = s.size then _ else _) = _
  rw [if_pos (sym_q _)]; rfl

section connect
variable {s : Store P}

theorem inv_connectTo (h : Inv s) {a b : E} (ha : a.q < s.size) (hb : b.q < s.size)
    (ka : Primal a) (kb : Primal b) : Inv (connectTo s a b).1 := by
  have h0 := inv_newWithEndPoints h (dest s a) (orig s b)
  have ke : Primal (⟨s.size, 0⟩ : E) := Or.inl rfl
  have a0 : a.q < (newWithEndPoints s (dest s a) (orig s b)).1.size := Nat.lt_succ_of_lt ha
  have h1 := inv_splice h0 (a := ⟨s.size, 0⟩)
    (b := lnext (newWithEndPoints s (dest s a) (orig s b)).1 a) (Nat.lt_succ_self _)
    ((inv_lnext_alloc h0 a).2 a0) (by rw [inv_lnext_kind h0]; exact iff_of_true ke ka)
  exact inv_splice h1 (a := sym ⟨s.size, 0⟩) (b := b) (by rw [sym_q]; exact Nat.lt_succ_self _)
    (Nat.lt_succ_of_lt hb) (by rw [primal_sym]; exact iff_of_true ke kb)

theorem inv_connectNil (h : Inv s) {a : E} (ha : a.q < s.size)
    (ka : Primal a) : Inv (connectNil s a).1 := by
  have h0 := inv_newWithEndPoints h (dest s a) none
  have ke : Primal (⟨s.size, 0⟩ : E) := Or.inl rfl
  have a0 : a.q < (newWithEndPoints s (dest s a) none).1.size := Nat.lt_succ_of_lt ha
  exact inv_splice h0 (a := ⟨s.size, 0⟩)
    (b := lnext (newWithEndPoints s (dest s a) none).1 a) (Nat.lt_succ_self _)
    ((inv_lnext_alloc h0 a).2 a0) (by rw [inv_lnext_kind h0]; exact iff_of_true ke ka)

/-- The successors after `Connect`. -/
theorem connect_next (h : Inv s) {a b : E} (ha : a.q < s.size) (hb : b.q < s.size)
    (ka : Primal a) (kb : Primal b) {x : E} (kx : Primal x) (hx : x.q ≤ s.size) :
    ∃ L : E, L.q < s.size ∧ Primal L ∧ s.next L = sym a ∧
    (connectTo s a b).1.next x =
      if x = sym ⟨s.size, 0⟩ then (if b = L then ⟨s.size, 0⟩ else s.next b)
      else if x = b then sym ⟨s.size, 0⟩
      else if x = ⟨s.size, 0⟩ then sym a
      else if x = L then ⟨s.size, 0⟩
      else s.next x := by
  have h0 := inv_newWithEndPoints h (dest s a) (orig s b)
  have ke : Primal (⟨s.size, 0⟩ : E) := Or.inl rfl
  have kse : Primal (sym ⟨s.size, 0⟩ : E) := (primal_sym _).2 ke
  have a0 : a.q < (newWithEndPoints s (dest s a) (orig s b)).1.size := Nat.lt_succ_of_lt ha
  have kL : Primal (lnext (newWithEndPoints s (dest s a) (orig s b)).1 a) := by
    rw [inv_lnext_kind h0]; exact ka
  have nL0 : (newWithEndPoints s (dest s a) (orig s b)).1.next
      (lnext (newWithEndPoints s (dest s a) (orig s b)).1 a) = sym a := by
    rw [Inv.lnext_eq, h0.next_oprev]
  have qL0 := (inv_lnext_alloc h0 a).2 a0
  have h1 := inv_splice h0 (a := ⟨s.size, 0⟩)
    (b := lnext (newWithEndPoints s (dest s a) (orig s b)).1 a) (Nat.lt_succ_self _)
    qL0 (by rw [inv_lnext_kind h0]; exact iff_of_true ke ka)
  unfold connectTo
  simp only [show (newWithEndPoints s (dest s a) (orig s b)).2 = ⟨s.size, 0⟩ from rfl]
  generalize lnext (newWithEndPoints s (dest s a) (orig s b)).1 a = L at *
  have qL : L.q < s.size := by
    rcases Nat.lt_or_ge L.q s.size with h2 | h2
    · exact h2
    · exfalso
      have h3 : L.q = s.size := Nat.le_antisymm (Nat.lt_succ_iff.1 qL0) h2
      rcases same_quad (x := L) (e := ⟨s.size, 0⟩) h3 (iff_of_true kL ke) with h4 | h4
      · rw [h4, newE_self] at nL0
        have := congrArg E.q nL0; rw [sym_q] at this; simp at this; omega
      · rw [h4, newE_sym] at nL0
        have := congrArg E.q nL0; rw [sym_q, sym_q] at this; simp at this; omega
  refine ⟨L, qL, kL, ?_, ?_⟩
  · rw [← newE_next (dest s a) (orig s b) L qL, nL0]
  have nse : (splice (newWithEndPoints s (dest s a) (orig s b)).1 ⟨s.size, 0⟩ L).next
      (sym ⟨s.size, 0⟩) = sym ⟨s.size, 0⟩ := by
    rw [attach_next h0 (iff_of_true ke kL) (newE_self _ _) (iff_of_true kse ke),
      if_neg (sym_ne _), if_neg, newE_sym]
    intro h2
    have := congrArg E.q h2; rw [sym_q] at this; simp at this; omega
  rw [attach_next h1 (iff_of_true kse kb) nse (iff_of_true kx kse),
    attach_next h0 (iff_of_true ke kL) (newE_self _ _) (iff_of_true kb ke),
    attach_next h0 (iff_of_true ke kL) (newE_self _ _) (iff_of_true kx ke), nL0]
  have nb : b ≠ ⟨s.size, 0⟩ := by
    intro h2
    have := congrArg E.q h2; simp at this; omega
  by_cases c1 : x = sym ⟨s.size, 0⟩
  · rw [if_pos c1, if_pos c1, if_neg nb, newE_next _ _ _ hb]
  · rw [if_neg c1, if_neg c1]
    by_cases c2 : x = b
    · rw [if_pos c2, if_pos c2]
    · rw [if_neg c2, if_neg c2]
      by_cases c3 : x = ⟨s.size, 0⟩
      · rw [if_pos c3, if_pos c3]
      · rw [if_neg c3, if_neg c3]
        by_cases c4 : x = L
        · rw [if_pos c4, if_pos c4]
        · rw [if_neg c4, if_neg c4, newE_next]
          rcases Nat.lt_or_ge x.q s.size with h2 | h2
          · exact h2
          · exfalso
            have h3 : x.q = s.size := Nat.le_antisymm hx h2
            rcases same_quad (x := x) (e := ⟨s.size, 0⟩) h3 (iff_of_true kx ke) with h4 | h4
            · exact c3 h4
            · exact c1 h4

end connect

end Verif.Lemmas.Quad
