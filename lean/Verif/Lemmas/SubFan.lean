import Verif.Lemmas.SubTables

/-!
# Helper lemmas: connecting the corners of a face to a new point
-/

namespace Verif.Lemmas.SubFan
open Verif.Quad Verif.Spec.Quad Verif.Lemmas.Quad Verif.Spec.Subdivision Verif.Subdivision
open Verif.Resolve Verif.Spec.Resolve Verif.Lemmas.Resolve Verif.Lemmas.SubLocate Verif.Lemmas.SubTables

set_option linter.unusedSectionVars false

variable {K : Type} [Field K] [LinearOrder K] {s0 s : Store (Pt K)}

attribute [local irreducible] splice delete swap connectTo

/-- The left face of the edges `e 0` to `e m`, with the corners `c 0` to `c m`. -/
structure Poly (s0 : Store (Pt K)) (e : Nat → E) (c : Nat → Pt K) (m : Nat) : Prop where
  primal : ∀ i ≤ m, Primal (e i)
  alloc : ∀ i ≤ m, (e i).q < s0.size
  orig : ∀ i ≤ m, s0.v (e i) = some (c i)
  next : ∀ i < m, lnext s0 (e i) = e (i + 1)
  last : lnext s0 (e m) = e 0
  inj : ∀ i ≤ m, ∀ j ≤ m, e i = e j → i = j

/-- The edge from the corner `i` to the new point. -/
def spoke (s0 : Store (Pt K)) (i : Nat) : E := ⟨s0.size + i, 0⟩

theorem spoke_primal (i : Nat) : Primal (spoke s0 i) := Or.inl rfl
theorem spoke_q (i : Nat) : (spoke s0 i).q = s0.size + i := rfl

/-- The corners 0 to `j` are connected to the point `x`. -/
structure Fan (s0 s : Store (Pt K)) (e : Nat → E) (c : Nat → Pt K) (x : Pt K) (m j : Nat) : Prop where
  reached : Reached s
  agree : OriginsAgree s
  size : s.size = s0.size + j + 1
  old : ∀ y, Primal y → y.q < s0.size → (∀ i ≤ m, y ≠ e i) → lnext s y = lnext s0 y
  cut : ∀ i < j, lnext s (e i) = spoke s0 (i + 1)
  keep : ∀ i, j ≤ i → i < m → lnext s (e i) = e (i + 1)
  close : lnext s (e m) = spoke s0 0
  back : ∀ i < j, lnext s (spoke s0 (i + 1)) = sym (spoke s0 i)
  first : lnext s (spoke s0 0) = sym (spoke s0 j)
  out : ∀ i ≤ j, lnext s (sym (spoke s0 i)) = e i
  v_old : ∀ y, y.q < s0.size → s.v y = s0.v y
  v_new : ∀ i ≤ j, s.v (spoke s0 i) = some (c i) ∧ s.v (sym (spoke s0 i)) = some x

theorem ne_spoke {y : E} {i : Nat} (h : y.q < s0.size) : y ≠ spoke s0 i := by
  rintro rfl; rw [spoke_q] at h; omega

theorem ne_sym_spoke {y : E} {i : Nat} (h : y.q < s0.size) : y ≠ sym (spoke s0 i) := by
  rintro rfl; rw [sym_q, spoke_q] at h; omega

theorem spoke_inj {i j : Nat} (h : spoke s0 i = spoke s0 j) : i = j := by
  have := congrArg E.q h
  rw [spoke_q, spoke_q] at this
  omega

theorem sym_spoke_inj {i j : Nat} (h : sym (spoke s0 i) = sym (spoke s0 j)) : i = j :=
  spoke_inj (sym_inj h)

theorem spoke_ne_sym (i j : Nat) : spoke s0 i ≠ sym (spoke s0 j) := by
  intro h
  have := congrArg E.num h
  revert this
  show (0 : Fin 4) ≠ 2
  decide

theorem dest_lnext (hi : Inv s) (ha : OriginsAgree s) {e : E} (k : Primal e) :
    dest s e = orig s (lnext s e) := by
  unfold dest
  exact ha (lnext s e) (sym e) ((inv_lnext_kind hi e).2 k) (by rw [← next_lnext hi e]; exact .next .refl)

theorem fan_zero (hr : Reached s0) (ha : OriginsAgree s0) {e : Nat → E} {c : Nat → Pt K} {m : Nat} (x : Pt K)
    (hp : Poly s0 e c m) (hm : 0 < m) :
    Fan s0 (splice (newWithEndPoints s0 (orig s0 (e 0)) (some x)).1 ⟨s0.size, 0⟩ (e 0)) e c x m 0 := by
  have hi := Reached.inv hr
  have q0 := hp.alloc 0 (Nat.zero_le _)
  have k0 := hp.primal 0 (Nat.zero_le _)
  have kn : Primal (⟨s0.size, 0⟩ : E) := Or.inl rfl
  have T := fun {y : E} (ky : Primal y) (hy : y.q ≤ s0.size) =>
    (hang_table hi q0 k0 hp.last (orig s0 (e 0)) (some x) ky hy).2
  have qm := hp.alloc m le_rfl
  have km := hp.primal m le_rfl
  have sp : (⟨s0.size, 0⟩ : E) = spoke s0 0 := rfl
  have a0 : (e 0).q < (newWithEndPoints s0 (orig s0 (e 0)) (some x)).1.size := Nat.lt_succ_of_lt q0
  refine ⟨?_, ?_, by rw [splice_size]; rfl, ?_, fun i h => absurd h (Nat.not_lt_zero _), ?_, ?_,
    fun i h => absurd h (Nat.not_lt_zero _), ?_, ?_, ?_, ?_⟩
  · exact .splice _ _ (.newWithEndPoints _ _ hr) (Nat.lt_succ_self _) a0 (iff_of_true kn k0)
  · refine origins_splice (inv_newWithEndPoints hi _ _) (origins_new hi ha _ _) (Nat.lt_succ_self _) a0 kn k0 ?_
    rw [newE_v_self, newE_v _ _ q0]; rfl
  · intro y ky hy hne
    rw [T ky hy.le, if_neg (hne m le_rfl), if_neg (ne_new hy), if_neg (ne_new_sym hy)]
  · intro i _ him
    have := hp.alloc i him.le
    rw [T (hp.primal i him.le) this.le, if_neg, if_neg (ne_new this), if_neg (ne_new_sym this), hp.next i him]
    exact fun h => absurd (hp.inj i him.le m le_rfl h) him.ne
  · rw [T km qm.le, if_pos rfl, sp]
  · rw [← sp, T kn le_rfl, if_neg (ne_new qm).symm, if_pos rfl]
  · intro i hi0
    obtain rfl : i = 0 := by omega
    rw [← sp, T ((primal_sym _).2 kn) (by rw [sym_q]), if_neg (ne_new_sym qm).symm, if_neg (sym_ne _),
      if_pos rfl]
  · intro y hy
    rw [splice_v, newE_v _ _ hy]
  · intro i hi0
    obtain rfl : i = 0 := by omega
    rw [splice_v, ← sp, newE_v_self, newE_v_sym]
    exact ⟨hp.orig 0 (Nat.zero_le _), rfl⟩

theorem fan_step {e : Nat → E} {c : Nat → Pt K} {m j : Nat} {x : Pt K} (hp : Poly s0 e c m)
    (hf : Fan s0 s e c x m j) (hj : j < m) :
    (connectTo s (e j) (sym (spoke s0 j))).2 = spoke s0 (j + 1) ∧
    Fan s0 (connectTo s (e j) (sym (spoke s0 j))).1 e c x m (j + 1) := by
  have hi := Reached.inv hf.reached
  have sz := hf.size
  have sp : (⟨s.size, 0⟩ : E) = spoke s0 (j + 1) := by rw [sz]; rfl
  have qo : ∀ {y : E}, y.q < s0.size → y.q < s.size := fun h => by omega
  have qe := fun i hi => hp.alloc i hi
  have ks := fun i => spoke_primal (s0 := s0) i
  have kss := fun i => (primal_sym _).2 (spoke_primal (s0 := s0) i)
  have qb : (sym (spoke s0 j)).q < s.size := by rw [sym_q, spoke_q]; omega
  have hlj := hf.keep j le_rfl hj
  have hne : lnext s (e j) ≠ sym (spoke s0 j) := by
    rw [hlj]; exact ne_sym_spoke (qe (j + 1) hj)
  have T : ∀ {y : E}, Primal y → y.q ≤ s.size → lnext (connectTo s (e j) (sym (spoke s0 j))).1 y =
      if y = e j then spoke s0 (j + 1) else if y = spoke s0 (j + 1) then sym (spoke s0 j)
      else if y = sym (spoke s0 (j + 1)) then e (j + 1)
      else if y = spoke s0 0 then sym (spoke s0 (j + 1)) else lnext s y := by
    intro y ky hy
    rw [connect_table hi (qo (qe j hj.le)) qb (hp.primal j hj.le) (kss j) hne hf.first ky hy, sp, hlj]
  have V : (connectTo s (e j) (sym (spoke s0 j))).1.v =
      (newWithEndPoints s (dest s (e j)) (orig s (sym (spoke s0 j)))).1.v := connect_v _ _
  refine ⟨by rw [← sp]; unfold connectTo; rfl, ?_, ?_, ?_, ?_, ?_, ?_, ?_, ?_, ?_, ?_, ?_, ?_⟩
  · exact .connect _ _ hf.reached (qo (qe j hj.le)) qb (hp.primal j hj.le) (kss j)
  · exact origins_connect hi hf.agree (qo (qe j hj.le)) qb (hp.primal j hj.le) (kss j)
  · rw [connect_size, sz]; omega
  · intro y ky hy hnq
    rw [T ky (qo hy).le, if_neg (hnq j hj.le), if_neg (ne_spoke hy), if_neg (ne_sym_spoke hy),
      if_neg (ne_spoke hy), hf.old y ky hy hnq]
  · intro i hij
    have q := qe i (by omega)
    rw [T (hp.primal i (by omega)) (qo q).le]
    by_cases h : i = j
    · rw [h, if_pos rfl]
    · rw [if_neg (fun h' => h (hp.inj i (by omega) j hj.le h')), if_neg (ne_spoke q),
        if_neg (ne_sym_spoke q), if_neg (ne_spoke q), hf.cut i (by omega)]
  · intro i hij him
    have q := qe i him.le
    rw [T (hp.primal i him.le) (qo q).le, if_neg, if_neg (ne_spoke q),
        if_neg (ne_sym_spoke q), if_neg (ne_spoke q), hf.keep i (by omega) him]
    intro h
    have := hp.inj i him.le j hj.le h
    omega
  · have q := qe m le_rfl
    rw [T (hp.primal m le_rfl) (qo q).le, if_neg, if_neg (ne_spoke q),
        if_neg (ne_sym_spoke q), if_neg (ne_spoke q), hf.close]
    intro h
    have := hp.inj m le_rfl j hj.le h
    omega
  · intro i hij
    rw [T (ks _) (by rw [spoke_q]; omega), if_neg (ne_spoke (qe j hj.le)).symm]
    by_cases h : i = j
    · rw [h, if_pos rfl]
    · rw [if_neg (fun h' => h (by have := spoke_inj h'; omega)), if_neg (spoke_ne_sym _ _),
        if_neg (fun h' => by have := spoke_inj h'; omega), hf.back i (by omega)]
  · rw [T (ks _) (by rw [spoke_q]; omega), if_neg (ne_spoke (qe j hj.le)).symm,
      if_neg (fun h' => by have := spoke_inj h'; omega), if_neg (spoke_ne_sym _ _), if_pos rfl]
  · intro i hij
    rw [T (kss _) (by rw [sym_q, spoke_q]; omega), if_neg (ne_sym_spoke (qe j hj.le)).symm,
      if_neg (spoke_ne_sym _ _).symm]
    by_cases h : i = j + 1
    · rw [h, if_pos rfl]
    · rw [if_neg (fun h' => h (sym_spoke_inj h')), if_neg (spoke_ne_sym _ _).symm, hf.out i (by omega)]
  · intro y hy
    rw [V, newE_v _ _ (qo hy), hf.v_old y hy]
  · intro i hij
    rw [V]
    by_cases h : i = j + 1
    · rw [h, ← sp, newE_v_self, newE_v_sym, dest_lnext hi hf.agree (hp.primal j hj.le), hlj]
      refine ⟨?_, (hf.v_new j le_rfl).2⟩
      show s.v _ = _
      rw [hf.v_old _ (qe _ hj), hp.orig _ hj]
    · rw [newE_v _ _ (by rw [spoke_q]; omega), newE_v _ _ (by rw [sym_q, spoke_q]; omega)]
      exact hf.v_new i (by omega)

/-- `Connect` finds the edge to connect to. -/
theorem fan_connect {e : Nat → E} {c : Nat → Pt K} {m j : Nat} {x : Pt K} {yd : Bool} (hp : Poly s0 e c m)
    (hf : Fan s0 s e c x m j) (hj : j < m) (hx : x ≠ c (j + 1))
    (hres : resolveStep yd x (c j) (c 0) (c (j + 1)) = .a) :
    connect yd s (e j) (sym (spoke s0 j)) = some (connectTo s (e j) (sym (spoke s0 j))) := by
  have hi := Reached.inv hf.reached
  have hlj := hf.keep j le_rfl hj
  have d1 : dest s (e j) = some (c (j + 1)) := by
    rw [dest_lnext hi hf.agree (hp.primal j hj.le), hlj]
    show s.v _ = _
    rw [hf.v_old _ (hp.alloc _ hj), hp.orig _ hj]
  have d2 : dest s (sym (spoke s0 j)) = some (c j) := by
    unfold dest; rw [sym_sym]; exact (hf.v_new j le_rfl).1
  have d3 : dest s (onext s (sym (spoke s0 j))) = some (c 0) := by
    have : onext s (sym (spoke s0 j)) = sym (spoke s0 0) := by
      unfold onext; rw [← hf.first, next_lnext hi]
    rw [this]; unfold dest; rw [sym_sym]; exact (hf.v_new 0 (Nat.zero_le _)).1
  have d4 : orig s (sym (spoke s0 j)) = some x := (hf.v_new j le_rfl).2
  unfold connect
  rw [d1]
  have : resolveEdge (fun p q => decide (p = q)) yd s (sym (spoke s0 j)) (c (j + 1)) =
      .edge (sym (spoke s0 j)) := by
    unfold resolveEdge
    rw [d4]
    simp only [decide_eq_true_eq, if_neg hx]
    rw [hf.size, resolveLoop]
    simp only [List.not_mem_nil, if_false, d2, d3, hres]
  simp only [this, Resolved.candidate]

theorem fan_loop {e : Nat → E} {c : Nat → Pt K} {m : Nat} {x : Pt K} {yd : Bool} (hp : Poly s0 e c m)
    (hx : ∀ i ≤ m, x ≠ c i) (hres : ∀ j < m, resolveStep yd x (c j) (c 0) (c (j + 1)) = .a) :
    ∀ (fuel j : Nat) (s : Store (Pt K)), Fan s0 s e c x m j → j ≤ m → m - j < fuel →
      ∃ s', connectLoop yd (spoke s0 0) fuel s (spoke s0 j) (e j) = some (s', e m) ∧ Fan s0 s' e c x m m := by
  intro fuel
  induction fuel with
  | zero => intro j s _ _ h; exact absurd h (Nat.not_lt_zero _)
  | succ fuel ih =>
    intro j s hf hj hfu
    rw [connectLoop]
    by_cases h : j = m
    · subst h
      rw [if_pos hf.close]
      exact ⟨s, rfl, hf⟩
    · have hj' : j < m := by omega
      rw [if_neg (by rw [hf.keep j le_rfl hj']; exact ne_spoke (hp.alloc _ hj')),
        fan_connect hp hf hj' (hx _ hj') (hres j hj')]
      obtain ⟨h1, h2⟩ := fan_step hp hf hj'
      obtain ⟨s', h3, h4⟩ := ih (j + 1) _ h2 hj' (by omega)
      refine ⟨s', ?_, h4⟩
      have : oprev (connectTo s (e j) (sym (spoke s0 j))).1 (spoke s0 (j + 1)) = e (j + 1) := by
        rw [← h2.out (j + 1) le_rfl, Inv.lnext_eq, sym_sym]
      simp only [h1, this, h3]

theorem insertIn_fan {e : Nat → E} {c : Nat → Pt K} {m : Nat} {x : Pt K} {yd : Bool} (hr : Reached s0)
    (ha : OriginsAgree s0) (hp : Poly s0 e c m) (hm : 0 < m) (hm4 : m ≤ 4)
    (hx : ∀ i ≤ m, x ≠ c i) (hres : ∀ j < m, resolveStep yd x (c j) (c 0) (c (j + 1)) = .a) :
    ∃ s', insertIn yd s0 (e 0) x = some (s', spoke s0 0, e m) ∧ Fan s0 s' e c x m m := by
  have h0 := fan_zero hr ha x hp hm
  have sp : (⟨s0.size, 0⟩ : E) = spoke s0 0 := rfl
  obtain ⟨h1, h2⟩ := fan_step hp h0 hm
  obtain ⟨s', h3, h4⟩ := fan_loop hp hx hres (4 * s0.size + 4) 1 _ h2 hm (by omega)
  refine ⟨s', ?_, h4⟩
  unfold insertIn
  have r2 : (newWithEndPoints s0 (orig s0 (e 0)) (some x)).2 = spoke s0 0 := rfl
  simp only [r2]
  rw [sp] at h1 h2 h3 h0
  rw [fan_connect hp h0 hm (hx 1 hm) (hres 0 hm)]
  have : oprev (connectTo (splice (newWithEndPoints s0 (orig s0 (e 0)) (some x)).1 (spoke s0 0) (e 0)) (e 0)
      (sym (spoke s0 0))).1 (spoke s0 1) = e 1 := by
    rw [← h2.out 1 le_rfl, Inv.lnext_eq, sym_sym]
  simp only [h1, this, h3]

end Verif.Lemmas.SubFan
