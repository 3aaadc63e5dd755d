import Verif.Lemmas.QuadSwap
import Mathlib.Data.List.Basic
import Mathlib.Data.Finset.Card
import Mathlib.Data.Finset.Range

/-!
# Helper lemmas for the quad-edge structure: walking round a vertex
-/

namespace Verif.Lemmas.Quad
open Verif.Quad Verif.Spec.Quad

variable {P : Type} {s : Store P}

/-- The two walks, for any step. -/
def walk (f : E → E) (cont : E → Bool) : Nat → List Nat → E → List E
  | 0, _, _ => []
  | fuel + 1, seen, e =>
    if e.q ∈ seen then []
    else if cont e then e :: walk f cont fuel (e.q :: seen) (f e)
    else [e]

theorem walkONext_eq (cont : E → Bool) (n : Nat) (seen : List Nat) (e : E) :
    walkONext s cont n seen e = walk s.next cont n seen e := by
  induction n generalizing seen e with
  | zero => rfl
  | succ n ih => simp only [walkONext, walk, ih, onext]

theorem walkOPrev_eq (cont : E → Bool) (n : Nat) (seen : List Nat) (e : E) :
    walkOPrev s cont n seen e = walk (oprev s) cont n seen e := by
  induction n generalizing seen e with
  | zero => rfl
  | succ n ih => simp only [walkOPrev, walk, ih]

theorem onceRound_exists {f : E → E} {e : E} (hinj : Function.Injective f)
    (hp : ∃ n : Nat, 0 < n ∧ f^[n] e = e) : ∃ L, OnceRound f e L := by
  classical
  have h1 := Nat.find_spec hp
  have h2 : ∀ m, m < Nat.find hp → ¬ (0 < m ∧ f^[m] e = e) := fun m hm => Nat.find_min hp hm
  generalize Nat.find hp = n at h1 h2
  refine ⟨(List.range n).map (fun i => f^[i] e), ?_⟩
  unfold OnceRound
  simp only [List.length_map, List.length_range]
  refine ⟨h1.1, trivial, ?_, h1.2⟩
  rw [List.nodup_map_iff_inj_on List.nodup_range]
  have key : ∀ i j, i < j → j < n → f^[i] e ≠ f^[j] e := by
    intro i j hij hj he
    apply h2 (j - i) (by omega)
    refine ⟨by omega, ?_⟩
    apply hinj.iterate i
    rw [← Function.iterate_add_apply, Nat.add_sub_cancel' (by omega), he]
  intro i hi j hj he
  rw [List.mem_range] at hi hj
  rcases Nat.lt_trichotomy i j with c | c | c
  · exact absurd he (key i j c hj)
  · exact c
  · exact absurd he.symm (key j i c hi)

theorem onceRound_get {f : E → E} {e : E} {L : List E} (h : OnceRound f e L) (i : Nat)
    (hi : i < L.length) : L[i] = f^[i] e := by
  obtain ⟨_, h2, _, _⟩ := h
  have : L[i] = ((List.range L.length).map (fun i => f^[i] e))[i]'(by simpa using hi) := by
    congr 1
  rw [this]; simp

theorem onceRound_mem {f : E → E} {e y : E} {L : List E} (h : OnceRound f e L) :
    y ∈ L ↔ ∃ n : Nat, f^[n] e = y := by
  obtain ⟨h1, h2, h3, h4⟩ := h
  constructor
  · intro hy
    rw [h2, List.mem_map] at hy
    obtain ⟨i, _, hi⟩ := hy
    exact ⟨i, hi⟩
  · rintro ⟨n, rfl⟩
    rw [h2, List.mem_map]
    refine ⟨n % L.length, List.mem_range.2 (Nat.mod_lt _ h1), ?_⟩
    conv_rhs => rw [← Nat.mod_add_div n L.length]
    rw [Function.iterate_add_apply]
    congr 1
    have : ∀ k : Nat, f^[L.length * k] e = e := by
      intro k
      induction k with
      | zero => rfl
      | succ k ih => rw [Nat.mul_succ, Function.iterate_add_apply, h4, ih]
    exact (this _).symm

theorem onceRound_unique {f : E → E} {e : E} {L L' : List E} (h : OnceRound f e L)
    (h' : OnceRound f e L') : L = L' := by
  have key : ∀ {L L' : List E}, OnceRound f e L → OnceRound f e L' → L.length ≤ L'.length := by
    intro L L' h h'
    by_contra hc
    have hlt : L'.length < L.length := by omega
    have h0 : 0 < L.length := h.1
    have e1 := onceRound_get h L'.length hlt
    have e2 := onceRound_get h 0 h0
    rw [h'.2.2.2] at e1
    have : L[L'.length] = L[0] := by rw [e1, e2]; rfl
    have := (List.Nodup.getElem_inj_iff h.2.2.1).1 this
    have := h'.1
    omega
  have hl := Nat.le_antisymm (key h h') (key h' h)
  rw [h.2.1, h'.2.1, hl]

theorem walk_aux {f : E → E} {e : E} {L : List E} (h : OnceRound f e L)
    (hq : (L.map E.q).Nodup) (cont : E → Bool) :
    ∀ (fuel i : Nat) (seen : List Nat), i ≤ L.length → L.length ≤ i + fuel →
      (∀ q, q ∈ seen ↔ ∃ j, j < i ∧ (f^[j] e).q = q) →
      walk f cont fuel seen (f^[i] e) = upTo cont (L.drop i) := by
  intro fuel
  induction fuel with
  | zero =>
    intro i seen h1 h2 _
    have : L.drop i = [] := List.drop_eq_nil_of_le (by omega)
    rw [this]; rfl
  | succ fuel ih =>
    intro i seen h1 h2 h3
    rcases Nat.eq_or_lt_of_le h1 with h4 | h4
    · have : L.drop i = [] := List.drop_eq_nil_of_le (by omega)
      rw [this]
      unfold walk
      rw [if_pos]
      · rfl
      · rw [h3, h4, h.2.2.2]
        exact ⟨0, h.1, rfl⟩
    · rw [List.drop_eq_getElem_cons h4, onceRound_get h i h4]
      unfold walk
      have hn : (f^[i] e).q ∉ seen := by
        rw [h3]
        rintro ⟨j, hj, he⟩
        have hj' : j < L.length := by omega
        rw [← onceRound_get h i h4, ← onceRound_get h j hj'] at he
        have e1 : (L.map E.q)[j]'(by simpa using hj') = (L.map E.q)[i]'(by simpa using h4) := by
          simpa using he
        have := (List.Nodup.getElem_inj_iff hq).1 e1
        omega
      rw [if_neg hn]
      simp only [upTo]
      by_cases hc : cont (f^[i] e)
      · rw [if_pos hc, if_pos hc]
        congr 1
        rw [← Function.iterate_succ_apply' f i e]
        apply ih (i + 1) _ h4 (by omega)
        intro q
        rw [List.mem_cons, h3]
        constructor
        · rintro (h5 | ⟨j, hj, h5⟩)
          · exact ⟨i, by omega, h5.symm⟩
          · exact ⟨j, by omega, h5⟩
        · rintro ⟨j, hj, h5⟩
          rcases Nat.eq_or_lt_of_le (Nat.lt_succ_iff.1 hj) with h6 | h6
          · left; rw [← h5, h6]
          · right; exact ⟨j, h6, h5⟩
      · rw [if_neg hc, if_neg hc]

theorem nodup_lt_length : ∀ {l : List Nat} {n : Nat}, l.Nodup → (∀ q ∈ l, q < n) → l.length ≤ n := by
  intro l n h1 h2
  have : l.toFinset ⊆ Finset.range n := by
    intro q hq
    rw [List.mem_toFinset] at hq
    exact Finset.mem_range.2 (h2 q hq)
  have := Finset.card_le_card this
  rwa [List.toFinset_card_of_nodup h1, Finset.card_range] at this

theorem walk_all {f : E → E} {e : E} {L : List E} (h : OnceRound f e L)
    (hq : (L.map E.q).Nodup) (hal : ∀ x ∈ L, x.q < s.size) (cont : E → Bool) :
    walk f cont s.size [] e = upTo cont L := by
  have hl : L.length ≤ s.size := by
    have := nodup_lt_length (n := s.size) hq (by
      intro q hq
      rw [List.mem_map] at hq
      obtain ⟨x, hx, rfl⟩ := hq
      exact hal x hx)
    simpa using this
  have := walk_aux h hq cont s.size 0 [] (Nat.zero_le _) (by omega) (by simp)
  simpa using this

theorem around_onceRound (h : Inv s) (e : E) : ∃ L, OnceRound s.next e L :=
  onceRound_exists (fun _ _ he => h.inj he) (h.periodic e)

theorem oprev_inj (h : Inv s) : Function.Injective (oprev s) := by
  intro a b he
  rw [← h.next_oprev a, he, h.next_oprev]

theorem oprev_iter (h : Inv s) (n : Nat) (x : E) : s.next^[n] ((oprev s)^[n] x) = x := by
  induction n generalizing x with
  | zero => rfl
  | succ n ih =>
    rw [Function.iterate_succ_apply, Function.iterate_succ_apply', h.next_oprev, ih]

theorem oprev_periodic (h : Inv s) (x : E) : ∃ n : Nat, 0 < n ∧ (oprev s)^[n] x = x := by
  obtain ⟨n, hn, hp⟩ := h.periodic x
  refine ⟨n, hn, ?_⟩
  have hinj : Function.Injective s.next := fun _ _ he => h.inj he
  apply hinj.iterate n
  rw [oprev_iter h, hp]

theorem oprev_onceRound (h : Inv s) (e : E) : ∃ L, OnceRound (oprev s) e L :=
  onceRound_exists (oprev_inj h) (oprev_periodic h e)

theorem mem_round {e y : E} {L : List E} (hL : OnceRound s.next e L) :
    y ∈ L ↔ Around s e y := by
  rw [onceRound_mem hL, around_iff]

theorem mem_round_oprev (h : Inv s) {e y : E} {L : List E} (hL : OnceRound (oprev s) e L) :
    y ∈ L ↔ Around s e y := by
  rw [onceRound_mem hL]
  constructor
  · rintro ⟨n, rfl⟩
    apply h.around_symm
    rw [around_iff]
    exact ⟨n, oprev_iter h n e⟩
  · intro hy
    obtain ⟨n, hn⟩ := around_iff.1 (h.around_symm hy)
    refine ⟨n, ?_⟩
    have hinj : Function.Injective s.next := fun _ _ he => h.inj he
    apply hinj.iterate n
    rw [oprev_iter h, hn]

theorem round_alloc (h : Inv s) {e : E} (he : e.q < s.size) {x : E} (hx : Around s e x) :
    x.q < s.size := (h.around_alloc hx).2 he

/-! ## Looking for a destination -/

theorem nodup_alloc_length {L : List E} {n : Nat} (h1 : L.Nodup) (h2 : ∀ x ∈ L, x.q < n) :
    L.length ≤ 4 * n := by
  have h3 : (L.map fun x => 4 * x.q + x.num.val).Nodup := by
    rw [List.nodup_map_iff_inj_on h1]
    intro x _ y _ he
    obtain ⟨q, m, hm⟩ := x
    obtain ⟨q', m', hm'⟩ := y
    simp only at he
    have : q = q' := by omega
    have : m = m' := by omega
    subst_vars; rfl
  have := nodup_lt_length (n := 4 * n) h3 (by
    intro q hq
    rw [List.mem_map] at hq
    obtain ⟨x, hx, rfl⟩ := hq
    have := h2 x hx
    have := x.num.isLt
    omega)
  simpa using this

theorem findLoop_aux {hit : P → Bool} {e : E} {L : List E} (h : OnceRound s.next e L)
    (hd : ∀ x ∈ L, dest s x ≠ none) :
    ∀ (fuel i : Nat), 0 < i → i ≤ L.length → L.length ≤ i + fuel →
      findLoop s hit e fuel (s.next^[i] e) =
        some ((L.drop i).find? fun x => (dest s x).elim false hit) := by
  intro fuel
  induction fuel with
  | zero =>
    intro i _ h1 h2
    have : L.drop i = [] := List.drop_eq_nil_of_le (by omega)
    rw [this]; rfl
  | succ fuel ih =>
    intro i h0 h1 h2
    rcases Nat.eq_or_lt_of_le h1 with h4 | h4
    · have : L.drop i = [] := List.drop_eq_nil_of_le (by omega)
      rw [this]
      unfold findLoop
      rw [if_pos]
      · rfl
      · rw [h4, h.2.2.2]
    · have hi := onceRound_get h i h4
      rw [List.drop_eq_getElem_cons h4, hi]
      unfold findLoop
      have hn : s.next^[i] e ≠ e := by
        intro he
        have e2 := onceRound_get h 0 h.1
        have : L[i] = L[0]'h.1 := by rw [hi, he, e2]; rfl
        have := (List.Nodup.getElem_inj_iff h.2.2.1).1 this
        omega
      rw [if_neg hn]
      have hdi := hd (s.next^[i] e) (by rw [← hi]; exact List.getElem_mem h4)
      unfold destHits
      cases hD : dest s (s.next^[i] e) with
      | none => exact absurd hD hdi
      | some p =>
        cases hP : hit p with
        | true =>
          rw [List.find?_cons_of_pos (by simp [hD, hP])]
          simp [hP]
        | false =>
          rw [List.find?_cons_of_neg (by simp [hD, hP])]
          simp only [Option.map_some, hP]
          have := ih (i + 1) (by omega) h4 (by omega)
          rw [Function.iterate_succ_apply'] at this
          exact this

theorem find_all {hit : P → Bool} {e : E} {L : List E} (h : OnceRound s.next e L)
    (hal : ∀ x ∈ L, x.q < s.size) (hd : ∀ x ∈ L, dest s x ≠ none) :
    findONextDest s hit e = some (L.find? fun x => (dest s x).elim false hit) := by
  have hlen := nodup_alloc_length h.2.2.1 hal
  have h0 := onceRound_get h 0 h.1
  have hL : L = e :: L.drop 1 := by
    have := List.drop_eq_getElem_cons h.1
    rw [List.drop_zero, h0] at this
    exact this
  have hde := hd e (by rw [hL]; exact List.mem_cons_self)
  have key := findLoop_aux (hit := hit) h hd (4 * s.size) 1 (by omega) h.1 (by omega)
  unfold findONextDest destHits
  cases hD : dest s e with
  | none => exact absurd hD hde
  | some p =>
    rw [hL]
    cases hP : hit p with
    | true =>
      rw [List.find?_cons_of_pos (by simp [hD, hP])]
      simp [hP]
    | false =>
      rw [List.find?_cons_of_neg (by simp [hD, hP])]
      simp only [Option.map_some, hP]
      exact key

/-! ## Reached stores -/

theorem Reached.inv (h : Reached s) : Inv s := by
  induction h with
  | empty => exact inv_empty
  | new _ ih => exact inv_new ih
  | newWithEndPoints o d _ ih => exact inv_newWithEndPoints ih o d
  | endPoints e o d _ _ ih => exact inv_endPoints ih e o d
  | splice a b _ ha hb hk ih => exact inv_splice ih ha hb hk
  | connect a b _ ha hb ka kb ih => exact inv_connectTo ih ha hb ka kb
  | connectNil a _ ha ka ih => exact inv_connectNil ih ha ka
  | swap e _ he ih => exact inv_swap ih he
  | delete e _ he ih => exact inv_delete ih he

theorem new_eq (s : Store P) : (new s).1 = (newWithEndPoints s none none).1 := by
  show Store.mk _ _ _ = Store.mk _ _ _
  congr 1
  funext x
  show _ = (if x = sym ⟨s.size, 0⟩ then _ else if x = ⟨s.size, 0⟩ then _
    else if x.q = s.size then _ else s.v x)
  by_cases c1 : x = sym ⟨s.size, 0⟩
  · rw [if_pos c1, if_pos (by rw [c1, sym_q])]
  · rw [if_neg c1]
    by_cases c2 : x = ⟨s.size, 0⟩
    · rw [if_pos c2, if_pos (by rw [c2])]
    · rw [if_neg c2]

theorem Built.inv_origins (h : Built s) : Inv s ∧ OriginsAgree s := by
  induction h with
  | empty =>
    refine ⟨inv_empty, ?_⟩
    rw [origins_iff inv_empty]
    intro x _; rfl
  | new _ ih =>
    refine ⟨inv_new ih.1, ?_⟩
    rw [new_eq]; exact origins_new ih.1 ih.2 _ _
  | newWithEndPoints o d _ ih => exact ⟨inv_newWithEndPoints ih.1 o d, origins_new ih.1 ih.2 o d⟩
  | splice a b _ ha hb ka kb hv ih =>
    exact ⟨inv_splice ih.1 ha hb (iff_of_true ka kb), origins_splice ih.1 ih.2 ha hb ka kb hv⟩
  | connect a b _ ha hb ka kb ih =>
    exact ⟨inv_connectTo ih.1 ha hb ka kb, origins_connect ih.1 ih.2 ha hb ka kb⟩
  | swap e _ he ke hT ih => exact ⟨inv_swap ih.1 he, origins_swap ih.1 ih.2 he ke hT⟩
  | delete e _ he ke ih => exact ⟨inv_delete ih.1 he, origins_delete ih.1 ih.2 he ke⟩

theorem Inv.algebra (h : Inv s) : Algebra s where
  rot4 := rot4
  rot_ne := fun e => by rw [rot_rot]; exact sym_ne e
  sym_rot := sym_rot
  inv_rot := invRot_rot
  rot_inv := rot_invRot
  oprev_onext := h.oprev_next
  onext_oprev := h.next_oprev
  dprev_dnext := by
    intro e
    unfold dprev dnext onext
    rw [invRot_sym, ← sym_rot', h.inv, sym_sym]
  dnext_dprev := by
    intro e
    unfold dprev dnext onext
    rw [sym_invRot, sym_rot, h.inv, rot_invRot]
  lprev_lnext := by
    intro e
    unfold lprev
    show sym (s.next (lnext s e)) = e
    rw [next_lnext h, sym_sym]
  lnext_lprev := by
    intro e
    unfold lprev onext
    rw [Inv.lnext_eq, sym_sym, h.oprev_next]
  rprev_rnext := by
    intro e
    unfold rprev rnext onext
    rw [sym_invRot, h.inv']
  rnext_rprev := by
    intro e
    unfold rprev rnext onext
    rw [← sym_rot', h.inv, sym_sym]
  dual := by
    intro e
    unfold oprev; rw [invRot_rot]

end Verif.Lemmas.Quad
