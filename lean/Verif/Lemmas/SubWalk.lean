import Verif.Model.Subdivision
import Verif.Spec.Subdivision
import Verif.Lemmas.Resolve

/-!
# Helper lemmas: walking over all edges, and the vertex index
-/

set_option linter.unusedSectionVars false
set_option linter.unusedVariables false
set_option linter.unusedSimpArgs false

namespace Verif.Lemmas.SubWalk
open Verif.Quad Verif.Spec.Quad Verif.Lemmas.Quad Verif.Subdivision Verif.Spec.Subdivision

section Walk
variable {P : Type} {s : Store P}

theorem Connected.trans {a b c : E} (h1 : Connected s a b) (h2 : Connected s b c) : Connected s a c := by
  induction h2 with
  | refl => exact h1
  | next _ ih => exact ih.next
  | sym _ ih => exact ih.sym

theorem connected_primal (hi : Inv s) {a b : E} (h : Connected s a b) : Primal b ↔ Primal a := by
  induction h with
  | refl => exact Iff.rfl
  | next _ ih => exact (hi.kind _).trans ih
  | sym _ ih => exact (primal_sym _).trans ih

theorem connected_alloc (hi : Inv s) {a b : E} (h : Connected s a b) (ha : Allocated s a) : Allocated s b := by
  induction h with
  | refl => exact ha
  | @next y h ih => exact (hi.around_alloc (.next .refl : Around s y (onext s y))).2 ih
  | @sym y h ih => show (Quad.sym y).q < _; rw [sym_q]; exact ih

/-- What the loop does from a state in which `O` has been put out. -/
theorem walk_loop (hi : Inv s) : ∀ (fuel : Nat) (V S O : List E),
    (∀ x, x ∈ V ↔ x ∈ O ∨ sym x ∈ O) →
    (∀ x ∈ V, onext s x ∈ V ∨ onext s x ∈ S) →
    (∀ x ∈ O, Primal x ∧ Allocated s x) → (∀ x ∈ S, Primal x ∧ Allocated s x) →
    (O.map E.q).Nodup →
    2 * (s.size - O.length) + S.length ≤ fuel →
    let L := walkEdgesLoop s (fun _ => true) fuel V S
    ((O ++ L).map E.q).Nodup ∧ (∀ x ∈ L, ∃ y ∈ S, Connected s y x) ∧
      (∀ x, x ∈ O ∨ sym x ∈ O ∨ x ∈ S → ∀ y, Connected s x y → y ∈ O ++ L ∨ sym y ∈ O ++ L) := by
  intro fuel
  have closed : ∀ (V O : List E), (∀ x, x ∈ V ↔ x ∈ O ∨ sym x ∈ O) →
      (∀ x ∈ V, onext s x ∈ V) → ∀ x y, x ∈ V → Connected s x y → y ∈ V := by
    intro V O hV hc x y hx h
    induction h with
    | refl => exact hx
    | next _ ih => exact hc _ ih
    | @sym y _ ih =>
      rw [hV] at ih ⊢
      rw [sym_sym]
      exact ih.symm
  induction fuel with
  | zero =>
    intro V S O hV hc hO hS hn hf
    have : S = [] := List.length_eq_zero_iff.1 (by omega)
    subst this
    simp only [walkEdgesLoop, List.append_nil]
    refine ⟨hn, by simp, ?_⟩
    intro x hx y hy
    have hx' : x ∈ V := by rw [hV]; simpa using hx
    have := closed V O hV (fun x hx => (hc x hx).resolve_right (by simp)) x y hx' hy
    rwa [hV] at this
  | succ fuel ih =>
    intro V S O hV hc hO hS hn hf
    cases S with
    | nil =>
      simp only [walkEdgesLoop, List.append_nil]
      refine ⟨hn, by simp, ?_⟩
      intro x hx y hy
      have hx' : x ∈ V := by rw [hV]; simpa using hx
      have := closed V O hV (fun x hx => (hc x hx).resolve_right (by simp)) x y hx' hy
      rwa [hV] at this
    | cons e S =>
      simp only [walkEdgesLoop]
      by_cases hv : e ∈ V
      · simp only [if_pos hv]
        have := ih V S O hV (by
            intro x hx
            rcases hc x hx with h | h
            · exact Or.inl h
            · rcases List.mem_cons.1 h with h | h
              · left; rw [h]; exact hv
              · exact Or.inr h) hO (fun x hx => hS x (List.mem_cons_of_mem _ hx)) hn
          (by simp only [List.length_cons] at hf; omega)
        obtain ⟨h1, h2, h3⟩ := this
        refine ⟨h1, ?_, ?_⟩
        · intro x hx
          obtain ⟨y, hy, h⟩ := h2 x hx
          exact ⟨y, List.mem_cons_of_mem _ hy, h⟩
        · intro x hx
          apply h3
          rcases hx with hx | hx | hx
          · exact Or.inl hx
          · exact Or.inr (Or.inl hx)
          · rcases List.mem_cons.1 hx with h | h
            · rw [h]
              rcases (hV e).1 hv with h | h
              · exact Or.inl h
              · exact Or.inr (Or.inl h)
            · exact Or.inr (Or.inr h)
      · simp only [if_neg hv, if_true]
        obtain ⟨ke, ae⟩ := hS e List.mem_cons_self
        have hnO : e.q ∉ O.map E.q := by
          intro hm
          obtain ⟨o, ho, hq⟩ := List.mem_map.1 hm
          apply hv
          rw [hV]
          rcases Resolve.primal_same_q (hO o ho).1 ke hq with h | h
          · left; rw [← h]; exact ho
          · right; rw [← h]; exact ho
        have hn' : ((O ++ [e]).map E.q).Nodup := by
          rw [List.map_append, List.nodup_append]
          refine ⟨hn, by simp, ?_⟩
          intro a ha b hb
          rw [List.map_singleton, List.mem_singleton] at hb
          rintro rfl
          rw [hb] at ha
          exact hnO ha
        have hO' : ∀ x ∈ O ++ [e], Primal x ∧ Allocated s x := by
          intro x hx
          rcases List.mem_append.1 hx with h | h
          · exact hO x h
          · rw [List.mem_singleton.1 h]; exact ⟨ke, ae⟩
        have hlen : (O ++ [e]).length ≤ s.size := by
          have := nodup_lt_length (n := s.size) hn' (by
            intro q hq
            obtain ⟨x, hx, rfl⟩ := List.mem_map.1 hq
            exact (hO' x hx).2)
          simpa using this
        have := ih (sym e :: e :: V) (onext s (sym e) :: onext s e :: S) (O ++ [e])
          (by
            intro x
            simp only [List.mem_cons, List.mem_append, List.mem_singleton, hV, List.not_mem_nil, or_false]
            have : sym x = e ↔ x = sym e := by
              constructor
              · intro h; rw [← h, sym_sym]
              · intro h; rw [h, sym_sym]
            rw [this]; tauto)
          (by
            intro x hx
            simp only [List.mem_cons] at hx ⊢
            rcases hx with h | h | h
            · right; left; rw [h]
            · right; right; left; rw [h]
            · rcases hc x h with h' | h'
              · tauto
              · rcases List.mem_cons.1 h' with h' | h'
                · left; right; left; exact h'
                · tauto)
          hO'
          (by
            intro x hx
            have ks : Primal (sym e) := (primal_sym e).2 ke
            have as : Allocated s (sym e) := by show (sym e).q < _; rw [sym_q]; exact ae
            simp only [List.mem_cons] at hx
            rcases hx with h | h | h
            · rw [h]; exact ⟨(hi.kind _).2 ks, (hi.around_alloc (.next .refl)).2 as⟩
            · rw [h]; exact ⟨(hi.kind _).2 ke, (hi.around_alloc (.next .refl)).2 ae⟩
            · exact hS x (List.mem_cons_of_mem _ h))
          hn'
          (by
            simp only [List.length_append, List.length_cons, List.length_nil] at hf hlen ⊢
            omega)
        simp only at this
        obtain ⟨h1, h2, h3⟩ := this
        rw [List.append_assoc, List.singleton_append] at h1 h3
        refine ⟨h1, ?_, ?_⟩
        · intro x hx
          rcases List.mem_cons.1 hx with h | h
          · exact ⟨e, List.mem_cons_self, by rw [h]; exact .refl⟩
          · obtain ⟨y, hy, hc'⟩ := h2 x h
            simp only [List.mem_cons] at hy
            rcases hy with h | h | h
            · exact ⟨e, List.mem_cons_self, Connected.trans (by rw [h]; exact .next (.sym .refl)) hc'⟩
            · exact ⟨e, List.mem_cons_self, Connected.trans (by rw [h]; exact .next .refl) hc'⟩
            · exact ⟨y, List.mem_cons_of_mem _ h, hc'⟩
        · intro x hx
          apply h3
          simp only [List.mem_append, List.mem_cons, List.mem_singleton, List.not_mem_nil, or_false] at hx ⊢
          rcases hx with h | h | h | h
          · tauto
          · tauto
          · tauto
          · tauto

theorem walk_all_edges (hi : Inv s) {se : E} (k : Primal se) (a : Allocated s se) :
    let L := walkAllEdges s (fun _ => true) se
    (L.map E.q).Nodup ∧ ∀ y, Connected s se y ↔ y ∈ L ∨ sym y ∈ L := by
  have := walk_loop hi (2 * s.size + 1) [] [se] [] (by simp) (by simp) (by simp)
    (by simp; exact ⟨k, a⟩) (by simp) (by simp)
  simp only [List.nil_append] at this
  obtain ⟨h1, h2, h3⟩ := this
  refine ⟨h1, ?_⟩
  intro y
  constructor
  · exact h3 se (by simp) y
  · rintro (h | h)
    · obtain ⟨z, hz, hc⟩ := h2 _ h
      rw [List.mem_singleton.1 hz] at hc
      exact hc
    · obtain ⟨z, hz, hc⟩ := h2 _ h
      rw [List.mem_singleton.1 hz] at hc
      have := hc.sym
      rwa [sym_sym] at this

theorem walk_stop (cont : E → Bool) : ∀ (fuel : Nat) (V S : List E),
    walkEdgesLoop s cont fuel V S = upTo cont (walkEdgesLoop s (fun _ => true) fuel V S) := by
  intro fuel
  induction fuel with
  | zero => intro V S; rfl
  | succ fuel ih =>
    intro V S
    cases S with
    | nil => rfl
    | cons e S =>
      simp only [walkEdgesLoop]
      by_cases hv : e ∈ V
      · simp only [if_pos hv]; exact ih _ _
      · simp only [if_neg hv, if_true, upTo]
        by_cases hc : cont e = true
        · simp only [hc, if_true]; rw [ih]
        · simp [hc]

end Walk

section Index
variable {K : Type} [Field K] [LinearOrder K] {s : Store (Pt K)} {rnd : Pt K → Pt K}

theorem viPut_spec (vx : VertexIndex K) (k : Pt K) (e : E) :
    (∀ v f, viPut vx k e v = some f → vx v = some f ∨ (f = e ∧ k = v)) ∧
    (∀ v, vx v ≠ none → viPut vx k e v ≠ none) ∧ viPut vx k e k ≠ none := by
  unfold viPut
  by_cases c : vx k = none
  · rw [if_pos c]
    refine ⟨?_, ?_, by simp⟩
    · intro v f hf
      split_ifs at hf with h
      · exact Or.inr ⟨(Option.some.inj hf).symm, h.symm⟩
      · exact Or.inl hf
    · intro v hv
      split_ifs
      · simp
      · exact hv
  · rw [if_neg c]
    exact ⟨fun _ _ h => Or.inl h, fun _ h => h, c⟩

theorem viAdd_some {vx : VertexIndex K} {e : E} {o d : Pt K} (ho : orig s e = some o) (hd : dest s e = some d) :
    ∃ vx', viAdd rnd s vx e = some vx' ∧
      (∀ v f, vx' v = some f → vx v = some f ∨ (f = e ∧ rnd o = v) ∨ (f = sym e ∧ rnd d = v)) ∧
      (∀ v, vx v ≠ none → vx' v ≠ none) ∧ vx' (rnd o) ≠ none ∧ vx' (rnd d) ≠ none := by
  unfold viAdd
  simp only [ho, hd]
  obtain ⟨a1, a2, a3⟩ := viPut_spec vx (rnd o) e
  obtain ⟨b1, b2, b3⟩ := viPut_spec (viPut vx (rnd o) e) (rnd d) (sym e)
  refine ⟨_, rfl, ?_, fun v hv => b2 v (a2 v hv), b2 _ a3, b3⟩
  intro v f hf
  rcases b1 v f hf with h | h
  · rcases a1 v f h with h | h
    · exact Or.inl h
    · exact Or.inr (Or.inl h)
  · exact Or.inr (Or.inr h)

theorem viAddAll_some : ∀ (L : List E) (vx : VertexIndex K),
    (∀ e ∈ L, orig s e ≠ none ∧ dest s e ≠ none) →
    ∃ vx', viAddAll rnd s L vx = some vx' ∧
      (∀ v f, vx' v = some f → vx v = some f ∨ ((f ∈ L ∨ sym f ∈ L) ∧ ∃ o, orig s f = some o ∧ rnd o = v)) ∧
      (∀ v, vx v ≠ none → vx' v ≠ none) ∧
      (∀ f o, f ∈ L ∨ sym f ∈ L → orig s f = some o → vx' (rnd o) ≠ none) := by
  intro L
  induction L with
  | nil => intro vx _; exact ⟨vx, rfl, fun _ _ h => Or.inl h, fun _ h => h, by simp⟩
  | cons e L ih =>
    intro vx h
    obtain ⟨h1, h2⟩ := h e List.mem_cons_self
    obtain ⟨o, ho⟩ := Option.ne_none_iff_exists'.1 h1
    obtain ⟨d, hd⟩ := Option.ne_none_iff_exists'.1 h2
    obtain ⟨vx1, a1, a2, a3, a4, a5⟩ := viAdd_some (rnd := rnd) (vx := vx) ho hd
    obtain ⟨vx2, b1, b2, b3, b4⟩ := ih vx1 (fun x hx => h x (List.mem_cons_of_mem _ hx))
    refine ⟨vx2, ?_, ?_, ?_, ?_⟩
    · rw [viAddAll, a1]; exact b1
    · intro v f hf
      rcases b2 v f hf with g | ⟨g, g'⟩
      · rcases a2 v f g with g | ⟨g, g'⟩ | ⟨g, g'⟩
        · exact Or.inl g
        · right; subst g; exact ⟨Or.inl List.mem_cons_self, o, ho, g'⟩
        · right; subst g
          exact ⟨Or.inr (by rw [sym_sym]; exact List.mem_cons_self), d, hd, g'⟩
      · right
        exact ⟨g.imp (List.mem_cons_of_mem _) (List.mem_cons_of_mem _), g'⟩
    · intro v hv; exact b3 v (a3 v hv)
    · intro f p hf hp
      rcases hf with hf | hf
      · rcases List.mem_cons.1 hf with g | g
        · subst g
          rw [ho] at hp; obtain rfl := Option.some.inj hp
          exact b3 _ a4
        · exact b4 f p (Or.inl g) hp
      · rcases List.mem_cons.1 hf with g | g
        · have : f = sym e := by rw [← g, sym_sym]
          subst this
          have : dest s e = some p := hp
          rw [hd] at this; obtain rfl := Option.some.inj this
          exact b3 _ a5
        · exact b4 f p (Or.inr g) hp

theorem viRemove1_other {e : E} {vx : VertexIndex K} {v p : Pt K} (h : p ≠ v) :
    viRemove1 s e vx v p = vx p := by
  unfold viRemove1
  cases vx v with
  | none => rfl
  | some ve =>
    dsimp only
    split_ifs <;> simp [h]

theorem viRemove1_here {e : E} {vx : VertexIndex K} {v : Pt K} :
    viRemove1 s e vx v v = (vx v).bind fun ve =>
      if ve = e ∨ ve = sym e ∨ ve = rot e ∨ ve = sym (rot e) then
        (if ve ≠ onext s ve then some (onext s ve) else none) else some ve := by
  unfold viRemove1
  cases h : vx v with
  | none => simp [h]
  | some ve =>
    simp only [Option.bind_some]
    split_ifs <;> simp [*]

/-- One end of the removed edge. -/
theorem viRemove1_end (hi : Inv s) (ha : OriginsAgree s) {e f : E} {o d : Pt K} {live : E → Prop}
    {vx : VertexIndex K} (hl : ∀ x, live x → Primal x ∧ live (onext s x))
    (hring : ∀ x y a b, live x → live y → orig s x = some a → orig s y = some b → rnd a = rnd b → Around s x y)
    (hf : f = e ∨ f = sym e) (hlf : live f) (ho : orig s f = some o) (hd : orig s (sym f) = some d)
    (hne : rnd o ≠ rnd d)
    (h1 : ∀ x, vx (rnd o) = some x → live x ∧ ∃ a, orig s x = some a ∧ rnd a = rnd o)
    (h2 : vx (rnd o) ≠ none) :
    (∀ x, viRemove1 s e vx (rnd o) (rnd o) = some x → (live x ∧ x ≠ e ∧ x ≠ sym e) ∧
      ∃ a, orig s x = some a ∧ rnd a = rnd o) ∧
    ∀ x a, live x → x ≠ e → x ≠ sym e → orig s x = some a → rnd a = rnd o →
      viRemove1 s e vx (rnd o) (rnd o) ≠ none := by
  rw [viRemove1_here]
  obtain ⟨ve, hve⟩ := Option.ne_none_iff_exists'.1 h2
  obtain ⟨lve, a, hoa, hra⟩ := h1 ve hve
  rw [hve, Option.bind_some]
  have kve := (hl ve lve).1
  have kf := (hl f hlf).1
  have nsf : ∀ x b, orig s x = some b → rnd b = rnd o → x ≠ sym f := by
    rintro x b hx hb rfl
    rw [hd] at hx
    obtain rfl := Option.some.inj hx
    exact hne hb.symm
  have hfs : ∀ x : E, x = e ∨ x = sym e ↔ x = f ∨ x = sym f := by
    intro x
    rcases hf with rfl | rfl
    · exact Iff.rfl
    · rw [sym_sym]; exact Or.comm
  have key : (ve = e ∨ ve = sym e ∨ ve = rot e ∨ ve = sym (rot e)) ↔ ve = f := by
    have ke : Primal e := by
      rcases hf with rfl | rfl
      · exact kf
      · exact (primal_sym e).1 kf
    have n1 : ve ≠ rot e := by rintro rfl; exact (primal_rot e).1 kve ke
    have n2 : ve ≠ sym (rot e) := by
      rintro rfl; rw [primal_sym] at kve; exact (primal_rot e).1 kve ke
    have n3 := nsf ve a hoa hra
    have := hfs ve
    tauto
  simp only [key]
  by_cases c : ve = f
  · subst c
    simp only [if_true]
    have hon : orig s (onext s ve) = some o := by
      rw [ha ve _ kve (.next .refl), ho]
    by_cases c2 : ve = onext s ve
    · rw [if_neg (by simpa using c2)]
      refine ⟨(fun x hx => by cases hx), ?_⟩
      intro x b hx n1 n2 hb hrb
      have hr := hring ve x o b lve hx ho hb hrb.symm
      exfalso
      have : x = ve := by
        clear hb n1 n2 hx
        induction hr with
        | refl => rfl
        | next _ ih => rw [ih]; exact c2.symm
      have := (hfs x).2 (Or.inl this)
      tauto
    · rw [if_pos (by simpa using c2)]
      refine ⟨?_, fun _ _ _ _ _ _ _ => by simp⟩
      intro x hx
      obtain rfl := Option.some.inj hx
      have n3 := nsf _ _ hon rfl
      have := hfs (onext s ve)
      refine ⟨⟨(hl ve lve).2, ?_, ?_⟩, o, hon, rfl⟩
      · intro h; rcases this.1 (Or.inl h) with h | h
        · exact c2 h.symm
        · exact n3 h
      · intro h; rcases this.1 (Or.inr h) with h | h
        · exact c2 h.symm
        · exact n3 h
  · rw [if_neg c]
    refine ⟨?_, fun _ _ _ _ _ _ _ => by simp⟩
    intro x hx
    obtain rfl := Option.some.inj hx
    have n3 := nsf ve a hoa hra
    have := hfs ve
    refine ⟨⟨lve, ?_, ?_⟩, a, hoa, hra⟩
    · intro h; rcases this.1 (Or.inl h) with h | h
      · exact c h
      · exact n3 h
    · intro h; rcases this.1 (Or.inr h) with h | h
      · exact c h
      · exact n3 h

end Index

end Verif.Lemmas.SubWalk
