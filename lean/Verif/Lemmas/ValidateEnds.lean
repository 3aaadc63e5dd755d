import Verif.Lemmas.Validate

/-!
# Helper lemmas: validation, edges without ends and cancelled contexts
-/

set_option linter.unusedSectionVars false

namespace Verif.Lemmas.Validate
open Verif.Quad Verif.Spec.Quad Verif.Lemmas.Quad Verif.Spec.Subdivision Verif.Subdivision Verif.Lemmas.SubWalk
open Verif.Lemmas.Resolve Verif.Validate Verif.Spec.Validate
open Verif.Planar (Line)
open Verif.Simplify (Ctx)
open Verif.Intersect (Event findIntersects sweep keysLoop Ret Out IsQueue)

section Sweep
variable {K : Type} [Field K] [LinearOrder K] {σ E' : Type}

theorem sweep_never {segs : List (Line K)} {connected : Bool} {peq : Pt K → Pt K → Bool}
    {fn : σ → Nat → Nat → Pt K → σ × Ret E'} : ∀ (evs : List (Event K)) (n : Nat) (m : List Nat) (st : σ),
    (sweep (fun _ => false) segs connected peq fn n evs m st).2 ≠ .ctxErr := by
  intro evs
  induction evs with
  | nil => intro n m st h; simp [sweep] at h
  | cons ev evs ih =>
    intro n m st
    unfold sweep
    simp only [Bool.false_eq_true, if_false]
    split
    · exact ih _ _ _
    · split
      · exact ih _ _ _
      · split
        · exact ih _ _ _
        · simp
        · simp

/-- A sweep that is not cut off by the context is what it is without one. -/
theorem sweep_ctx (ctx : Ctx) {segs : List (Line K)} {connected : Bool} {peq : Pt K → Pt K → Bool}
    {fn : σ → Nat → Nat → Pt K → σ × Ret E'} : ∀ (evs : List (Event K)) (n n' : Nat) (m : List Nat) (st : σ),
    ((sweep ctx segs connected peq fn n evs m st).2 = .ctxErr ∧ ∃ i, ctx i = true) ∨
      sweep ctx segs connected peq fn n evs m st = sweep (fun _ => false) segs connected peq fn n' evs m st := by
  intro evs
  induction evs with
  | nil => intro n n' m st; exact Or.inr (by simp [sweep])
  | cons ev evs ih =>
    intro n n' m st
    cases hc : ctx n with
    | true => exact Or.inl ⟨by rw [sweep, if_pos hc], n, hc⟩
    | false =>
      rw [sweep, sweep]
      simp only [hc, Bool.false_eq_true, if_false]
      split
      · exact ih _ _ _ _
      · split
        · exact ih _ _ _ _
        · split
          · exact ih _ _ _ _
          · exact Or.inr rfl
          · exact Or.inr rfl

end Sweep

section Context
variable {K : Type} [Field K] [LinearOrder K] [IsStrictOrderedRing K] {s : Store (Pt K)}

theorem validate_ctx (mkq : List (Line K) → List (Event K)) (ctx : Ctx) (yd : Bool) (s : Store (Pt K)) (z : E) :
    (validate mkq ctx yd s z = .ctxErr ∧ validate mkq (fun _ => false) yd s z ≠ .panic ∧ ∃ i, ctx i = true) ∨
      validate mkq ctx yd s z = validate mkq (fun _ => false) yd s z := by
  unfold validate
  simp only
  split
  · exact Or.inr rfl
  · rcases sweep_ctx ctx (segs := (walkAllEdges s (fun e => checkEdge mkq yd s e == some true) z).map (lineOf s))
      (connected := true) (peq := fun a b => decide (a = b))
      (fn := fun (_ : Unit) _ _ _ => ((), Ret.err ()))
      (mkq ((walkAllEdges s (fun e => checkEdge mkq yd s e == some true) z).map (lineOf s))) 0 0 [] () with h | h
    · refine Or.inl ⟨?_, ?_, h.2⟩
      · unfold findIntersects
        rw [h.1]
      · split <;> simp
    · unfold findIntersects
      rw [h]
      exact Or.inr rfl

theorem validate_never (mkq : List (Line K) → List (Event K)) (yd : Bool) (s : Store (Pt K)) (z : E) :
    validate mkq (fun _ => false) yd s z ≠ .ctxErr := by
  unfold validate
  simp only
  split
  · split <;> simp
  · split
    · simp
    · simp
    · rename_i h
      exact absurd h (sweep_never _ _ _ _)

/-- The walk begins with the edge it is given. -/
theorem walk_head (z : E) (cont : E → Bool) :
    ∃ l, walkAllEdges s cont z = z :: l := by
  unfold walkAllEdges
  rw [walkEdgesLoop]
  simp only [List.not_mem_nil, if_false]
  split
  · exact ⟨_, rfl⟩
  · exact ⟨_, rfl⟩

theorem validate_cancelled {mkq : List (Line K) → List (Event K)} (hq : ∀ l, IsQueue l (mkq l))
    {ctx : Ctx} (hc : ctx 0 = true) (yd : Bool) {z : E}
    (h : validate mkq (fun _ => false) yd s z = .ok) : validate mkq ctx yd s z = .ctxErr := by
  revert h
  unfold validate
  simp only
  split
  · split <;> simp
  · intro _
    obtain ⟨l, hl⟩ := walk_head (s := s) z (fun e => checkEdge mkq yd s e == some true)
    have hp := (hq ((walkAllEdges s (fun e => checkEdge mkq yd s e == some true) z).map (lineOf s))).1
    cases hm : mkq ((walkAllEdges s (fun e => checkEdge mkq yd s e == some true) z).map (lineOf s)) with
    | nil =>
      rw [hm, hl] at hp
      have := hp.length_eq
      have h2 : (Intersect.eventsOf 0 (lineOf s z)).length = 2 := by
        unfold Intersect.eventsOf
        simp only
        first | rfl | (split <;> rfl)
      simp [Intersect.allEvents] at this
      omega
    | cons ev evs =>
      unfold findIntersects
      rw [sweep, if_pos hc]

end Context

section Ends
variable {K : Type} [Field K] [LinearOrder K] [IsStrictOrderedRing K] {s : Store (Pt K)}

theorem fold_ok (yd : Bool) (o : Pt K) (line : Line K) : ∀ (L : List E) (st r : Seen K),
    foldWith (visit yd s o line) L st = some r → r.err = false →
      st.err = false ∧ ∀ x ∈ L, orig s x = some o ∧ dest s x ≠ none := by
  intro L
  induction L with
  | nil =>
    intro st r h hr
    rw [foldWith, Option.some.injEq] at h
    subst h
    exact ⟨hr, by simp⟩
  | cons x L ih =>
    intro st r h hr
    rw [foldWith] at h
    have hv : ∃ st', visit yd s o line st x = some (st', true) ∧ foldWith (visit yd s o line) L st' = some r ∨
        visit yd s o line st x = some (r, false) := by
      cases hv : visit yd s o line st x with
      | none => rw [hv] at h; cases h
      | some p =>
        obtain ⟨st', b⟩ := p
        rw [hv] at h
        cases b with
        | true => exact ⟨st', Or.inl ⟨rfl, h⟩⟩
        | false => exact ⟨st', Or.inr (by rw [Option.some.inj h])⟩
    obtain ⟨st', ⟨h1, h2⟩ | h1⟩ := hv
    · obtain ⟨e1, e2⟩ := ih st' r h2 hr
      unfold visit at h1
      split at h1
      · cases h1
      · rename_i d hd
        split at h1
        · cases h1
        · rename_i o' ho
          split at h1
          · cases h1
          · split at h1
            · rw [Option.some.injEq, Prod.mk.injEq] at h1
              rw [← h1.1] at e1
              simp only [Bool.or_eq_false_iff, decide_eq_false_iff_not, not_not] at e1
              refine ⟨e1.1, fun y hy => ?_⟩
              rcases List.mem_cons.1 hy with h | h
              · rw [h]; exact ⟨by rw [ho, e1.2], by rw [hd]; simp⟩
              · exact e2 y h
            · cases h1
    · unfold visit at h1
      split at h1
      · rw [Option.some.injEq, Prod.mk.injEq] at h1
        rw [← h1.1] at hr; cases hr
      · split at h1
        · rw [Option.some.injEq, Prod.mk.injEq] at h1
          rw [← h1.1] at hr; cases hr
        · split at h1
          · rw [Option.some.injEq, Prod.mk.injEq] at h1
            rw [← h1.1] at hr; cases hr
          · split at h1
            · rw [Option.some.injEq, Prod.mk.injEq] at h1
              cases h1.2
            · cases h1

/-- What `Validate` of an edge says of the edges round its origin. -/
theorem validateEdge_ends (hi : Inv s) {mkq : List (Line K) → List (Event K)} (yd : Bool) {e : E}
    (he : Allocated s e) (ke : Primal e) (hl : ∀ w, Around s e w → ¬ Around s e (sym w))
    (h : validateEdge mkq yd s e = some true) :
    ∃ o, orig s e = some o ∧ ∀ w, Around s e w → orig s w = some o ∧ dest s w ≠ none := by
  classical
  obtain ⟨L, hL⟩ := around_onceRound hi e
  have hm : ∀ x, x ∈ L ↔ Around s e x := fun x => mem_round hL
  have hqn : (L.map E.q).Nodup := by
    rw [List.nodup_map_iff_inj_on hL.2.2.1]
    intro x hx y hy h
    rw [hm] at hx hy
    rcases primal_same_q ((around_primal hi hx).2 ke) ((around_primal hi hy).2 ke) h with h | h
    · exact h
    · rw [h] at hx; exact absurd hx (hl y hy)
  have hal : ∀ x ∈ L, x.q < s.size := fun x hx => round_alloc hi he ((hm x).1 hx)
  unfold validateEdge at h
  split at h
  · cases h
  · rename_i o ho
    refine ⟨o, ho, ?_⟩
    rw [walkWith_all _ hL hqn hal] at h
    split at h
    · cases h
    · rename_i st hst
      have herr : st.err = false := by
        cases hs : st.err with
        | false => rfl
        | true => rw [hs] at h; simp at h
      intro w hw
      exact (fold_ok yd o _ L _ st hst herr).2 w ((hm w).2 hw)

/-- An edge that `Validate` has no complaint about has both ends. -/
theorem validateEdge_both {mkq : List (Line K) → List (Event K)} (yd : Bool) {e : E} (he : Allocated s e)
    (h : validateEdge mkq yd s e = some true) : orig s e ≠ none ∧ dest s e ≠ none := by
  unfold validateEdge at h
  split at h
  · cases h
  · rename_i o ho
    refine ⟨by rw [ho]; simp, fun hd => ?_⟩
    have : 0 < s.size := Nat.lt_of_le_of_lt (Nat.zero_le _) he
    obtain ⟨n, hn⟩ := Nat.exists_eq_succ_of_ne_zero this.ne'
    rw [hn] at h
    simp [walkWith, visit, hd] at h

theorem validate_ends (hi : Inv s) {mkq : List (Line K) → List (Event K)} {ctx : Ctx} (yd : Bool) {z : E}
    (az : Allocated s z) (kz : Primal z) (h : validate mkq ctx yd s z = .ok) :
    ∀ y, Connected s z y → orig s y ≠ none := by
  obtain ⟨hnd, hw⟩ := walk_all_edges hi kz az
  have hes : walkAllEdges s (fun e => checkEdge mkq yd s e == some true) z =
      upTo (fun e => checkEdge mkq yd s e == some true) (walkAllEdges s (fun _ => true) z) := walk_stop _ _ _ _
  have hfind := find_upTo (p := fun e => checkEdge mkq yd s e == some true) (walkAllEdges s (fun _ => true) z)
  have hneq : (fun e => checkEdge mkq yd s e != some true) = fun e => !(checkEdge mkq yd s e == some true) := rfl
  have hall : ∀ y ∈ walkAllEdges s (fun _ => true) z, checkEdge mkq yd s y = some true := by
    revert h
    unfold validate
    simp only
    rw [hes, hneq, hfind.1]
    split
    · split <;> simp
    · rename_i hn
      intro _ y hy
      have := List.find?_eq_none.1 hn y hy
      simpa using this
  intro y hy
  have both : ∀ w ∈ walkAllEdges s (fun _ => true) z, orig s w ≠ none ∧ dest s w ≠ none := by
    intro w hwm
    apply validateEdge_both yd (connected_alloc hi ((hw w).2 (Or.inl hwm)) az) (mkq := mkq)
    have := hall w hwm
    unfold checkEdge at this
    split at this
    · assumption
    · exact this
  rcases (hw y).1 hy with g | g
  · exact (both y g).1
  · have := (both _ g).2
    unfold dest at this
    rwa [sym_sym] at this

end Ends

end Verif.Lemmas.Validate
