import Verif.Model.Validate
import Verif.Spec.Validate
import Verif.Lemmas.SubWalk
import Verif.Props.Intersect

/-!
# Helper lemmas: what validation tests
-/

set_option linter.unusedSectionVars false

namespace Verif.Lemmas.Validate
open Verif.Quad Verif.Spec.Quad Verif.Lemmas.Quad Verif.Spec.Subdivision Verif.Subdivision Verif.Lemmas.SubWalk
open Verif.Resolve Verif.Spec.Resolve Verif.Lemmas.Resolve Verif.Validate Verif.Spec.Validate
open Verif.Planar (Line)
open Verif.Intersect (Event findIntersects Ret Out IsQueue)
open Verif.Spec.Intersect Verif.Spec.Planar
open Verif.Winding (orientation clockwise counterClockwise)

/-! ### The walk -/

section Walk
variable {P σ : Type} {s : Store P}

def foldWith (fn : σ → E → Option (σ × Bool)) : List E → σ → Option σ
  | [], st => some st
  | x :: xs, st =>
    match fn st x with
    | none => none
    | some (st', false) => some st'
    | some (st', true) => foldWith fn xs st'

theorem walkWith_aux (fn : σ → E → Option (σ × Bool)) {e : E} {L : List E} (h : OnceRound s.next e L)
    (hq : (L.map E.q).Nodup) : ∀ (fuel i : Nat) (seen : List Nat) (st : σ), i ≤ L.length → L.length - i < fuel + 1 →
      (∀ q, q ∈ seen ↔ ∃ j, j < i ∧ (s.next^[j] e).q = q) →
      walkWith s fn fuel seen (s.next^[i] e) st = foldWith fn (L.drop i) st := by
  intro fuel
  induction fuel with
  | zero =>
    intro i seen st h1 h2 h3
    have : i = L.length := by omega
    subst this
    rw [List.drop_length]; rfl
  | succ fuel ih =>
    intro i seen st h1 h2 h3
    rcases Nat.eq_or_lt_of_le h1 with h4 | h4
    · rw [h4, List.drop_length, walkWith, if_pos]
      · rfl
      · rw [h3, h4, h.2.2.2]
        exact ⟨0, h.1, rfl⟩
    · rw [List.drop_eq_getElem_cons h4, onceRound_get h i h4]
      have hn : (s.next^[i] e).q ∉ seen := by
        rw [h3]
        rintro ⟨j, hj, he⟩
        have hj' : j < L.length := by omega
        rw [← onceRound_get h i h4, ← onceRound_get h j hj'] at he
        have e1 : (L.map E.q)[j]'(by simpa using hj') = (L.map E.q)[i]'(by simpa using h4) := by
          simpa using he
        have := (List.Nodup.getElem_inj_iff hq).1 e1
        omega
      rw [walkWith, if_neg hn, foldWith]
      rcases fn st (s.next^[i] e) with _ | ⟨st', b⟩
      · rfl
      · cases b with
        | false => rfl
        | true =>
          show walkWith s fn fuel _ (s.next (s.next^[i] e)) _ = _
          rw [← Function.iterate_succ_apply' s.next i e]
          apply ih (i + 1) _ _ h4 (by omega)
          intro q
          rw [List.mem_cons, h3]
          constructor
          · rintro (h5 | ⟨j, hj, h5⟩)
            · exact ⟨i, by omega, h5.symm⟩
            · exact ⟨j, by omega, h5⟩
          · rintro ⟨j, hj, h5⟩
            rcases Nat.eq_or_lt_of_le (Nat.lt_succ_iff.1 hj) with h6 | h6
            · left; rw [← h5, h6]
            · right; exact ⟨j, h6, h5⟩

theorem walkWith_all (fn : σ → E → Option (σ × Bool)) {e : E} {L : List E} (h : OnceRound s.next e L)
    (hq : (L.map E.q).Nodup) (hal : ∀ x ∈ L, x.q < s.size) (st : σ) :
    walkWith s fn s.size [] e st = foldWith fn L st := by
  have hl : L.length ≤ s.size := by
    have := nodup_lt_length (n := s.size) hq (by
      intro q hq
      rw [List.mem_map] at hq
      obtain ⟨x, hx, rfl⟩ := hq
      exact hal x hx)
    simpa using this
  have := walkWith_aux fn h hq s.size 0 [] st (Nat.zero_le _) (by omega) (by simp)
  simpa using this

theorem conn_around {z y w : E} (hy : Connected s z y) (h : Around s y w) : Connected s z w := by
  induction h with
  | refl => exact hy
  | next _ ih => exact ih.next

theorem around_trans {x y w : E} (hy : Around s x y) (h : Around s y w) : Around s x w := by
  induction h with
  | refl => exact hy
  | next _ ih => exact ih.next

/-- After an edge the one that follows round its end is the next, unless it was there before. -/
theorem walk_next : ∀ (fuel : Nat) (V S A B : List E) (x : E),
    walkEdgesLoop s (fun _ => true) fuel V S = A ++ x :: B →
    onext s (sym x) ∈ V ∨ (∃ y ∈ A ++ [x], onext s (sym x) = y ∨ onext s (sym x) = sym y) ∨
      B.head? = some (onext s (sym x)) ∨ B = [] := by
  intro fuel
  induction fuel with
  | zero => intro V S A B x h; simp [walkEdgesLoop] at h
  | succ fuel ih =>
    intro V S A B x h
    cases S with
    | nil => simp [walkEdgesLoop] at h
    | cons e S =>
      rw [walkEdgesLoop] at h
      by_cases hv : e ∈ V
      · rw [if_pos hv] at h
        exact ih _ _ _ _ _ h
      · rw [if_neg hv, if_pos rfl] at h
        cases A with
        | nil =>
          rw [List.nil_append, List.cons.injEq] at h
          obtain ⟨rfl, h⟩ := h
          cases fuel with
          | zero => right; right; right; rw [← h]; rfl
          | succ fuel =>
            rw [walkEdgesLoop] at h
            by_cases hw : onext s (sym e) ∈ sym e :: e :: V
            · simp only [List.mem_cons] at hw
              rcases hw with hw | hw | hw
              · exact Or.inr (Or.inl ⟨e, by simp, Or.inr hw⟩)
              · exact Or.inr (Or.inl ⟨e, by simp, Or.inl hw⟩)
              · exact Or.inl hw
            · rw [if_neg hw, if_pos rfl] at h
              right; right; left; rw [← h]; rfl
        | cons a A =>
          rw [List.cons_append, List.cons.injEq] at h
          obtain ⟨rfl, h⟩ := h
          rcases ih _ _ _ _ _ h with h1 | ⟨y, hy, h1⟩ | h1
          · simp only [List.mem_cons] at h1
            rcases h1 with h1 | h1 | h1
            · exact Or.inr (Or.inl ⟨e, by simp, Or.inr h1⟩)
            · exact Or.inr (Or.inl ⟨e, by simp, Or.inl h1⟩)
            · exact Or.inl h1
          · exact Or.inr (Or.inl ⟨y, List.mem_cons_of_mem _ hy, h1⟩)
          · exact Or.inr (Or.inr h1)

/-- The walk over all edges comes by every point where there is more than one edge. -/
theorem walk_ring (hi : Inv s) {se : E} (k : Primal se) (a : Allocated s se) {y : E} (hy : Connected s se y)
    (hn : onext s y ≠ y) : ∃ w, Around s y w ∧ w ∈ walkAllEdges s (fun _ => true) se := by
  classical
  obtain ⟨_, h2⟩ := walk_all_edges hi k a
  by_contra hc
  push Not at hc
  have h3 : sym y ∈ walkAllEdges s (fun _ => true) se := by
    rcases (h2 y).1 hy with h | h
    · exact absurd h (hc y .refl)
    · exact h
  obtain ⟨x, hx⟩ : ∃ x, (walkAllEdges s (fun _ => true) se).find? (fun x => decide (Around s y (sym x))) = some x := by
    rw [← Option.isSome_iff_exists, List.find?_isSome]
    exact ⟨sym y, h3, by simp only [sym_sym, decide_eq_true_eq]; exact .refl⟩
  rw [List.find?_eq_some_iff_append] at hx
  obtain ⟨h4, A, B, h5, h6⟩ := hx
  rw [decide_eq_true_eq] at h4
  have hv : Around s y (onext s (sym x)) := h4.next
  have key : ∀ y' ∈ A ++ [x], ¬ (onext s (sym x) = y' ∨ onext s (sym x) = sym y') := by
    intro y' hy' h
    have hm : y' ∈ walkAllEdges s (fun _ => true) se := by
      rw [h5]
      simp only [List.mem_append, List.mem_cons, List.not_mem_nil, or_false] at hy' ⊢
      tauto
    rcases h with h | h
    · exact hc y' (h ▸ hv) hm
    · rcases List.mem_append.1 hy' with h7 | h7
      · have := h6 _ h7
        rw [← h] at this
        simp [hv] at this
      · rw [List.mem_singleton.1 h7] at h
        have fix : ∀ w, Around s (sym x) w → w = sym x := by
          intro w hw
          induction hw with
          | refl => rfl
          | next _ ih => rw [ih]; exact h
        have := fix _ (hi.around_symm h4)
        rw [← this] at h
        exact hn h
  rcases walk_next _ _ _ _ _ _ h5 with h7 | ⟨y', hy', h7⟩ | h7 | h7
  · simp at h7
  · exact key y' hy' h7
  · apply hc _ hv
    rw [h5]
    apply List.mem_append_right
    apply List.mem_cons_of_mem
    exact List.mem_of_mem_head? (by rw [h7]; rfl)
  · rcases (h2 (onext s (sym x))).1 (conn_around hy hv) with h8 | h8
    · exact hc _ hv h8
    · apply key (sym (onext s (sym x))) (by rw [h5, h7] at h8; exact h8)
      right; rw [sym_sym]

end Walk

/-! ### One ring -/

section Ring
variable {K : Type} [Field K] [LinearOrder K] [IsStrictOrderedRing K] {s : Store (Pt K)}

theorem onextCount_eq (yd : Bool) (o d x : Pt K) :
    onextCount yd o d x = sgn (wedge yd (arrow o d) (arrow o x)) := by
  unfold onextCount clockwise counterClockwise
  rw [orientation_wedge3]
  rcases sgn_cases (wedge yd (arrow o d) (arrow o x)) with ⟨_, h⟩ | ⟨_, h⟩ | ⟨_, h⟩ <;> simp [h]

theorem oprevCount_eq (yd : Bool) (o d x : Pt K) :
    oprevCount yd o d x = sgn (wedge yd (arrow o x) (arrow o d)) := by
  have h : wedge yd (arrow o d) (arrow o x) = - wedge yd (arrow o x) (arrow o d) := by
    unfold wedge; cases yd <;> simp <;> ring
  unfold oprevCount clockwise counterClockwise
  rw [orientation_wedge3, h]
  unfold sgn
  rcases lt_trichotomy (wedge yd (arrow o x) (arrow o d)) 0 with h | h | h
  · simp [h, not_lt_of_gt h]
  · simp [h]
  · simp [h, not_lt_of_gt h]

/-- The sign of the turn from `y` to the next edge, seen from `o`. -/
def turn (yd : Bool) (s : Store (Pt K)) (o : Pt K) (y : E) : Int :=
  match dest s y, dest s (onext s y) with
  | some d, some t => sgn (wedge yd (arrow o d) (arrow o t))
  | _, _ => 0

/-- What the walk finds. -/
theorem fold_visit (hi : Inv s) (yd : Bool) (o : Pt K) (line : Line K) : ∀ (L : List E) (st : Seen K),
    (∀ x ∈ L, orig s x ≠ none ∧ dest s x ≠ none ∧ dest s (onext s x) ≠ none ∧ dest s (oprev s x) ≠ none) →
    st.points.Nodup →
    ∃ r, foldWith (visit yd s o line) L st = some r ∧
      (r.err = false ↔ st.err = false ∧ (∀ x ∈ L, orig s x = some o) ∧
        (st.points.map some ++ L.map (dest s)).Nodup) ∧
      (r.err = false → r.points.length = st.points.length + L.length ∧
        r.segs = st.segs ++ List.replicate L.length line ∧
        r.onextCCW = st.onextCCW + (L.map (turn yd s o)).sum ∧
        r.oprevCW = st.oprevCW + (L.map (fun x => turn yd s o (oprev s x))).sum) := by
  intro L
  induction L with
  | nil =>
    intro st _ hn
    refine ⟨st, rfl, ?_, ?_⟩
    · simp only [List.not_mem_nil, false_implies, implies_true, List.map_nil, List.append_nil, true_and]
      exact ⟨fun h => ⟨h, hn.map (Option.some_injective _)⟩, fun h => h.1⟩
    · intro _; simp
  | cons x L ih =>
    intro st hL hn
    obtain ⟨h1, h2, h3, h4⟩ := hL x List.mem_cons_self
    obtain ⟨o', ho⟩ := Option.ne_none_iff_exists'.1 h1
    obtain ⟨d, hd⟩ := Option.ne_none_iff_exists'.1 h2
    obtain ⟨dn, hdn⟩ := Option.ne_none_iff_exists'.1 h3
    obtain ⟨dp, hdp⟩ := Option.ne_none_iff_exists'.1 h4
    rw [foldWith]
    by_cases hm : d ∈ st.points
    · have hv : visit yd s o line st x = some ({ st with err := true }, false) := by
        unfold visit; rw [hd, ho]; simp only; rw [if_pos hm]
      rw [hv]
      refine ⟨_, rfl, ?_, by simp⟩
      simp only [Bool.true_eq_false, false_iff]
      rintro ⟨_, _, h⟩
      rw [List.nodup_append] at h
      exact h.2.2 (some d) (List.mem_map.2 ⟨d, hm, rfl⟩) (dest s x) (by simp) hd.symm
    · have hv : visit yd s o line st x = some (⟨st.err || decide (o' ≠ o), st.points ++ [d], st.segs ++ [line],
            st.onextCCW + onextCount yd o d dn, st.oprevCW + oprevCount yd o d dp⟩, true) := by
        unfold visit; rw [hd, ho]; simp only; rw [if_neg hm, hdn, hdp]
      rw [hv]
      simp only
      obtain ⟨r, e1, e2, e3⟩ := ih ⟨st.err || decide (o' ≠ o), st.points ++ [d], st.segs ++ [line],
            st.onextCCW + onextCount yd o d dn, st.oprevCW + oprevCount yd o d dp⟩
        (fun y hy => hL y (List.mem_cons_of_mem _ hy)) (by
          rw [List.nodup_append]
          refine ⟨hn, by simp, ?_⟩
          intro a ha b hb
          rw [List.mem_singleton.1 hb]
          rintro rfl; exact hm ha)
      refine ⟨r, e1, ?_, ?_⟩
      · rw [e2]
        simp only [Bool.or_eq_false_iff, decide_eq_false_iff_not, not_not, List.forall_mem_cons, ho,
          Option.some.injEq, List.map_append, List.map_cons, List.map_nil, hd, List.append_assoc,
          List.singleton_append]
        tauto
      · intro he
        obtain ⟨f1, f2, f3, f4⟩ := e3 he
        refine ⟨?_, ?_, ?_, ?_⟩
        · rw [f1]; simp; omega
        · rw [f2]; simp [List.replicate_succ]
        · rw [f3, onextCount_eq]
          have : turn yd s o x = sgn (wedge yd (arrow o d) (arrow o dn)) := by unfold turn; rw [hd, hdn]
          simp only [List.map_cons, List.sum_cons, this]; omega
        · rw [f4, oprevCount_eq]
          have : turn yd s o (oprev s x) = sgn (wedge yd (arrow o dp) (arrow o d)) := by
            unfold turn
            rw [hdp]
            have : onext s (oprev s x) = x := hi.next_oprev x
            rw [this, hd]
          simp only [List.map_cons, List.sum_cons, this]; omega

theorem self_meets_nothing {mkq : List (Line K) → List (Event K)} (hq : ∀ l, IsQueue l (mkq l)) (n : Nat)
    (line : Line K) (err : Bool) :
    (findIntersects (fun _ => false) (List.replicate n line) (mkq (List.replicate n line)) true
      (fun a b => decide (a = b)) (selfMeets (List.replicate n line)) err).1 = err := by
  obtain ⟨hits, ⟨_, h2, h3⟩, h4⟩ := Props.C38_every_meeting_once (List.replicate n line) _ (hq _) true
    (fun a b => decide (a = b)) (fun a b => by simp only [eq_comm])
  rw [h4 _ _ _ _ _ (fun _ => rfl)]
  have : hits = [] := by
    rw [List.eq_nil_iff_forall_not_mem]
    rintro ⟨i, j, p⟩ h
    obtain ⟨a, b, ha, hb, ⟨hm, _⟩, _⟩ := (h3 i j p (h2 i j p h)).1 (Or.inl h)
    rw [List.getElem?_replicate] at ha hb
    split_ifs at ha hb
    obtain rfl := Option.some.inj ha
    obtain rfl := Option.some.inj hb
    apply hm
    unfold Parallel; ring
  rw [this]; rfl

/-- The turns to the left less those to the right. -/
theorem sum_turns (yd : Bool) {o : Pt K} (L : List E) (h : ∀ x ∈ L, orig s x = some o)
    (hd : ∀ x ∈ L, dest s x ≠ none ∧ dest s (onext s x) ≠ none) : by
    classical exact (L.map (turn yd s o)).sum =
      (L.countP (fun w => decide (LeftTurn yd s w)) : Int) - L.countP (fun w => decide (RightTurn yd s w)) := by
  classical
  induction L with
  | nil => rfl
  | cons x L ih =>
    have hx := ih (fun y hy => h y (List.mem_cons_of_mem _ hy)) (fun y hy => hd y (List.mem_cons_of_mem _ hy))
    obtain ⟨h1, h2⟩ := hd x List.mem_cons_self
    obtain ⟨d, h1⟩ := Option.ne_none_iff_exists'.1 h1
    obtain ⟨t, h2⟩ := Option.ne_none_iff_exists'.1 h2
    have ho := h x List.mem_cons_self
    have hl : LeftTurn yd s x ↔ 0 < wedge yd (arrow o d) (arrow o t) := by
      unfold LeftTurn Turns
      rw [ho, h1, h2]
      constructor
      · rintro ⟨_, _, _, e1, e2, e3, e⟩
        rw [← Option.some.inj e1, ← Option.some.inj e2, ← Option.some.inj e3] at e; exact e
      · intro e; exact ⟨_, _, _, rfl, rfl, rfl, e⟩
    have hr : RightTurn yd s x ↔ wedge yd (arrow o d) (arrow o t) < 0 := by
      have hw : wedge yd (arrow o t) (arrow o d) = - wedge yd (arrow o d) (arrow o t) := by
        unfold wedge; cases yd <;> simp <;> ring
      unfold RightTurn Turns
      rw [ho, h1, h2]
      constructor
      · rintro ⟨_, _, _, e1, e2, e3, e⟩
        rw [← Option.some.inj e1, ← Option.some.inj e2, ← Option.some.inj e3, hw] at e; linarith
      · intro e; refine ⟨_, _, _, rfl, rfl, rfl, ?_⟩; rw [hw]; linarith
    have ht : turn yd s o x = sgn (wedge yd (arrow o d) (arrow o t)) := by unfold turn; rw [h1, h2]
    rw [List.map_cons, List.sum_cons, List.countP_cons, List.countP_cons]
    rw [hx, ht]
    simp only [hl, hr, decide_eq_true_eq]
    rcases sgn_cases (wedge yd (arrow o d) (arrow o t)) with ⟨g, e⟩ | ⟨g, e⟩ | ⟨g, e⟩
    · rw [e, if_pos g, if_neg (not_lt_of_gt g)]; push_cast; ring
    · rw [e, if_pos g, if_neg (not_lt_of_gt g)]; push_cast; ring
    · rw [e, g]; simp

/-- What `Validate` tests for the edges round a point. -/
def RingOk (yd : Bool) (s : Store (Pt K)) (y : E) : Prop :=
  (∀ w, Around s y w → orig s w = orig s y) ∧
  (∀ w w', Around s y w → Around s y w' → dest s w = dest s w' → w = w') ∧ MostlyLeft yd s y

theorem validateEdge_iff (hi : Inv s) {mkq : List (Line K) → List (Event K)} (hq : ∀ l, IsQueue l (mkq l))
    (yd : Bool) {e : E} (he : Allocated s e) (ke : Primal e)
    (hp : ∀ w, Around s e w → orig s w ≠ none ∧ dest s w ≠ none) (hl : ∀ w, Around s e w → ¬ Around s e (sym w)) :
    ∃ b, validateEdge mkq yd s e = some b ∧ (b = true ↔ RingOk yd s e) := by
  classical
  obtain ⟨L, hL⟩ := around_onceRound hi e
  have hm : ∀ x, x ∈ L ↔ Around s e x := fun x => mem_round hL
  have hqn : (L.map E.q).Nodup := by
    rw [List.nodup_map_iff_inj_on hL.2.2.1]
    intro x hx y hy h
    rw [hm] at hx hy
    rcases primal_same_q ((around_primal hi hx).2 ke) ((around_primal hi hy).2 ke) h with h | h
    · exact h
    · rw [h] at hx; exact absurd hx (hl y hy)
  have hal : ∀ x ∈ L, x.q < s.size := fun x hx => round_alloc hi he ((hm x).1 hx)
  have hprev : ∀ x, Around s e x → Around s e (oprev s x) := by
    intro x hx
    have : Around s x (oprev s x) := by
      apply hi.around_symm
      have : Around s (oprev s x) (onext s (oprev s x)) := .next .refl
      have e' : onext s (oprev s x) = x := hi.next_oprev x
      rwa [e'] at this
    exact around_trans hx this
  obtain ⟨o, ho⟩ := Option.ne_none_iff_exists'.1 (hp e .refl).1
  obtain ⟨r, e1, e2, e3⟩ := fold_visit hi yd o (o, (dest s e).getD o) L ⟨false, [], [], 0, 0⟩ (by
    intro x hx
    rw [hm] at hx
    exact ⟨(hp x hx).1, (hp x hx).2, (hp _ hx.next).2, (hp _ (hprev x hx)).2⟩) List.nodup_nil
  unfold validateEdge
  rw [ho]
  simp only
  rw [walkWith_all _ hL hqn hal, e1]
  simp only
  have hO : (∀ x ∈ L, orig s x = some o) ↔ ∀ w, Around s e w → orig s w = orig s e := by
    rw [ho]; simp only [hm]
  have hD : (L.map (dest s)).Nodup ↔ ∀ w w', Around s e w → Around s e w' → dest s w = dest s w' → w = w' := by
    rw [List.nodup_map_iff_inj_on hL.2.2.1]
    simp only [hm]
    constructor
    · intro h w w' a b c; exact h w a w' b c
    · intro h w a w' b c; exact h w w' a b c
  simp only [List.map_nil, List.nil_append, true_and] at e2
  rw [hO, hD] at e2
  cases hr : r.err with
  | true =>
    rw [if_pos rfl]
    refine ⟨false, rfl, ?_⟩
    simp only [Bool.false_eq_true, false_iff]
    rintro ⟨g1, g2, _⟩
    have := e2.2 ⟨g1, g2⟩
    rw [hr] at this; cases this
  | false =>
    rw [if_neg (by simp)]
    obtain ⟨g1, g2⟩ := e2.1 hr
    obtain ⟨f1, f2, f3, f4⟩ := e3 hr
    simp only [List.length_nil, zero_add, List.nil_append] at f1 f2 f3 f4
    have perm : (L.map (oprev s)).Perm L := by
      rw [List.perm_ext_iff_of_nodup (hL.2.2.1.map (oprev_inj hi)) hL.2.2.1]
      intro x
      rw [List.mem_map, hm]
      constructor
      · rintro ⟨y, hy, rfl⟩; rw [hm] at hy; exact hprev y hy
      · intro hx
        refine ⟨onext s x, (hm _).2 hx.next, ?_⟩
        apply hi.inj
        exact hi.next_oprev _
    have hsum : (L.map (fun x => turn yd s o (oprev s x))).sum = (L.map (turn yd s o)).sum := by
      have : L.map (fun x => turn yd s o (oprev s x)) = (L.map (oprev s)).map (turn yd s o) := by
        rw [List.map_map]; rfl
      rw [this]
      exact (perm.map _).sum_eq
    rw [hsum] at f4
    have hT := sum_turns yd L (hO.2 g1) (fun x hx => by
      rw [hm] at hx; exact ⟨(hp x hx).2, (hp _ hx.next).2⟩)
    have hML : MostlyLeft yd s e ↔ (2 < L.length →
        L.countP (fun w => decide (RightTurn yd s w)) < L.countP (fun w => decide (LeftTurn yd s w))) := by
      unfold MostlyLeft
      constructor
      · intro h; exact h L hL.2.2.1 hm
      · intro h L' n' m' l'
        have p' : L'.Perm L := by
          rw [List.perm_ext_iff_of_nodup n' hL.2.2.1]
          intro x; rw [m', hm]
        rw [p'.countP_eq, p'.countP_eq]
        exact h (by rw [← p'.length_eq]; exact l')
    by_cases h2 : 2 < L.length
    · rw [f1, if_pos h2, f2, self_meets_nothing hq, f3, f4, hT]
      refine ⟨_, rfl, ?_⟩
      unfold RingOk
      rw [hML]
      simp only [Bool.not_eq_true', Bool.or_self, decide_eq_false_iff_not]
      constructor
      · intro h; exact ⟨g1, g2, fun _ => by omega⟩
      · rintro ⟨_, _, h⟩; have := h h2; omega
    · rw [f1, if_neg h2]
      refine ⟨true, rfl, ?_⟩
      simp only [true_iff]
      exact ⟨g1, g2, hML.2 (fun h => absurd h h2)⟩

/-! ### All edges -/

theorem long_iff (o d : Pt K) :
    (d.1 - o.1) * (d.1 - o.1) + (d.2 - o.2) * (d.2 - o.2) ≠ 0 ↔ some o ≠ some d := by
  rw [not_iff_not, Option.some.injEq]
  constructor
  · intro h
    have h1 := mul_self_nonneg (d.1 - o.1)
    have h2 := mul_self_nonneg (d.2 - o.2)
    have h3 : (d.1 - o.1) * (d.1 - o.1) = 0 := by linarith
    have h4 : (d.2 - o.2) * (d.2 - o.2) = 0 := by linarith
    rw [mul_self_eq_zero, sub_eq_zero] at h3 h4
    exact Prod.ext h3.symm h4.symm
  · rintro rfl; simp

theorem checkEdge_iff (hi : Inv s) {mkq : List (Line K) → List (Event K)} (hq : ∀ l, IsQueue l (mkq l))
    (yd : Bool) {e : E} (he : Allocated s e) (ke : Primal e)
    (hp : ∀ w, Around s e w → orig s w ≠ none ∧ dest s w ≠ none) (hl : ∀ w, Around s e w → ¬ Around s e (sym w)) :
    ∃ b, checkEdge mkq yd s e = some b ∧ (b = true ↔ RingOk yd s e ∧ orig s e ≠ dest s e) := by
  obtain ⟨b, h1, h2⟩ := validateEdge_iff hi hq yd he ke hp hl
  unfold checkEdge
  rw [h1]
  cases b with
  | false =>
    refine ⟨false, rfl, ?_⟩
    simp only [Bool.false_eq_true, false_iff] at h2 ⊢
    rintro ⟨h, _⟩; exact h2 h
  | true =>
    obtain ⟨o, ho⟩ := Option.ne_none_iff_exists'.1 (hp e .refl).1
    obtain ⟨d, hd⟩ := Option.ne_none_iff_exists'.1 (hp e .refl).2
    rw [ho, hd]
    refine ⟨_, rfl, ?_⟩
    rw [decide_eq_true_eq, long_iff]
    simp only [true_iff] at h2
    exact ⟨fun h => ⟨h2, h⟩, fun h => h.2⟩

theorem find_upTo {p : E → Bool} : ∀ l : List E,
    (upTo p l).find? (fun e => !p e) = l.find? (fun e => !p e) ∧ ((∀ e ∈ l, p e = true) → upTo p l = l) := by
  intro l
  induction l with
  | nil => simp [upTo]
  | cons x l ih =>
    by_cases h : p x = true
    · simp only [upTo, List.find?_cons, h, if_true, Bool.not_true]
      refine ⟨ih.1, fun h' => ?_⟩
      rw [ih.2 (fun e he => h' e (List.mem_cons_of_mem _ he))]
    · rw [Bool.not_eq_true] at h
      simp only [upTo, h, Bool.false_eq_true, if_false, List.find?_cons]
      refine ⟨rfl, fun h' => ?_⟩
      have := h' x List.mem_cons_self
      rw [h] at this; cases this

theorem validate_iff (hi : Inv s) {mkq : List (Line K) → List (Event K)} (hq : ∀ l, IsQueue l (mkq l))
    {ctx : Nat → Bool} (hc : ∀ n, ctx n = false) (yd : Bool) {z : E} (az : Allocated s z) (kz : Primal z)
    (hp : ∀ y, Connected s z y → orig s y ≠ none) (hl : ∀ y, Connected s z y → ¬ Around s y (sym y)) :
    (validate mkq ctx yd s z = .ok ∨ validate mkq ctx yd s z = .invalid) ∧
      (validate mkq ctx yd s z = .ok ↔ Passes yd s z) := by
  obtain ⟨hnd, hw⟩ := walk_all_edges hi kz az
  have hd : ∀ y, Connected s z y → dest s y ≠ none := fun y hy => hp _ hy.sym
  have hce : ∀ y, Connected s z y → ∃ b, checkEdge mkq yd s y = some b ∧
      (b = true ↔ RingOk yd s y ∧ orig s y ≠ dest s y) := by
    intro y hy
    apply checkEdge_iff hi hq yd (connected_alloc hi hy az) ((connected_primal hi hy).2 kz)
    · intro w hw; exact ⟨hp w (conn_around hy hw), hd w (conn_around hy hw)⟩
    · intro w hw h
      exact hl w (conn_around hy hw) (around_trans (hi.around_symm hw) h)
  have hWc : ∀ y ∈ walkAllEdges s (fun _ => true) z, Connected s z y := fun y hy => (hw y).2 (Or.inl hy)
  -- the tests of the single edges
  have hall : (∀ y ∈ walkAllEdges s (fun _ => true) z, checkEdge mkq yd s y = some true) ↔
      (∀ y, Connected s z y → RingOk yd s y) ∧ ∀ y, Connected s z y → orig s y ≠ dest s y := by
    have single : ∀ y, Connected s z y → (checkEdge mkq yd s y = some true ↔ RingOk yd s y ∧ orig s y ≠ dest s y) := by
      intro y hy
      obtain ⟨b, h1, h2⟩ := hce y hy
      rw [h1, Option.some.injEq, h2]
    constructor
    · intro h
      have h' := fun y hy => (single y (hWc y hy)).1 (h y hy)
      constructor
      · intro y hy
        by_cases hn : onext s y = y
        · have fix : ∀ w, Around s y w → w = y := by
            intro w hw
            induction hw with
            | refl => rfl
            | next _ ih => rw [ih]; exact hn
          refine ⟨fun w hw => by rw [fix w hw], fun w w' a b _ => by rw [fix w a, fix w' b], ?_⟩
          intro L n m l
          exfalso
          have : L ⊆ [y] := fun x hx => by rw [fix x ((m x).1 hx)]; simp
          have := (n.subperm this).length_le
          simp at this; omega
        · obtain ⟨w, hyw, hm⟩ := walk_ring hi kz az hy hn
          obtain ⟨⟨r1, r2, r3⟩, _⟩ := h' w hm
          have back := hi.around_symm hyw
          refine ⟨fun x hx => ?_, fun x x' a b => ?_, fun L n m l => ?_⟩
          · rw [r1 x (around_trans back hx), r1 y back]
          · exact r2 x x' (around_trans back a) (around_trans back b)
          · apply r3 L n _ l
            intro x; rw [m x]
            exact ⟨fun h => around_trans back h, fun h => around_trans hyw h⟩
      · intro y hy
        rcases (hw y).1 hy with g | g
        · exact (h' y g).2
        · have := (h' _ g).2
          intro e
          apply this
          show dest s y = dest s (sym y)
          unfold dest
          rw [sym_sym]
          exact e.symm
    · rintro ⟨h1, h2⟩ y hy
      exact (single y (hWc y hy)).2 ⟨h1 y (hWc y hy), h2 y (hWc y hy)⟩
  have hes : walkAllEdges s (fun e => checkEdge mkq yd s e == some true) z =
      upTo (fun e => checkEdge mkq yd s e == some true) (walkAllEdges s (fun _ => true) z) := walk_stop _ _ _ _
  have hfind := find_upTo (p := fun e => checkEdge mkq yd s e == some true) (walkAllEdges s (fun _ => true) z)
  have hpass : ∀ b : (∀ y, Connected s z y → RingOk yd s y) ∧ ∀ y, Connected s z y → orig s y ≠ dest s y,
      ((∀ y w a b c d, Connected s z y → Connected s z w → orig s y = some a → dest s y = some b →
        orig s w = some c → dest s w = some d → a ≠ c → a ≠ d → b ≠ c → b ≠ d → ¬ ∃ p, MeetAt p (a, b) (c, d)) ↔
        Passes yd s z) := by
    rintro ⟨b1, b2⟩
    constructor
    · intro h
      exact ⟨fun y w hy hw => (b1 y hy).1 w hw, fun y w hy hw e => (b1 y hy).2.1 w y hw .refl e,
        fun y hy => (b1 y hy).2.2, b2, h⟩
    · intro h; exact h.apart
  have hnp : Passes yd s z → (∀ y, Connected s z y → RingOk yd s y) ∧ ∀ y, Connected s z y → orig s y ≠ dest s y := by
    intro h
    refine ⟨fun y hy => ⟨fun w hw => h.origins y w hy hw, fun w w' a b e => ?_, h.left y hy⟩, h.long⟩
    exact h.dests w' w (conn_around hy b) (around_trans (hi.around_symm b) a) e
  unfold validate
  simp only
  rw [hes]
  have hneq : (fun e => checkEdge mkq yd s e != some true) = fun e => !(checkEdge mkq yd s e == some true) := rfl
  rw [hneq, hfind.1]
  by_cases hA : ∀ y ∈ walkAllEdges s (fun _ => true) z, checkEdge mkq yd s y = some true
  · rw [List.find?_eq_none.2 (by intro x hx; simp [hA x hx])]
    simp only
    rw [hfind.2 (by intro x hx; simp [hA x hx])]
    rw [← hpass (hall.1 hA)]
    obtain ⟨hits, ⟨_, h2, h3⟩, h4⟩ := Props.C38_every_meeting_once ((walkAllEdges s (fun _ => true) z).map (lineOf s)) _
      (hq _) true (fun a b => decide (a = b)) (fun a b => by simp only [eq_comm])
    rw [h4 _ _ _ _ _ hc]
    have hline : ∀ y a b, orig s y = some a → dest s y = some b → lineOf s y = (a, b) := by
      intro y a b h1 h2; unfold lineOf; rw [h1, h2]; rfl
    have hhits : hits = [] ↔ ∀ y w a b c d, Connected s z y → Connected s z w → orig s y = some a → dest s y = some b →
        orig s w = some c → dest s w = some d → a ≠ c → a ≠ d → b ≠ c → b ≠ d → ¬ ∃ p, MeetAt p (a, b) (c, d) := by
      constructor
      · rintro rfl y w a b c d hy hw' e1 e2 e3 e4 n1 n2 n3 n4 ⟨p, hm⟩
        -- the edges in the list, and their lines
        have pick : ∀ y a b, Connected s z y → orig s y = some a → dest s y = some b →
            ∃ i : Nat, ∃ l, ((walkAllEdges s (fun _ => true) z).map (lineOf s))[i]? = some l ∧ (l = (a, b) ∨ l = (b, a)) := by
          intro y a b hy e1 e2
          rcases (hw y).1 hy with g | g
          · obtain ⟨i, hi'⟩ := List.mem_iff_getElem?.1 g
            exact ⟨i, _, by rw [List.getElem?_map, hi']; rfl, Or.inl (hline _ _ _ e1 e2)⟩
          · obtain ⟨i, hi'⟩ := List.mem_iff_getElem?.1 g
            refine ⟨i, _, by rw [List.getElem?_map, hi']; rfl, Or.inr (hline _ _ _ e2 ?_)⟩
            unfold dest; rw [sym_sym]; exact e1
        obtain ⟨i, l, hil, hl'⟩ := pick y a b hy e1 e2
        obtain ⟨j, m, hjm, hm'⟩ := pick w c d hw' e3 e4
        have hij : i ≠ j := by
          rintro rfl
          rw [hil] at hjm
          obtain rfl := Option.some.inj hjm
          rcases hl' with rfl | rfl <;> rcases hm' with hm' | hm' <;> rw [Prod.mk.injEq] at hm'
          · exact n1 hm'.1
          · exact n2 hm'.1
          · exact n3 hm'.1
          · exact n4 hm'.1
        have := (h3 i j p hij).2 ⟨l, m, hil, hjm, ?_, ?_⟩
        · simp at this
        · obtain ⟨m1, m2, m3⟩ := hm
          have sw : ∀ {p a b : Pt K}, OnSegment p a b → OnSegment p b a := by
            rintro p a b ⟨t, h0, h1, h2⟩
            refine ⟨1 - t, by linarith, by linarith, ?_⟩
            rw [h2]; ext <;> simp <;> ring
          have par : ∀ {a b c d : Pt K}, Parallel b a c d → Parallel a b c d := by
            intro a b c d h; unfold Parallel at *; linear_combination -h
          have par' : ∀ {a b c d : Pt K}, Parallel a b d c → Parallel a b c d := by
            intro a b c d h; unfold Parallel at *; linear_combination -h
          rcases hl' with rfl | rfl <;> rcases hm' with rfl | rfl
          · exact ⟨m1, m2, m3⟩
          · exact ⟨fun h => m1 (par' h), m2, sw m3⟩
          · exact ⟨fun h => m1 (par h), sw m2, m3⟩
          · exact ⟨fun h => m1 (par (par' h)), sw m2, sw m3⟩
        · rintro ⟨_, u, hu, v, hv, huv⟩
          rw [decide_eq_true_eq] at huv
          subst huv
          simp only [List.mem_cons, List.not_mem_nil, or_false] at hu hv
          rcases hl' with rfl | rfl <;> rcases hm' with rfl | rfl <;> rcases hu with rfl | rfl <;>
            rcases hv with hv | hv <;> first | exact n1 hv | exact n2 hv | exact n3 hv | exact n4 hv
      · intro h
        rw [List.eq_nil_iff_forall_not_mem]
        rintro ⟨i, j, p⟩ hm
        obtain ⟨l, m, hl', hm', hmeet, hno⟩ := (h3 i j p (h2 i j p hm)).1 (Or.inl hm)
        rw [List.getElem?_map, Option.map_eq_some_iff] at hl' hm'
        obtain ⟨y, hy, rfl⟩ := hl'
        obtain ⟨w, hw', rfl⟩ := hm'
        have cy := hWc y (List.mem_of_getElem? hy)
        have cw := hWc w (List.mem_of_getElem? hw')
        obtain ⟨a, ea⟩ := Option.ne_none_iff_exists'.1 (hp y cy)
        obtain ⟨b, eb⟩ := Option.ne_none_iff_exists'.1 (hd y cy)
        obtain ⟨c, ec⟩ := Option.ne_none_iff_exists'.1 (hp w cw)
        obtain ⟨d, ed⟩ := Option.ne_none_iff_exists'.1 (hd w cw)
        rw [hline y a b ea eb, hline w c d ec ed] at hmeet hno
        have hno' : ∀ u ∈ [a, b], ∀ v ∈ [c, d], u ≠ v := by
          intro u hu v hv e
          exact hno ⟨rfl, u, hu, v, hv, by rw [decide_eq_true_eq]; exact e⟩
        exact h y w a b c d cy cw ea eb ec ed (hno' a (by simp) c (by simp)) (hno' a (by simp) d (by simp))
          (hno' b (by simp) c (by simp)) (hno' b (by simp) d (by simp)) ⟨p, hmeet⟩
    rw [← hhits]
    cases hits with
    | nil => simp [callAll]
    | cons h hs => obtain ⟨i, j, p⟩ := h; simp [callAll]
  · have hsome : ∃ y, (walkAllEdges s (fun _ => true) z).find? (fun e => !(checkEdge mkq yd s e == some true)) = some y := by
      rw [← Option.isSome_iff_exists, List.find?_isSome]
      push Not at hA
      obtain ⟨y, hy, h⟩ := hA
      exact ⟨y, hy, by simp [h]⟩
    obtain ⟨y, hy⟩ := hsome
    rw [hy]
    simp only
    obtain ⟨b, h1, _⟩ := hce y (hWc y (List.mem_of_find?_eq_some hy))
    rw [if_neg (by rw [h1]; nofun)]
    refine ⟨Or.inr rfl, ?_⟩
    simp only [reduceCtorEq, false_iff]
    intro h
    exact hA (hall.2 (hnp h))

end Ring
end Verif.Lemmas.Validate
