import Verif.Model.Simplify
import Verif.Spec.Simplify
import Verif.Lemmas.F64

namespace Verif.Simplify
open Verif.Spec.Simplify

/-! ### The furthest point -/

theorem furthest_spec {α : Type} (d : Pt α → F64) :
    ∀ (ps : List (Pt α)) (i : Nat) (acc : F64 × Nat), acc.1.isNaN = false →
      (furthest d ps i acc).1.isNaN = false ∧
      acc.1.key ≤ (furthest d ps i acc).1.key ∧
      (∀ p ∈ ps, (d p).isNaN = false → (d p).key ≤ (furthest d ps i acc).1.key) ∧
      ((furthest d ps i acc) = acc ∨
        ∃ pre p post, ps = pre ++ p :: post ∧ (furthest d ps i acc).2 = i + pre.length ∧
          (furthest d ps i acc).1 = d p) := by
  intro ps
  induction ps with
  | nil => intro i acc h; exact ⟨h, Int.le_refl _, by simp, Or.inl rfl⟩
  | cons p ps ih =>
    intro i acc h
    unfold furthest
    split
    · rename_i hlt
      rw [F64.lt_iff] at hlt
      obtain ⟨_, hn, hk⟩ := hlt
      obtain ⟨a, b, c, e⟩ := ih (i + 1) (d p, i) hn
      refine ⟨a, by simp only [] at b; omega, ?_, ?_⟩
      · intro q hq hqn
        rcases List.mem_cons.mp hq with rfl | hq
        · exact b
        · exact c q hq hqn
      · refine Or.inr ?_
        rcases e with e | ⟨pre, q, post, e1, e2, e3⟩
        · exact ⟨[], p, ps, rfl, by rw [e]; rfl, by rw [e]⟩
        · exact ⟨p :: pre, q, post, by rw [e1]; rfl, by rw [e2]; simp; omega, e3⟩
    · rename_i hlt
      obtain ⟨a, b, c, e⟩ := ih (i + 1) acc h
      refine ⟨a, b, ?_, ?_⟩
      · intro q hq hqn
        rcases List.mem_cons.mp hq with rfl | hq
        · have : ¬ acc.1.key < (d q).key := by
            intro hk; exact hlt (F64.lt_iff.mpr ⟨h, hqn, hk⟩)
          omega
        · exact c q hq hqn
      · rcases e with e | ⟨pre, q, post, e1, e2, e3⟩
        · exact Or.inl e
        · exact Or.inr ⟨p :: pre, q, post, by rw [e1]; rfl, by rw [e2]; simp; omega, e3⟩

/-! ### Joining two simplified halves -/

theorem keeps_ne_nil {P : Type} {ok : P → P → P → Prop} {l o : List P} (h : Keeps ok l o) :
    o ≠ [] := by cases h <;> simp

theorem keeps_head {P : Type} {ok : P → P → P → Prop} {l o : List P} (h : Keeps ok l o) :
    o.head? = l.head? := by cases h <;> rfl

theorem getLast?_app {P : Type} (a b : List P) (h : b ≠ []) :
    (a ++ b).getLast? = b.getLast? := by
  rw [List.getLast?_append]
  cases hb : b.getLast? with
  | none => rw [List.getLast?_eq_none_iff] at hb; exact absurd hb h
  | some x => rfl

theorem keeps_last {P : Type} {ok : P → P → P → Prop} {l o : List P} (h : Keeps ok l o) :
    o.getLast? = l.getLast? := by
  induction h with
  | last p => rfl
  | step p dropped q rest out hd hk ih =>
    rw [List.getLast?_cons_cons, ih]
    cases dropped with
    | nil => simp [List.getLast?_cons_cons]
    | cons a t =>
      rw [show p :: (a :: t ++ q :: rest) = (p :: a :: t) ++ (q :: rest) from rfl,
        getLast?_app _ _ (by simp)]

theorem keeps_single {P : Type} {ok : P → P → P → Prop} {l o : List P} (h : Keeps ok l o) :
    l.length ≤ 1 ↔ o.length ≤ 1 := by
  cases h <;> simp <;> omega

theorem keeps_join {P : Type} {ok : P → P → P → Prop} {l o : List P} (h : Keeps ok l o) :
    ∀ (a b o2 : List P) (q : P), l = a ++ [q] → Keeps ok (q :: b) (q :: o2) →
      Keeps ok (a ++ q :: b) (o.dropLast ++ q :: o2) := by
  induction h with
  | last p =>
    intro a b o2 q hl h2
    cases a with
    | nil => simpa using h2
    | cons x xs => simp at hl
  | step p dropped r rest out hd hk ih =>
    intro a b o2 q hl h2
    cases a with
    | nil => simp at hl
    | cons x xs =>
      simp only [List.cons_append, List.cons.injEq] at hl
      obtain ⟨rfl, hl⟩ := hl
      -- the tail `dropped ++ r :: rest` ends in q
      have hsplit : ∃ a', r :: rest = a' ++ [q] ∧ xs = dropped ++ a' := by
        rcases List.append_eq_append_iff.mp hl with ⟨c, h1, h3⟩ | ⟨c, h1, h3⟩
        · exact ⟨c, h3, h1⟩
        · -- dropped = xs ++ c, [q] = c ++ r :: rest, so c = []
          cases c with
          | nil => simp at h3 h1; exact ⟨[], by simp [h3], by simp [h1]⟩
          | cons y ys => simp at h3
      obtain ⟨a', h1, h3⟩ := hsplit
      have := ih a' b o2 q h1 h2
      subst h3
      cases a' with
      | nil =>
        simp only [List.nil_append, List.cons.injEq] at h1
        obtain ⟨rfl, rfl⟩ := h1
        have hout : out = [] := by
          have := (keeps_single hk).mp (by simp)
          simpa using this
        subst hout
        simp only [List.append_nil, List.cons_append]
        have := Keeps.step p dropped r b o2 hd (by simpa using this)
        simpa using this
      | cons y ys =>
        simp only [List.cons_append, List.cons.injEq] at h1
        obtain ⟨rfl, rfl⟩ := h1
        have h4 : (p :: r :: out).dropLast = p :: (r :: out).dropLast := by simp
        rw [h4]
        -- out is nonempty
        have hout : out ≠ [] := by
          intro h; subst h
          have := (keeps_single hk).mpr (by simp)
          simp at this
        have h5 : (r :: out).dropLast = r :: out.dropLast := by
          cases out with
          | nil => exact absurd rfl hout
          | cons => rfl
        rw [h5] at this ⊢
        have := Keeps.step p dropped r (ys ++ q :: b) (out.dropLast ++ q :: o2) hd
          (by simpa using this)
        simpa using this

theorem needed_join {P : Type} {far : P → P → P → Prop} {c e : List P} {q : P}
    (h1 : Needed far (c ++ [q])) (h2 : Needed far (q :: e))
    (hq : c ≠ [] → e ≠ [] → ∃ a ∈ c, ∃ b ∈ e, far a b q) : Needed far (c ++ q :: e) := by
  intro before p after heq hb ha
  rcases List.append_eq_append_iff.mp heq with ⟨x, hx, hy⟩ | ⟨x, hx, hy⟩
  · -- before = c ++ x, q :: e = x ++ p :: after
    cases x with
    | nil =>
      simp only [List.nil_append, List.cons.injEq] at hy
      obtain ⟨rfl, rfl⟩ := hy
      simp only [List.append_nil] at hx
      subst hx
      exact hq hb ha
    | cons y ys =>
      simp only [List.cons_append, List.cons.injEq] at hy
      obtain ⟨rfl, rfl⟩ := hy
      obtain ⟨a, ha', b, hb', hf⟩ := h2 (q :: ys) p after rfl (by simp) ha
      exact ⟨a, by rw [hx]; exact List.mem_append_right _ ha', b, hb', hf⟩
  · -- c = before ++ x, p :: after = x ++ q :: e
    cases x with
    | nil =>
      simp only [List.nil_append, List.cons.injEq] at hy
      obtain ⟨rfl, rfl⟩ := hy
      simp only [List.append_nil] at hx
      subst hx
      exact hq hb ha
    | cons y ys =>
      simp only [List.cons_append, List.cons.injEq] at hy
      obtain ⟨rfl, rfl⟩ := hy
      obtain ⟨a, ha', b, hb', hf⟩ :=
        h1 before p (ys ++ [q]) (by rw [hx]; simp) hb (by simp)
      refine ⟨a, ha', b, ?_, hf⟩
      rcases List.mem_append.mp hb' with h | h
      · exact List.mem_append_left _ h
      · rw [List.mem_singleton.mp h]; exact List.mem_append_right _ (by simp)

theorem keeps_id {P : Type} {ok : P → P → P → Prop} : ∀ (l : List P), l ≠ [] → Keeps ok l l
  | [], h => absurd rfl h
  | [p], _ => Keeps.last p
  | p :: q :: r, _ => Keeps.step p [] q r r (by simp) (keeps_id (q :: r) (by simp))

/-! ### The recursion -/

/-- What a call promises: it finished and appended a correct simplification,
or it reports an error and the last poll had said "cancelled". -/
def Good {α : Type} (ctx : Ctx) (tol : F64) (dist : Pt α → Pt α → Pt α → F64)
    (k : Nat) (ls ret : List (Pt α)) (r : Res α) : Prop :=
  ∃ out err k', r = .ret out err k' ∧
    ((err = false ∧ k ≤ k' ∧ ∃ o, out = ret ++ o ∧
        Keeps (fun a b p => ¬ F64.lt tol (dist a b p) = true) ls o ∧
        (F64.le tol F64.zero = false →
          Needed (fun a b p => F64.lt tol (dist a b p) = true) o) ∧
        (F64.le tol F64.zero = true → o = ls)) ∨
     (err = true ∧ k < k' ∧ ctx (k' - 1) = true))

theorem dpRec_good {α : Type} (ctx : Ctx) (hctx : ctx.Mono) (tol : F64)
    (dist : Pt α → Pt α → Pt α → F64) :
    ∀ (fuel k : Nat) (ls ret : List (Pt α)), ls ≠ [] → ls.length < fuel →
      Good ctx tol dist k ls ret (dpRec ctx tol dist fuel k ls ret) := by
  intro fuel
  induction fuel with
  | zero => intro k ls ret _ h; omega
  | succ fuel ih =>
    intro k ls ret hne hlen
    cases ls with
    | nil => exact absurd rfl hne
    | cons first rest =>
    unfold dpRec
    simp only []
    have hsmall : ∀ l : List (Pt α), l.length ≤ 2 →
        Needed (fun a b p => F64.lt tol (dist a b p) = true) l := by
      intro l hl before p after he hb ha
      have : l.length = before.length + (after.length + 1) := by rw [he]; simp
      have hb' : 0 < before.length := List.length_pos_iff.mpr hb
      have ha' : 0 < after.length := List.length_pos_iff.mpr ha
      omega
    split
    · rename_i hstop
      refine ⟨_, _, _, rfl, Or.inl ⟨rfl, Nat.le_refl _, _, rfl, keeps_id _ (by simp), ?_, fun _ => rfl⟩⟩
      intro ht
      rw [ht] at hstop
      rcases hstop with h | h
      · exact absurd h (by simp)
      · exact hsmall _ h
    · rename_i hgo
      rw [not_or] at hgo
      obtain ⟨htol, hlen2⟩ := hgo
      have htolf : F64.le tol F64.zero = false := by simpa using htol
      generalize hlast : (first :: rest).getLast (by simp) = last
      have hrest : rest ≠ [] := by intro h; subst h; simp at hlen2
      have hl' : rest = rest.dropLast ++ [last] := by
        rw [← hlast, List.getLast_cons hrest, List.dropLast_concat_getLast]
      generalize hmid : rest.dropLast = mid at *
      obtain ⟨hn, hge, hall, hor⟩ :=
        furthest_spec (dist first last) mid 1 (F64.zero, 0) F64.nan_zero
      generalize hr : furthest (dist first last) mid 1 (F64.zero, 0) = r at *
      split
      · rename_i hlt
        rw [F64.lt_iff] at hlt
        obtain ⟨htn, _, hk⟩ := hlt
        have hne0 : r ≠ (F64.zero, 0) := by
          intro h
          rw [h] at hk
          have : F64.le tol F64.zero = true :=
            F64.le_iff.mpr ⟨htn, F64.nan_zero, by simp only [] at hk; omega⟩
          exact htol this
        obtain ⟨pre, p, post, hm, hidx, hd⟩ := hor.resolve_left hne0
        have hfar : F64.lt tol (dist first last p) = true := by
          rw [← hd]; exact F64.lt_iff.mpr ⟨htn, hn, hk⟩
        have hls : first :: rest = first :: (pre ++ p :: (post ++ [last])) := by
          rw [hl', hm]; simp
        split
        · rename_i hlen3
          refine ⟨_, _, _, rfl, Or.inl ⟨rfl, Nat.le_refl _, _, rfl, keeps_id _ (by simp), ?_,
            fun h => absurd h htol⟩⟩
          intro _
          have hpp : pre = [] ∧ post = [] := by
            have : (first :: rest).length = pre.length + post.length + 3 := by
              rw [hls]; simp; omega
            constructor
            · exact List.length_eq_zero_iff.mp (by omega)
            · exact List.length_eq_zero_iff.mp (by omega)
          obtain ⟨rfl, rfl⟩ := hpp
          rw [hls]
          simp only [List.nil_append]
          intro before x after he hb ha
          have : before = [first] ∧ x = p ∧ after = [last] := by
            cases before with
            | nil => exact absurd rfl hb
            | cons y ys =>
              simp only [List.cons_append, List.cons.injEq] at he
              obtain ⟨rfl, he⟩ := he
              cases ys with
              | nil =>
                simp only [List.nil_append, List.cons.injEq] at he
                exact ⟨rfl, he.1.symm, he.2.symm⟩
              | cons z zs =>
                simp only [List.cons_append, List.cons.injEq] at he
                have := congrArg List.length he.2
                have ha' : 0 < after.length := List.length_pos_iff.mpr ha
                simp at this
                omega
          obtain ⟨rfl, rfl, rfl⟩ := this
          exact ⟨first, by simp, last, by simp, hfar⟩
        · rename_i hlen3
          split
          · rename_i hc
            exact ⟨_, _, _, rfl, Or.inr ⟨rfl, by omega, by simpa using hc⟩⟩
          · have htake : (first :: rest).take (r.2 + 1) = (first :: pre) ++ [p] := by
              rw [hls, hidx]
              rw [show first :: (pre ++ p :: (post ++ [last]))
                  = ((first :: pre) ++ [p]) ++ (post ++ [last]) from by simp]
              rw [List.take_append_of_le_length (by simp; omega)]
              rw [List.take_of_length_le (by simp; omega)]
            have hdrop : (first :: rest).drop r.2 = p :: (post ++ [last]) := by
              rw [hls, hidx]
              rw [show first :: (pre ++ p :: (post ++ [last]))
                  = (first :: pre) ++ (p :: (post ++ [last])) from by simp]
              rw [List.drop_append_of_le_length (by simp; omega)]
              rw [List.drop_of_length_le (by simp; omega)]
              simp
            have hlenls : (first :: rest).length = pre.length + post.length + 3 := by
              rw [hls]; simp; omega
            rw [htake, hdrop]
            obtain ⟨out1, err1, k1, e1, g1⟩ := ih (k + 1) ((first :: pre) ++ [p]) ret
              (by simp) (by simp at hlenls hlen ⊢; omega)
            rw [e1]
            simp only []
            rcases g1 with ⟨_, hk1, o1, ho1, hK1, hN1, _⟩ | ⟨_, hk1, hc1⟩
            · split
              · rename_i hc
                exact ⟨_, _, _, rfl, Or.inr ⟨rfl, by omega, by simpa using hc⟩⟩
              · have ho1ne := keeps_ne_nil hK1
                have hne1 : out1 ≠ [] := by rw [ho1]; simp [ho1ne]
                rw [if_neg hne1]
                obtain ⟨out2, err2, k2, e2, g2⟩ := ih (k1 + 1) (p :: (post ++ [last]))
                  out1.dropLast (by simp) (by simp at hlenls hlen ⊢; omega)
                rw [e2]
                simp only []
                rcases g2 with ⟨_, hk2, o2, ho2, hK2, hN2, _⟩ | ⟨_, hk2, hc2⟩
                · cases hc : ctx k2 with
                  | true => exact ⟨_, _, _, rfl, Or.inr ⟨rfl, by omega, by simpa using hc⟩⟩
                  | false =>
                    -- o2 = p :: o2'
                    obtain ⟨o2', ho2'⟩ : ∃ t, o2 = p :: t := by
                      have := keeps_head hK2
                      cases o2 with
                      | nil => exact absurd rfl (keeps_ne_nil hK2)
                      | cons a t => simp at this; exact ⟨t, by rw [this]⟩
                    subst ho2'
                    have hl1 : o1 = o1.dropLast ++ [p] := by
                      have h := keeps_last hK1
                      rw [getLast?_app _ _ (by simp)] at h
                      rw [List.getLast?_eq_some_getLast ho1ne] at h
                      simp at h
                      conv => lhs; rw [← List.dropLast_concat_getLast ho1ne]
                      rw [h]
                    have hh1 : o1.dropLast.head? = some first := by
                      have h := keeps_head hK1
                      simp only [List.cons_append, List.head?_cons] at h
                      cases hD : o1.dropLast with
                      | nil =>
                        -- then o1 = [p]; but Keeps of a list of length ≥ 2 has length ≥ 2
                        rw [hD] at hl1
                        rw [hl1] at hK1
                        have := (keeps_single hK1).mpr (by simp)
                        simp at this
                      | cons a t =>
                        rw [hl1, hD] at h
                        simpa using h
                    refine ⟨_, _, _, rfl, Or.inl ⟨rfl, by omega, o1.dropLast ++ p :: o2', ?_, ?_, ?_,
                      fun h => absurd h htol⟩⟩
                    · rw [ho2, ho1, List.dropLast_append_of_ne_nil ho1ne]; simp
                    · have := keeps_join hK1 (first :: pre) (post ++ [last]) o2' p rfl hK2
                      rw [hls]
                      simpa using this
                    · intro ht
                      refine needed_join (by rw [← hl1]; exact hN1 ht) (hN2 ht) ?_
                      intro _ hne2
                      refine ⟨first, ?_, last, ?_, hfar⟩
                      · exact List.mem_of_mem_head? hh1
                      · have h := keeps_last hK2
                        rw [show p :: (post ++ [last]) = (p :: post) ++ [last] from rfl,
                          getLast?_app _ _ (by simp)] at h
                        cases o2' with
                        | nil => exact absurd rfl hne2
                        | cons a t =>
                          rw [List.getLast?_cons_cons] at h
                          simp only [List.getLast?_singleton] at h
                          exact List.mem_of_getLast? h
                · have : ctx k2 = true := hctx _ _ (by omega) hc2
                  exact ⟨_, _, _, rfl, Or.inr ⟨this, by omega, by simpa using this⟩⟩
            · have : ctx k1 = true := hctx _ _ (by omega) hc1
              rw [if_pos this]
              exact ⟨_, _, _, rfl, Or.inr ⟨rfl, by omega, by simpa using this⟩⟩
      · rename_i hlt
        refine ⟨_, _, _, rfl, Or.inl ⟨rfl, Nat.le_refl _, _, rfl, ?_, fun _ => hsmall _ (by simp),
          fun h => absurd h htol⟩⟩
        rw [hl']
        refine Keeps.step first mid last [] [] ?_ (Keeps.last _)
        intro x hx hcon
        rw [F64.lt_iff] at hcon
        have := hall x hx hcon.2.1
        exact hlt (F64.lt_iff.mpr ⟨hcon.1, hn, by omega⟩)

/-! ### planar.Simplify -/

theorem simplifyPolygon_spec {α : Type} (s : Simplifer α) (c : Bool) :
    ∀ (rs out : List (List (Pt α))), simplifyPolygon s c rs = some out ↔
      rs.length = out.length ∧ ∀ i (h : i < rs.length) (h' : i < out.length),
        ∃ ls, s rs[i] c = some ls ∧
          out[i] = if ls.length > 2 ∨ c = false then ls else [] := by
  intro rs
  induction rs with
  | nil =>
    intro out
    unfold simplifyPolygon
    cases out <;> simp
  | cons r rs ih =>
    intro out
    unfold simplifyPolygon
    cases hs : s r c with
    | none =>
      simp only []
      constructor
      · intro h; cases h
      · intro ⟨hl, h⟩
        cases out with
        | nil => simp at hl
        | cons o os =>
          obtain ⟨ls, h1, _⟩ := h 0 (by simp) (by simp)
          simp [hs] at h1
    | some ls =>
      simp only []
      cases hrec : simplifyPolygon s c rs with
      | none =>
        simp only []
        constructor
        · intro h; cases h
        · intro ⟨hl, h⟩
          cases out with
          | nil => simp at hl
          | cons o os =>
            have := (ih os).mpr ⟨by simpa using hl, fun i hi hi' => by
              have := h (i + 1) (by simp; omega) (by simp; omega)
              simpa using this⟩
            rw [hrec] at this; cases this
      | some rest =>
        simp only [Option.some.injEq]
        constructor
        · intro h
          subst h
          obtain ⟨hl, h⟩ := (ih rest).mp hrec
          refine ⟨by simp [hl], fun i hi hi' => ?_⟩
          cases i with
          | zero => exact ⟨ls, by simpa using hs, by simp⟩
          | succ j =>
            have := h j (by simp at hi; omega) (by simp at hi'; omega)
            simpa using this
        · intro ⟨hl, h⟩
          cases out with
          | nil => simp at hl
          | cons o os =>
            have h2 := (ih os).mpr ⟨by simpa using hl, fun i hi hi' => by
              have := h (i + 1) (by simp; omega) (by simp; omega)
              simpa using this⟩
            rw [hrec] at h2
            obtain ⟨ls', h3, h4⟩ := h 0 (by simp) (by simp)
            simp [hs] at h3 h4
            subst h3
            cases h2
            rw [h4]

theorem simplifyPolygons_spec {α : Type} (s : Simplifer α) :
    ∀ (ps out : List (List (List (Pt α)))), simplifyPolygons s ps = some out ↔
      ps.length = out.length ∧ ∀ i (h : i < ps.length) (h' : i < out.length),
        simplifyPolygon s true ps[i] = some out[i] := by
  intro ps
  induction ps with
  | nil =>
    intro out
    unfold simplifyPolygons
    cases out <;> simp
  | cons p ps ih =>
    intro out
    unfold simplifyPolygons
    cases hs : simplifyPolygon s true p with
    | none =>
      simp only []
      constructor
      · intro h; cases h
      · intro ⟨hl, h⟩
        cases out with
        | nil => simp at hl
        | cons o os =>
          have h1 := h 0 (by simp) (by simp)
          simp [hs] at h1
    | some ply =>
      simp only []
      cases hrec : simplifyPolygons s ps with
      | none =>
        simp only []
        constructor
        · intro h; cases h
        · intro ⟨hl, h⟩
          cases out with
          | nil => simp at hl
          | cons o os =>
            have := (ih os).mpr ⟨by simpa using hl, fun i hi hi' => by
              have := h (i + 1) (by simp; omega) (by simp; omega)
              simpa using this⟩
            rw [hrec] at this; cases this
      | some rest =>
        simp only [Option.some.injEq]
        constructor
        · intro h
          subst h
          obtain ⟨hl, h⟩ := (ih rest).mp hrec
          refine ⟨by simp [hl], fun i hi hi' => ?_⟩
          cases i with
          | zero => simpa using hs
          | succ j =>
            have := h j (by simp at hi; omega) (by simp at hi'; omega)
            simpa using this
        · intro ⟨hl, h⟩
          cases out with
          | nil => simp at hl
          | cons o os =>
            have h2 := (ih os).mpr ⟨by simpa using hl, fun i hi hi' => by
              have := h (i + 1) (by simp; omega) (by simp; omega)
              simpa using this⟩
            rw [hrec] at h2
            have h3 := h 0 (by simp) (by simp)
            simp [hs] at h3
            cases h2
            rw [h3]

theorem simplifyAll_spec {α : Type} (s : Simplifer α) :
    ∀ (gs out : List (Geom α)), simplifyAll s gs = some out ↔
      gs.length = out.length ∧ ∀ i (h : i < gs.length) (h' : i < out.length),
        simplify s gs[i] = some out[i] := by
  intro ps
  induction ps with
  | nil =>
    intro out
    unfold simplifyAll
    cases out <;> simp
  | cons p ps ih =>
    intro out
    unfold simplifyAll
    cases hs : simplify s p with
    | none =>
      simp only []
      constructor
      · intro h; cases h
      · intro ⟨hl, h⟩
        cases out with
        | nil => simp at hl
        | cons o os =>
          have h1 := h 0 (by simp) (by simp)
          simp [hs] at h1
    | some ply =>
      simp only []
      cases hrec : simplifyAll s ps with
      | none =>
        simp only []
        constructor
        · intro h; cases h
        · intro ⟨hl, h⟩
          cases out with
          | nil => simp at hl
          | cons o os =>
            have := (ih os).mpr ⟨by simpa using hl, fun i hi hi' => by
              have := h (i + 1) (by simp; omega) (by simp; omega)
              simpa using this⟩
            rw [hrec] at this; cases this
      | some rest =>
        simp only [Option.some.injEq]
        constructor
        · intro h
          subst h
          obtain ⟨hl, h⟩ := (ih rest).mp hrec
          refine ⟨by simp [hl], fun i hi hi' => ?_⟩
          cases i with
          | zero => simpa using hs
          | succ j =>
            have := h j (by simp at hi; omega) (by simp at hi'; omega)
            simpa using this
        · intro ⟨hl, h⟩
          cases out with
          | nil => simp at hl
          | cons o os =>
            have h2 := (ih os).mpr ⟨by simpa using hl, fun i hi hi' => by
              have := h (i + 1) (by simp; omega) (by simp; omega)
              simpa using this⟩
            rw [hrec] at h2
            have h3 := h 0 (by simp) (by simp)
            simp [hs] at h3
            cases h2
            rw [h3]

end Verif.Simplify

namespace Verif.Simplify
open Verif.Spec.Simplify

/-- The context that is never cancelled. -/
def never : Ctx := fun _ => false

theorem never_mono : never.Mono := by intro i j _ h; exact h

/-- A call that reports no error returned what an uncancelled call returns. -/
theorem dpRec_never {α : Type} (ctx : Ctx) (hctx : ctx.Mono) (tol : F64)
    (dist : Pt α → Pt α → Pt α → F64) :
    ∀ (fuel k : Nat) (ls ret : List (Pt α)) (out : List (Pt α)) (k' : Nat),
      ls ≠ [] → ls.length < fuel →
      dpRec ctx tol dist fuel k ls ret = .ret out false k' →
      dpRec never tol dist fuel k ls ret = .ret out false k' := by
  intro fuel
  induction fuel with
  | zero => intro k ls ret out k' _ h; omega
  | succ fuel ih =>
    intro k ls ret out k' hne hlen heq
    cases ls with
    | nil => exact absurd rfl hne
    | cons first rest =>
    unfold dpRec at heq ⊢
    simp only [] at heq ⊢
    split at heq
    · rename_i hc; rw [if_pos hc]; exact heq
    · rename_i hgo
      rw [if_neg hgo]
      rw [not_or] at hgo
      obtain ⟨htol, hlen2⟩ := hgo
      generalize hlast : (first :: rest).getLast (by simp) = last at heq ⊢
      have hrest : rest ≠ [] := by intro h; subst h; simp at hlen2
      have hl' : rest = rest.dropLast ++ [last] := by
        rw [← hlast, List.getLast_cons hrest, List.dropLast_concat_getLast]
      generalize hmid : rest.dropLast = mid at *
      obtain ⟨hn, hge, hall, hor⟩ :=
        furthest_spec (dist first last) mid 1 (F64.zero, 0) F64.nan_zero
      generalize hr : furthest (dist first last) mid 1 (F64.zero, 0) = r at *
      split at heq
      · rename_i hlt
        rw [if_pos hlt]
        rw [F64.lt_iff] at hlt
        obtain ⟨htn, _, hk⟩ := hlt
        have hne0 : r ≠ (F64.zero, 0) := by
          intro h
          rw [h] at hk
          have : F64.le tol F64.zero = true :=
            F64.le_iff.mpr ⟨htn, F64.nan_zero, by simp only [] at hk; omega⟩
          exact htol this
        obtain ⟨pre, p, post, hm, hidx, hd⟩ := hor.resolve_left hne0
        have hls : (first :: rest).length = pre.length + post.length + 3 := by
          rw [hl', hm]; simp; omega
        split at heq
        · rename_i hc; rw [if_pos hc]; exact heq
        · rename_i hc3
          rw [if_neg hc3]
          rw [if_neg (show ¬ never k = true by simp [never])]
          split at heq
          · cases heq
          · have hf1 : ((first :: rest).take (r.2 + 1)).length < fuel := by
              rw [List.length_take]; simp at hlen hls ⊢; omega
            have hn1 : (first :: rest).take (r.2 + 1) ≠ [] := by simp
            have hf2 : ((first :: rest).drop r.2).length < fuel := by
              rw [List.length_drop]; omega
            have hn2 : (first :: rest).drop r.2 ≠ [] := by
              intro h
              have := congrArg List.length h
              rw [List.length_drop] at this
              simp at hls this; omega
            obtain ⟨out1, err1, k1, e1, g1⟩ :=
              dpRec_good ctx hctx tol dist fuel (k + 1) _ ret hn1 hf1
            rw [e1] at heq
            simp only [] at heq
            split at heq
            · cases heq
            · rename_i hc1
              split at heq
              · cases heq
              · rename_i hne1
                rcases g1 with ⟨he1, _⟩ | ⟨_, hk1, hcc⟩
                · subst he1
                  rw [ih _ _ _ _ _ hn1 hf1 e1]
                  simp only []
                  rw [if_neg (show ¬ never k1 = true by simp [never]), if_neg hne1]
                  obtain ⟨out2, err2, k2, e2, g2⟩ :=
                    dpRec_good ctx hctx tol dist fuel (k1 + 1) _ out1.dropLast hn2 hf2
                  rw [e2] at heq
                  simp only [Res.ret.injEq] at heq
                  rcases g2 with ⟨he2, _⟩ | ⟨_, hk2, hcc⟩
                  · subst he2
                    rw [ih _ _ _ _ _ hn2 hf2 e2]
                    simp only [Res.ret.injEq]
                    exact ⟨heq.1, rfl, heq.2.2⟩
                  · have := hctx _ _ (show k2 - 1 ≤ k2 by omega) hcc
                    rw [this] at heq
                    exact absurd heq.2.1 (by simp)
                · exact absurd (hctx _ _ (by omega) hcc) hc1
      · rename_i hlt
        rw [if_neg hlt]
        exact heq

/-- planar.Simplify in one statement: the shape is kept, and every coordinate
list is replaced by what the simplifer returns for it. -/
theorem simplify_shape {α : Type} (s : Simplifer α) (g : Geom α) : ∀ g' : Geom α,
    simplify s g = some g' ↔ SameShape (fun c a b => ∃ ls, s a c = some ls ∧
      b = if ls.length > 2 ∨ c = false then ls else []) g g' := by
  induction g using Geom.induct with
  | point p =>
    intro g'
    simp only [simplify, Option.some.injEq]
    constructor
    · rintro rfl; exact .point p
    · intro h; cases h; rfl
  | multiPoint ps =>
    intro g'
    simp only [simplify, Option.some.injEq]
    constructor
    · rintro rfl; exact .multiPoint ps
    · intro h; cases h; rfl
  | other =>
    intro g'
    simp only [simplify, Option.some.injEq]
    constructor
    · rintro rfl; exact .other
    · intro h; cases h; rfl
  | lineString ps =>
    intro g'
    simp only [simplify]
    constructor
    · intro h
      split at h
      · cases h
      · rename_i ls hs
        cases h
        exact .lineString _ _ ⟨ls, hs, by simp⟩
    · intro h
      cases h with
      | lineString _ b h =>
        obtain ⟨ls, hs, rfl⟩ := h
        rw [hs]; simp
  | multiLineString rs =>
    intro g'
    simp only [simplify]
    constructor
    · intro h
      split at h
      · cases h
      · rename_i ls hs
        cases h
        obtain ⟨hl, h⟩ := (simplifyPolygon_spec s false rs ls).mp hs
        exact .multiLineString _ _ hl h
    · intro h
      cases h with
      | multiLineString _ b hl h =>
        rw [(simplifyPolygon_spec s false rs b).mpr ⟨hl, h⟩]
  | polygon rs =>
    intro g'
    simp only [simplify]
    constructor
    · intro h
      split at h
      · cases h
      · rename_i ls hs
        cases h
        obtain ⟨hl, h⟩ := (simplifyPolygon_spec s true rs ls).mp hs
        exact .polygon _ _ hl h
    · intro h
      cases h with
      | polygon _ b hl h =>
        rw [(simplifyPolygon_spec s true rs b).mpr ⟨hl, h⟩]
  | multiPolygon ps =>
    intro g'
    simp only [simplify]
    constructor
    · intro h
      split at h
      · cases h
      · rename_i ls hs
        cases h
        obtain ⟨hl, h⟩ := (simplifyPolygons_spec s ps ls).mp hs
        exact .multiPolygon _ _ hl fun i hi hi' =>
          (simplifyPolygon_spec s true _ _).mp (h i hi hi')
    · intro h
      cases h with
      | multiPolygon _ b hl h =>
        rw [(simplifyPolygons_spec s ps b).mpr ⟨hl, fun i hi hi' =>
          (simplifyPolygon_spec s true _ _).mpr (h i hi hi')⟩]
  | collection gs ih =>
    intro g'
    simp only [simplify]
    constructor
    · intro h
      split at h
      · cases h
      · rename_i ls hs
        cases h
        obtain ⟨hl, h⟩ := (simplifyAll_spec s gs ls).mp hs
        exact .collection _ _ hl fun i hi hi' =>
          (ih _ (List.getElem_mem hi) _).mp (h i hi hi')
    · intro h
      cases h with
      | collection _ b hl h =>
        rw [(simplifyAll_spec s gs b).mpr ⟨hl, fun i hi hi' =>
          (ih _ (List.getElem_mem hi) _).mpr (h i hi hi')⟩]

end Verif.Simplify
