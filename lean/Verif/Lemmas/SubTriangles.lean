import Verif.Lemmas.SubRing
import Verif.Lemmas.SubHealthy
import Verif.Lemmas.SubNew

/-!
# Helper lemmas: the walk over the triangles of a subdivision
-/

namespace Verif.Lemmas.SubTriangles
open Verif.Quad Verif.Spec.Quad Verif.Lemmas.Quad Verif.Spec.Subdivision Verif.Subdivision
open Verif.Resolve Verif.Spec.Resolve Verif.Lemmas.Resolve Verif.Lemmas.SubLocate Verif.Lemmas.SubTables
open Verif.Lemmas.SubFan Verif.Lemmas.SubWalk Verif.Lemmas.SubMesh Verif.Lemmas.SubCover Verif.Lemmas.Circle
open Verif.Lemmas.SubDelaunay Verif.Lemmas.SubRing Verif.Lemmas.SubHistory Verif.Lemmas.SubNew
open Verif.Spec.Planar

set_option linter.unusedSectionVars false

variable {K : Type} [Field K] [LinearOrder K] [IsStrictOrderedRing K]
variable {yd : Bool} {f0 f1 f2 : Pt K} {s : Store (Pt K)} {z : E}

/-- How often a triangle is listed. -/
def cnt (ts : List (Pt K × Pt K × Pt K)) (o d t : Pt K) : Nat :=
  ts.countP fun T => decide (SameTriangle T (o, d, t))

theorem same_rot {T : Pt K × Pt K × Pt K} {o d t : Pt K} : SameTriangle T (o, d, t) ↔ SameTriangle T (d, t, o) := by
  unfold SameTriangle
  simp only
  constructor
  · rintro (h | h | h)
    · exact Or.inr (Or.inr h)
    · exact Or.inl h
    · exact Or.inr (Or.inl h)
  · rintro (h | h | h)
    · exact Or.inr (Or.inl h)
    · exact Or.inr (Or.inr h)
    · exact Or.inl h

theorem cnt_rot (ts : List (Pt K × Pt K × Pt K)) (o d t : Pt K) : cnt ts o d t = cnt ts d t o := by
  unfold cnt
  congr 1
  funext T
  rw [decide_eq_decide]
  exact same_rot

/-- The second and third corner of the left face. -/
def two (s : Store (Pt K)) (y : E) : Pt K × Pt K := (org s (lnext s y), org s (lnext s (lnext s y)))

theorem corners_ne (hT : Triangulated yd f0 f1 f2 s z) {y : E} (hy : Connected s z y) {o d t : Pt K}
    (hf : FaceOf s y o d t) : o ≠ d ∧ o ≠ t ∧ d ≠ t := by
  obtain ⟨_, _, _, g, ht⟩ := hT.face y hy
  obtain ⟨rfl, rfl, rfl⟩ := face_unique hf g
  rcases ht with ht | hO
  · exact ⟨(turns_ne ht).1, (turns_ne ht).2.2, (turns_ne ht).2.1⟩
  · obtain ⟨n1, n2, n3⟩ := turns_ne hT.frame
    rcases outside_backwards (Reached.inv hT.reached) hT.outer hO hf with
      ⟨rfl, rfl, rfl⟩ | ⟨rfl, rfl, rfl⟩ | ⟨rfl, rfl, rfl⟩
    · exact ⟨n1.symm, n2, n3⟩
    · exact ⟨n3, n1, n2.symm⟩
    · exact ⟨n2.symm, n3.symm, n1.symm⟩

theorem face_two (hT : Triangulated yd f0 f1 f2 s z) {y : E} (hy : Connected s z y) {o d t : Pt K}
    (hf : FaceOf s y o d t) : two s y = (d, t) := by
  obtain ⟨_, h1, h2, _⟩ := pwE_face (p := o) hT hy hf
  unfold two; rw [h1, h2]

theorem face_at (hT : Triangulated yd f0 f1 f2 s z) {y : E} (hy : Connected s z y) {p : Pt K}
    (hp : orig s y = some p) : FaceOf s y p (two s y).1 (two s y).2 := by
  obtain ⟨o, d, t, hf, _⟩ := hT.face y hy
  obtain rfl := Option.some.inj (hf.2.1.symm.trans hp)
  rw [face_two hT hy hf]; exact hf

/-- The search for the third side of a triangle. -/
theorem find_side (hT : Triangulated yd f0 f1 f2 s z) {y : E} (hy : Connected s z y) {o d t : Pt K}
    (hf : FaceOf s y o d t) : ∃ f, findONextDest s (fun p => decide (p = t)) (sym y) = some (some f) := by
  have hi := Reached.inv hT.reached
  obtain ⟨L, hL⟩ := around_onceRound hi (sym y)
  have hc : ∀ x ∈ L, Connected s z x := fun x hx => around_connected hy.sym ((mem_round hL).1 hx)
  rw [find_all hL (fun x hx => connected_alloc hi (hc x hx) hT.alloc) ?_]
  · have hm : lnext s y ∈ L := by
      refine (mem_round hL).2 ?_
      have : Around s (lnext s y) (sym y) := by rw [← next_lnext hi y]; exact .next .refl
      exact hi.around_symm this
    cases h : L.find? fun x => (dest s x).elim false fun p => decide (p = t) with
    | some f => exact ⟨f, rfl⟩
    | none =>
      exfalso
      rw [List.find?_eq_none] at h
      have := h _ hm
      have hd := face_dest hi hT.agree ((connected_primal hi (lnext_connected hi hy)).2 hT.primal) (face_rot hi hf)
      rw [hd] at this
      simp at this
  · intro x hx
    obtain ⟨_, _, _, hf, _⟩ := hT.face x (hc x hx)
    rw [face_dest hi hT.agree ((connected_primal hi (hc x hx)).2 hT.primal) hf]
    simp

/-- The edges round a vertex that triangles are found at. -/
def kept (s : Store (Pt K)) (seen : List (Pt K)) (L : List E) : List E :=
  L.filter fun y => decide ((two s y).1 ∉ seen ∧ (two s y).2 ∉ seen)

theorem round_eq (hT : Triangulated yd f0 f1 f2 s z) {e : E} (he : Connected s z e) {p : Pt K}
    (hp : orig s e = some p) {L : List E} (hL : OnceRound s.next e L) (seen : List (Pt K)) :
    ∀ (n i fuel : Nat) (stack : List E) (acc : List (Pt K × Pt K × Pt K)), i + n = L.length → 0 < n → n ≤ fuel →
      trianglesRound s seen p e fuel (s.next^[i] e) stack acc =
        some (((kept s seen (L.drop i)).map sym).reverse ++ stack,
          acc ++ (kept s seen (L.drop i)).map fun y => (p, two s y)) := by
  have hi := Reached.inv hT.reached
  intro n
  induction n with
  | zero => intro i fuel stack acc _ h; omega
  | succ n ih =>
    intro i fuel stack acc h1 _ h3
    obtain ⟨fuel, rfl⟩ : ∃ f, fuel = f + 1 := ⟨fuel - 1, by omega⟩
    have hlt : i < L.length := by omega
    have hg := onceRound_get hL i hlt
    have hdrop : L.drop i = s.next^[i] e :: L.drop (i + 1) := by
      rw [List.drop_eq_getElem_cons hlt, hg]
    have ha : Around s e (s.next^[i] e) := around_iff.2 ⟨i, rfl⟩
    have hc : Connected s z (s.next^[i] e) := around_connected he ha
    have ky := (connected_primal hi hc).2 hT.primal
    have hpo : orig s (s.next^[i] e) = some p := by
      rw [← hp]; exact hT.agree e _ ((connected_primal hi he).2 hT.primal) ha
    have hf := face_at hT hc hpo
    have hd := face_dest hi hT.agree ky hf
    have hd2 := dest_onext hT hf
    obtain ⟨f, hfind⟩ := find_side hT hc hf
    have hnx : onext s (s.next^[i] e) = s.next^[i + 1] e := by
      rw [Function.iterate_succ_apply']; rfl
    have hend : s.next^[i + 1] e = e ↔ n = 0 := by
      constructor
      · intro h
        by_contra hn
        have hlt' : i + 1 < L.length := by omega
        have h0 : 0 < L.length := by omega
        have g1 := onceRound_get hL (i + 1) hlt'
        have g0 := onceRound_get hL 0 h0
        rw [h] at g1
        have : L[i + 1] = L[0] := by rw [g1, g0]; rfl
        have := (List.Nodup.getElem_inj_iff hL.2.2.1).1 this
        omega
      · intro h
        have : i + 1 = L.length := by omega
        rw [this]; exact hL.2.2.2
    have hnil : n = 0 → L.drop (i + 1) = [] := fun h => List.drop_eq_nil_of_le (by omega)
    unfold trianglesRound
    simp only [hd, hd2, hfind]
    rw [hdrop]
    by_cases hk : (two s (s.next^[i] e)).2 ∈ seen ∨ (two s (s.next^[i] e)).1 ∈ seen
    · rw [if_pos hk]
      have hkept : kept s seen (s.next^[i] e :: L.drop (i + 1)) = kept s seen (L.drop (i + 1)) := by
        unfold kept
        rw [List.filter_cons_of_neg]
        simp only [decide_eq_true_eq]
        tauto
      rw [hkept, hnx]
      by_cases hn : n = 0
      · rw [if_pos (hend.2 hn), hnil hn]
        simp [kept]
      · rw [if_neg (fun h => hn (hend.1 h))]
        exact ih (i + 1) fuel stack acc (by omega) (by omega) (by omega)
    · rw [if_neg hk]
      have hkept : kept s seen (s.next^[i] e :: L.drop (i + 1)) = s.next^[i] e :: kept s seen (L.drop (i + 1)) := by
        unfold kept
        rw [List.filter_cons_of_pos]
        simp only [decide_eq_true_eq]
        tauto
      rw [hkept, hnx]
      simp only [reduceCtorEq, if_false]
      by_cases hn : n = 0
      · rw [if_pos (hend.2 hn), hnil hn]
        simp [kept]
      · rw [if_neg (fun h => hn (hend.1 h))]
        rw [ih (i + 1) fuel _ _ (by omega) (by omega) (by omega)]
        simp

/-- What holds while the triangles are walked over. -/
structure Walked (s : Store (Pt K)) (z : E) (seen : List (Pt K)) (stack : List E)
    (acc : List (Pt K × Pt K × Pt K)) : Prop where
  conn : ∀ e ∈ stack, Connected s z e
  once : ∀ y o d t, Connected s z y → FaceOf s y o d t →
    cnt acc o d t = if o ∈ seen ∨ d ∈ seen ∨ t ∈ seen then 1 else 0
  mem : ∀ T ∈ acc, ∃ y, Connected s z y ∧ FaceOf s y T.1 T.2.1 T.2.2
  cov : ∀ l1 p l2, seen = l1 ++ p :: l2 → ∀ y u w, Connected s z y → FaceOf s y p u w →
    u ∈ seen ∨ (∃ e ∈ stack, orig s e = some u) ∨ w ∈ l2
  first : (∃ p ∈ seen, orig s z = some p) ∨ ∃ e ∈ stack, orig s e = orig s z

theorem walked_step (hT : Triangulated yd f0 f1 f2 s z) {e : E} {seen : List (Pt K)} {stack : List E}
    {acc : List (Pt K × Pt K × Pt K)} (h : Walked s z seen (e :: stack) acc) {p : Pt K} (hp : orig s e = some p)
    (hn : p ∉ seen) {L : List E} (hL : OnceRound s.next e L) :
    Walked s z (p :: seen) (((kept s (p :: seen) L).map sym).reverse ++ stack)
      (acc ++ (kept s (p :: seen) L).map fun y => (p, two s y)) := by
  have hi := Reached.inv hT.reached
  have he := h.conn e List.mem_cons_self
  have hc : ∀ y ∈ L, Connected s z y := fun x hx => around_connected he ((mem_round hL).1 hx)
  have hpo : ∀ y ∈ L, orig s y = some p := fun y hy => by
    rw [← hp]; exact hT.agree e _ ((connected_primal hi he).2 hT.primal) ((mem_round hL).1 hy)
  have hkL : ∀ y ∈ kept s (p :: seen) L, y ∈ L := fun y hy => (List.mem_filter.1 hy).1
  have hin : ∀ y d t, Connected s z y → FaceOf s y p d t → y ∈ L := fun y d t hy hf =>
    (mem_round hL).2 (same_ring hT he hy (hf.2.1.trans hp.symm))
  -- the new triangles with the corner `p`
  have here : ∀ y d t, Connected s z y → FaceOf s y p d t →
      cnt ((kept s (p :: seen) L).map fun y => (p, two s y)) p d t = if d ∈ seen ∨ t ∈ seen then 0 else 1 := by
    intro y d t hy hf
    obtain ⟨n1, n2, n3⟩ := corners_ne hT hy hf
    have hyL := hin y d t hy hf
    have e1 : ∀ w ∈ kept s (p :: seen) L,
        decide (SameTriangle (p, two s w) (p, d, t)) = true ↔ (w == y) = true := by
      intro w hw
      rw [decide_eq_true_eq, beq_iff_eq]
      have hfw := face_at hT (hc w (hkL w hw)) (hpo w (hkL w hw))
      constructor
      · rintro (h | h | h)
        · have h2 : two s w = (d, t) := (Prod.mk.inj h).2
          rw [h2] at hfw
          exact face_edge hT hy (hc w (hkL w hw)) hf hfw
        · exact absurd (Prod.mk.inj h).1 n1
        · exact absurd (Prod.mk.inj h).1 n2
      · rintro rfl
        left
        rw [face_two hT hy hf]
    unfold SubTriangles.cnt
    rw [List.countP_map]
    have e2 : (kept s (p :: seen) L).countP ((fun T => decide (SameTriangle T (p, d, t))) ∘ fun y => (p, two s y)) =
        (kept s (p :: seen) L).count y := by
      unfold List.count
      exact List.countP_congr e1
    rw [e2]
    have hnd : (kept s (p :: seen) L).Nodup := hL.2.2.1.filter _
    have hmem : y ∈ kept s (p :: seen) L ↔ ¬ (d ∈ seen ∨ t ∈ seen) := by
      unfold kept
      rw [List.mem_filter, face_two hT hy hf]
      simp only [decide_eq_true_eq, List.mem_cons, not_or]
      constructor
      · rintro ⟨_, ⟨_, h1⟩, _, h2⟩; exact ⟨h1, h2⟩
      · rintro ⟨h1, h2⟩; exact ⟨hyL, ⟨n1.symm, h1⟩, n2.symm, h2⟩
    by_cases hs : d ∈ seen ∨ t ∈ seen
    · rw [if_pos hs]
      exact List.count_eq_zero_of_not_mem (fun h => hmem.1 h hs)
    · rw [if_neg hs]
      exact List.count_eq_one_of_mem hnd (hmem.2 hs)
  have app : ∀ (a b : List (Pt K × Pt K × Pt K)) (o d t : Pt K),
      SubTriangles.cnt (a ++ b) o d t = SubTriangles.cnt a o d t + SubTriangles.cnt b o d t := by
    intro a b o d t; unfold SubTriangles.cnt; exact List.countP_append
  have count : ∀ y d t, Connected s z y → FaceOf s y p d t →
      SubTriangles.cnt (acc ++ (kept s (p :: seen) L).map fun y => (p, two s y)) p d t = 1 := by
    intro y d t hy hf
    rw [app, here y d t hy hf, h.once y p d t hy hf]
    by_cases hs : d ∈ seen ∨ t ∈ seen
    · rw [if_pos hs, if_pos (Or.inr hs)]
    · rw [if_neg hs, if_neg (by tauto)]
  refine ⟨?_, ?_, ?_, ?_, ?_⟩
  · intro x hx
    rw [List.mem_append, List.mem_reverse, List.mem_map] at hx
    rcases hx with ⟨y, hy, rfl⟩ | hx
    · exact (hc y (hkL y hy)).sym
    · exact h.conn x (List.mem_cons_of_mem _ hx)
  · intro y o d t hy hf
    by_cases ho : o = p
    · subst ho
      rw [count y d t hy hf, if_pos (Or.inl List.mem_cons_self)]
    by_cases hd : d = p
    · subst hd
      rw [cnt_rot, count _ t o (lnext_connected hi hy) (face_rot hi hf), if_pos (Or.inr (Or.inl List.mem_cons_self))]
    by_cases ht : t = p
    · subst ht
      rw [cnt_rot, cnt_rot, count _ o d (lnext_connected hi (lnext_connected hi hy)) (face_rot hi (face_rot hi hf)),
        if_pos (Or.inr (Or.inr List.mem_cons_self))]
    have zero : SubTriangles.cnt ((kept s (p :: seen) L).map fun y => (p, two s y)) o d t = 0 := by
      unfold SubTriangles.cnt
      rw [List.countP_eq_zero]
      intro T hT'
      rw [List.mem_map] at hT'
      obtain ⟨w, _, rfl⟩ := hT'
      rw [decide_eq_true_eq]
      rintro (h | h | h)
      · exact ho (Prod.mk.inj h).1.symm
      · exact hd (Prod.mk.inj h).1.symm
      · exact ht (Prod.mk.inj h).1.symm
    rw [app, zero, h.once y o d t hy hf]
    simp only [List.mem_cons, ho, hd, ht, false_or, add_zero]
  · intro T hT'
    rw [List.mem_append, List.mem_map] at hT'
    rcases hT' with hT' | ⟨w, hw, rfl⟩
    · exact h.mem T hT'
    · exact ⟨w, hc w (hkL w hw), face_at hT (hc w (hkL w hw)) (hpo w (hkL w hw))⟩
  · intro l1 q l2 hl y u w hy hf
    cases l1 with
    | nil =>
      obtain ⟨rfl, rfl⟩ := List.cons.inj hl
      obtain ⟨n1, n2, n3⟩ := corners_ne hT hy hf
      by_cases hu : u ∈ seen
      · exact Or.inl (List.mem_cons_of_mem _ hu)
      by_cases hw : w ∈ seen
      · exact Or.inr (Or.inr hw)
      right; left
      refine ⟨sym y, ?_, face_dest hi hT.agree ((connected_primal hi hy).2 hT.primal) hf⟩
      rw [List.mem_append, List.mem_reverse, List.mem_map]
      left
      refine ⟨y, ?_, rfl⟩
      unfold kept
      rw [List.mem_filter, face_two hT hy hf]
      simp only [decide_eq_true_eq, List.mem_cons, not_or]
      exact ⟨hin y u w hy hf, ⟨n1.symm, hu⟩, n2.symm, hw⟩
    | cons x l1 =>
      obtain ⟨rfl, hl'⟩ := List.cons.inj hl
      rcases h.cov l1 q l2 hl' y u w hy hf with h1 | ⟨e', h1, h2⟩ | h1
      · exact Or.inl (List.mem_cons_of_mem _ h1)
      · rcases List.mem_cons.1 h1 with rfl | h1
        · rw [hp] at h2
          rw [← Option.some.inj h2]
          exact Or.inl List.mem_cons_self
        · exact Or.inr (Or.inl ⟨e', List.mem_append.2 (Or.inr h1), h2⟩)
      · exact Or.inr (Or.inr h1)
  · rcases h.first with ⟨q, h1, h2⟩ | ⟨e', h1, h2⟩
    · exact Or.inl ⟨q, List.mem_cons_of_mem _ h1, h2⟩
    · rcases List.mem_cons.1 h1 with rfl | h1
      · exact Or.inl ⟨p, List.mem_cons_self, by rw [← h2, hp]⟩
      · exact Or.inr ⟨e', List.mem_append.2 (Or.inr h1), h2⟩

open Classical in
/-- The edges that begin at points not seen. -/
noncomputable def ahead (s : Store (Pt K)) (z : E) (seen : List (Pt K)) : Finset E :=
  (edges s z).filter fun y => org s y ∉ seen

theorem org_of (hT : Triangulated yd f0 f1 f2 s z) {y : E} (hy : Connected s z y) {p : Pt K}
    (hp : orig s y = some p) : org s y = p := (pwE_face (p := p) hT hy (face_at hT hy hp)).1

theorem ahead_less (hT : Triangulated yd f0 f1 f2 s z) {e : E} (he : Connected s z e) {seen : List (Pt K)} {p : Pt K}
    (hp : orig s e = some p) (hn : p ∉ seen) {L : List E} (hL : OnceRound s.next e L) :
    (ahead s z (p :: seen)).card + L.length ≤ (ahead s z seen).card := by
  classical
  have hi := Reached.inv hT.reached
  rw [← List.toFinset_card_of_nodup hL.2.2.1, ← Finset.card_union_of_disjoint]
  · apply Finset.card_le_card
    intro y hy
    rw [Finset.mem_union, List.mem_toFinset] at hy
    unfold ahead at *
    rw [Finset.mem_filter] at *
    rcases hy with ⟨h1, h2⟩ | hy
    · exact ⟨h1, fun h => h2 (List.mem_cons_of_mem _ h)⟩
    · have ha := (mem_round hL).1 hy
      have hc : Connected s z y := around_connected he ha
      refine ⟨(mem_edges hT).2 hc, ?_⟩
      rw [org_of hT hc (by rw [← hp]; exact hT.agree e _ ((connected_primal hi he).2 hT.primal) ha)]
      exact hn
  · rw [Finset.disjoint_left]
    intro y h1 h2
    unfold ahead at h1
    rw [Finset.mem_filter] at h1
    rw [List.mem_toFinset] at h2
    have ha := (mem_round hL).1 h2
    have hc : Connected s z y := around_connected he ha
    apply h1.2
    rw [org_of hT hc (by rw [← hp]; exact hT.agree e _ ((connected_primal hi he).2 hT.primal) ha)]
    exact List.mem_cons_self

theorem loop_walked (hT : Triangulated yd f0 f1 f2 s z) : ∀ (fuel : Nat) (seen : List (Pt K)) (stack : List E)
    (acc : List (Pt K × Pt K × Pt K)), Walked s z seen stack acc → stack.length + (ahead s z seen).card < fuel →
    ∃ ts seen', trianglesLoop s fuel seen stack acc = some ts ∧ Walked s z seen' [] ts := by
  have hi := Reached.inv hT.reached
  intro fuel
  induction fuel with
  | zero => intro _ _ _ _ h; omega
  | succ fuel ih =>
    intro seen stack acc hW hlt
    cases stack with
    | nil => exact ⟨acc, seen, rfl, hW⟩
    | cons e stack =>
      have he := hW.conn e List.mem_cons_self
      obtain ⟨p, d, t, hf, _⟩ := hT.face e he
      have hp := hf.2.1
      have hlt : stack.length + 1 + (ahead s z seen).card < fuel + 1 := by simpa using hlt
      unfold trianglesLoop
      rw [hp]
      simp only
      by_cases hn : p ∈ seen
      · rw [if_pos hn]
        refine ih seen stack acc ⟨fun x hx => hW.conn x (List.mem_cons_of_mem _ hx), hW.once, hW.mem, ?_, ?_⟩ (by omega)
        · intro l1 q l2 hl y u w hy hf
          rcases hW.cov l1 q l2 hl y u w hy hf with h1 | ⟨e', h1, h2⟩ | h1
          · exact Or.inl h1
          · rcases List.mem_cons.1 h1 with rfl | h1
            · rw [hp] at h2
              rw [← Option.some.inj h2]; exact Or.inl hn
            · exact Or.inr (Or.inl ⟨e', h1, h2⟩)
          · exact Or.inr (Or.inr h1)
        · rcases hW.first with h1 | ⟨e', h1, h2⟩
          · exact Or.inl h1
          · rcases List.mem_cons.1 h1 with rfl | h1
            · exact Or.inl ⟨p, hn, by rw [← h2, hp]⟩
            · exact Or.inr ⟨e', h1, h2⟩
      · rw [if_neg hn]
        have hne : e ≠ onext s e := by
          intro h
          have h1 := dest_onext hT hf
          rw [← h, face_dest hi hT.agree ((connected_primal hi he).2 hT.primal) hf] at h1
          exact (corners_ne hT he hf).2.2 (Option.some.inj h1)
        rw [if_neg hne]
        obtain ⟨L, hL⟩ := around_onceRound hi e
        have hlen : L.length ≤ 4 * s.size := nodup_alloc_length hL.2.2.1 (fun x hx =>
          connected_alloc hi (around_connected he ((mem_round hL).1 hx)) hT.alloc)
        have hr := round_eq hT he hp hL (p :: seen) L.length 0 (4 * s.size) stack acc (by omega) hL.1 hlen
        rw [Function.iterate_zero, id, List.drop_zero] at hr
        rw [hr]
        simp only
        refine ih _ _ _ (walked_step hT hW hp hn hL) ?_
        have hk : (kept s (p :: seen) L).length ≤ L.length := List.length_filter_le _ _
        have hle := ahead_less hT he hp hn hL
        simp only [List.length_append, List.length_reverse, List.length_map]
        omega

/-- The triangles of a subdivision are walked over, each once. -/
theorem walk_triangles (hT : Triangulated yd f0 f1 f2 s z) : ∃ ts, walkAllTriangles s z = some ts ∧
    (∀ T ∈ ts, ∃ y, Connected s z y ∧ FaceOf s y T.1 T.2.1 T.2.2) ∧
    ∀ y o d t, Connected s z y → FaceOf s y o d t → cnt ts o d t = 1 := by
  classical
  have hi := Reached.inv hT.reached
  have hcard : (ahead s z []).card ≤ 4 * s.size := by
    refine le_trans (Finset.card_filter_le _ _) ?_
    unfold edges
    refine le_trans (Finset.card_filter_le _ _) (le_trans Finset.card_image_le ?_)
    rw [Finset.card_product, Finset.card_range, Finset.card_univ, Fintype.card_fin]
    omega
  have h0 : Walked s z [] [z] [] := by
    refine ⟨?_, ?_, ?_, ?_, ?_⟩
    · intro x hx
      rw [List.mem_singleton] at hx; subst hx; exact .refl
    · intro y o d t _ _
      simp [cnt]
    · intro T h; exact absurd h List.not_mem_nil
    · intro l1 p l2 h; simp at h
    · exact Or.inr ⟨z, List.mem_singleton.2 rfl, rfl⟩
  obtain ⟨ts, seen, h1, h2⟩ := loop_walked hT (4 * s.size + 2) [] [z] [] h0 (by
    simp only [List.length_singleton]; omega)
  refine ⟨ts, h1, h2.mem, ?_⟩
  have closed : ∀ (n : Nat) l1 p l2, l2.length ≤ n → seen = l1 ++ p :: l2 → ∀ y u w, Connected s z y →
      FaceOf s y p u w → u ∈ seen := by
    intro n
    induction n with
    | zero =>
      intro l1 p l2 hn hl y u w hy hf
      rcases h2.cov l1 p l2 hl y u w hy hf with h | ⟨_, h, _⟩ | h
      · exact h
      · exact absurd h List.not_mem_nil
      · rw [List.length_eq_zero_iff.1 (Nat.le_zero.1 hn)] at h; exact absurd h List.not_mem_nil
    | succ n ih =>
      intro l1 p l2 hn hl y u w hy hf
      rcases h2.cov l1 p l2 hl y u w hy hf with h | ⟨_, h, _⟩ | h
      · exact h
      · exact absurd h List.not_mem_nil
      · obtain ⟨m1, m2, rfl⟩ := List.append_of_mem h
        obtain ⟨td, hg⟩ := across hT (lnext_connected hi hy) (face_rot hi hf)
        refine ih (l1 ++ p :: m1) w m2 ?_ ?_ _ u td (lnext_connected hi hy).sym hg
        · simp only [List.length_append, List.length_cons] at hn; omega
        · rw [hl]; simp
  have all : ∀ y, Connected s z y → ∃ p ∈ seen, orig s y = some p := by
    intro y hy
    refine connected_ind hi (p := fun y => Connected s z y ∧ ∃ p ∈ seen, orig s y = some p) ?_ ?_ ?_ hy |>.2
    · rcases h2.first with h | ⟨_, h, _⟩
      · exact ⟨.refl, h⟩
      · exact absurd h List.not_mem_nil
    · rintro y ⟨hy, p, hp, ho⟩
      refine ⟨hy.sym, ?_⟩
      obtain ⟨l1, l2, hl⟩ := List.append_of_mem hp
      have hf := face_at hT hy ho
      exact ⟨_, closed _ l1 p l2 le_rfl hl y _ _ hy hf, face_dest hi hT.agree ((connected_primal hi hy).2 hT.primal) hf⟩
    · rintro y ⟨hy, p, hp, ho⟩
      refine ⟨lnext_connected hi hy, ?_⟩
      obtain ⟨l1, l2, hl⟩ := List.append_of_mem hp
      have hf := face_at hT hy ho
      exact ⟨_, closed _ l1 p l2 le_rfl hl y _ _ hy hf, hf.2.2.1⟩
  intro y o d t hy hf
  obtain ⟨p, hp, ho⟩ := all y hy
  obtain rfl := Option.some.inj (ho.symm.trans hf.2.1)
  rw [h2.once y _ d t hy hf, if_pos (Or.inl hp)]

theorem countP_one {α : Type} {p : α → Bool} : ∀ {l : List α}, l.countP p = 1 →
    ∃ l1 x l2, l = l1 ++ x :: l2 ∧ p x = true ∧ ∀ y ∈ l1 ++ l2, p y = false
  | [], h => by simp at h
  | x :: l, h => by
    by_cases hx : p x = true
    · rw [List.countP_cons_of_pos hx] at h
      have h0 : l.countP p = 0 := by omega
      rw [List.countP_eq_zero] at h0
      exact ⟨[], x, l, rfl, hx, fun y hy => by simpa using h0 y hy⟩
    · rw [List.countP_cons_of_neg hx] at h
      obtain ⟨l1, y, l2, rfl, h1, h2⟩ := countP_one h
      refine ⟨x :: l1, y, l2, rfl, h1, fun w hw => ?_⟩
      rcases List.mem_cons.1 hw with rfl | hw
      · simpa using hx
      · exact h2 w hw

theorem pairwise_of_cnt {R : Pt K × Pt K × Pt K → Pt K × Pt K × Pt K → Prop} :
    ∀ {l : List (Pt K × Pt K × Pt K)}, (∀ T ∈ l, cnt l T.1 T.2.1 T.2.2 ≤ 1) →
      (∀ T ∈ l, ∀ T' ∈ l, ¬ R T T' → SameTriangle T' T) → l.Pairwise R
  | [], _, _ => .nil
  | T :: l, h1, h2 => by
    refine List.pairwise_cons.2 ⟨?_, pairwise_of_cnt (fun T' hT' => ?_) (fun T' hT' T'' hT'' =>
      h2 T' (List.mem_cons_of_mem _ hT') T'' (List.mem_cons_of_mem _ hT''))⟩
    · intro T' hT'
      by_contra hR
      have hs := h2 T List.mem_cons_self T' (List.mem_cons_of_mem _ hT') hR
      have := h1 T List.mem_cons_self
      unfold cnt at this
      rw [List.countP_cons_of_pos (by rw [decide_eq_true_eq]; exact Or.inl rfl)] at this
      have h0 : 0 < l.countP fun x => decide (SameTriangle x (T.1, T.2.1, T.2.2)) :=
        List.countP_pos_iff.2 ⟨T', hT', by rw [decide_eq_true_eq]; exact hs⟩
      omega
    · refine le_trans ?_ (h1 T' (List.mem_cons_of_mem _ hT'))
      unfold cnt
      exact List.Sublist.countP_le (List.sublist_cons_self _ _)

theorem inTriangle_same {T : Pt K × Pt K × Pt K} {o d t p : Pt K} (h : SameTriangle T (o, d, t)) :
    InTriangle p T.1 T.2.1 T.2.2 ↔ InTriangle p o d t := by
  rcases h with rfl | rfl | rfl
  · rfl
  · constructor <;> rintro ⟨u, v, w, hu, hv, hw, hs, rfl⟩
    · exact ⟨w, u, v, hw, hu, hv, by linarith, Prod.ext (by simp only; ring) (by simp only; ring)⟩
    · exact ⟨v, w, u, hv, hw, hu, by linarith, Prod.ext (by simp only; ring) (by simp only; ring)⟩
  · constructor <;> rintro ⟨u, v, w, hu, hv, hw, hs, rfl⟩
    · exact ⟨v, w, u, hv, hw, hu, by linarith, Prod.ext (by simp only; ring) (by simp only; ring)⟩
    · exact ⟨w, u, v, hw, hu, hv, by linarith, Prod.ext (by simp only; ring) (by simp only; ring)⟩

/-- The triangles but the outside one are a triangulation. -/
theorem triangles_list (hT : Triangulated yd f0 f1 f2 s z) (hD : Delaunay s z) :
    ∃ l1 T l2, walkAllTriangles s z = some (l1 ++ T :: l2) ∧ SameTriangle T (f1, f0, f2) ∧
      DelaunayTriangulation yd f0 f1 f2 (Vertex s z) (l1 ++ l2) := by
  have hi := Reached.inv hT.reached
  obtain ⟨ts, h1, h2, h3⟩ := walk_triangles hT
  obtain ⟨l1, T, l2, rfl, h5, h6⟩ := countP_one (h3 (sym z) f1 f0 f2 Connected.refl.sym hT.outer)
  rw [decide_eq_true_eq] at h5
  have sub : ∀ x ∈ l1 ++ l2, x ∈ l1 ++ T :: l2 := by
    intro x hx
    rw [List.mem_append] at *
    exact hx.imp_right (List.mem_cons_of_mem _)
  have inner : ∀ x ∈ l1 ++ l2, ∃ y, Inner s z y ∧ FaceOf s y x.1 x.2.1 x.2.2 := by
    intro x hx
    obtain ⟨y, hc, hf⟩ := h2 x (sub x hx)
    refine ⟨y, ⟨hc, fun hO => ?_⟩, hf⟩
    have := h6 x hx
    rw [decide_eq_false_iff_not] at this
    apply this
    obtain ⟨x1, x2, x3⟩ := x
    rcases outside_backwards hi hT.outer hO hf with ⟨a, b, c⟩ | ⟨a, b, c⟩ | ⟨a, b, c⟩ <;> simp only at a b c <;>
      subst a b c
    · exact Or.inl rfl
    · exact Or.inr (Or.inl rfl)
    · exact Or.inr (Or.inr rfl)
  have listed : ∀ y o d t, Inner s z y → FaceOf s y o d t → ∃ x ∈ l1 ++ l2, SameTriangle x (o, d, t) := by
    intro y o d t hy hf
    have hp : 0 < cnt (l1 ++ T :: l2) o d t := by rw [h3 y o d t hy.1 hf]; omega
    obtain ⟨x, hx, hs⟩ := List.countP_pos_iff.1 hp
    rw [decide_eq_true_eq] at hs
    refine ⟨x, ?_, hs⟩
    rw [List.mem_append, List.mem_cons] at hx
    rw [List.mem_append]
    rcases hx with hx | rfl | hx
    · exact Or.inl hx
    · exfalso
      have ht := inner_turns hT hy hf
      have hb : Turns yd f1 f0 f2 := by
        rcases h5 with h5 | h5 | h5 <;> rcases hs with hs | hs | hs <;> rw [h5] at hs <;>
          simp only [Prod.mk.injEq] at hs <;> obtain ⟨rfl, rfl, rfl⟩ := hs
        all_goals first
          | exact ht
          | exact turns_cycle ht
          | exact turns_cycle (turns_cycle ht)
      have := hT.frame
      unfold Turns at hb this
      have e : wedge yd (arrow f1 f0) (arrow f1 f2) = - wedge yd (arrow f0 f1) (arrow f0 f2) := by
        unfold wedge arrow; cases yd <;> simp <;> ring
      linarith
    · exact Or.inr hx
  refine ⟨l1, T, l2, h1, h5, ?_, ?_, ?_, ?_, ?_⟩
  · intro x hx
    obtain ⟨y, hy, hf⟩ := inner x hx
    exact inner_turns hT hy hf
  · intro p
    rw [cover_iff hT hD p]
    constructor
    · rintro ⟨y, o, d, t, c1, c2, hf, hp⟩
      obtain ⟨x, hx, hs⟩ := listed y o d t ⟨c1, c2⟩ hf
      exact ⟨x, hx, (inTriangle_same hs).2 hp⟩
    · rintro ⟨x, hx, hp⟩
      obtain ⟨y, hy, hf⟩ := inner x hx
      exact ⟨y, _, _, _, hy.1, hy.2, hf, hp⟩
  · apply pairwise_of_cnt
    · intro x hx
      obtain ⟨y, hy, hf⟩ := inner x hx
      rw [← h3 y _ _ _ hy.1 hf]
      unfold cnt
      exact List.Sublist.countP_le (List.Sublist.append_left (List.sublist_cons_self _ _) _)
    · intro x hx x' hx' hn
      push Not at hn
      obtain ⟨p, p1, p2⟩ := hn
      obtain ⟨y, hy, hf⟩ := inner x hx
      obtain ⟨y', hy', hf'⟩ := inner x' hx'
      obtain ⟨a, b, c⟩ := x
      obtain ⟨a', b', c'⟩ := x'
      rcases cover_once hT hy hy' hf hf' p1 p2 with rfl | rfl | rfl
      · obtain ⟨e1, e2, e3⟩ := face_unique hf' hf
        simp only at e1 e2 e3
        subst e1 e2 e3
        exact Or.inl rfl
      · obtain ⟨e1, e2, e3⟩ := face_unique hf' (face_rot hi hf)
        simp only at e1 e2 e3
        subst e1 e2 e3
        exact Or.inr (Or.inl rfl)
      · obtain ⟨e1, e2, e3⟩ := face_unique hf' (face_rot hi (face_rot hi hf))
        simp only at e1 e2 e3
        subst e1 e2 e3
        exact Or.inr (Or.inr rfl)
  · intro p
    constructor
    · intro hv
      obtain ⟨y, q, r, hy, hf⟩ := vertex_inner hT hv
      obtain ⟨x, hx, hs⟩ := listed y p q r hy hf
      refine ⟨x, hx, ?_⟩
      rcases hs with rfl | rfl | rfl <;> simp
    · rintro ⟨x, hx, h⟩
      obtain ⟨y, hy, hf⟩ := inner x hx
      rcases h with rfl | rfl | rfl
      · exact ⟨y, hy.1, hf.2.1⟩
      · exact ⟨_, lnext_connected hi hy.1, hf.2.2.1⟩
      · exact ⟨_, lnext_connected hi (lnext_connected hi hy.1), hf.2.2.2⟩
  · intro x hx p hp
    obtain ⟨y, hy, hf⟩ := inner x hx
    exact hD y _ _ _ hy.1 hy.2 hf p hp

theorem insertSite_frame {sd sd' : Subdiv K} {x : Pt K} {r : Bool} (h : insertSite yd sd x = some (r, sd')) :
    sd'.frame = sd.frame := by
  have at' : ∀ (sd : Subdiv K) s e, insertAt yd sd s e x = some (r, sd') → sd'.frame = sd.frame := by
    intro sd s e h
    unfold insertAt at h
    repeat' split at h
    all_goals first
      | (cases h; done)
      | (rw [← (Prod.mk.inj (Option.some.inj h)).2])
  unfold insertSite at h
  dsimp only at h
  repeat' split at h
  all_goals first
    | (rw [← (Prod.mk.inj (Option.some.inj h)).2])
    | (rw [at' _ _ _ h])

end Verif.Lemmas.SubTriangles
