import Verif.Lemmas.Walker

/-! Helper lemmas for the walker: bridges, areas, and one turn of the loop. -/

set_option linter.unusedSectionVars false

namespace Verif.Lemmas.Walker
open Verif.Walker Verif.Spec.Walker
open Verif.Spec.Winding (area2 cross)
open Verif.Planar (isPointOnLine)
open Verif.Winding (area2_rotate area2_cons pathFrom pathFrom_append lastOf area2_short)
open Verif.Simplify (Ctx)

section area
variable {K : Type} [CommRing K]

/-- A ring that comes back to a point is two rings. -/
theorem area_split (b : Pt K) (x y : List (Pt K)) :
    area2 (b :: x ++ b :: y) = area2 (b :: x) + area2 (b :: y) := by
  have e1 : area2 (b :: x ++ b :: y) = pathFrom b ((x ++ [b]) ++ (y ++ [b])) := by
    rw [List.cons_append, area2_cons]; simp
  rw [e1, pathFrom_append, area2_cons, area2_cons, Winding.lastOf_append]
  rfl

theorem area_bridge (n : List (Pt K)) (t p : Pt K) (y : List (Pt K))
    (h : n.getLast?.or (t :: p :: y).getLast? = some p) :
    area2 (n ++ t :: p :: y) = area2 (n ++ y) := by
  rcases List.eq_nil_or_concat n with rfl | ⟨n', z, rfl⟩
  · rcases List.eq_nil_or_concat y with rfl | ⟨y', z, rfl⟩
    · rw [area2_short _ (by simp), area2_short _ (by simp)]
    · have : z = p := by simpa [List.getLast?_cons] using h
      subst this
      rw [List.nil_append, List.nil_append, List.concat_eq_append,
        show t :: z :: (y' ++ [z]) = (t :: z :: y') ++ [z] by simp, area2_rotate,
        show ([z] ++ t :: z :: y') = z :: [t] ++ z :: y' by simp, area_split,
        area2_short [z, t] (by simp), zero_add]
      exact area2_rotate y' [z]
  · have : z = p := by simpa using h
    subst this
    rw [List.concat_eq_append, List.append_assoc, List.append_assoc, area2_rotate _ n',
      area2_rotate _ n',
      show ([z] ++ t :: z :: y) ++ n' = z :: [t] ++ z :: (y ++ n') by simp, area_split,
      area2_short [z, t] (by simp)]
    simp

theorem bridgeLoop_spec [DecidableEq K] (rng : List (Pt K)) (f : Nat) : ∀ (li i : Nat) (add : Bool)
    (n : List (Pt K)), rng.length < f + i → i ≤ rng.length → (add = true ↔ i < rng.length) →
    rng[li]? = n.getLast?.or rng.getLast? → rng ≠ [] →
    ∃ r, bridgeLoop rng f li i add n = some r ∧ area2 r = area2 (n ++ rng.drop i) ∧
      List.Sublist r (n ++ rng.drop i) := by
  induction f with
  | zero => intro li i add n h1 h2; omega
  | succ f ih =>
    intro li i add n h1 h2 hadd hli hne
    unfold bridgeLoop
    by_cases hi : i + 1 < rng.length
    · rw [if_pos hi]
      have hd : rng.drop i = rng[i] :: rng[i + 1] :: rng.drop (i + 2) := by
        rw [List.drop_eq_getElem_cons (by omega), List.drop_eq_getElem_cons (by omega)]
      obtain ⟨z, hz⟩ : ∃ z, rng.getLast? = some z := by
        cases hh : rng.getLast? with
        | none => rw [List.getLast?_eq_none_iff] at hh; exact absurd hh hne
        | some z => exact ⟨z, rfl⟩
      obtain ⟨a, ha⟩ : ∃ a, n.getLast?.or rng.getLast? = some a := by
        cases n.getLast? <;> simp [hz]
      rw [ha] at hli
      have e1 : rng[i + 1]? = some rng[i + 1] := List.getElem?_eq_getElem hi
      have e0 : rng[i]? = some rng[i] := List.getElem?_eq_getElem (by omega)
      rw [hli, e1, e0]
      simp only
      by_cases hab : a = rng[i + 1]
      · rw [if_pos hab]
        obtain ⟨r, hr, har, hsub⟩ := ih (i + 1) (i + 2) (decide (i + 2 ≠ rng.length)) n (by omega)
          (by omega) (by simp; omega) (by rw [e1, ha, hab]) hne
        refine ⟨r, hr, ?_, ?_⟩
        · rw [har, hd, area_bridge]
          have hlast : (rng[i] :: rng[i + 1] :: rng.drop (i + 2)).getLast? = rng.getLast? := by
            rw [← hd, List.getLast?_drop, if_neg (by omega)]
          rw [hlast, ha, hab]
        · rw [hd]
          refine hsub.trans (List.Sublist.append (List.Sublist.refl _) ?_)
          exact (List.Sublist.cons _ (List.sublist_cons_self _ _))
      · rw [if_neg hab]
        obtain ⟨r, hr, har, hsub⟩ := ih i (i + 1) add (n ++ [rng[i]]) (by omega) (by omega)
          (by rw [hadd]; omega) (by simp [e0]) hne
        have hd' : n ++ rng.drop i = n ++ [rng[i]] ++ rng.drop (i + 1) := by
          rw [List.drop_eq_getElem_cons (by omega)]; simp
        exact ⟨r, hr, by rw [hd', har], by rw [hd']; exact hsub⟩
    · rw [if_neg hi]
      by_cases hil : i < rng.length
      · rw [if_pos (hadd.2 hil)]
        have hd : rng.drop i = [rng[i]] := by
          rw [List.drop_eq_getElem_cons hil, List.drop_eq_nil_of_le (by omega)]
        have hlast : rng.getLast? = some rng[i] := by
          rw [List.getLast?_eq_getElem?, ← List.getElem?_eq_getElem hil]
          congr 1; omega
        rw [hlast]
        exact ⟨_, rfl, by rw [hd], by rw [hd]⟩
      · rw [if_neg (by rw [hadd]; exact hil)]
        have hd : rng.drop i = [] := List.drop_eq_nil_of_le (by omega)
        exact ⟨n, rfl, by rw [hd]; simp, by rw [hd]; simp⟩

/-- Removing bridges keeps the area. -/
theorem removeBridge_spec [DecidableEq K] (rng : List (Pt K)) (hne : rng ≠ []) :
    ∃ r, removeBridge rng = some r ∧ area2 r = area2 rng ∧ List.Sublist r rng := by
  have hl := List.length_pos_iff.2 hne
  have := bridgeLoop_spec rng (rng.length + 1) (rng.length - 1) 0 true [] (by omega) (by omega)
    (by simp [hl]) (by simp [List.getLast?_eq_getElem?]) hne
  simpa [removeBridge] using this

/-- A point on the line between its neighbours does not count. -/
theorem area_drop (a b c : Pt K) (y : List (Pt K)) (h : area2 [a, b, c] = 0) :
    area2 (a :: b :: c :: y) = area2 (a :: c :: y) := by
  have e : area2 [a, b, c] = cross a b + (cross b c + cross c a) := by simp [area2]
  rw [e] at h
  have hc : cross c a = - cross a c := Winding.cross_swap _ _
  rw [hc] at h
  rw [area2_cons, area2_cons]
  simp only [List.cons_append, pathFrom]
  linear_combination h

end area

variable {K : Type} [Field K] [LinearOrder K] [IsStrictOrderedRing K]

/-- Exact comparison. -/
def feqx : K → K → Bool := fun x y => decide (x = y)

theorem pointEqual_iff (p q : Pt K) : pointEqual feqx p q = true ↔ p = q := by
  simp [pointEqual, feqx, Prod.ext_iff]

theorem online_area (a b c : Pt K) (hac : a ≠ c) (h : isPointOnLine feqx b a c = true) :
    area2 [a, b, c] = 0 := by
  have := (Planar.isPointOnLine_iff b a c hac).1 h
  obtain ⟨t, rfl⟩ := this
  simp [area2, cross]; ring

theorem addRing_area (holes : List (List (Pt K))) (sl sl' : List (Pt K))
    (hrot : ∀ l : List (Pt K), area2 (rotateLeftMost l) = area2 l) (h : area2 sl = area2 sl') :
    ((addRing holes sl).map area2).sum = (holes.map area2).sum + area2 sl' := by
  unfold addRing
  split
  · simp [hrot, h]
  · rw [← h, area2_short sl (by omega)]; simp

theorem rot_area (l : List (Pt K)) : area2 (rotateLeftMost l) = area2 l := by
  unfold rotateLeftMost
  rw [area2_rotate, List.take_append_drop]

/-- The point before the bubble. -/
def Pred (A C : List (Pt K)) (a : Pt K) : Prop := A.getLast?.or C.getLast? = some a

/-- The point after the bubble. -/
def Succ (A C : List (Pt K)) (c : Pt K) : Prop := C.head?.or A.head? = some c

/-- The three places a bubble `ab…ba` can have in the ring. -/
def Type1 (A C : List (Pt K)) (a : Pt K) (rest : List (Pt K)) : Prop :=
  (∃ A' C', A = A' ++ [a] ∧ C = a :: C' ∧ rest = A' ++ a :: C') ∨
  (∃ C', A = [] ∧ C = a :: C' ++ [a] ∧ rest = a :: C') ∨
  (∃ A', A = a :: A' ++ [a] ∧ C = [] ∧ rest = a :: A')

/-- Everything a turn does that finds a point again. -/
theorem turn_found (s : PSt K) (A X C : List (Pt K)) (p q : Pt K)
    (hr : s.rng = A ++ p :: (X ++ p :: C)) (hi : s.i = A.length + X.length + 1)
    (hf : s.index.find? (fun e => decide (e.1 = p)) = some (q, A.length)) :
    (A = [] ∧ C = [] ∧ turn feqx s p = .panic) ∨
    (∃ a rest, Type1 A C a rest ∧ turn feqx s p = .next
      { rng := rest,
        index := (s.index.filter (fun e => decide (e.1 ∉ p :: X ++ [p]))).filter (fun e => decide (e.1 ≠ a)),
        i := (A.length - 1) + 1, holes := addRing s.holes (X ++ [p]) }) ∨
    (∃ a c sl, Pred A C a ∧ Succ A C c ∧ (a ≠ c ∨ A ++ C = [a]) ∧ removeBridge (p :: X) = some sl ∧
      turn feqx s p = if isPointOnLine feqx p a c then
          (if A = [] then .stop { rng := A ++ C, index := s.index.filter (fun e => decide (e.1 ∉ p :: X ++ [p])), i := A.length, holes := addRing s.holes sl }
           else .next { rng := A ++ C, index := s.index.filter (fun e => decide (e.1 ∉ p :: X ++ [p])), i := A.length, holes := addRing s.holes sl })
        else .next { rng := A ++ p :: C, index := s.index.filter (fun e => decide (e.1 ∉ p :: X ++ [p])), i := A.length + 1, holes := addRing s.holes sl }) := by
  have hgone : (s.rng.drop A.length).take (s.i + 1 - A.length) = p :: X ++ [p] := by
    rw [hr, List.drop_left, hi, show A.length + X.length + 1 + 1 - A.length = (p :: X ++ [p]).length by
      simp; omega, show p :: (X ++ p :: C) = (p :: X ++ [p]) ++ C by simp, List.take_left]
  have hlen : s.rng.length = A.length + X.length + C.length + 2 := by rw [hr]; simp; omega
  have hX : p :: X ≠ [] := by simp
  have hcut2 : cut s.rng (A.length : Nat) (s.i : Nat) = some (p :: X, A ++ p :: C) := by
    have := cut_mid A (p :: X) (p :: C) hX
    rw [hr, hi, show A ++ p :: (X ++ p :: C) = A ++ (p :: X) ++ (p :: C) by simp]
    rw [List.length_cons] at this
    exact this
  have hcut3 : cut (A ++ p :: C) (A.length : Nat) ((A.length : Nat) + 1 : Int) = some ([p], A ++ C) := by
    have := cut_mid A [p] C (by simp)
    simpa using this
  obtain ⟨sl, hsl, -, -⟩ := removeBridge_spec (p :: X) hX
  -- the second case, once the neighbours are known
  have second : ∀ a c (pidx nidx : Nat), pidx = (if A.length = 0 then s.rng.length - 1 else A.length - 1) →
      nidx = (if s.i = s.rng.length - 1 then 0 else s.i + 1) →
      s.rng[pidx]? = some a → s.rng[nidx]? = some c → ¬ (nidx ≠ pidx ∧ a = c) →
      turn feqx s p = if isPointOnLine feqx p a c then
          (if A = [] then .stop { rng := A ++ C, index := s.index.filter (fun e => decide (e.1 ∉ p :: X ++ [p])), i := A.length, holes := addRing s.holes sl }
           else .next { rng := A ++ C, index := s.index.filter (fun e => decide (e.1 ∉ p :: X ++ [p])), i := A.length, holes := addRing s.holes sl })
        else .next { rng := A ++ p :: C, index := s.index.filter (fun e => decide (e.1 ∉ p :: X ++ [p])), i := A.length + 1, holes := addRing s.holes sl } := by
    intro a c pidx nidx hp hn ha hc hno
    unfold turn
    rw [hf]
    simp only
    rw [← hp, ← hn, ha, hc, hgone]
    simp only [pointEqual_iff]
    rw [if_neg hno, hcut2]
    simp only [hsl, hcut3]
    have : (A.length = 0) = (A = []) := by simp
    simp only [this]
  -- the first case, once the cut is known
  have first : ∀ a (pidx nidx : Nat) rest, pidx = (if A.length = 0 then s.rng.length - 1 else A.length - 1) →
      nidx = (if s.i = s.rng.length - 1 then 0 else s.i + 1) →
      s.rng[pidx]? = some a → s.rng[nidx]? = some a → nidx ≠ pidx →
      cut s.rng pidx nidx = some (a :: p :: X ++ [p], rest) →
      turn feqx s p = .next
      { rng := rest,
        index := (s.index.filter (fun e => decide (e.1 ∉ p :: X ++ [p]))).filter (fun e => decide (e.1 ≠ a)),
        i := (A.length - 1) + 1, holes := addRing s.holes (X ++ [p]) } := by
    intro a pidx nidx rest hp hn ha hc hne hcut
    unfold turn
    rw [hf]
    simp only
    rw [← hp, ← hn, ha, hc, hgone]
    simp only [pointEqual_iff]
    rw [if_pos ⟨hne, trivial⟩, hcut]
    simp
  rcases List.eq_nil_or_concat A with rfl | ⟨A', a, rfl⟩
  · rcases List.eq_nil_or_concat C with rfl | ⟨C', a, rfl⟩
    · left
      refine ⟨rfl, rfl, ?_⟩
      simp only [List.length_nil, Nat.zero_add, Nat.add_zero, List.nil_append] at *
      unfold turn
      rw [hf]
      simp only
      rw [if_pos (by omega : s.i = s.rng.length - 1), hlen, hr, hi]
      simp only [if_true]
      have e1 : (p :: (X ++ [p]))[X.length + 2 - 1]? = some p := by
        rw [show X.length + 2 - 1 = X.length + 1 by omega, List.getElem?_cons_succ,
          List.getElem?_append_right (by omega)]
        simp
      rw [e1]
      simp only [List.getElem?_cons_zero, pointEqual_iff]
      rw [if_pos ⟨by omega, trivial⟩]
      have := cut_wrap [] (p :: X) [p] hX (by simp)
      simp only [List.nil_append, List.length_nil, List.length_cons, Nat.zero_add, List.cons_append] at this
      have e2 : ((X.length + 2 - 1 : Nat) : Int) = ((X.length + 1 : Nat) : Int) := by omega
      rw [e2]
      simp only [Nat.cast_zero] at this ⊢
      rw [this]
      simp
    · rw [List.concat_eq_append] at *
      simp only [List.length_nil, Nat.zero_add, List.nil_append, List.length_append, List.length_singleton] at *
      have hpi : s.rng.length - 1 = (if (0 : Nat) = 0 then s.rng.length - 1 else 0 - 1) := by simp
      have hni : s.i + 1 = (if s.i = s.rng.length - 1 then 0 else s.i + 1) := by
        rw [if_neg (by omega)]
      have ha : s.rng[s.rng.length - 1]? = some a := by
        rw [← List.getLast?_eq_getElem?, hr]
        simp [List.getLast?_cons, List.getLast?_append]
      rcases C' with _ | ⟨c, C''⟩
      · right; right
        have hc : s.rng[s.i + 1]? = some a := by
          rw [← ha]; congr 1; simp at hlen; omega
        refine ⟨a, a, sl, by simp [Pred], by simp [Succ], Or.inr (by simp), hsl, ?_⟩
        refine second a a _ _ hpi hni ha hc ?_
        rintro ⟨h1, -⟩; simp at hlen; omega
      · have hc : s.rng[s.i + 1]? = some c := by
          rw [hr, hi, show p :: (X ++ p :: (c :: C'' ++ [a])) = (p :: X ++ [p]) ++ (c :: (C'' ++ [a])) by simp,
            List.getElem?_append_right (by simp)]
          simp
        by_cases hac : a = c
        · subst hac
          right; left
          refine ⟨a, a :: C'', Or.inr (Or.inl ⟨C'', rfl, rfl, rfl⟩), ?_⟩
          refine first a _ _ _ hpi hni ha hc (by simp at hlen; omega) ?_
          have := cut_wrap (p :: X ++ [p]) (a :: C'') [a] (by simp) (by simp)
          rw [show s.rng = (p :: X ++ [p]) ++ (a :: C'') ++ [a] by rw [hr]; simp, hi]
          have e1 : ((p :: X ++ [p]) ++ (a :: C'') ++ [a]).length - 1
              = (p :: X ++ [p]).length + (a :: C'').length := by simp; omega
          have e2 : X.length + 1 + 1 = (p :: X ++ [p]).length := by simp
          rw [e1, e2, this]
          simp
        · right; right
          refine ⟨a, c, sl, by simp [Pred, List.getLast?_cons, List.getLast?_append], by simp [Succ], Or.inl hac, hsl, ?_⟩
          exact second a c _ _ hpi hni ha hc (fun h => hac h.2)
  · rw [List.concat_eq_append] at *
    have hA : (A' ++ [a]).length = A'.length + 1 := by simp
    have hpi : A'.length = (if (A' ++ [a]).length = 0 then s.rng.length - 1 else (A' ++ [a]).length - 1) := by
      rw [hA]; simp
    have ha : s.rng[A'.length]? = some a := by
      rw [hr]; simp
    rcases C with _ | ⟨c, C'⟩
    · have hni : 0 = (if s.i = s.rng.length - 1 then 0 else s.i + 1) := by
        rw [if_pos (by rw [hlen, hi]; simp)]
      rcases A' with _ | ⟨c, A''⟩
      · right; right
        refine ⟨a, a, sl, by simp [Pred], by simp [Succ], Or.inr (by simp), hsl, ?_⟩
        exact second a a _ _ hpi hni ha (by rw [hr]; simp) (fun h => h.1 rfl)
      · have hc : s.rng[0]? = some c := by rw [hr]; simp
        by_cases hac : a = c
        · subst hac
          right; left
          refine ⟨a, a :: A'', Or.inr (Or.inr ⟨A'', rfl, rfl, rfl⟩), ?_⟩
          refine first a _ _ _ hpi hni ha hc (by simp) ?_
          have := cut_wrap [] (a :: A'') (a :: p :: X ++ [p]) (by simp) (by simp)
          simp only [List.nil_append, List.length_nil, Nat.zero_add, List.append_nil] at this
          rw [show s.rng = (a :: A'') ++ (a :: p :: X ++ [p]) by rw [hr]; simp, this]
        · right; right
          refine ⟨a, c, sl, by simp [Pred, List.getLast?_cons, List.getLast?_append], by simp [Succ], Or.inl hac, hsl, ?_⟩
          exact second a c _ _ hpi hni ha hc (fun h => hac h.2)
    · have hni : s.i + 1 = (if s.i = s.rng.length - 1 then 0 else s.i + 1) := by
        rw [if_neg (by simp at hlen; omega)]
      have hc : s.rng[s.i + 1]? = some c := by
        rw [hr, hi, show A' ++ [a] ++ p :: (X ++ p :: c :: C') = (A' ++ [a] ++ p :: X ++ [p]) ++ (c :: C') by simp,
          List.getElem?_append_right (by simp; omega)]
        have : (A' ++ [a]).length + X.length + 1 + 1 - (A' ++ [a] ++ p :: X ++ [p]).length = 0 := by simp; omega
        rw [this]; simp
      by_cases hac : a = c
      · subst hac
        right; left
        refine ⟨a, A' ++ a :: C', Or.inl ⟨A', C', rfl, rfl, rfl⟩, ?_⟩
        refine first a _ _ _ hpi hni ha hc (by omega) ?_
        have := cut_mid A' (a :: p :: X ++ [p]) (a :: C') (by simp)
        rw [show s.rng = A' ++ (a :: p :: X ++ [p]) ++ (a :: C') by rw [hr]; simp, hi,
          show (A' ++ [a]).length + X.length + 1 + 1 = A'.length + (a :: p :: X ++ [p]).length by simp; omega]
        exact this
      · right; right
        refine ⟨a, c, sl, by simp [Pred], by simp [Succ], Or.inl hac, hsl, ?_⟩
        exact second a c _ _ hpi hni ha hc (fun h => hac h.2)

end Verif.Lemmas.Walker
