import Verif.Lemmas.Wkt

/-! # Lemmas for the WKT properties: the writer -/

namespace Verif.Wkt
open Verif Verif.Spec.Wkt Verif.Spec.Wkb

theorem F64_eq_self (f : F64) : f.eq f = !f.isNaN := by
  unfold F64.eq; cases f.isNaN <;> simp

theorem isEmptyPoint_eq (p : Pt F64) : Cmp.isEmptyPoint p = !numeric p := by
  unfold Cmp.isEmptyPoint numeric; rw [F64_eq_self, F64_eq_self]

theorem ptEq_eq (a b : Pt F64) : ptEq a b = samePoint a b := rfl

theorem samePoint_numeric {a b : Pt F64} (h : samePoint a b = true) : numeric b = true := by
  unfold samePoint F64.eq at h
  unfold numeric
  simp only [Bool.and_eq_true] at h
  simp [h.1.1.2, h.2.1.2]

theorem noPoints_eq (v : List (Pt F64)) : noPoints v = !(v.any numeric) := by
  unfold noPoints
  rw [List.not_any_eq_all_not]
  congr 1
  funext p
  rw [isEmptyPoint_eq]

/-- Texts with commas between them. -/
def joinC : List (List Byte) → List Byte
  | [] => []
  | t :: ts => if ts.isEmpty then t else t ++ comma :: joinC ts

theorem joinC_cons_ne (t : List Byte) (ts : List (List Byte)) (h : ts ≠ []) : joinC (t :: ts) = t ++ comma :: joinC ts := by
  cases ts with
  | nil => exact absurd rfl h
  | cons a b => rfl

theorem joinC_snoc (ts : List (List Byte)) (t : List Byte) (h : ts ≠ []) : joinC (ts ++ [t]) = joinC ts ++ comma :: t := by
  induction ts with
  | nil => exact absurd rfl h
  | cons a ts ih =>
    cases ts with
    | nil => rfl
    | cons b ts =>
      rw [List.cons_append, joinC_cons_ne _ _ (by simp), ih (by simp), joinC_cons_ne a _ (by simp)]
      simp

theorem joinC_commas (ts : List (List Byte)) (t : List Byte) :
    (ts.flatMap (· ++ [comma])) ++ t = joinC (ts ++ [t]) := by
  induction ts with
  | nil => rfl
  | cons a ts ih =>
    rw [List.flatMap_cons, List.append_assoc, ih, List.cons_append, joinC_cons_ne _ _ (by simp)]
    simp

/-- A parenthesised list or EMPTY. -/
def listText (ts : List (List Byte)) : List Byte :=
  if ts.isEmpty then emptyText else lparen :: (joinC ts ++ [rparen])

variable (fmt : F64 → List Byte)

/-- Text of the points so far, without the closing parenthesis. -/
def render (L : List (Pt F64)) : List Byte :=
  if L.isEmpty then [] else lparen :: joinC (L.map (encodePair fmt))

theorem render_snoc (L : List (Pt F64)) (v : Pt F64) :
    render fmt (L ++ [v]) = render fmt L ++ (if L.length = 0 then [lparen] else [comma]) ++ encodePair fmt v := by
  cases L with
  | nil => rfl
  | cons a L =>
    have e : joinC (List.map (encodePair fmt) (a :: L ++ [v])) =
        joinC ((a :: L).map (encodePair fmt)) ++ comma :: encodePair fmt v := by
      rw [List.map_append]; exact joinC_snoc _ _ (by simp)
    unfold render
    rw [e]
    simp

/-- The points that are written after `last`. -/
def emFrom (ty : GType) (last : Option (Pt F64)) (vs : List (Pt F64)) : List (Pt F64) :=
  if ty = .mp then vs
  else match last with
    | none => squeeze (vs.filter numeric)
    | some a => squeezeAfter a (vs.filter numeric)

/-- All points that are written. -/
def em (ty : GType) (vs : List (Pt F64)) : List (Pt F64) := if ty = .mp then vs else tidyLine vs

structure Inv (st : PState) (L : List (Pt F64)) : Prop where
  err : st.err = none
  out : st.out = render fmt L
  first : st.firstEnc = L.head?
  last : st.lastEnc = L.getLast?
  count : st.count = L.length

theorem pointsLoop_inv (strict : Bool) (ty : GType) (vs : List (Pt F64)) :
    ∀ (st : PState) (L : List (Pt F64)), Inv fmt st L →
      ((strict = true → ty ≠ .mp → ∀ p ∈ vs, numeric p = true) →
        Inv fmt (pointsLoop fmt strict ty vs st) (L ++ emFrom ty L.getLast? vs)) ∧
      (¬ (strict = true → ty ≠ .mp → ∀ p ∈ vs, numeric p = true) →
        (pointsLoop fmt strict ty vs st).err = some .strictEmpty) := by
  induction vs with
  | nil =>
    intro st L h
    refine ⟨fun _ => ?_, fun hn => absurd (fun _ _ p hp => by cases hp) hn⟩
    have : emFrom ty L.getLast? [] = [] := by unfold emFrom; split <;> [rfl; (split <;> rfl)]
    rw [this, List.append_nil]; exact h
  | cons v vs ih =>
    intro st L h
    rw [pointsLoop]
    by_cases h1 : ((st.lastEnc.any fun l => ptEq l v) && decide (ty ≠ .mp)) = true
    · rw [if_pos h1]
      simp only [Bool.and_eq_true, decide_eq_true_eq] at h1
      obtain ⟨hl, hty⟩ := h1
      rw [h.last] at hl
      cases hlast : L.getLast? with
      | none => rw [hlast] at hl; simp at hl
      | some l =>
        rw [hlast] at hl
        simp only [Option.any_some] at hl
        have hv : numeric v = true := samePoint_numeric hl
        have e : emFrom ty (some l) (v :: vs) = emFrom ty L.getLast? vs := by
          rw [hlast]
          simp only [emFrom, if_neg hty]
          rw [List.filter_cons_of_pos hv, squeezeAfter, if_pos (by rw [← ptEq_eq]; exact hl)]
        rw [e]
        obtain ⟨i1, i2⟩ := ih st L h
        refine ⟨fun q => i1 (fun a b p hp => q a b p (by simp [hp])), fun q => i2 (fun q' => q ?_)⟩
        intro a b p hp
        rcases List.mem_cons.1 hp with rfl | hp
        · exact hv
        · exact q' a b p hp
    · rw [if_neg h1]
      by_cases h2 : (Cmp.isEmptyPoint v && decide (ty ≠ .mp)) = true
      · rw [if_pos h2]
        simp only [Bool.and_eq_true, decide_eq_true_eq] at h2
        obtain ⟨he, hty⟩ := h2
        have hv : numeric v = false := by rw [isEmptyPoint_eq] at he; simpa using he
        cases strict with
        | true =>
          simp only [if_true]
          refine ⟨fun q => ?_, fun _ => trivial⟩
          have := q trivial hty v (by simp)
          rw [hv] at this; cases this
        | false =>
          simp only [Bool.false_eq_true, if_false]
          have e : emFrom ty L.getLast? (v :: vs) = emFrom ty L.getLast? vs := by
            simp only [emFrom, if_neg hty]
            rw [List.filter_cons_of_neg (by simp [hv])]
          rw [e]
          obtain ⟨i1, _⟩ := ih st L h
          exact ⟨fun _ => i1 (fun a => by cases a), fun q => absurd (fun a => by cases a) q⟩
      · rw [if_neg h2]
        have hv : ty = .mp ∨ numeric v = true := by
          by_cases hty : ty = .mp
          · exact .inl hty
          · right
            simp only [Bool.and_eq_true, decide_eq_true_eq, not_and] at h2
            rw [isEmptyPoint_eq] at h2
            cases hq : numeric v with
            | true => rfl
            | false => rw [hq] at h2; exact absurd hty (h2 rfl)
        have hI : Inv fmt
            { out := st.out ++ (if st.count = 0 then [lparen] else [comma]) ++ encodePair fmt v
              err := none, firstEnc := some (st.firstEnc.getD v), lastEnc := some v, count := st.count + 1 }
            (L ++ [v]) := by
          refine ⟨rfl, ?_, ?_, by simp, by simp [h.count]⟩
          · show st.out ++ _ ++ _ = _
            rw [render_snoc, h.out, h.count]
          · show some (st.firstEnc.getD v) = _
            rw [h.first]
            cases L <;> rfl
        obtain ⟨i1, i2⟩ := ih _ _ hI
        have e : L ++ emFrom ty L.getLast? (v :: vs) = (L ++ [v]) ++ emFrom ty (L ++ [v]).getLast? vs := by
          rw [List.getLast?_concat]
          by_cases hty : ty = .mp
          · simp [emFrom, hty]
          · simp only [emFrom, if_neg hty]
            rw [List.filter_cons_of_pos (hv.resolve_left hty)]
            cases hlast : L.getLast? with
            | none =>
              simp only [squeeze]
              rw [List.append_assoc]; rfl
            | some l =>
              simp only []
              have : samePoint l v = false := by
                simp only [Bool.and_eq_true, decide_eq_true_eq, not_and] at h1
                cases hq : samePoint l v with
                | false => rfl
                | true =>
                  exfalso
                  refine h1 ?_ hty
                  rw [h.last, hlast]
                  exact hq
              rw [squeezeAfter, if_neg (by simp [this]), List.append_assoc]; rfl
        rw [e]
        refine ⟨fun q => i1 (fun a b p hp => q a b p (by simp [hp])), fun q => i2 (fun q' => q ?_)⟩
        intro a b p hp
        rcases List.mem_cons.1 hp with rfl | hp
        · exact hv.resolve_left b
        · exact q' a b p hp

/-- The closing vertex. -/
def closing (ty : GType) (L : List (Pt F64)) : List (Pt F64) :=
  match L.head?, L.getLast? with
  | some f, some l => if ty.isRing && !samePoint f l then [f] else []
  | _, _ => []

/-- Text of a point list. -/
def pointsText (ty : GType) (mp : List (Pt F64)) : List Byte :=
  listText ((em ty mp ++ closing ty (em ty mp)).map (encodePair fmt))

/-- Enough points for the type, or none at all. -/
def SizeOk (ty : GType) (L : List (Pt F64)) : Prop :=
  L = [] ∨ ((ty.isRing = true → 3 ≤ L.length) ∧ (ty.isLine = true → 2 ≤ L.length))

theorem closingText_eq (ty : GType) (st : PState) (L : List (Pt F64)) (h : Inv fmt st L) :
    closingText fmt ty st = (closing ty L).flatMap (fun p => comma :: encodePair fmt p) := by
  unfold closingText closing
  rw [h.first, h.last]
  cases L.head? <;> cases L.getLast? <;> simp [ptEq_eq]
  split <;> simp

theorem joinC_append (ts us : List (List Byte)) (h : ts ≠ []) :
    joinC (ts ++ us) = joinC ts ++ us.flatMap (fun u => comma :: u) := by
  induction us generalizing ts with
  | nil => simp
  | cons u us ih =>
    rw [show ts ++ u :: us = (ts ++ [u]) ++ us by simp, ih _ (by simp), joinC_snoc _ _ h]
    simp

theorem encodePoints_iff (strict : Bool) (ty : GType) (mp : List (Pt F64)) (t : List Byte) :
    encodePoints fmt strict ty mp = (t, none) ↔
      (strict = true → ty ≠ .mp → ∀ p ∈ mp, numeric p = true) ∧ SizeOk ty (em ty mp) ∧ t = pointsText fmt ty mp := by
  have hinv : Inv fmt {} [] := ⟨rfl, rfl, rfl, rfl, rfl⟩
  obtain ⟨i1, i2⟩ := pointsLoop_inv fmt strict ty mp {} [] hinv
  by_cases hs : (strict = true → ty ≠ .mp → ∀ p ∈ mp, numeric p = true)
  · have I := i1 hs
    have e : ([] : List (Pt F64)) ++ emFrom ty ([] : List (Pt F64)).getLast? mp = em ty mp := by
      simp [emFrom, em, tidyLine]
    rw [e] at I
    unfold pointsText
    generalize em ty mp = L at I ⊢
    have hct := closingText_eq fmt ty _ L I
    unfold encodePoints
    simp only [I.err, I.count]
    rw [hct, I.out]
    have ht : ∀ hL : L ≠ [], render fmt L ++ (closing ty L).flatMap (fun p => comma :: encodePair fmt p) ++ [rparen] =
        listText ((L ++ closing ty L).map (encodePair fmt)) := by
      intro hL
      unfold render listText
      have : (L.isEmpty) = false := by cases L <;> simp_all
      rw [if_neg (by simp [this]), if_neg (by cases L <;> simp_all), List.map_append, joinC_append _ _ (by simpa using hL),
        List.flatMap_map]
      simp
    constructor
    · intro h
      by_cases h0 : L.length = 0
      · have : L = [] := List.length_eq_zero_iff.1 h0
        subst this
        simp only [List.length_nil, if_true] at h
        refine ⟨hs, .inl rfl, ?_⟩
        simp only [put, Prod.mk.injEq, and_true] at h
        rw [← h]; rfl
      · rw [if_neg h0] at h
        have hL : L ≠ [] := fun q => h0 (by simp [q])
        split at h
        · simp at h
        · split at h
          · simp at h
          · rename_i a b
            rw [ht hL] at h
            simp only [put, Prod.mk.injEq, and_true] at h
            refine ⟨hs, .inr ⟨fun q => ?_, fun q => ?_⟩, h.symm⟩
            · simp [q] at a; omega
            · simp [q] at b; omega
    · rintro ⟨_, hz, rfl⟩
      by_cases h0 : L.length = 0
      · have : L = [] := List.length_eq_zero_iff.1 h0
        subst this
        rfl
      · rw [if_neg h0]
        have hL : L ≠ [] := fun q => h0 (by simp [q])
        obtain ⟨z1, z2⟩ := hz.resolve_left hL
        rw [if_neg, if_neg, ht hL]; rfl
        · intro q; simp at q; have := z2 q.1; omega
        · intro q; simp at q; have := z1 q.1; omega
  · have := i2 hs
    unfold encodePoints
    simp only [this]
    constructor
    · intro h; simp at h
    · rintro ⟨h, _⟩; exact absurd h hs

theorem em_nil_iff (ty : GType) (hty : ty ≠ .mp) (v : List (Pt F64)) : em ty v = [] ↔ noPoints v = true := by
  rw [em, if_neg hty, noPoints_eq, tidyLine]
  cases h : v.filter numeric with
  | nil =>
    simp only [squeeze, true_iff, Bool.not_eq_true', List.any_eq_false]
    exact List.filter_eq_nil_iff.1 h
  | cons a l =>
    simp only [squeeze, reduceCtorEq, false_iff, Bool.not_eq_true', Bool.not_eq_false]
    have : a ∈ v.filter numeric := by rw [h]; simp
    rw [List.mem_filter] at this
    exact List.any_eq_true.2 ⟨a, this⟩

/-- The lines that are written. -/
def kept (ty : GType) (ls : List (List (Pt F64))) : List (List (Pt F64)) :=
  if ty = .ml then ls else ls.filter (fun v => !noPoints v)

/-- No line missing in strict mode. -/
def NoneMissing (strict : Bool) (ty : GType) (ls : List (List (Pt F64))) : Prop :=
  strict = true → ty ≠ .ml → ∀ v ∈ ls, noPoints v = false

/-- The line itself can be written. -/
def PtsOk (strict : Bool) (ty : GType) (v : List (Pt F64)) : Prop :=
  (strict = true → ty ≠ .mp → ∀ p ∈ v, numeric p = true) ∧ SizeOk ty (em ty v)

theorem andThen_none (a b : Out) (t : List Byte) :
    a.andThen b = (t, none) ↔ ∃ t1 t2, a = (t1, none) ∧ b = (t2, none) ∧ t = t1 ++ t2 := by
  obtain ⟨a1, a2⟩ := a
  obtain ⟨b1, b2⟩ := b
  unfold Out.andThen
  cases a2 with
  | some e => simp
  | none =>
    simp only [Prod.mk.injEq, and_true]
    constructor
    · rintro ⟨rfl, rfl⟩; exact ⟨_, _, rfl, ⟨rfl, rfl⟩, rfl⟩
    · rintro ⟨_, _, rfl, ⟨rfl, rfl⟩, rfl⟩; exact ⟨rfl, rfl⟩

theorem put_none (a t : List Byte) : put a = (t, none) ↔ t = a := by
  simp only [put, Prod.mk.injEq, and_true]; exact eq_comm

theorem linesLoop_iff (strict : Bool) (ty : GType) (ls : List (List (Pt F64))) (t : List Byte) :
    linesLoop fmt strict ty ls = (t, none) ↔
      NoneMissing strict ty ls ∧ (∀ v ∈ kept ty ls, PtsOk strict ty v) ∧
        t = ((kept ty ls).map (pointsText fmt ty)).flatMap (· ++ [comma]) := by
  induction ls generalizing t with
  | nil =>
    rw [linesLoop, put_none]
    simp [NoneMissing, kept]
  | cons v vs ih =>
    rw [linesLoop]
    by_cases h1 : (noPoints v && decide (ty ≠ .ml)) = true
    · rw [if_pos h1]
      simp only [Bool.and_eq_true, decide_eq_true_eq] at h1
      have hk : kept ty (v :: vs) = kept ty vs := by
        simp [kept, h1.1, h1.2]
      rw [hk]
      cases strict with
      | true =>
        simp only [if_true, fail]
        constructor
        · intro h; simp at h
        · rintro ⟨h, _⟩
          have := h rfl h1.2 v (by simp)
          rw [h1.1] at this; cases this
      | false =>
        simp only [Bool.false_eq_true, if_false]
        rw [ih]
        simp [NoneMissing]
    · rw [if_neg h1]
      have hv : ty = .ml ∨ noPoints v = false := by
        by_cases hty : ty = .ml
        · exact .inl hty
        · right; simpa [hty] using h1
      have hk : kept ty (v :: vs) = v :: kept ty vs := by
        unfold kept
        rcases hv with h | h
        · simp [h]
        · by_cases q : ty = .ml <;> simp [q, h]
      have hm : NoneMissing strict ty (v :: vs) ↔ NoneMissing strict ty vs := by
        unfold NoneMissing
        constructor
        · intro h a b w hw; exact h a b w (by simp [hw])
        · intro h a b w hw
          rcases List.mem_cons.1 hw with rfl | hw
          · exact hv.resolve_left b
          · exact h a b w hw
      rw [hk, hm, andThen_none]
      constructor
      · rintro ⟨t1, t2, h1, h2, rfl⟩
        obtain ⟨u1, u2, k1, h3, rfl⟩ := (andThen_none _ _ _).1 h1
        rw [put_none] at h3; subst h3
        obtain ⟨a, b, rfl⟩ := (encodePoints_iff fmt strict ty v u1).1 k1
        obtain ⟨c, d, rfl⟩ := (ih t2).1 h2
        refine ⟨c, ?_, by simp⟩
        intro w hw
        rcases List.mem_cons.1 hw with rfl | hw
        · exact ⟨a, b⟩
        · exact d w hw
      · rintro ⟨c, d, rfl⟩
        obtain ⟨a, b⟩ := d v (by simp)
        refine ⟨pointsText fmt ty v ++ [comma], _, ?_, (ih _).2 ⟨c, fun w hw => d w (by simp [hw]), rfl⟩, by simp⟩
        rw [andThen_none]
        exact ⟨_, _, (encodePoints_iff fmt strict ty v _).2 ⟨a, b, rfl⟩, (put_none _ _).2 rfl, rfl⟩

theorem keepLines_zero (ls : List (List (Pt F64))) : keepLines ls = 0 ↔ ∀ v ∈ ls, noPoints v = true := by
  induction ls with
  | nil => simp [keepLines]
  | cons v vs ih =>
    rw [keepLines]
    by_cases h : keepLines vs = 0
    · rw [if_pos h]
      have := ih.1 h
      cases hv : noPoints v <;> simp [hv]
      exact this
    · rw [if_neg h]
      simp only [Nat.add_eq_zero_iff, Nat.one_ne_zero, and_false, false_iff]
      intro q
      exact h (ih.2 fun w hw => q w (by simp [hw]))

theorem keepLines_succ (ls : List (List (Pt F64))) (n : Nat) (h : keepLines ls = n + 1) :
    ∃ a v b, ls = a ++ v :: b ∧ a.length = n ∧ noPoints v = false ∧ ∀ w ∈ b, noPoints w = true := by
  induction ls generalizing n with
  | nil => simp [keepLines] at h
  | cons v vs ih =>
    rw [keepLines] at h
    by_cases h0 : keepLines vs = 0
    · rw [if_pos h0] at h
      cases hv : noPoints v with
      | true => simp [hv] at h
      | false =>
        simp only [hv, Bool.false_eq_true, if_false] at h
        refine ⟨[], v, vs, rfl, ?_, hv, (keepLines_zero vs).1 h0⟩
        simp; omega
    · rw [if_neg h0] at h
      obtain ⟨m, hm⟩ := Nat.exists_eq_succ_of_ne_zero h0
      obtain ⟨a, w, b, rfl, ha, hw, hb⟩ := ih m hm
      exact ⟨v :: a, w, b, rfl, by simp [ha]; omega, hw, hb⟩

/-- Text of a list of lines. -/
def linesText (ty : GType) (ls : List (List (Pt F64))) : List Byte :=
  listText ((kept ty ls).map (pointsText fmt ty))

theorem encodeKept_iff (strict : Bool) (ty : GType) (a : List (List (Pt F64))) (v : List (Pt F64))
    (b : List (List (Pt F64))) (t : List Byte) :
    encodeKept fmt strict ty (a ++ v :: b) (a.length + 1) = (t, none) ↔
      NoneMissing strict ty a ∧ (∀ w ∈ kept ty a, PtsOk strict ty w) ∧ PtsOk strict ty v ∧
        t = lparen :: (joinC ((kept ty a ++ [v]).map (pointsText fmt ty)) ++ [rparen]) := by
  rw [encodeKept]
  have e1 : (a ++ v :: b).take a.length = a := by simp
  have e2 : (a ++ v :: b).getD a.length [] = v := by simp
  rw [e1, e2, andThen_none]
  constructor
  · rintro ⟨t1, t2, h1, h2, rfl⟩
    rw [put_none] at h2; subst h2
    obtain ⟨u1, u2, k1, h3, rfl⟩ := (andThen_none _ _ _).1 h1
    obtain ⟨x1, x2, k2, h4, rfl⟩ := (andThen_none _ _ _).1 k1
    rw [put_none] at k2; subst k2
    obtain ⟨p, q, rfl⟩ := (encodePoints_iff fmt strict ty v u2).1 h3
    obtain ⟨c, d, rfl⟩ := (linesLoop_iff fmt strict ty a x2).1 h4
    refine ⟨c, d, ⟨p, q⟩, ?_⟩
    rw [List.map_append, List.map_cons, List.map_nil, ← joinC_commas]
    simp
  · rintro ⟨c, d, ⟨p, q⟩, rfl⟩
    refine ⟨_, _, (andThen_none _ _ _).2 ⟨_, _, (andThen_none _ _ _).2 ⟨_, _, (put_none _ _).2 rfl,
      (linesLoop_iff fmt strict ty a _).2 ⟨c, d, rfl⟩, rfl⟩,
      (encodePoints_iff fmt strict ty v _).2 ⟨p, q, rfl⟩, rfl⟩, (put_none _ _).2 rfl, ?_⟩
    rw [List.map_append, List.map_cons, List.map_nil, ← joinC_commas]
    simp

theorem encodeLines_iff (strict : Bool) (ty : GType) (ls : List (List (Pt F64))) (t : List Byte) :
    encodeLines fmt strict ty ls = (t, none) ↔
      NoneMissing strict ty ls ∧ (∀ v ∈ kept ty ls, PtsOk strict ty v) ∧ t = linesText fmt ty ls := by
  unfold encodeLines
  by_cases hty : ty = .ml
  · subst hty
    rw [if_neg (by simp)]
    rcases List.eq_nil_or_concat ls with rfl | ⟨a, v, rfl⟩
    · simp only [List.length_nil, encodeKept]
      rw [put_none]
      simp [NoneMissing, kept, linesText, listText]
    · rw [List.concat_eq_append]
      have := encodeKept_iff fmt strict .ml a v [] t
      rw [show (a ++ [v]).length = a.length + 1 by simp, this]
      have k : ∀ l, kept .ml l = l := fun l => by simp [kept]
      unfold linesText listText
      simp only [k]
      constructor
      · rintro ⟨c, d, e, rfl⟩
        refine ⟨fun _ q => absurd rfl q, ?_, by simp⟩
        intro w hw
        rcases List.mem_append.1 hw with hw | hw
        · exact d w hw
        · rw [List.mem_singleton] at hw; subst hw; exact e
      · rintro ⟨c, d, rfl⟩
        refine ⟨fun _ q => absurd rfl q, fun w hw => d w (by simp [hw]), d v (by simp), by simp⟩
  · rw [if_pos hty]
    cases hk : keepLines ls with
    | zero =>
      have hz := (keepLines_zero ls).1 hk
      have hkept : kept ty ls = [] := by
        simp only [kept, if_neg hty, List.filter_eq_nil_iff]
        intro v hv; simp [hz v hv]
      rw [hkept]
      simp only [linesText, hkept]
      by_cases hc : (decide (0 ≠ ls.length) && strict) = true
      · rw [if_pos hc]
        simp only [Bool.and_eq_true, decide_eq_true_eq] at hc
        constructor
        · intro h; simp [fail] at h
        · rintro ⟨h, _⟩
          cases ls with
          | nil => simp at hc
          | cons v vs =>
            have := h hc.2 hty v (by simp)
            rw [hz v (by simp)] at this; cases this
      · rw [if_neg hc, encodeKept, put_none]
        have : NoneMissing strict ty ls := by
          intro hs _ v hv
          cases ls with
          | nil => cases hv
          | cons a b => simp [hs] at hc
        simp [this, listText]
    | succ n =>
      obtain ⟨a, v, b, rfl, rfl, hv, hb⟩ := keepLines_succ ls n hk
      have hkept : kept ty (a ++ v :: b) = kept ty a ++ [v] := by
        simp only [kept, if_neg hty, List.filter_append]
        have hb0 : b.filter (fun v => !noPoints v) = [] := by
          rw [List.filter_eq_nil_iff]
          intro w hw; simp [hb w hw]
        rw [List.filter_cons_of_pos (by simp [hv]), hb0]
      have hmiss : NoneMissing strict ty (a ++ v :: b) ↔ NoneMissing strict ty a ∧ (strict = true → b = []) := by
        unfold NoneMissing
        constructor
        · intro h
          refine ⟨fun p q w hw => h p q w (by simp [hw]), fun p => ?_⟩
          cases b with
          | nil => rfl
          | cons x y =>
            have := h p hty x (by simp)
            rw [hb x (by simp)] at this; cases this
        · rintro ⟨h1, h2⟩ p q w hw
          rw [h2 p] at hw
          rcases List.mem_append.1 hw with hw | hw
          · exact h1 p q w hw
          · rw [List.mem_singleton] at hw; subst hw; exact hv
      by_cases hc : (decide (a.length + 1 ≠ (a ++ v :: b).length) && strict) = true
      · rw [if_pos hc]
        simp only [Bool.and_eq_true, decide_eq_true_eq] at hc
        constructor
        · intro h; simp [fail] at h
        · rintro ⟨h, _⟩
          have := (hmiss.1 h).2 hc.2
          subst this
          simp at hc
      · rw [if_neg hc, encodeKept_iff, hmiss, hkept]
        have hb' : strict = true → b = [] := by
          intro q
          simp [q] at hc
          exact hc
        unfold linesText listText
        rw [hkept]
        constructor
        · rintro ⟨c, d, e, rfl⟩
          refine ⟨⟨c, hb'⟩, ?_, by simp⟩
          intro w hw
          rcases List.mem_append.1 hw with hw | hw
          · exact d w hw
          · rw [List.mem_singleton] at hw; subst hw; exact e
        · rintro ⟨⟨c, _⟩, d, rfl⟩
          exact ⟨c, fun w hw => d w (by simp [hw]), d v (by simp), by simp⟩

/-- A polygon that can be written. -/
def LinesOk (strict : Bool) (ty : GType) (ls : List (List (Pt F64))) : Prop :=
  NoneMissing strict ty ls ∧ (∀ v ∈ kept ty ls, PtsOk strict ty v)

theorem polysLoop_iff (strict : Bool) (ps : List (List (List (Pt F64)))) (t : List Byte) :
    polysLoop fmt strict ps = (t, none) ↔
      (∀ p ∈ ps, LinesOk strict .mPoly p) ∧ t = joinC (ps.map (linesText fmt .mPoly)) := by
  induction ps generalizing t with
  | nil => rw [polysLoop, put_none]; simp [joinC]
  | cons p ps ih =>
    cases ps with
    | nil =>
      rw [polysLoop, encodeLines_iff]
      simp [LinesOk, joinC, and_assoc]
    | cons q ps =>
      rw [polysLoop, andThen_none]
      rw [List.map_cons, joinC_cons_ne _ _ (by simp)]
      constructor
      · rintro ⟨t1, t2, h1, h2, rfl⟩
        obtain ⟨u1, u2, k1, h3, rfl⟩ := (andThen_none _ _ _).1 h1
        rw [put_none] at h3; subst h3
        obtain ⟨a, b, rfl⟩ := (encodeLines_iff fmt strict .mPoly p u1).1 k1
        obtain ⟨c, rfl⟩ := (ih t2).1 h2
        refine ⟨?_, by simp⟩
        intro w hw
        rcases List.mem_cons.1 hw with rfl | hw
        · exact ⟨a, b⟩
        · exact c w hw
      · rintro ⟨c, rfl⟩
        obtain ⟨a, b⟩ := c p (by simp)
        refine ⟨linesText fmt .mPoly p ++ [comma], _, ?_, (ih _).2 ⟨fun w hw => c w (by simp [hw]), rfl⟩, by simp⟩
        rw [andThen_none]
        exact ⟨_, _, (encodeLines_iff fmt strict .mPoly p _).2 ⟨a, b, rfl⟩, (put_none _ _).2 rfl, rfl⟩

theorem encodePolys_iff (strict : Bool) (ps : List (List (List (Pt F64)))) (t : List Byte) :
    encodePolys fmt strict ps = (t, none) ↔
      (∀ p ∈ ps, LinesOk strict .mPoly p) ∧ t = listText (ps.map (linesText fmt .mPoly)) := by
  unfold encodePolys
  by_cases h : ps = []
  · subst h
    rw [if_pos rfl, put_none]; simp [listText]
  · rw [if_neg h, andThen_none]
    have hl : listText (ps.map (linesText fmt .mPoly)) = lparen :: (joinC (ps.map (linesText fmt .mPoly)) ++ [rparen]) := by
      unfold listText
      rw [if_neg (by simpa using h)]
    rw [hl]
    constructor
    · rintro ⟨t1, t2, h1, h2, rfl⟩
      rw [put_none] at h2; subst h2
      obtain ⟨u1, u2, k1, h3, rfl⟩ := (andThen_none _ _ _).1 h1
      rw [put_none] at k1; subst k1
      obtain ⟨a, rfl⟩ := (polysLoop_iff fmt strict ps u2).1 h3
      exact ⟨a, by simp⟩
    · rintro ⟨a, rfl⟩
      refine ⟨[lparen] ++ joinC (ps.map (linesText fmt .mPoly)), _, ?_, (put_none _ _).2 rfl, by simp⟩
      rw [andThen_none]
      exact ⟨_, _, (put_none _ _).2 rfl, (polysLoop_iff fmt strict ps _).2 ⟨a, rfl⟩, rfl⟩

mutual
/-- Text of a geometry. -/
def text : Geom F64 → List Byte
  | .point p => tagPoint ++ encodePoint fmt p
  | .multiPoint ps => tagMultiPoint ++ pointsText fmt .mp ps
  | .lineString ps => tagLineString ++ pointsText fmt .ls ps
  | .multiLineString ls => tagMultiLineString ++ linesText fmt .ml ls
  | .polygon rs => tagPolygon ++ linesText fmt .poly rs
  | .multiPolygon ps => tagMultiPolygon ++ listText (ps.map (linesText fmt .mPoly))
  | .collection gs => tagCollection ++ listText (texts gs)
  | .other => []
def texts : List (Geom F64) → List (List Byte)
  | [] => []
  | g :: gs => text g :: texts gs
end

theorem texts_isEmpty (gs : List (Geom F64)) : (texts fmt gs).isEmpty = gs.isEmpty := by
  cases gs <;> simp [texts]

theorem isRing_ne_ml {ty : GType} (h : ty.isRing = true) : ty ≠ .ml ∧ ty ≠ .mp ∧ ty.isLine = false := by
  cases ty <;> simp_all [GType.isRing, GType.isLine]

theorem linesOk_ring (strict : Bool) (ty : GType) (h : ty.isRing = true) (rs : List (List (Pt F64))) :
    LinesOk strict ty rs ↔ RingsOk strict rs := by
  obtain ⟨h1, h2, h3⟩ := isRing_ne_ml h
  have hsz : ∀ v, noPoints v = false → (SizeOk ty (em ty v) ↔ 3 ≤ (tidyLine v).length) := by
    intro v hv
    have : em ty v ≠ [] := by
      rw [Ne, em_nil_iff ty h2, hv]; simp
    have e : em ty v = tidyLine v := by simp [em, h2]
    rw [e] at this ⊢
    simp [SizeOk, this, h, h3]
  unfold LinesOk NoneMissing PtsOk RingsOk
  simp only [kept, if_neg h1, List.mem_filter]
  constructor
  · rintro ⟨a, b⟩
    refine ⟨fun hs r hr => ?_, fun r hr hn => ?_⟩
    · have hne := a hs h1 r hr
      refine ⟨?_, (b r ⟨hr, by simp [hne]⟩).1 hs h2⟩
      rintro rfl
      simp [noPoints] at hne
    · have hne : noPoints r = false := by rw [noPoints_eq, hn]; rfl
      exact (hsz r hne).1 (b r ⟨hr, by simp [hne]⟩).2
  · rintro ⟨a, b⟩
    have hne : strict = true → ∀ v ∈ rs, noPoints v = false := by
      intro hs v hv
      obtain ⟨q1, q2⟩ := a hs v hv
      rw [noPoints_eq]
      cases v with
      | nil => exact absurd rfl q1
      | cons x y => simp [q2 x (by simp)]
    refine ⟨fun hs _ => hne hs, fun v hv => ⟨fun hs _ => (a hs v hv.1).2, ?_⟩⟩
    have hv2 : noPoints v = false := by simpa using hv.2
    refine (hsz v hv2).2 (b v hv.1 ?_)
    rw [noPoints_eq] at hv2; simpa using hv2

theorem ptsOk_line (strict : Bool) (ty : GType) (h : ty.isLine = true) (v : List (Pt F64)) :
    PtsOk strict ty v ↔ LineOk strict v := by
  have h2 : ty ≠ .mp ∧ ty.isRing = false := by cases ty <;> simp_all [GType.isRing, GType.isLine]
  simp [PtsOk, LineOk, strictOk, SizeOk, em, h2.1, h2.2, h]

mutual
theorem encode_iff (strict : Bool) (g : Geom F64) (t : List Byte) :
    encode fmt strict g = (t, none) ↔ Accepted strict g ∧ t = text fmt g := by
  cases g with
  | point p =>
    rw [encode, Accepted, text, andThen_none]
    simp only [put_none, true_and]
    constructor
    · rintro ⟨_, _, rfl, rfl, rfl⟩; rfl
    · rintro rfl; exact ⟨_, _, rfl, rfl, rfl⟩
  | multiPoint ps =>
    rw [encode, Accepted, text, andThen_none]
    simp only [put_none, true_and]
    constructor
    · rintro ⟨_, _, rfl, h, rfl⟩
      rw [((encodePoints_iff fmt strict .mp ps _).1 h).2.2]
    · rintro rfl
      refine ⟨_, _, rfl, (encodePoints_iff fmt strict .mp ps _).2 ⟨fun _ q => absurd rfl q, ?_, rfl⟩, rfl⟩
      exact .inr ⟨fun q => (by cases q), fun q => (by cases q)⟩
  | lineString ps =>
    rw [encode, Accepted, text, andThen_none, ← ptsOk_line strict .ls rfl]
    simp only [put_none]
    constructor
    · rintro ⟨_, _, rfl, h, rfl⟩
      obtain ⟨a, b, rfl⟩ := (encodePoints_iff fmt strict .ls ps _).1 h
      exact ⟨⟨a, b⟩, rfl⟩
    · rintro ⟨⟨a, b⟩, rfl⟩
      exact ⟨_, _, rfl, (encodePoints_iff fmt strict .ls ps _).2 ⟨a, b, rfl⟩, rfl⟩
  | multiLineString ls =>
    rw [encode, Accepted, text, andThen_none]
    simp only [put_none]
    have hk : (∀ v ∈ kept .ml ls, PtsOk strict .ml v) ↔ ∀ l ∈ ls, LineOk strict l := by
      simp only [kept, if_true]
      exact ⟨fun h l hl => (ptsOk_line strict .ml rfl l).1 (h l hl), fun h l hl => (ptsOk_line strict .ml rfl l).2 (h l hl)⟩
    constructor
    · rintro ⟨_, _, rfl, h, rfl⟩
      obtain ⟨_, b, rfl⟩ := (encodeLines_iff fmt strict .ml ls _).1 h
      exact ⟨hk.1 b, rfl⟩
    · rintro ⟨b, rfl⟩
      exact ⟨_, _, rfl, (encodeLines_iff fmt strict .ml ls _).2 ⟨fun _ q => absurd rfl q, hk.2 b, rfl⟩, rfl⟩
  | polygon rs =>
    rw [encode, Accepted, text, andThen_none, ← linesOk_ring strict .poly rfl]
    simp only [put_none]
    constructor
    · rintro ⟨_, _, rfl, h, rfl⟩
      obtain ⟨a, b, rfl⟩ := (encodeLines_iff fmt strict .poly rs _).1 h
      exact ⟨⟨a, b⟩, rfl⟩
    · rintro ⟨⟨a, b⟩, rfl⟩
      exact ⟨_, _, rfl, (encodeLines_iff fmt strict .poly rs _).2 ⟨a, b, rfl⟩, rfl⟩
  | multiPolygon ps =>
    rw [encode, Accepted, text, andThen_none]
    simp only [put_none]
    have hk : (∀ p ∈ ps, LinesOk strict .mPoly p) ↔ ∀ p ∈ ps, RingsOk strict p :=
      ⟨fun h l hl => (linesOk_ring strict .mPoly rfl l).1 (h l hl), fun h l hl => (linesOk_ring strict .mPoly rfl l).2 (h l hl)⟩
    rw [← hk]
    constructor
    · rintro ⟨_, _, rfl, h, rfl⟩
      obtain ⟨b, rfl⟩ := (encodePolys_iff fmt strict ps _).1 h
      exact ⟨b, rfl⟩
    · rintro ⟨b, rfl⟩
      exact ⟨_, _, rfl, (encodePolys_iff fmt strict ps _).2 ⟨b, rfl⟩, rfl⟩
  | collection gs =>
    rw [encode, Accepted, text]
    by_cases h : gs.isEmpty = true
    · rw [if_pos h, put_none]
      have : gs = [] := by simpa using h
      subst this
      simp [AcceptedAll, texts, listText]
    · rw [if_neg h, andThen_none]
      unfold listText
      rw [if_neg (by rw [texts_isEmpty]; exact h)]
      have hne : gs ≠ [] := by intro q; simp [q] at h
      constructor
      · rintro ⟨t1, t2, h1, h2, rfl⟩
        rw [put_none] at h2; subst h2
        obtain ⟨u1, u2, k1, h3, rfl⟩ := (andThen_none _ _ _).1 h1
        rw [put_none] at k1; subst k1
        obtain ⟨a, rfl⟩ := (encodeMembers_iff strict gs u2).1 h3
        exact ⟨a, by simp⟩
      · rintro ⟨a, rfl⟩
        refine ⟨(tagCollection ++ [lparen]) ++ joinC (texts fmt gs), _, ?_, (put_none _ _).2 rfl, by simp⟩
        rw [andThen_none]
        exact ⟨_, _, (put_none _ _).2 rfl, (encodeMembers_iff strict gs _).2 ⟨a, rfl⟩, rfl⟩
  | other =>
    rw [encode, Accepted]
    simp [fail]
theorem encodeMembers_iff (strict : Bool) (gs : List (Geom F64)) (t : List Byte) :
    encodeMembers fmt strict gs = (t, none) ↔ AcceptedAll strict gs ∧ t = joinC (texts fmt gs) := by
  cases gs with
  | nil => rw [encodeMembers, put_none]; simp [AcceptedAll, texts, joinC]
  | cons g gs =>
    rw [encodeMembers, AcceptedAll, texts]
    by_cases h : gs.isEmpty = true
    · rw [if_pos h, encode_iff strict g t]
      have : gs = [] := by simpa using h
      subst this
      simp [AcceptedAll, texts, joinC]
    · rw [if_neg h, andThen_none, joinC_cons_ne]
      · constructor
        · rintro ⟨t1, t2, h1, h2, rfl⟩
          obtain ⟨u1, u2, k1, h3, rfl⟩ := (andThen_none _ _ _).1 h1
          rw [put_none] at h3; subst h3
          obtain ⟨a, rfl⟩ := (encode_iff strict g u1).1 k1
          obtain ⟨b, rfl⟩ := (encodeMembers_iff strict gs t2).1 h2
          exact ⟨⟨a, b⟩, by simp⟩
        · rintro ⟨⟨a, b⟩, rfl⟩
          refine ⟨text fmt g ++ [comma], _, ?_, (encodeMembers_iff strict gs _).2 ⟨b, rfl⟩, by simp⟩
          rw [andThen_none]
          exact ⟨_, _, (encode_iff strict g _).2 ⟨a, rfl⟩, (put_none _ _).2 rfl, rfl⟩
      · intro q
        have := texts_isEmpty fmt gs
        rw [q] at this
        exact h (by simpa using this.symm)
end

end Verif.Wkt
