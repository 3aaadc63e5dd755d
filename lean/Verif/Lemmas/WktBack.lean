import Verif.Lemmas.WktEnc
import Verif.Lemmas.Cmp

/-! # Lemmas for the WKT properties: reading what was written -/

namespace Verif.Wkt
open Verif Verif.Spec.Wkt Verif.Spec.Wkb

/-- All values, if all are there. -/
def seqOpt {α : Type} : List (Option α) → Option (List α)
  | [] => some []
  | none :: _ => none
  | some a :: r => (seqOpt r).map (a :: ·)

theorem seqOpt_some {α β : Type} (f : β → Option α) (h : β → α) (l : List β) (hf : ∀ x ∈ l, f x = some (h x)) :
    seqOpt (l.map f) = some (l.map h) := by
  induction l with
  | nil => rfl
  | cons x l ih =>
    rw [List.map_cons, hf x (by simp), seqOpt, ih (fun y hy => hf y (by simp [hy]))]; rfl

theorem seqOpt_none {α β : Type} (f : β → Option α) (l : List β) (hf : ∃ x ∈ l, f x = none) :
    seqOpt (l.map f) = none := by
  induction l with
  | nil => obtain ⟨x, h, _⟩ := hf; cases h
  | cons x l ih =>
    rw [List.map_cons]
    cases hx : f x with
    | none => rfl
    | some a =>
      rw [seqOpt, ih]; rfl
      obtain ⟨y, hy, e⟩ := hf
      rcases List.mem_cons.1 hy with rfl | hy
      · rw [hx] at e; cases e
      · exact ⟨y, hy, e⟩

/-- The reader on the text followed by anything `F`: the value, or an error. -/
def Reads {α : Type} (F : List Byte → Prop) (item : Rd α) (t : List Byte) (v : Option α) : Prop :=
  ∀ s', F s' → (∀ a, v = some a → item (t ++ s') = .ok (a, s')) ∧ (v = none → ∃ e, item (t ++ s') = .error e)

theorem readItems_reads {α : Type} {item : Rd α} (ts : List (List Byte × Option α)) (hne : ts ≠ [])
    (hr : ∀ x ∈ ts, Reads Follow item x.1 x.2) (hst : ∀ x ∈ ts, Starts x.1) (s' : List Byte) (n : Nat) :
    (∀ as, seqOpt (ts.map (·.2)) = some as → ts.length ≤ n →
      readItems item n (joinC (ts.map (·.1)) ++ rparen :: s') = .ok (as, s')) ∧
    (seqOpt (ts.map (·.2)) = none → ∃ e, readItems item n (joinC (ts.map (·.1)) ++ rparen :: s') = .error e) := by
  induction ts generalizing n with
  | nil => exact absurd rfl hne
  | cons x ts ih =>
    cases n with
    | zero => exact ⟨fun _ _ q => by simp at q, fun _ => ⟨.fuel, rfl⟩⟩
    | succ n =>
      cases hts : ts with
      | nil =>
        have key : joinC ([x].map (·.1)) = x.1 := rfl
        rw [key]
        obtain ⟨r1, r2⟩ := hr x (by simp) (rparen :: s') ⟨rparen, s', rfl, .inr (.inr rfl)⟩
        cases hx : x.2 with
        | none =>
          obtain ⟨e, he⟩ := r2 hx
          refine ⟨fun as q => ?_, fun _ => ⟨e, by rw [readItems, he]⟩⟩
          rw [List.map_cons, hx] at q; simp [seqOpt] at q
        | some a =>
          refine ⟨fun as q _ => ?_, fun q => ?_⟩
          · rw [List.map_cons, hx] at q
            simp only [List.map_nil, seqOpt, Option.map_some, Option.some.injEq] at q
            subst q
            rw [readItems, r1 a hx]
            simp only []
            have := readWhitespace_complete [] (fun b hb => by cases hb) rparen s' (by decide)
            rw [List.nil_append] at this
            rw [this]
            rfl
          · rw [List.map_cons, hx] at q; simp [seqOpt] at q
      | cons y ys =>
        rw [← hts]
        have hne' : ts ≠ [] := by rw [hts]; simp
        have key : joinC ((x :: ts).map (·.1)) ++ rparen :: s' = x.1 ++ (comma :: (joinC (ts.map (·.1)) ++ rparen :: s')) := by
          rw [List.map_cons, joinC_cons_ne _ _ (by simpa using hne')]; simp
        rw [key]
        obtain ⟨r1, r2⟩ := hr x (by simp) (comma :: (joinC (ts.map (·.1)) ++ rparen :: s'))
          ⟨comma, _, rfl, .inr (.inl rfl)⟩
        obtain ⟨i1, i2⟩ := ih hne' (fun z hz => hr z (by simp [hz])) (fun z hz => hst z (by simp [hz])) n
        have hstart : ∃ b u, joinC (ts.map (·.1)) ++ rparen :: s' = b :: u ∧ isSpace b = false := by
          obtain ⟨b, u, e, h1, _⟩ := hst y (by rw [hts]; simp)
          rw [hts, List.map_cons]
          cases ys with
          | nil => exact ⟨b, u ++ rparen :: s', by rw [show joinC (y.1 :: List.map (·.1) ([] : List (List Byte × Option α))) = y.1 from rfl, e]; rfl, h1⟩
          | cons z zs => exact ⟨b, _, by rw [joinC_cons_ne _ _ (by simp), e]; rfl, h1⟩
        obtain ⟨b, u, eb, hb⟩ := hstart
        have w1 := readWhitespace_complete [] (fun b hb => by cases hb) comma (joinC (ts.map (·.1)) ++ rparen :: s') (by decide)
        have w2 := readWhitespace_complete [] (fun b hb => by cases hb) b u hb
        rw [List.nil_append] at w1 w2
        cases hx : x.2 with
        | none =>
          obtain ⟨e, he⟩ := r2 hx
          refine ⟨fun as q => ?_, fun _ => ⟨e, by rw [readItems, he]⟩⟩
          rw [List.map_cons, hx] at q; simp [seqOpt] at q
        | some a =>
          have st : readItems item (n + 1) (x.1 ++ (comma :: (joinC (ts.map (·.1)) ++ rparen :: s'))) =
              match readItems item n (joinC (ts.map (·.1)) ++ rparen :: s') with
              | .error e => .error e
              | .ok (as, s) => .ok (a :: as, s) := by
            rw [readItems, r1 a hx]
            simp only []
            rw [w1]
            simp only [readByte, if_true]
            rw [eb, w2]
            rfl
          rw [st, List.map_cons, hx, seqOpt]
          refine ⟨fun as q hn => ?_, fun q => ?_⟩
          · cases hs : seqOpt (ts.map (·.2)) with
            | none => rw [hs] at q; simp at q
            | some bs =>
              rw [hs] at q
              simp only [Option.map_some, Option.some.injEq] at q
              subst q
              rw [i1 bs hs (by simp at hn; exact hn)]
          · cases hs : seqOpt (ts.map (·.2)) with
            | none =>
              obtain ⟨e, he⟩ := i2 hs
              exact ⟨e, by rw [he]⟩
            | some bs => rw [hs] at q; simp at q

theorem joinC_length (ts : List (List Byte)) (h : ∀ t ∈ ts, Starts t) : ts.length ≤ (joinC ts).length := by
  induction ts with
  | nil => simp
  | cons t ts ih =>
    obtain ⟨b, u, e, _⟩ := h t (by simp)
    have := ih fun t ht => h t (by simp [ht])
    cases ts with
    | nil => simp [joinC, e]
    | cons a as => rw [joinC_cons_ne _ _ (by simp)]; simp [e] at this ⊢; omega

theorem readList_reads {α : Type} {item : Rd α} (ts : List (List Byte × Option α))
    (hr : ∀ x ∈ ts, Reads Follow item x.1 x.2) (hst : ∀ x ∈ ts, Starts x.1) :
    Reads (fun _ => True) (readList item) (listText (ts.map (·.1)))
      (if ts.isEmpty then none else seqOpt (ts.map (·.2))) := by
  intro s' _
  cases ts with
  | nil =>
    refine ⟨fun _ q => by simp at q, fun _ => ⟨.expected, ?_⟩⟩
    rfl
  | cons x xs =>
    rw [if_neg (by simp)]
    have e : listText ((x :: xs).map (·.1)) ++ s' = lparen :: (joinC ((x :: xs).map (·.1)) ++ rparen :: s') := by
      unfold listText; rw [if_neg (by simp)]; simp
    obtain ⟨b, u, eb, h1, h2⟩ := hst x (by simp)
    have es : ∃ u', joinC ((x :: xs).map (·.1)) ++ rparen :: s' = b :: u' := by
      cases xs with
      | nil => exact ⟨_, by rw [show joinC ([x].map (·.1)) = x.1 from rfl, eb]; rfl⟩
      | cons z zs => exact ⟨_, by rw [List.map_cons, joinC_cons_ne _ _ (by simp), eb]; rfl⟩
    obtain ⟨u', eu⟩ := es
    have w := readWhitespace_complete [] (fun b hb => by cases hb) b u' h1
    rw [List.nil_append] at w
    have st : readList item (listText ((x :: xs).map (·.1)) ++ s') =
        readItems item (joinC ((x :: xs).map (·.1)) ++ rparen :: s').length (joinC ((x :: xs).map (·.1)) ++ rparen :: s') := by
      rw [e, readList]
      simp only [readByte]
      rw [if_neg (by simp), eu, w]
      simp only [readByte]
      rw [if_neg h2]
    rw [st]
    obtain ⟨i1, i2⟩ := readItems_reads (x :: xs) (by simp) hr hst s' (joinC ((x :: xs).map (·.1)) ++ rparen :: s').length
    refine ⟨fun as q => i1 as q ?_, i2⟩
    have := joinC_length ((x :: xs).map (·.1)) (by
      intro t ht
      obtain ⟨y, hy, rfl⟩ := List.mem_map.1 ht
      exact hst y hy)
    simp at this ⊢; omega

theorem listText_starts (ts : List (List Byte)) : Starts (listText ts) := by
  unfold listText
  split
  · exact ⟨0x45#8, _, rfl, by decide, by decide⟩
  · exact ⟨lparen, _, rfl, by decide, by decide⟩

theorem Reads.weaken {α : Type} {r : Rd α} {t : List Byte} {v : Option α} {F : List Byte → Prop}
    (h : Reads (fun _ => True) r t v) : Reads F r t v := fun s' _ => h s' trivial

variable (fmt : F64 → List Byte) (parse : List Byte → Option F64) (rnd : F64 → F64)

/-- The parser and the formatter fit together on this point. -/
def PtOk (p : Pt F64) : Prop := numeric p = true → ReadsBack fmt parse rnd p.1 ∧ ReadsBack fmt parse rnd p.2

def rp (p : Pt F64) : Pt F64 := (rnd p.1, rnd p.2)

/-- What reading a written point gives. -/
def dPair (p : Pt F64) : Option (Pt F64) := if numeric p then some (rp rnd p) else none

theorem pair_position (p : Pt F64) (hn : numeric p = true) (hp : PtOk fmt parse rnd p) :
    Position parse (rp rnd p) (encodePair fmt p) := by
  obtain ⟨a, b⟩ := hp hn
  unfold encodePair
  rw [isEmptyPoint_eq, hn]
  refine ⟨fmt p.1, [space], fmt p.2, by simp, a, ?_, by simp, b⟩
  rw [blank_iff]; intro x hx; rw [List.mem_singleton] at hx; subst hx; decide

theorem pair_reads (h0 : parse [] = none) (hE : parse [0x45#8] = none) (p : Pt F64) (hp : PtOk fmt parse rnd p) :
    Reads Follow (readPoint parse) (encodePair fmt p) (dPair rnd p) := by
  intro s' hs'
  unfold dPair
  cases hn : numeric p with
  | true =>
    simp only [if_true]
    refine ⟨fun a e => ?_, fun q => by simp at q⟩
    rw [Option.some.injEq] at e; subst e
    exact readPoint_complete parse h0 _ _ s' (pair_position fmt parse rnd p hn hp) hs'
  | false =>
    refine ⟨fun _ q => by simp at q, fun _ => ⟨.float, ?_⟩⟩
    have e : encodePair fmt p ++ s' = [0x45#8] ++ (0x4D#8 :: ([0x50#8, 0x54#8, 0x59#8] ++ s')) := by
      unfold encodePair; rw [isEmptyPoint_eq, hn]; rfl
    have r := readRun_complete isNumeric [0x45#8] (by decide) 0x4D#8 ([0x50#8, 0x54#8, 0x59#8] ++ s') (by decide)
    rw [e, readPoint, readFloat, r]
    simp only [hE]

theorem pair_starts (h0 : parse [] = none) (p : Pt F64) (hp : PtOk fmt parse rnd p) : Starts (encodePair fmt p) := by
  cases hn : numeric p with
  | true => exact position_starts parse h0 (pair_position fmt parse rnd p hn hp)
  | false =>
    unfold encodePair; rw [isEmptyPoint_eq, hn]
    exact ⟨0x45#8, _, rfl, by decide, by decide⟩

/-- The points that are written, with the closing vertex. -/
def closed (ty : GType) (mp : List (Pt F64)) : List (Pt F64) := em ty mp ++ closing ty (em ty mp)

theorem squeezeAfter_mem (a : Pt F64) (l : List (Pt F64)) (p : Pt F64) (h : p ∈ squeezeAfter a l) : p ∈ l := by
  induction l generalizing a with
  | nil => exact h
  | cons b t ih =>
    rw [squeezeAfter] at h
    split at h
    · exact List.mem_cons_of_mem _ (ih a h)
    · rcases List.mem_cons.1 h with rfl | h
      · simp
      · exact List.mem_cons_of_mem _ (ih b h)

theorem tidyLine_mem (l : List (Pt F64)) (p : Pt F64) (h : p ∈ tidyLine l) : p ∈ l ∧ numeric p = true := by
  unfold tidyLine at h
  have : p ∈ l.filter numeric := by
    cases hl : l.filter numeric with
    | nil => rw [hl] at h; exact h
    | cons a t =>
      rw [hl, squeeze] at h
      rcases List.mem_cons.1 h with rfl | h
      · simp
      · exact List.mem_cons_of_mem _ (squeezeAfter_mem a t p h)
  exact List.mem_filter.1 this

theorem closing_mem (ty : GType) (L : List (Pt F64)) (p : Pt F64) (h : p ∈ closing ty L) : p ∈ L := by
  unfold closing at h
  cases L with
  | nil => simp at h
  | cons a L =>
    cases hl : (a :: L).getLast? with
    | none => rw [hl] at h; simp at h
    | some l =>
      rw [hl] at h
      simp only [List.head?_cons] at h
      split at h
      · rw [List.mem_singleton] at h; subst h; simp
      · cases h

theorem closed_mem (ty : GType) (mp : List (Pt F64)) (p : Pt F64) (h : p ∈ closed ty mp) :
    p ∈ mp ∧ (ty ≠ .mp → numeric p = true) := by
  have h2 : p ∈ em ty mp := by
    rcases List.mem_append.1 h with h | h
    · exact h
    · exact closing_mem _ _ _ h
  unfold em at h2
  split at h2
  · rename_i q; exact ⟨h2, fun c => absurd q c⟩
  · exact ⟨(tidyLine_mem _ _ h2).1, fun _ => (tidyLine_mem _ _ h2).2⟩

theorem closed_nil (ty : GType) (mp : List (Pt F64)) : closed ty mp = [] ↔ em ty mp = [] := by
  unfold closed
  constructor
  · intro h; exact (List.append_eq_nil_iff.1 h).1
  · intro h; rw [h]; rfl

/-- What reading a written point list gives. -/
def dPts (ty : GType) (mp : List (Pt F64)) : Option (List (Pt F64)) :=
  if (closed ty mp).isEmpty then none else seqOpt ((closed ty mp).map (dPair rnd))

theorem pts_reads (h0 : parse [] = none) (hE : parse [0x45#8] = none) (ty : GType) (mp : List (Pt F64))
    (hp : ∀ p ∈ mp, PtOk fmt parse rnd p) :
    Reads (fun _ => True) (readPoints parse) (pointsText fmt ty mp) (dPts rnd ty mp) := by
  have hp' : ∀ p ∈ closed ty mp, PtOk fmt parse rnd p := fun p h => hp p (closed_mem ty mp p h).1
  have := readList_reads (item := readPoint parse)
    ((closed ty mp).map fun p => (encodePair fmt p, dPair rnd p))
    (by
      intro x hx
      obtain ⟨p, h, rfl⟩ := List.mem_map.1 hx
      exact pair_reads fmt parse rnd h0 hE p (hp' p h))
    (by
      intro x hx
      obtain ⟨p, h, rfl⟩ := List.mem_map.1 hx
      exact pair_starts fmt parse rnd h0 p (hp' p h))
  rw [List.map_map, List.map_map] at this
  have e : (List.map (fun p => (encodePair fmt p, dPair rnd p)) (closed ty mp)).isEmpty = (closed ty mp).isEmpty := by
    cases closed ty mp <;> rfl
  rw [e] at this
  exact this

theorem dPts_line (ty : GType) (hty : ty ≠ .mp) (mp : List (Pt F64)) :
    dPts rnd ty mp = if tidyLine mp = [] then none else some ((closed ty mp).map (rp rnd)) := by
  unfold dPts
  have e : em ty mp = tidyLine mp := by simp [em, hty]
  by_cases h : tidyLine mp = []
  · rw [if_pos h, if_pos]
    rw [List.isEmpty_iff, closed_nil, e]; exact h
  · rw [if_neg h, if_neg]
    · apply seqOpt_some
      intro p hp
      simp [dPair, (closed_mem ty mp p hp).2 hty]
    · rw [List.isEmpty_iff, closed_nil, e]; exact h

/-- What reading a written list of lines gives. -/
def dLines (ty : GType) (ls : List (List (Pt F64))) : Option (List (List (Pt F64))) :=
  if (kept ty ls).isEmpty then none else seqOpt ((kept ty ls).map (dPts rnd ty))

theorem kept_mem (ty : GType) (ls : List (List (Pt F64))) (v : List (Pt F64)) (h : v ∈ kept ty ls) : v ∈ ls := by
  unfold kept at h
  split at h
  · exact h
  · exact (List.mem_filter.1 h).1

theorem lines_reads (h0 : parse [] = none) (hE : parse [0x45#8] = none) (ty : GType) (ls : List (List (Pt F64)))
    (hp : ∀ l ∈ ls, ∀ p ∈ l, PtOk fmt parse rnd p) :
    Reads (fun _ => True) (readLines parse) (linesText fmt ty ls) (dLines rnd ty ls) := by
  have := readList_reads (item := readPoints parse)
    ((kept ty ls).map fun v => (pointsText fmt ty v, dPts rnd ty v))
    (by
      intro x hx
      obtain ⟨v, h, rfl⟩ := List.mem_map.1 hx
      exact (pts_reads fmt parse rnd h0 hE ty v (hp v (kept_mem ty ls v h))).weaken)
    (by
      intro x hx
      obtain ⟨v, h, rfl⟩ := List.mem_map.1 hx
      exact listText_starts _)
  rw [List.map_map, List.map_map] at this
  have e : (List.map (fun v => (pointsText fmt ty v, dPts rnd ty v)) (kept ty ls)).isEmpty = (kept ty ls).isEmpty := by
    cases kept ty ls <;> rfl
  rw [e] at this
  exact this

/-- What reading a written list of polygons gives. -/
def dPolys (ps : List (List (List (Pt F64)))) : Option (List (List (List (Pt F64)))) :=
  if ps.isEmpty then none else seqOpt (ps.map (dLines rnd .mPoly))

theorem polys_reads (h0 : parse [] = none) (hE : parse [0x45#8] = none) (ps : List (List (List (Pt F64))))
    (hp : ∀ ls ∈ ps, ∀ l ∈ ls, ∀ p ∈ l, PtOk fmt parse rnd p) :
    Reads (fun _ => True) (readPolys parse) (listText (ps.map (linesText fmt .mPoly))) (dPolys rnd ps) := by
  have := readList_reads (item := readLines parse)
    (ps.map fun v => (linesText fmt .mPoly v, dLines rnd .mPoly v))
    (by
      intro x hx
      obtain ⟨v, h, rfl⟩ := List.mem_map.1 hx
      exact (lines_reads fmt parse rnd h0 hE .mPoly v (hp v h)).weaken)
    (by
      intro x hx
      obtain ⟨v, h, rfl⟩ := List.mem_map.1 hx
      exact listText_starts _)
  rw [List.map_map, List.map_map] at this
  have e : (List.map (fun v => (linesText fmt .mPoly v, dLines rnd .mPoly v)) ps).isEmpty = ps.isEmpty := by
    cases ps <;> rfl
  rw [e] at this
  exact this

/-! ## Rings -/

theorem samePoint_self {p : Pt F64} (h : numeric p = true) : samePoint p p = true := by
  unfold samePoint numeric at *
  rw [F64_eq_self, F64_eq_self]; exact h

/-- The rounding does not tell Go-equal numbers apart. -/
def RespectsEq : Prop := ∀ a b : F64, a.eq b = true → (rnd a).eq (rnd b) = true

theorem eq_refl_right {a b : F64} (h : a.eq b = true) : b.eq b = true := by
  rw [F64.eq_iff] at h ⊢
  exact ⟨h.2.1, h.2.1, rfl⟩

theorem closed_ring (c : Cmp.Compare) (hc : Spec.Cmp.Positive c) (hr : RespectsEq rnd) (L : List (Pt F64)) (ty : GType)
    (hty : ty.isRing = true) (hL : 2 ≤ L.length) :
    (Closed c.pointEqual ((L ++ closing ty L).map (rp rnd)) ↔ 3 ≤ (openRing L).length) ∧
    ((L ++ closing ty L).map (rp rnd)).dropLast = (openRing L).map (rp rnd) := by
  match L, hL with
  | a :: b :: t, _ =>
    obtain ⟨z, hz⟩ : ∃ z, (b :: t).getLast (by simp) = z := ⟨_, rfl⟩
    have e2 : (a :: b :: t).getLast? = some z := by
      rw [List.getLast?_cons_cons, List.getLast?_eq_getLast_of_ne_nil (by simp), hz]
    have eo : openRing (a :: b :: t) = if samePoint a z then (a :: b :: t).dropLast else a :: b :: t := by
      rw [openRing, hz]
    have ec : closing ty (a :: b :: t) = if samePoint a z then [] else [a] := by
      unfold closing
      rw [e2]
      simp only [List.head?_cons, hty, Bool.true_and]
      cases samePoint a z <;> rfl
    rw [eo, ec]
    cases hs : samePoint a z with
    | true =>
      simp only [if_true, List.append_nil]
      refine ⟨?_, by rw [List.map_dropLast]⟩
      have hcl : c.pointEqual (rp rnd a) (rp rnd z) = true := by
        unfold samePoint at hs
        simp only [Bool.and_eq_true] at hs
        rw [Cmp.pointEqual_congr c (rp rnd a) (rp rnd z) (rp rnd z) (rp rnd z) ⟨hr _ _ hs.1, hr _ _ hs.2⟩
          ⟨hr _ _ (eq_refl_right hs.1), hr _ _ (eq_refl_right hs.2)⟩]
        exact Cmp.pointEqual_refl c _ hc.1 hc.2
      unfold Closed
      constructor
      · rintro ⟨h, _⟩; simp at h ⊢; omega
      · intro h
        refine ⟨by simp at h ⊢; omega, rp rnd a, rp rnd z, rfl, ?_, hcl⟩
        rw [List.getLast?_map, e2]; rfl
    | false =>
      simp only [Bool.false_eq_true, if_false]
      refine ⟨?_, by rw [List.map_append, List.map_singleton, List.dropLast_concat]⟩
      unfold Closed
      constructor
      · rintro ⟨h, _⟩; simp at h ⊢; omega
      · intro h
        refine ⟨by simp at h ⊢; omega, rp rnd a, rp rnd a, rfl, ?_, Cmp.pointEqual_refl c _ hc.1 hc.2⟩
        rw [List.getLast?_map, List.getLast?_concat]; rfl

theorem kept_ring (ty : GType) (h : ty.isRing = true) (rs : List (List (Pt F64))) :
    kept ty rs = rs.filter (·.any numeric) := by
  rw [kept, if_neg (isRing_ne_ml h).1]
  congr 1
  funext v
  rw [noPoints_eq, Bool.not_not]

theorem tidyLine_ne (v : List (Pt F64)) (h : v.any numeric = true) : tidyLine v ≠ [] := by
  have := em_nil_iff .ls (by simp) v
  rw [em, if_neg (by simp)] at this
  rw [Ne, this, noPoints_eq, h]; simp

/-- Rings of a written polygon: read, checked and opened again. -/
theorem dLines_ring (ty : GType) (h : ty.isRing = true) (rs : List (List (Pt F64))) :
    dLines rnd ty rs = if tidyRings rs = [] then none
      else some ((rs.filter (·.any numeric)).map fun v => (closed ty v).map (rp rnd)) := by
  obtain ⟨h1, h2, h3⟩ := isRing_ne_ml h
  unfold dLines tidyRings
  rw [kept_ring ty h]
  by_cases hn : rs.filter (·.any numeric) = []
  · rw [hn]; rfl
  · rw [if_neg (by simpa using hn), if_neg (by simpa using hn)]
    apply seqOpt_some
    intro v hv
    rw [dPts_line rnd ty h2, if_neg (tidyLine_ne v (List.mem_filter.1 hv).2)]

theorem rings_check (c : Cmp.Compare) (hc : Spec.Cmp.Positive c) (hr : RespectsEq rnd) (ty : GType)
    (h : ty.isRing = true) (strict : Bool) (rs : List (List (Pt F64))) (hacc : RingsOk strict rs) :
    ((∀ v ∈ (rs.filter (·.any numeric)).map fun v => (closed ty v).map (rp rnd), Closed c.pointEqual v) ↔
      ∀ r ∈ tidyRings rs, 3 ≤ r.length) ∧
    ((rs.filter (·.any numeric)).map fun v => (closed ty v).map (rp rnd)).map List.dropLast =
      (tidyRings rs).map (·.map (rp rnd)) := by
  obtain ⟨h1, h2, h3⟩ := isRing_ne_ml h
  have e : ∀ v, closed ty v = tidyLine v ++ closing ty (tidyLine v) := by
    intro v; simp [closed, em, h2]
  have key : ∀ v ∈ rs.filter (·.any numeric), _ := fun v hv =>
    closed_ring rnd c hc hr (tidyLine v) ty h (by
      have := hacc.2 v (List.mem_filter.1 hv).1 (List.mem_filter.1 hv).2
      omega)
  unfold tidyRings
  constructor
  · constructor
    · intro q r hr
      obtain ⟨v, hv, rfl⟩ := List.mem_map.1 hr
      have := q _ (List.mem_map_of_mem hv)
      rw [e] at this
      exact (key v hv).1.1 this
    · intro q r hr
      obtain ⟨v, hv, rfl⟩ := List.mem_map.1 hr
      rw [e]
      exact (key v hv).1.2 (q _ (List.mem_map_of_mem hv))
  · rw [List.map_map, List.map_map]
    apply List.map_congr_left
    intro v hv
    simp only [Function.comp]
    rw [e]
    exact (key v hv).2

/-! ## Geometries -/

theorem tag_read (K : List Byte) (hK : ∀ b ∈ K, isAlpha b = true) (hne : K ≠ []) (body : List Byte)
    (hb : Starts body) (s' : List Byte) :
    readTag (K ++ space :: (body ++ s')) = .ok (K.map lower, space :: (body ++ s')) ∧
    readWhitespace (space :: (body ++ s')) = .ok (true, body ++ s') := by
  obtain ⟨b, u, rfl, h1, h2⟩ := hb
  constructor
  · cases K with
    | nil => exact absurd rfl hne
    | cons k K =>
      have w := readWhitespace_complete [] (fun b hb => by cases hb) k (K ++ space :: (b :: u ++ s'))
        (alpha_not_space k (hK k (by simp)))
      rw [List.nil_append] at w
      rw [readTag, List.cons_append, w]
      simp only []
      have r := readRun_complete isAlpha (k :: K) hK space (b :: u ++ s') (by decide)
      rw [List.cons_append] at r
      rw [r]
  · have w := readWhitespace_complete [space] (by rw [blank_iff]; decide) b (u ++ s') h1
    simpa using w

theorem tag_read' (T : List Byte) (K : List Byte) (hT : T = K ++ [space]) (hK : ∀ b ∈ K, isAlpha b = true) (hne : K ≠ [])
    (body : List Byte) (hb : Starts body) (s' : List Byte) :
    ∃ s1, readTag (T ++ body ++ s') = .ok (K.map lower, s1) ∧ readWhitespace s1 = .ok (true, body ++ s') := by
  obtain ⟨a, b⟩ := tag_read K hK hne body hb s'
  refine ⟨_, ?_, b⟩
  rw [← a, hT]; simp

theorem tag_dropLast (T : List Byte) (body : List Byte) (hT : T = T.dropLast ++ [space]) (hK : ∀ b ∈ T.dropLast, isAlpha b = true)
    (hne : T.dropLast ≠ []) (hb : Starts body) (s' : List Byte) :
    ∃ s1, readTag (T ++ body ++ s') = .ok (T.dropLast.map lower, s1) ∧ readWhitespace s1 = .ok (true, body ++ s') :=
  tag_read' T _ hT hK hne body hb s'

/-- The reader on the written geometry: the tidied geometry if it is ready, an error
otherwise. -/
def GeomReads (c : Cmp.Compare) (g : Geom F64) : Prop :=
  (Ready g → ∀ n s', 2 * (text fmt g).length + 1 ≤ n →
    readGeometry parse c n (text fmt g ++ s') = .ok (mapCoords rnd (tidy g), s')) ∧
  (¬ Ready g → ∀ n s', 2 * (text fmt g).length + 1 ≤ n → ∃ e, readGeometry parse c n (text fmt g ++ s') = .error e)

theorem geomReads_of_step (c : Cmp.Compare) (g : Geom F64) (r : List Byte → Except Err (Geom F64 × List Byte))
    (h : ∀ n s', readGeometry parse c (n + 1) (text fmt g ++ s') = r s')
    (h1 : Ready g → ∀ s', r s' = .ok (mapCoords rnd (tidy g), s'))
    (h2 : ¬ Ready g → ∀ s', ∃ e, r s' = .error e) : GeomReads fmt parse rnd c g := by
  constructor
  · intro hr n s' hn
    match n, hn with
    | n + 1, _ => rw [h, h1 hr]
  · intro hr n s' hn
    match n, hn with
    | n + 1, _ => rw [h]; exact h2 hr s'

theorem geom_point (c : Cmp.Compare) (h0 : parse [] = none) (hE : parse [0x45#8] = none) (p : Pt F64)
    (hp : PtOk fmt parse rnd p) : GeomReads fmt parse rnd c (.point p) := by
  have e : encodePoint fmt p = listText (if numeric p then [encodePair fmt p] else []) := by
    unfold encodePoint
    rw [isEmptyPoint_eq]
    cases numeric p <;> rfl
  have hr := readList_reads (item := readPoint parse)
    (if numeric p then [(encodePair fmt p, dPair rnd p)] else [])
    (by
      intro x hx
      split at hx
      · rw [List.mem_singleton] at hx; subst hx; exact pair_reads fmt parse rnd h0 hE p hp
      · cases hx)
    (by
      intro x hx
      split at hx
      · rw [List.mem_singleton] at hx; subst hx; exact pair_starts fmt parse rnd h0 p hp
      · cases hx)
  refine geomReads_of_step fmt parse rnd c _ (fun s' =>
    match readPoints parse (encodePoint fmt p ++ s') with
    | .error e => .error e
    | .ok ([p], s) => .ok (.point p, s)
    | .ok (_, _) => .error .size) ?_ ?_ ?_
  · intro n s'
    obtain ⟨s1, t1, t2⟩ := tag_dropLast tagPoint (encodePoint fmt p) (by decide) (by decide) (by decide)
      (by rw [e]; exact listText_starts _) s'
    rw [text, readGeometry, t1]
    simp only []
    rw [t2]
    rfl
  · intro hn s'
    rw [Ready] at hn
    rw [hn] at e hr
    simp only [if_true] at e hr
    have := (hr s' trivial).1 [rp rnd p] (by simp [seqOpt, dPair, hn])
    simp only [readPoints]
    rw [e]
    simp only [List.map_cons, List.map_nil] at this
    rw [this]
    rfl
  · intro hn s'
    rw [Ready] at hn
    have hn : numeric p = false := by simpa using hn
    rw [hn] at e hr
    obtain ⟨x, hx⟩ := (hr s' trivial).2 rfl
    refine ⟨x, ?_⟩
    simp only [readPoints]
    rw [e]
    simp only [Bool.false_eq_true, if_false, List.map_nil] at hx ⊢
    rw [hx]

theorem geom_multiPoint (c : Cmp.Compare) (h0 : parse [] = none) (hE : parse [0x45#8] = none) (ps : List (Pt F64))
    (hp : ∀ p ∈ ps, PtOk fmt parse rnd p) : GeomReads fmt parse rnd c (.multiPoint ps) := by
  have hr := pts_reads fmt parse rnd h0 hE .mp ps hp
  have ec : closed .mp ps = ps := by
    have : closing .mp (em .mp ps) = [] := by
      unfold closing; simp [GType.isRing]; split <;> rfl
    rw [closed, this]; simp [em]
  refine geomReads_of_step fmt parse rnd c _ (fun s' =>
    match readPoints parse (pointsText fmt .mp ps ++ s') with
    | .error e => .error e
    | .ok (ps, s) => .ok (.multiPoint ps, s)) ?_ ?_ ?_
  · intro n s'
    obtain ⟨s1, t1, t2⟩ := tag_dropLast tagMultiPoint (pointsText fmt .mp ps) (by decide) (by decide) (by decide)
      (listText_starts _) s'
    rw [text, readGeometry, t1]
    simp only []
    rw [t2]
    rfl
  · rintro ⟨hne, hn⟩ s'
    have hd : dPts rnd .mp ps = some (ps.map (rp rnd)) := by
      unfold dPts
      rw [ec, if_neg (by simpa using hne)]
      apply seqOpt_some
      intro p q
      simp [dPair, hn p q]
    rw [(hr s' trivial).1 _ hd]
    rfl
  · intro hn s'
    have hd : dPts rnd .mp ps = none := by
      unfold dPts
      rw [ec]
      split
      · rfl
      · rename_i q
        apply seqOpt_none
        rw [Ready] at hn
        by_contra hc
        apply hn
        refine ⟨by simpa using q, fun p hp => ?_⟩
        cases hx : numeric p with
        | true => rfl
        | false => exact absurd ⟨p, hp, by simp [dPair, hx]⟩ hc
    obtain ⟨x, hx⟩ := (hr s' trivial).2 hd
    exact ⟨x, by rw [hx]⟩

theorem closed_line (ty : GType) (h : ty.isLine = true) (ps : List (Pt F64)) : closed ty ps = tidyLine ps := by
  have h2 : ty ≠ .mp ∧ ty.isRing = false := by cases ty <;> simp_all [GType.isRing, GType.isLine]
  have : closing ty (em ty ps) = [] := by
    unfold closing; simp [h2.2]; split <;> rfl
  rw [closed, this]; simp [em, h2.1]

theorem geom_lineString (c : Cmp.Compare) (h0 : parse [] = none) (hE : parse [0x45#8] = none) (ps : List (Pt F64))
    (hp : ∀ p ∈ ps, PtOk fmt parse rnd p) (strict : Bool) (hacc : LineOk strict ps) :
    GeomReads fmt parse rnd c (.lineString ps) := by
  have hr := pts_reads fmt parse rnd h0 hE .ls ps hp
  have ec := closed_line .ls rfl ps
  refine geomReads_of_step fmt parse rnd c _ (fun s' =>
    match readPoints parse (pointsText fmt .ls ps ++ s') with
    | .error e => .error e
    | .ok (ps, s) => if ps.length < 2 then .error .size else .ok (.lineString ps, s)) ?_ ?_ ?_
  · intro n s'
    obtain ⟨s1, t1, t2⟩ := tag_dropLast tagLineString (pointsText fmt .ls ps) (by decide) (by decide) (by decide)
      (listText_starts _) s'
    rw [text, readGeometry, t1]
    simp only []
    rw [t2]
    rfl
  · intro hn s'
    rw [Ready] at hn
    have hd := dPts_line rnd .ls (by simp) ps
    rw [if_neg (by intro q; rw [q] at hn; simp at hn), ec] at hd
    rw [(hr s' trivial).1 _ hd]
    simp only [List.length_map]
    rw [if_neg (by omega)]
    rfl
  · intro hn s'
    rw [Ready] at hn
    have hd := dPts_line rnd .ls (by simp) ps
    rw [if_pos (hacc.2.resolve_right hn)] at hd
    obtain ⟨x, hx⟩ := (hr s' trivial).2 hd
    exact ⟨x, by rw [hx]⟩

theorem geom_multiLineString (c : Cmp.Compare) (h0 : parse [] = none) (hE : parse [0x45#8] = none)
    (ls : List (List (Pt F64))) (hp : ∀ l ∈ ls, ∀ p ∈ l, PtOk fmt parse rnd p) (strict : Bool)
    (hacc : ∀ l ∈ ls, LineOk strict l) :
    GeomReads fmt parse rnd c (.multiLineString ls) := by
  have hr := lines_reads fmt parse rnd h0 hE .ml ls hp
  have hk : kept .ml ls = ls := by simp [kept]
  refine geomReads_of_step fmt parse rnd c _ (fun s' =>
    match readLines parse (linesText fmt .ml ls ++ s') with
    | .error e => .error e
    | .ok (ls, s) =>
      if ls.length < 1 then .error .size
      else if ls.any (fun v => v.length < 2) then .error .size
      else .ok (.multiLineString ls, s)) ?_ ?_ ?_
  · intro n s'
    obtain ⟨s1, t1, t2⟩ := tag_dropLast tagMultiLineString (linesText fmt .ml ls) (by decide) (by decide) (by decide)
      (listText_starts _) s'
    rw [text, readGeometry, t1]
    simp only []
    rw [t2]
    rfl
  · rintro ⟨hne, hn⟩ s'
    have hd : dLines rnd .ml ls = some (ls.map fun v => (tidyLine v).map (rp rnd)) := by
      unfold dLines
      rw [hk, if_neg (by simpa using hne)]
      apply seqOpt_some
      intro v hv
      rw [dPts_line rnd .ml (by simp), closed_line .ml rfl, if_neg]
      intro q; have := hn v hv; rw [q] at this; simp at this
    rw [(hr s' trivial).1 _ hd]
    simp only [List.length_map]
    rw [if_neg (by have := List.length_pos_iff.2 hne; omega), if_neg]
    · rw [tidy, mapCoords]
      simp [rp, Function.comp_def]
    · simp only [List.any_map, List.any_eq_true, not_exists, not_and]
      intro v hv
      have := hn v hv
      simp; omega
  · intro hn s'
    have hd : dLines rnd .ml ls = none := by
      unfold dLines
      rw [hk]
      split
      · rfl
      · rename_i q
        apply seqOpt_none
        rw [Ready] at hn
        by_contra hc
        apply hn
        refine ⟨by simpa using q, fun v hv => ?_⟩
        refine (hacc v hv).2.resolve_left fun hx => hc ⟨v, hv, ?_⟩
        rw [dPts_line rnd .ml (by simp), if_pos hx]
    obtain ⟨x, hx⟩ := (hr s' trivial).2 hd
    exact ⟨x, by rw [hx]⟩

theorem geom_polygon (c : Cmp.Compare) (hc : Spec.Cmp.Positive c) (hq : RespectsEq rnd) (h0 : parse [] = none)
    (hE : parse [0x45#8] = none)
    (rs : List (List (Pt F64))) (hp : ∀ l ∈ rs, ∀ p ∈ l, PtOk fmt parse rnd p) (strict : Bool)
    (hacc : RingsOk strict rs) :
    GeomReads fmt parse rnd c (.polygon rs) := by
  have hr := lines_reads fmt parse rnd h0 hE .poly rs hp
  have hd := dLines_ring rnd .poly rfl rs
  obtain ⟨k1, k2⟩ := rings_check rnd c hc hq .poly rfl strict rs hacc
  refine geomReads_of_step fmt parse rnd c _ (fun s' =>
    match readLines parse (linesText fmt .poly rs ++ s') with
    | .error e => .error e
    | .ok (ls, s) =>
      if ls.length < 1 then .error .size
      else
        match checkRings c ls with
        | .error e => .error e
        | .ok rs => .ok (.polygon rs, s)) ?_ ?_ ?_
  · intro n s'
    obtain ⟨s1, t1, t2⟩ := tag_dropLast tagPolygon (linesText fmt .poly rs) (by decide) (by decide) (by decide)
      (listText_starts _) s'
    rw [text, readGeometry, t1]
    simp only []
    rw [t2]
    rfl
  · rintro ⟨hne, hn⟩ s'
    rw [if_neg hne] at hd
    rw [(hr s' trivial).1 _ hd]
    simp only [List.length_map]
    rw [if_neg (by
      have := List.length_pos_iff.2 hne
      simp only [tidyRings, List.length_map] at this
      omega)]
    rw [(checkRings_ok c _ _).2 ⟨k1.2 hn, rfl⟩, k2]
    rfl
  · intro hn s'
    by_cases hne : tidyRings rs = []
    · rw [if_pos hne] at hd
      obtain ⟨x, hx⟩ := (hr s' trivial).2 hd
      exact ⟨x, by rw [hx]⟩
    · rw [if_neg hne] at hd
      rw [(hr s' trivial).1 _ hd]
      simp only []
      split
      · exact ⟨_, rfl⟩
      · cases hx : checkRings c ((rs.filter (·.any numeric)).map fun v => (closed .poly v).map (rp rnd)) with
        | error e => exact ⟨_, rfl⟩
        | ok os =>
          exfalso
          apply hn
          exact ⟨hne, k1.1 ((checkRings_ok c _ _).1 hx).1⟩

theorem geom_multiPolygon (c : Cmp.Compare) (hc : Spec.Cmp.Positive c) (hq : RespectsEq rnd) (h0 : parse [] = none)
    (hE : parse [0x45#8] = none)
    (ps : List (List (List (Pt F64)))) (hp : ∀ rs ∈ ps, ∀ l ∈ rs, ∀ p ∈ l, PtOk fmt parse rnd p) (strict : Bool)
    (hacc : ∀ rs ∈ ps, RingsOk strict rs) :
    GeomReads fmt parse rnd c (.multiPolygon ps) := by
  have hr := polys_reads fmt parse rnd h0 hE ps hp
  refine geomReads_of_step fmt parse rnd c _ (fun s' =>
    match readPolys parse (listText (ps.map (linesText fmt .mPoly)) ++ s') with
    | .error e => .error e
    | .ok (ps, s) =>
      if ps.length < 1 then .error .size
      else
        match checkPolys c ps with
        | .error e => .error e
        | .ok ps => .ok (.multiPolygon ps, s)) ?_ ?_ ?_
  · intro n s'
    obtain ⟨s1, t1, t2⟩ := tag_dropLast tagMultiPolygon (listText (ps.map (linesText fmt .mPoly))) (by decide) (by decide) (by decide)
      (listText_starts _) s'
    rw [text, readGeometry, t1]
    simp only []
    rw [t2]
    rfl
  · rintro ⟨hne, hn⟩ s'
    have hd : dPolys rnd ps = some (ps.map fun rs => (rs.filter (·.any numeric)).map fun v => (closed .mPoly v).map (rp rnd)) := by
      unfold dPolys
      rw [if_neg (by simpa using hne)]
      apply seqOpt_some
      intro rs hrs
      rw [dLines_ring rnd .mPoly rfl, if_neg (hn rs hrs).1]
    rw [(hr s' trivial).1 _ hd]
    simp only [List.length_map]
    rw [if_neg (by have := List.length_pos_iff.2 hne; omega)]
    rw [(checkPolys_ok c _ _).2 ⟨?_, rfl⟩]
    · simp only []
      rw [tidy, mapCoords]
      congr 2
      rw [List.map_map, List.map_map]
      congr 1
      apply List.map_congr_left
      intro rs hrs
      exact (rings_check rnd c hc hq .mPoly rfl strict rs (hacc rs hrs)).2
    · intro p hp v hv
      obtain ⟨rs, hrs, rfl⟩ := List.mem_map.1 hp
      exact (rings_check rnd c hc hq .mPoly rfl strict rs (hacc rs hrs)).1.2 (hn rs hrs).2 v hv
  · intro hn s'
    by_cases hne : ps = [] ∨ ∃ rs ∈ ps, tidyRings rs = []
    · have hd : dPolys rnd ps = none := by
        unfold dPolys
        rcases hne with rfl | ⟨rs, h1, h2⟩
        · rfl
        · split
          · rfl
          · apply seqOpt_none
            exact ⟨rs, h1, by rw [dLines_ring rnd .mPoly rfl, if_pos h2]⟩
      obtain ⟨x, hx⟩ := (hr s' trivial).2 hd
      exact ⟨x, by rw [hx]⟩
    · have hne1 : ps ≠ [] := fun q => hne (.inl q)
      have hne2 : ∀ rs ∈ ps, tidyRings rs ≠ [] := fun rs h q => hne (.inr ⟨rs, h, q⟩)
      have hd : dPolys rnd ps = some (ps.map fun rs => (rs.filter (·.any numeric)).map fun v => (closed .mPoly v).map (rp rnd)) := by
        unfold dPolys
        rw [if_neg (by simpa using hne1)]
        apply seqOpt_some
        intro rs hrs
        rw [dLines_ring rnd .mPoly rfl, if_neg (hne2 rs hrs)]
      rw [(hr s' trivial).1 _ hd]
      simp only []
      split
      · exact ⟨_, rfl⟩
      · cases hx : checkPolys c (ps.map fun rs => (rs.filter (·.any numeric)).map fun v => (closed .mPoly v).map (rp rnd)) with
        | error e => exact ⟨_, rfl⟩
        | ok os =>
          exfalso
          apply hn
          refine ⟨hne1, fun rs hrs => ⟨hne2 rs hrs, ?_⟩⟩
          have := ((checkPolys_ok c _ _).1 hx).1 _ (List.mem_map_of_mem hrs)
          exact (rings_check rnd c hc hq .mPoly rfl strict rs (hacc rs hrs)).1.1 this

theorem text_starts (strict : Bool) (g : Geom F64) (h : Accepted strict g) : Starts (text fmt g) := by
  cases g with
  | other => cases h
  | point _ => exact ⟨0x50#8, _, rfl, by decide, by decide⟩
  | multiPoint _ => exact ⟨0x4D#8, _, rfl, by decide, by decide⟩
  | lineString _ => exact ⟨0x4C#8, _, rfl, by decide, by decide⟩
  | multiLineString _ => exact ⟨0x4D#8, _, rfl, by decide, by decide⟩
  | polygon _ => exact ⟨0x50#8, _, rfl, by decide, by decide⟩
  | multiPolygon _ => exact ⟨0x4D#8, _, rfl, by decide, by decide⟩
  | collection _ => exact ⟨0x47#8, _, rfl, by decide, by decide⟩

/-- The member loop on the written members. -/
def MembersRead (c : Cmp.Compare) (gs : List (Geom F64)) : Prop :=
  (ReadyAll gs → ∀ n s', 2 * (joinC (texts fmt gs)).length + 2 ≤ n →
    readMembers parse c n (joinC (texts fmt gs) ++ rparen :: s') = .ok (mapCoordsAll rnd (tidyAll gs), s')) ∧
  (¬ ReadyAll gs → ∀ n s', 2 * (joinC (texts fmt gs)).length + 2 ≤ n → ∃ e, readMembers parse c n (joinC (texts fmt gs) ++ rparen :: s') = .error e)

mutual
theorem geom_reads (c : Cmp.Compare) (hc : Spec.Cmp.Positive c) (hq : RespectsEq rnd) (h0 : parse [] = none)
    (hE : parse [0x45#8] = none) (strict : Bool) (g : Geom F64) (hacc : Accepted strict g)
    (hp : OnCoords (ReadsBack fmt parse rnd) g) : GeomReads fmt parse rnd c g := by
  cases g with
  | other => cases hacc
  | point p => exact geom_point fmt parse rnd c h0 hE p hp
  | multiPoint ps => exact geom_multiPoint fmt parse rnd c h0 hE ps hp
  | lineString ps => exact geom_lineString fmt parse rnd c h0 hE ps hp strict hacc
  | multiLineString ls => exact geom_multiLineString fmt parse rnd c h0 hE ls hp strict hacc
  | polygon rs => exact geom_polygon fmt parse rnd c hc hq h0 hE rs hp strict hacc
  | multiPolygon ps => exact geom_multiPolygon fmt parse rnd c hc hq h0 hE ps hp strict hacc
  | collection gs =>
    have hm := members_read c hc hq h0 hE strict gs hacc hp
    have step : ∀ n s', readGeometry parse c (n + 1) (text fmt (.collection gs) ++ s') =
        match readByte (listText (texts fmt gs) ++ s') with
        | .error e => .error e
        | .ok (b, s) =>
          if b ≠ lparen then .error .expected
          else
            match readWhitespace s with
            | .error e => .error e
            | .ok (_, s) =>
              match readMembers parse c n s with
              | .error e => .error e
              | .ok (gs, s) => if gs.length < 1 then .error .size else .ok (.collection gs, s) := by
      intro n s'
      obtain ⟨s1, t1, t2⟩ := tag_dropLast tagCollection (listText (texts fmt gs)) (by decide) (by decide) (by decide)
        (listText_starts _) s'
      rw [text, readGeometry, t1]
      simp only []
      rw [t2]
      rfl
    by_cases hgs : gs = []
    · subst hgs
      constructor
      · rintro ⟨q, _⟩; exact absurd rfl q
      · intro _ n s' hn
        match n, hn with
        | n + 1, _ => rw [step]; exact ⟨.expected, rfl⟩
    · have hne : texts fmt gs ≠ [] := by
        intro q
        have := texts_isEmpty fmt gs
        rw [q] at this
        exact hgs (by simpa using this.symm)
      have el : ∀ s', listText (texts fmt gs) ++ s' = lparen :: (joinC (texts fmt gs) ++ rparen :: s') := by
        intro s'; unfold listText; rw [if_neg (by simpa using hne)]; simp
      have es : ∀ s', ∃ b u, joinC (texts fmt gs) ++ rparen :: s' = b :: u ∧ isSpace b = false := by
        intro s'
        cases gs with
        | nil => exact absurd rfl hgs
        | cons g gs =>
          obtain ⟨b, u, e, h1, _⟩ := text_starts fmt strict g hacc.1
          rw [texts]
          by_cases q : texts fmt gs = []
          · rw [q]; exact ⟨b, _, by rw [joinC]; simp only [List.isEmpty_nil, if_true]; rw [e]; rfl, h1⟩
          · exact ⟨b, _, by rw [joinC_cons_ne _ _ q, e]; rfl, h1⟩
      have step2 : ∀ n s', readGeometry parse c (n + 1) (text fmt (.collection gs) ++ s') =
          match readMembers parse c n (joinC (texts fmt gs) ++ rparen :: s') with
          | .error e => .error e
          | .ok (gs, s) => if gs.length < 1 then .error .size else .ok (.collection gs, s) := by
        intro n s'
        obtain ⟨b, u, eb, hb⟩ := es s'
        have w := readWhitespace_complete [] (fun b hb => by cases hb) b u hb
        rw [List.nil_append] at w
        rw [step, el]
        simp only [readByte]
        rw [if_neg (by simp), eb, w]
      have bound : ∀ n, 2 * (text fmt (.collection gs)).length + 1 ≤ n + 1 →
          2 * (joinC (texts fmt gs)).length + 2 ≤ n := by
        intro n hn
        have e1 := congrArg List.length (el [])
        rw [text] at hn
        have e2 : tagCollection.length = 19 := rfl
        simp at e1 hn
        omega
      constructor
      · rintro ⟨_, hr⟩ n s' hn
        match n, hn with
        | n + 1, hn =>
          rw [step2, hm.1 hr]
          · simp only []
            rw [if_neg]
            · rw [tidy, mapCoords]
            · cases gs with
              | nil => exact absurd rfl hgs
              | cons g gs => simp [tidyAll, mapCoordsAll]
          · exact bound n hn
      · intro hr n s' hn
        have hr' : ¬ ReadyAll gs := fun q => hr ⟨hgs, q⟩
        match n, hn with
        | n + 1, hn =>
          obtain ⟨e, he⟩ := hm.2 hr' n s' (bound n hn)
          exact ⟨e, by rw [step2, he]⟩
theorem members_read (c : Cmp.Compare) (hc : Spec.Cmp.Positive c) (hq : RespectsEq rnd) (h0 : parse [] = none)
    (hE : parse [0x45#8] = none) (strict : Bool) (gs : List (Geom F64)) (hacc : AcceptedAll strict gs)
    (hp : OnCoordsAll (ReadsBack fmt parse rnd) gs) : MembersRead fmt parse rnd c gs := by
  cases gs with
  | nil =>
    constructor
    · intro _ n s' hn
      match n, hn with
      | n + 1, _ => rfl
    · intro q; exact absurd trivial q
  | cons g gs =>
    have hg := geom_reads c hc hq h0 hE strict g hacc.1 hp.1
    have hm := members_read c hc hq h0 hE strict gs hacc.2 hp.2
    obtain ⟨b, u, e, h1, h2⟩ := text_starts fmt strict g hacc.1
    by_cases hgs : gs = []
    · subst hgs
      have ej : joinC (texts fmt [g]) = text fmt g := by simp [texts, joinC]
      rw [MembersRead, ej]
      have w := fun s' => readWhitespace_complete [] (fun b hb => by cases hb) rparen s' (by decide)
      simp only [List.nil_append] at w
      have first : ∀ s', readByte (text fmt g ++ rparen :: s') = .ok (b, u ++ rparen :: s') := by
        intro s'; rw [e]; rfl
      constructor
      · rintro ⟨hr, _⟩ n s' hn
        match n, hn with
        | n + 1, hn =>
          rw [readMembers, first]
          simp only []
          rw [if_neg h2, hg.1 hr n _ (by omega)]
          simp only []
          rw [w]
          simp only [readByte, if_true]
          have q := hm.1 trivial n s' (by
            have : 1 ≤ (text fmt g).length := by rw [e]; simp
            simp [texts, joinC]; omega)
          rw [show joinC (texts fmt []) ++ rparen :: s' = rparen :: s' from rfl] at q
          rw [q]
          rfl
      · intro hr n s' hn
        match n, hn with
        | n + 1, hn =>
          obtain ⟨x, hx⟩ := hg.2 (fun q => hr ⟨q, trivial⟩) n (rparen :: s') (by omega)
          refine ⟨x, ?_⟩
          rw [readMembers, first]
          simp only []
          rw [if_neg h2, hx]
    · have hne : texts fmt gs ≠ [] := by
        intro q
        have := texts_isEmpty fmt gs
        rw [q] at this
        exact hgs (by simpa using this.symm)
      have ej : joinC (texts fmt (g :: gs)) = text fmt g ++ comma :: joinC (texts fmt gs) := by
        rw [texts, joinC_cons_ne _ _ hne]
      have es : ∀ s', ∃ b u, joinC (texts fmt gs) ++ rparen :: s' = b :: u ∧ isSpace b = false := by
        intro s'
        cases gs with
        | nil => exact absurd rfl hgs
        | cons g gs =>
          obtain ⟨b, u, e, h1, _⟩ := text_starts fmt strict g hacc.2.1
          rw [texts]
          by_cases q : texts fmt gs = []
          · rw [q]; exact ⟨b, _, by rw [joinC]; simp only [List.isEmpty_nil, if_true]; rw [e]; rfl, h1⟩
          · exact ⟨b, _, by rw [joinC_cons_ne _ _ q, e]; rfl, h1⟩
      rw [MembersRead, ej]
      have first : ∀ s', readByte (text fmt g ++ s') = .ok (b, u ++ s') := by
        intro s'; rw [e]; rfl
      have w := fun s' => readWhitespace_complete [] (fun b hb => by cases hb) comma s' (by decide)
      simp only [List.nil_append] at w
      have step : ∀ n s', Ready g → 2 * (text fmt g).length + 1 ≤ n →
          readMembers parse c (n + 1) ((text fmt g ++ comma :: joinC (texts fmt gs)) ++ rparen :: s') =
          match readMembers parse c n (joinC (texts fmt gs) ++ rparen :: s') with
          | .error e => .error e
          | .ok (gs, s) => .ok (mapCoords rnd (tidy g) :: gs, s) := by
        intro n s' hr hn
        obtain ⟨b', u', eb, hb⟩ := es s'
        have w2 := readWhitespace_complete [] (fun b hb => by cases hb) b' u' hb
        rw [List.nil_append] at w2
        rw [List.append_assoc, List.cons_append, readMembers, first]
        simp only []
        rw [if_neg h2, hg.1 hr n _ hn]
        simp only []
        rw [w]
        simp only [readByte, if_true]
        rw [if_neg (by decide), eb, w2]
        rfl
      constructor
      · rintro ⟨hr, hr2⟩ n s' hn
        match n, hn with
        | n + 1, hn =>
          simp at hn
          rw [step n s' hr (by omega), hm.1 hr2 n s' (by omega)]
          rfl
      · intro hr n s' hn
        match n, hn with
        | n + 1, hn =>
          simp at hn
          by_cases hg' : Ready g
          · have hr2 : ¬ ReadyAll gs := fun q => hr ⟨hg', q⟩
            obtain ⟨x, hx⟩ := hm.2 hr2 n s' (by omega)
            exact ⟨x, by rw [step n s' hg' (by omega), hx]⟩
          · obtain ⟨x, hx⟩ := hg.2 hg' n (comma :: joinC (texts fmt gs) ++ rparen :: s') (by omega)
            refine ⟨x, ?_⟩
            rw [List.append_assoc, readMembers, first]
            simp only []
            rw [if_neg h2, hx]
end

mutual
theorem mapCoords_id (g : Geom F64) : mapCoords id g = g := by
  cases g with
  | collection gs => rw [mapCoords, mapCoordsAll_id gs]
  | _ => simp [mapCoords]
theorem mapCoordsAll_id (gs : List (Geom F64)) : mapCoordsAll id gs = gs := by
  cases gs with
  | nil => rfl
  | cons g gs => rw [mapCoordsAll, mapCoords_id g, mapCoordsAll_id gs]
end

theorem openRing_le (r : List (Pt F64)) : (openRing r).length ≤ r.length := by
  unfold openRing
  split
  · simp
  · simp
  · split
    · simp
    · simp

theorem rings_of_ready (rs : List (List (Pt F64))) (h : ∀ r ∈ tidyRings rs, 3 ≤ r.length) :
    ∀ r ∈ rs, r.any numeric = true → 3 ≤ (tidyLine r).length := by
  intro r hr hn
  have := h (openRing (tidyLine r)) (List.mem_map.2 ⟨r, List.mem_filter.2 ⟨hr, hn⟩, rfl⟩)
  have := openRing_le (tidyLine r)
  omega

mutual
theorem accepted_strict (g : Geom F64) (h : Accepted true g) : Accepted false g := by
  cases g with
  | point _ => trivial
  | multiPoint _ => trivial
  | lineString ps => rw [Accepted] at h ⊢; exact ⟨fun q => (by cases q), h.2⟩
  | multiLineString ls => rw [Accepted] at h ⊢; exact fun l hl => ⟨fun q => (by cases q), (h l hl).2⟩
  | polygon rs => rw [Accepted] at h ⊢; exact ⟨fun q => (by cases q), h.2⟩
  | multiPolygon ps => rw [Accepted] at h ⊢; exact fun p hp => ⟨fun q => (by cases q), (h p hp).2⟩
  | collection gs => exact accepted_strictAll gs h
  | other => exact h
theorem accepted_strictAll (gs : List (Geom F64)) (h : AcceptedAll true gs) : AcceptedAll false gs := by
  cases gs with
  | nil => trivial
  | cons g gs => exact ⟨accepted_strict g h.1, accepted_strictAll gs h.2⟩
end

mutual
theorem accepted_of_ready (g : Geom F64) (h : Ready g) : Accepted false g := by
  cases g with
  | point _ => trivial
  | multiPoint _ => trivial
  | lineString ps => rw [Accepted]; exact ⟨fun q => (by cases q), .inr h⟩
  | multiLineString ls => rw [Accepted]; exact fun l hl => ⟨fun q => (by cases q), .inr (h.2 l hl)⟩
  | polygon rs => rw [Accepted]; exact ⟨fun q => (by cases q), rings_of_ready rs h.2⟩
  | multiPolygon ps => rw [Accepted]; exact fun p hp => ⟨fun q => (by cases q), rings_of_ready p (h.2 p hp).2⟩
  | collection gs => exact accepted_of_readyAll gs h.2
  | other => exact h
theorem accepted_of_readyAll (gs : List (Geom F64)) (h : ReadyAll gs) : AcceptedAll false gs := by
  cases gs with
  | nil => trivial
  | cons g gs => exact ⟨accepted_of_ready g h.1, accepted_of_readyAll gs h.2⟩
end

end Verif.Wkt
