import Verif.Model.Wkt
import Verif.Spec.Wkt
import Verif.Lemmas.Cmp

/-! # Lemmas for the WKT properties: the reader -/

namespace Verif.Wkt
open Verif Verif.Spec.Wkt

theorem isSpace_iff (b : Byte) : isSpace b = true ↔ b.toNat ∈ [9, 10, 11, 12, 13, 32, 133, 160] := by
  revert b; decide +kernel
theorem isNumeric_iff (b : Byte) : isNumeric b = true ↔ NumChar b := by
  unfold NumChar; revert b; decide +kernel
theorem lower_alpha (b : Byte) : isAlpha b = true → lower b = Spec.Wkt.toLower b := by
  unfold Spec.Wkt.toLower; revert b; decide +kernel
theorem alpha_lower (b : Byte) : isAlpha (Spec.Wkt.toLower b) = true → isAlpha b = true := by
  unfold Spec.Wkt.toLower; revert b; decide +kernel
theorem space_not_numeric (b : Byte) : isSpace b = true → isNumeric b = false := by
  revert b; decide +kernel
theorem space_not_alpha (b : Byte) : isSpace b = true → isAlpha b = false := by
  revert b; decide +kernel
theorem alpha_not_space (b : Byte) : isAlpha b = true → isSpace b = false := by
  revert b; decide +kernel
theorem alpha_not_paren (b : Byte) : isAlpha b = true → b ≠ rparen := by
  revert b; decide +kernel
theorem numeric_not_space (b : Byte) : isNumeric b = true → isSpace b = false := by
  revert b; decide +kernel
theorem numeric_not_rparen (b : Byte) : isNumeric b = true → b ≠ rparen := by
  revert b; decide +kernel

/-- White space in the model's terms. -/
theorem blank_iff (w : List Byte) : Blank w ↔ ∀ b ∈ w, isSpace b = true := by
  simp only [Blank, isSpace_iff]

/-! ## Primitive readers -/

theorem readWhitespaceFrom_sound (r : Bool) (s : List Byte) (x : Bool) (s' : List Byte)
    (h : readWhitespaceFrom r s = .ok (x, s')) :
    ∃ w, s = w ++ s' ∧ Blank w ∧ (x = (r || !w.isEmpty)) ∧ ∃ b u, s' = b :: u ∧ isSpace b = false := by
  induction s generalizing r with
  | nil => simp [readWhitespaceFrom] at h
  | cons b s ih =>
    rw [readWhitespaceFrom] at h
    split at h
    · rename_i hb
      obtain ⟨w, h1, h2, h3, h4⟩ := ih _ h
      refine ⟨b :: w, by rw [h1]; rfl, ?_, ?_, h4⟩
      · rw [blank_iff] at *
        intro c hc
        rcases List.mem_cons.1 hc with rfl | hc
        · exact hb
        · exact h2 c hc
      · simp [h3]
    · rename_i hb
      injection h with h
      injection h with h1 h2
      subst h1; subst h2
      exact ⟨[], rfl, by simp [Blank], by simp, b, s, rfl, by simpa using hb⟩

theorem readWhitespaceFrom_complete (r : Bool) (w : List Byte) (hw : Blank w) (b : Byte) (u : List Byte)
    (hb : isSpace b = false) :
    readWhitespaceFrom r (w ++ b :: u) = .ok (r || !w.isEmpty, b :: u) := by
  rw [blank_iff] at hw
  induction w generalizing r with
  | nil => simp [readWhitespaceFrom, hb]
  | cons c w ih =>
    rw [List.cons_append, readWhitespaceFrom, if_pos (hw c (by simp)), ih _ (fun x hx => hw x (by simp [hx]))]
    simp

theorem readWhitespace_complete (w : List Byte) (hw : Blank w) (b : Byte) (u : List Byte)
    (hb : isSpace b = false) : readWhitespace (w ++ b :: u) = .ok (!w.isEmpty, b :: u) := by
  rw [readWhitespace, readWhitespaceFrom_complete _ _ hw _ _ hb]; simp

theorem readRun_sound (p : Byte → Bool) (s t s' : List Byte) (h : readRun p s = .ok (t, s')) :
    s = t ++ s' ∧ (∀ b ∈ t, p b = true) ∧ ∃ b u, s' = b :: u ∧ p b = false := by
  induction s generalizing t with
  | nil => simp [readRun] at h
  | cons b s ih =>
    rw [readRun] at h
    split at h
    · rename_i hb
      split at h
      · simp at h
      · rename_i t0 s0 e0
        injection h with h
        injection h with h1 h2
        subst h1; subst h2
        obtain ⟨h1, h2, h3⟩ := ih _ e0
        refine ⟨by rw [h1]; rfl, ?_, h3⟩
        intro c hc
        rcases List.mem_cons.1 hc with rfl | hc
        · exact hb
        · exact h2 c hc
    · rename_i hb
      injection h with h
      injection h with h1 h2
      subst h1; subst h2
      exact ⟨rfl, by simp, b, s, rfl, by simpa using hb⟩

theorem readRun_complete (p : Byte → Bool) (t : List Byte) (ht : ∀ b ∈ t, p b = true) (b : Byte) (u : List Byte)
    (hb : p b = false) : readRun p (t ++ b :: u) = .ok (t, b :: u) := by
  induction t with
  | nil => simp [readRun, hb]
  | cons c t ih =>
    rw [List.cons_append, readRun, if_pos (ht c (by simp)), ih (fun x hx => ht x (by simp [hx]))]

/-! ## Sound and complete readers -/

/-- Whatever the reader accepts is text of what it returns. -/
def Sound {α : Type} (r : Rd α) (P : α → List Byte → Prop) : Prop :=
  ∀ s a s', r s = .ok (a, s') → ∃ t, s = t ++ s' ∧ P a t

/-- What may follow an item: white space, comma or closing parenthesis. -/
def Follow (s : List Byte) : Prop := ∃ b u, s = b :: u ∧ (isSpace b = true ∨ b = comma ∨ b = rparen)

/-- Text of a value is accepted in front of anything in `F`. -/
def Complete {α : Type} (F : List Byte → Prop) (r : Rd α) (P : α → List Byte → Prop) : Prop :=
  ∀ a t s', P a t → F s' → r (t ++ s') = .ok (a, s')

/-- Text starts with something that is neither white space nor a closing parenthesis. -/
def Starts (t : List Byte) : Prop := ∃ b u, t = b :: u ∧ isSpace b = false ∧ b ≠ rparen

variable (parse : List Byte → Option F64)

theorem follow_not_numeric {s : List Byte} (h : Follow s) : ∃ b u, s = b :: u ∧ isNumeric b = false := by
  obtain ⟨b, u, rfl, h | h | h⟩ := h
  · exact ⟨b, u, rfl, space_not_numeric b h⟩
  · exact ⟨b, u, rfl, by subst h; decide⟩
  · exact ⟨b, u, rfl, by subst h; decide⟩

theorem readFloat_sound : Sound (readFloat parse) (Number parse) := by
  intro s f s' h
  unfold readFloat at h
  split at h
  · simp at h
  · rename_i tok s0 e0
    split at h
    · simp at h
    · rename_i f0 e1
      injection h with h
      injection h with h1 h2
      subst h1; subst h2
      obtain ⟨h1, h2, _⟩ := readRun_sound _ _ _ _ e0
      exact ⟨tok, h1, fun b hb => (isNumeric_iff b).1 (h2 b hb), e1⟩

theorem readFloat_complete (f : F64) (t : List Byte) (h : Number parse f t) (b : Byte) (u : List Byte)
    (hb : isNumeric b = false) : readFloat parse (t ++ b :: u) = .ok (f, b :: u) := by
  unfold readFloat
  rw [readRun_complete _ _ (fun b hb => (isNumeric_iff b).2 (h.1 b hb)) _ _ hb]
  simp only [h.2]

theorem readPoint_sound : Sound (readPoint parse) (Position parse) := by
  intro s p s' h
  unfold readPoint at h
  split at h
  · simp at h
  · rename_i x s1 e1
    split at h
    · simp at h
    · rename_i did s2 e2
      split at h
      · simp at h
      · rename_i hd
        split at h
        · simp at h
        · rename_i y s3 e3
          injection h with h
          injection h with h1 h2
          subst h1; subst h2
          obtain ⟨t1, q1, q2⟩ := readFloat_sound parse _ _ _ e1
          obtain ⟨w, q3, q4, q5, _⟩ := readWhitespaceFrom_sound _ _ _ _ e2
          obtain ⟨t2, q6, q7⟩ := readFloat_sound parse _ _ _ e3
          refine ⟨t1 ++ (w ++ t2), by rw [q1, q3, q6]; simp, t1, w, t2, rfl, q2, q4, ?_, q7⟩
          intro hw
          rw [hw] at q5
          simp at q5
          simp [q5] at hd

theorem number_ne_nil (h0 : parse [] = none) {f : F64} {t : List Byte} (h : Number parse f t) : t ≠ [] := by
  rintro rfl
  rw [h.2] at h0
  cases h0

theorem number_starts (h0 : parse [] = none) {f : F64} {t : List Byte} (h : Number parse f t) :
    ∃ b u, t = b :: u ∧ isNumeric b = true := by
  match t, number_ne_nil parse h0 h, h with
  | b :: u, _, h => exact ⟨b, u, rfl, (isNumeric_iff b).2 (h.1 b (by simp))⟩

theorem readPoint_complete (h0 : parse [] = none) : Complete Follow (readPoint parse) (Position parse) := by
  rintro p t s' ⟨t1, w, t2, rfl, hx, hw, hne, hy⟩ hf
  obtain ⟨b, u, rfl, hb⟩ := follow_not_numeric hf
  obtain ⟨c, v, rfl, hc⟩ := number_starts parse h0 hy
  unfold readPoint
  match w, hne, hw with
  | d :: w, _, hw =>
    have hd : isSpace d = true := (blank_iff _).1 hw d (by simp)
    have e1 : readFloat parse (t1 ++ (d :: w ++ (c :: v)) ++ b :: u) =
        .ok (p.1, d :: (w ++ (c :: v ++ b :: u))) := by
      rw [← readFloat_complete parse _ _ hx _ _ (space_not_numeric d hd)]
      simp
    rw [e1]
    simp only []
    have e2 : readWhitespace (d :: (w ++ (c :: v ++ b :: u))) = .ok (true, c :: v ++ b :: u) := by
      have := readWhitespace_complete (d :: w) hw c (v ++ b :: u) (numeric_not_space c hc)
      simpa using this
    rw [e2]
    simp only [Bool.not_true]
    rw [if_neg (by simp), readFloat_complete parse _ _ hy _ _ hb]

theorem position_starts (h0 : parse [] = none) {p : Pt F64} {t : List Byte} (h : Position parse p t) : Starts t := by
  obtain ⟨t1, w, t2, rfl, hx, _⟩ := h
  obtain ⟨b, u, rfl, hb⟩ := number_starts parse h0 hx
  exact ⟨b, u ++ (w ++ t2), rfl, numeric_not_space b hb, numeric_not_rparen b hb⟩

/-! ## Comma separated lists -/

theorem readItems_sound {α : Type} {item : Rd α} {P : α → List Byte → Prop} (hi : Sound item P) (n : Nat) :
    ∀ s as s', readItems item n s = .ok (as, s') →
      ∃ t w, s = t ++ (w ++ (41#8 :: s')) ∧ Commas P as t ∧ Blank w := by
  induction n with
  | zero => intro s as s' h; simp [readItems] at h
  | succ n ih =>
    intro s as s' h
    rw [readItems] at h
    split at h
    · simp at h
    · rename_i a s1 e1
      split at h
      · simp at h
      · rename_i x s2 e2
        obtain ⟨t, q1, q2⟩ := hi _ _ _ e1
        obtain ⟨w, q3, q4, _⟩ := readWhitespaceFrom_sound _ _ _ _ e2
        match s2, h with
        | [], h => simp [readByte] at h
        | b :: s2, h =>
          simp only [readByte] at h
          split at h
          · rename_i hb
            split at h
            · simp at h
            · rename_i x' s3 e3
              obtain ⟨w', q5, q6, _⟩ := readWhitespaceFrom_sound _ _ _ _ e3
              split at h
              · simp at h
              · rename_i as0 s4 e4
                injection h with h
                injection h with h1 h2
                subst h1; subst h2
                obtain ⟨u, w2, q7, q8, q9⟩ := ih _ _ _ e4
                refine ⟨t ++ (w ++ (44#8 :: (w' ++ u))), w2, ?_, .more _ _ _ _ _ _ q2 q4 q6 q8, q9⟩
                rw [q1, q3, q5, q7, hb]
                simp [comma]
          · split at h
            · rename_i hb
              injection h with h
              injection h with h1 h2
              subst h1; subst h2
              refine ⟨t, w, ?_, .one _ _ q2, q4⟩
              rw [q1, q3, hb]; rfl
            · simp at h

theorem readList_sound {α : Type} {item : Rd α} {P : α → List Byte → Prop} (hi : Sound item P) :
    Sound (readList item) (Parens P) := by
  intro s as s' h
  unfold readList at h
  match s, h with
  | [], h => simp [readByte] at h
  | b :: s, h =>
    simp only [readByte] at h
    split at h
    · simp at h
    · rename_i hb
      split at h
      · simp at h
      · rename_i x s1 e1
        obtain ⟨w, q1, q2, _⟩ := readWhitespaceFrom_sound _ _ _ _ e1
        have hb' : b = 40#8 := by simpa [lparen] using hb
        match s1, h with
        | [], h => simp at h
        | c :: s1, h =>
          simp only at h
          split at h
          · rename_i hc
            injection h with h
            injection h with h1 h2
            subst h1; subst h2
            exact ⟨_, by rw [q1, hc, hb']; simp [rparen], .none w q2⟩
          · obtain ⟨t, w', q3, q4, q5⟩ := readItems_sound hi _ _ _ _ h
            exact ⟨_, by rw [q1, q3, hb']; simp, .some w as t w' q2 q4 q5⟩

theorem commas_starts {α : Type} {P : α → List Byte → Prop} (hs : ∀ a t, P a t → Starts t)
    {as : List α} {t : List Byte} (h : Commas P as t) : Starts t := by
  cases h with
  | one a t h => exact hs a t h
  | more a t w w' as u h _ _ _ =>
    obtain ⟨b, v, rfl, hb⟩ := hs a t h
    exact ⟨b, _, rfl, hb⟩

theorem follow_blank {w : List Byte} (hw : Blank w) (b : Byte) (u : List Byte) (hb : b = comma ∨ b = rparen) :
    Follow (w ++ b :: u) := by
  match w, hw with
  | [], _ => exact ⟨b, u, rfl, .inr hb⟩
  | d :: w, hw => exact ⟨d, _, rfl, .inl ((blank_iff _).1 hw d (by simp))⟩

theorem readItems_complete {α : Type} {item : Rd α} {P : α → List Byte → Prop} (hi : Complete Follow item P)
    (hs : ∀ a t, P a t → Starts t) {as : List α} {t : List Byte} (h : Commas P as t) :
    ∀ (n : Nat) (w s' : List Byte), Blank w → (t ++ (w ++ (41#8 :: s'))).length ≤ n →
      readItems item n (t ++ (w ++ (41#8 :: s'))) = .ok (as, s') := by
  induction h with
  | one a t h =>
    intro n w s' hw hn
    match n with
    | 0 => simp at hn
    | n + 1 =>
      rw [readItems, hi a t _ h (follow_blank hw 41#8 s' (.inr rfl))]
      simp only []
      rw [readWhitespace_complete w hw 41#8 s' (by decide)]
      simp only [readByte]
      rw [if_neg (by decide), if_pos (by decide)]
  | more a t v v' as u h hv hv' hu ih =>
    intro n w s' hw hn
    match n with
    | 0 => simp at hn
    | n + 1 =>
      have e : (t ++ (v ++ (44#8 :: (v' ++ u)))) ++ (w ++ (41#8 :: s')) =
          t ++ (v ++ (44#8 :: (v' ++ (u ++ (w ++ (41#8 :: s')))))) := by simp
      rw [e] at hn ⊢
      rw [readItems, hi a t _ h (follow_blank hv 44#8 _ (.inl rfl))]
      simp only []
      rw [readWhitespace_complete v hv 44#8 _ (by decide)]
      simp only [readByte]
      rw [if_pos (by decide)]
      obtain ⟨b, y, hy, hb, _⟩ := commas_starts hs hu
      have e2 : readWhitespace (v' ++ (u ++ (w ++ (41#8 :: s')))) = .ok (!v'.isEmpty, u ++ (w ++ (41#8 :: s'))) := by
        rw [hy]; exact readWhitespace_complete v' hv' b _ hb
      rw [e2]
      simp only []
      rw [ih n w s' hw (by simp at hn ⊢; omega)]

theorem readList_complete {α : Type} {item : Rd α} {P : α → List Byte → Prop} (hi : Complete Follow item P)
    (hs : ∀ a t, P a t → Starts t) : Complete (fun _ => True) (readList item) (Parens P) := by
  intro as t s' h _
  unfold readList
  cases h with
  | none w hw =>
    simp only [List.cons_append, readByte]
    rw [if_neg (by decide), List.append_assoc]
    have := readWhitespace_complete w hw 41#8 s' (by decide)
    simp only [List.cons_append, List.nil_append]
    rw [this]
    simp only []
    rw [if_pos (by decide)]
  | some w as t w' hw h hw' =>
    simp only [List.cons_append, readByte]
    rw [if_neg (by decide)]
    obtain ⟨b, y, hy, hb, hne⟩ := commas_starts hs h
    have e2 : readWhitespace ((w ++ (t ++ (w' ++ [41#8]))) ++ s') = .ok (!w.isEmpty, t ++ (w' ++ (41#8 :: s'))) := by
      rw [hy]
      have := readWhitespace_complete w hw b (y ++ (w' ++ (41#8 :: s'))) hb
      rw [List.append_assoc]
      simpa using this
    rw [e2]
    simp only []
    have e3 := readItems_complete hi hs h (t ++ (w' ++ (41#8 :: s'))).length w' s' hw' (Nat.le_refl _)
    revert e3
    rw [hy]
    simp only [List.cons_append]
    rw [if_neg hne]
    exact id

theorem parens_starts {α : Type} {P : α → List Byte → Prop} (as : List α) (t : List Byte) (h : Parens P as t) :
    Starts t := by
  cases h <;> exact ⟨_, _, rfl, by decide, by decide⟩

theorem Complete.weaken {α : Type} {r : Rd α} {P : α → List Byte → Prop} {F : List Byte → Prop}
    (h : Complete (fun _ => True) r P) : Complete F r P := fun a t s' hp _ => h a t s' hp trivial

theorem readPoints_sound : Sound (readPoints parse) (Parens (Position parse)) :=
  readList_sound (readPoint_sound parse)
theorem readLines_sound : Sound (readLines parse) (Parens (Parens (Position parse))) :=
  readList_sound (readPoints_sound parse)
theorem readPolys_sound : Sound (readPolys parse) (Parens (Parens (Parens (Position parse)))) :=
  readList_sound (readLines_sound parse)

theorem readPoints_complete (h0 : parse [] = none) :
    Complete (fun _ => True) (readPoints parse) (Parens (Position parse)) :=
  readList_complete (readPoint_complete parse h0) (fun _ _ => position_starts parse h0)
theorem readLines_complete (h0 : parse [] = none) :
    Complete (fun _ => True) (readLines parse) (Parens (Parens (Position parse))) :=
  readList_complete (readPoints_complete parse h0).weaken parens_starts
theorem readPolys_complete (h0 : parse [] = none) :
    Complete (fun _ => True) (readPolys parse) (Parens (Parens (Parens (Position parse)))) :=
  readList_complete (readLines_complete parse h0).weaken parens_starts

/-! ## Keywords -/

/-- Lower-case letters. -/
def Letters (kw : List Byte) : Prop := ∀ b ∈ kw, isAlpha b = true ∧ kw ≠ []

theorem keyword_alpha (k kw : List Byte) (hk : k.map Spec.Wkt.toLower = kw) (ha : ∀ b ∈ kw, isAlpha b = true) :
    (∀ b ∈ k, isAlpha b = true) ∧ k.map lower = kw := by
  have h1 : ∀ b ∈ k, isAlpha b = true := by
    intro b hb
    apply alpha_lower
    exact ha _ (hk ▸ List.mem_map_of_mem hb)
  refine ⟨h1, ?_⟩
  rw [← hk]
  exact List.map_congr_left (fun b hb => lower_alpha b (h1 b hb))

/-- Reading the tag and the white space after it. -/
theorem tag_complete (kw : List Char) (body t s' : List Byte) (h : Tagged kw body t)
    (ha : ∀ b ∈ asc kw, isAlpha b = true) (hne : asc kw ≠ [])
    (hb : ∃ u, body = 40#8 :: u) :
    ∃ s1 x, readTag (t ++ s') = .ok (asc kw, s1) ∧ readWhitespace s1 = .ok (x, body ++ s') := by
  obtain ⟨w, k, w', rfl, hw, hw', hk⟩ := h
  obtain ⟨u, rfl⟩ := hb
  obtain ⟨h1, h2⟩ := keyword_alpha k (asc kw) hk ha
  match k, h1, h2, hk with
  | [], _, h2, _ => exact absurd h2.symm hne
  | c :: k, h1, h2, hk =>
    have e1 : readWhitespace ((w ++ (c :: k ++ (w' ++ 40#8 :: u))) ++ s') =
        .ok (!w.isEmpty, (c :: k) ++ (w' ++ (40#8 :: (u ++ s')))) := by
      have := readWhitespace_complete w hw c (k ++ (w' ++ (40#8 :: (u ++ s')))) (alpha_not_space c (h1 c (by simp)))
      rw [← List.cons_append] at this
      rw [← this]; simp
    have e2 : ∀ (v : List Byte), Blank v → readRun isAlpha ((c :: k) ++ (v ++ (40#8 :: (u ++ s')))) =
        .ok (c :: k, v ++ (40#8 :: (u ++ s'))) := by
      intro v hv
      match v, hv with
      | [], _ => exact readRun_complete _ _ h1 _ _ (by decide)
      | d :: v, hv =>
        exact readRun_complete _ _ h1 _ _ (space_not_alpha d ((blank_iff _).1 hv d (by simp)))
    refine ⟨w' ++ (40#8 :: (u ++ s')), !w'.isEmpty, ?_, ?_⟩
    · rw [readTag, e1]
      simp only []
      rw [e2 w' hw']
      simp only [h2]
    · have := readWhitespace_complete w' hw' 40#8 (u ++ s') (by decide)
      simpa using this

theorem tag_sound (s tag s1 s2 : List Byte) (x : Bool) (h1 : readTag s = .ok (tag, s1))
    (h2 : readWhitespace s1 = .ok (x, s2)) (kw : List Char) (hk : tag = asc kw) :
    ∃ p, s = p ++ s2 ∧ ∀ body, Tagged kw body (p ++ body) := by
  unfold readTag at h1
  split at h1
  · simp at h1
  · rename_i y s3 e3
    split at h1
    · simp at h1
    · rename_i k s4 e4
      injection h1 with h1
      injection h1 with h3 h4
      subst h4
      obtain ⟨w, q1, q2, _⟩ := readWhitespaceFrom_sound _ _ _ _ e3
      obtain ⟨q3, q4, _⟩ := readRun_sound _ _ _ _ e4
      obtain ⟨w', q5, q6, _⟩ := readWhitespaceFrom_sound _ _ _ _ h2
      refine ⟨w ++ (k ++ w'), by rw [q1, q3, q5]; simp, fun body => ⟨w, k, w', by simp, q2, q6, ?_⟩⟩
      show k.map _ = asc kw
      rw [← hk, ← h3]
      exact (List.map_congr_left (fun b hb => lower_alpha b (q4 b hb))).symm

/-! ## Rings -/

theorem checkRing_ok (c : Cmp.Compare) (v o : List (Pt F64)) :
    checkRing c v = .ok o ↔ Closed c.pointEqual v ∧ o = v.dropLast := by
  unfold checkRing Closed
  constructor
  · intro h
    split at h
    · simp at h
    · rename_i hl
      split at h
      · rename_i a z ha hz
        split at h
        · simp at h
        · rename_i hc
          injection h with h
          exact ⟨⟨by omega, a, z, ha, hz, by simpa using hc⟩, h.symm⟩
      · simp at h
  · rintro ⟨⟨hl, a, z, ha, hz, hc⟩, rfl⟩
    rw [if_neg (by omega), ha, hz]
    simp [hc]

theorem checkRings_ok (c : Cmp.Compare) (vs os : List (List (Pt F64))) :
    checkRings c vs = .ok os ↔ (∀ v ∈ vs, Closed c.pointEqual v) ∧ os = vs.map List.dropLast := by
  induction vs generalizing os with
  | nil => simp [checkRings, eq_comm]
  | cons v vs ih =>
    rw [checkRings]
    constructor
    · intro h
      split at h
      · simp at h
      · rename_i o e1
        split at h
        · simp at h
        · rename_i os' e2
          injection h with h
          obtain ⟨h1, rfl⟩ := (checkRing_ok _ _ _).1 e1
          obtain ⟨h2, rfl⟩ := (ih _).1 e2
          exact ⟨by simpa using ⟨h1, h2⟩, h.symm⟩
    · rintro ⟨h1, rfl⟩
      rw [(checkRing_ok c v v.dropLast).2 ⟨h1 v (by simp), rfl⟩]
      simp only []
      rw [(ih (vs.map List.dropLast)).2 ⟨fun v hv => h1 v (by simp [hv]), rfl⟩]
      rfl

theorem checkPolys_ok (c : Cmp.Compare) (ps os : List (List (List (Pt F64)))) :
    checkPolys c ps = .ok os ↔ (∀ p ∈ ps, ∀ v ∈ p, Closed c.pointEqual v) ∧ os = ps.map (·.map List.dropLast) := by
  induction ps generalizing os with
  | nil => simp [checkPolys, eq_comm]
  | cons v vs ih =>
    rw [checkPolys]
    constructor
    · intro h
      split at h
      · simp at h
      · rename_i o e1
        split at h
        · simp at h
        · rename_i os' e2
          injection h with h
          obtain ⟨h1, rfl⟩ := (checkRings_ok _ _ _).1 e1
          obtain ⟨h2, rfl⟩ := (ih _).1 e2
          exact ⟨by simpa using ⟨h1, h2⟩, h.symm⟩
    · rintro ⟨h1, rfl⟩
      rw [(checkRings_ok c v (v.map List.dropLast)).2 ⟨h1 v (by simp), rfl⟩]
      simp only []
      rw [(ih _).2 ⟨fun v hv => h1 v (by simp [hv]), rfl⟩]
      rfl

/-! ## Geometries -/

theorem kw_eq :
    kwPoint = asc ['p', 'o', 'i', 'n', 't'] ∧
    kwMultiPoint = asc ['m', 'u', 'l', 't', 'i', 'p', 'o', 'i', 'n', 't'] ∧
    kwLineString = asc ['l', 'i', 'n', 'e', 's', 't', 'r', 'i', 'n', 'g'] ∧
    kwMultiLineString = asc ['m', 'u', 'l', 't', 'i', 'l', 'i', 'n', 'e', 's', 't', 'r', 'i', 'n', 'g'] ∧
    kwPolygon = asc ['p', 'o', 'l', 'y', 'g', 'o', 'n'] ∧
    kwMultiPolygon = asc ['m', 'u', 'l', 't', 'i', 'p', 'o', 'l', 'y', 'g', 'o', 'n'] ∧
    kwCollection = asc ['g', 'e', 'o', 'm', 'e', 't', 'r', 'y', 'c', 'o', 'l', 'l', 'e', 'c', 't', 'i', 'o', 'n'] :=
  ⟨rfl, rfl, rfl, rfl, rfl, rfl, rfl⟩

/-- Members as the loop reads them: up to and including the closing parenthesis. -/
def MembersText (T : Geom F64 → List Byte → Prop) (gs : List (Geom F64)) (t : List Byte) : Prop :=
  (gs = [] ∧ t = [41#8]) ∨
  ∃ (ms : List (Geom F64 × List Byte)) (inner tail : List Byte), gs = ms.map (·.1) ∧ (∀ m ∈ ms, T m.1 m.2) ∧
    Commas (fun m u => u = m.2) ms inner ∧
    (Blank tail ∨ ∃ v v', tail = v ++ (44#8 :: v') ∧ Blank v ∧ Blank v') ∧ t = inner ++ (tail ++ [41#8])

theorem members_step (T : Geom F64 → List Byte → Prop) (g : Geom F64) (gs : List (Geom F64))
    (tg w w' t : List Byte) (hg : T g tg) (hw : Blank w) (hw' : Blank w') (h : MembersText T gs t) :
    MembersText T (g :: gs) (tg ++ (w ++ (44#8 :: (w' ++ t)))) := by
  right
  rcases h with ⟨rfl, rfl⟩ | ⟨ms, inner, tail, rfl, h1, h2, h3, rfl⟩
  · refine ⟨[(g, tg)], tg, w ++ (44#8 :: w'), rfl, by simpa using hg, .one _ _ rfl,
      .inr ⟨w, w', rfl, hw, hw'⟩, by simp⟩
  · refine ⟨(g, tg) :: ms, tg ++ (w ++ (44#8 :: (w' ++ inner))), tail, rfl, ?_, .more _ _ _ _ _ _ rfl hw hw' h2,
      h3, by simp⟩
    intro m hm
    rcases List.mem_cons.1 hm with rfl | hm
    · exact hg
    · exact h1 m hm

theorem members_last (T : Geom F64 → List Byte → Prop) (g : Geom F64)
    (tg w : List Byte) (hg : T g tg) (hw : Blank w) :
    MembersText T [g] (tg ++ (w ++ [41#8])) :=
  .inr ⟨[(g, tg)], tg, w, rfl, by simpa using hg, .one _ _ rfl, .inl hw, rfl⟩

theorem readMembers_rparen (c : Cmp.Compare) (n : Nat) (s : List Byte) (gs : List (Geom F64)) (s' : List Byte)
    (h : readMembers parse c n (rparen :: s) = .ok (gs, s')) : gs = [] ∧ s' = s := by
  match n with
  | 0 => simp [readMembers] at h
  | n + 1 =>
    rw [readMembers] at h
    simp only [readByte, if_pos] at h
    injection h with h
    injection h with h1 h2
    exact ⟨h1.symm, h2.symm⟩

theorem geometry_sound (c : Cmp.Compare) (n : Nat) :
    Sound (readGeometry parse c n) (Text parse c.pointEqual) ∧
    Sound (readMembers parse c n) (MembersText (Text parse c.pointEqual)) := by
  induction n with
  | zero => constructor <;> intro s a s' h <;> simp [readGeometry, readMembers] at h
  | succ n ih =>
    obtain ⟨k1, k2, k3, k4, k5, k6, k7⟩ := kw_eq
    constructor
    · intro s g s' h
      rw [readGeometry] at h
      split at h
      · simp at h
      rename_i tag s1 e1
      split at h
      · simp at h
      rename_i x s2 e2
      split at h
      · -- point
        rename_i ht
        obtain ⟨p, q1, q2⟩ := tag_sound _ _ _ _ _ e1 e2 _ (ht.trans k1)
        split at h
        · simp at h
        · rename_i p0 s3 e3
          injection h with h
          injection h with h1 h2
          subst h1; subst h2
          obtain ⟨t, q3, q4⟩ := readPoints_sound parse _ _ _ e3
          exact ⟨p ++ t, by rw [q1, q3]; simp, .point _ _ _ q4 (q2 t)⟩
        · simp at h
      split at h
      · rename_i ht
        obtain ⟨p, q1, q2⟩ := tag_sound _ _ _ _ _ e1 e2 _ (ht.trans k2)
        split at h
        · simp at h
        · rename_i p0 s3 e3
          injection h with h
          injection h with h1 h2
          subst h1; subst h2
          obtain ⟨t, q3, q4⟩ := readPoints_sound parse _ _ _ e3
          exact ⟨p ++ t, by rw [q1, q3]; simp, .multiPoint _ _ _ q4 (q2 t)⟩
      split at h
      · rename_i ht
        obtain ⟨p, q1, q2⟩ := tag_sound _ _ _ _ _ e1 e2 _ (ht.trans k3)
        split at h
        · simp at h
        · rename_i p0 s3 e3
          split at h
          · simp at h
          rename_i hl
          injection h with h
          injection h with h1 h2
          subst h1; subst h2
          obtain ⟨t, q3, q4⟩ := readPoints_sound parse _ _ _ e3
          exact ⟨p ++ t, by rw [q1, q3]; simp, .lineString _ _ _ q4 (by omega) (q2 t)⟩
      split at h
      · rename_i ht
        obtain ⟨p, q1, q2⟩ := tag_sound _ _ _ _ _ e1 e2 _ (ht.trans k4)
        split at h
        · simp at h
        · rename_i p0 s3 e3
          split at h
          · simp at h
          rename_i hl
          split at h
          · simp at h
          rename_i hl2
          injection h with h
          injection h with h1 h2
          subst h1; subst h2
          obtain ⟨t, q3, q4⟩ := readLines_sound parse _ _ _ e3
          refine ⟨p ++ t, by rw [q1, q3]; simp, .multiLineString _ _ _ q4 ?_ ?_ (q2 t)⟩
          · rintro rfl; simp at hl
          · intro l hl'
            simp only [List.any_eq_true, not_exists] at hl2
            have := hl2 l
            simp only [hl', true_and, decide_eq_true_eq] at this
            omega
      split at h
      · rename_i ht
        obtain ⟨p, q1, q2⟩ := tag_sound _ _ _ _ _ e1 e2 _ (ht.trans k5)
        split at h
        · simp at h
        · rename_i p0 s3 e3
          split at h
          · simp at h
          rename_i hl
          split at h
          · simp at h
          rename_i rs e4
          injection h with h
          injection h with h1 h2
          subst h1; subst h2
          obtain ⟨t, q3, q4⟩ := readLines_sound parse _ _ _ e3
          obtain ⟨q5, rfl⟩ := (checkRings_ok _ _ _).1 e4
          refine ⟨p ++ t, by rw [q1, q3]; simp, .polygon _ _ _ q4 ?_ q5 (q2 t)⟩
          rintro rfl; simp at hl
      split at h
      · rename_i ht
        obtain ⟨p, q1, q2⟩ := tag_sound _ _ _ _ _ e1 e2 _ (ht.trans k6)
        split at h
        · simp at h
        · rename_i p0 s3 e3
          split at h
          · simp at h
          rename_i hl
          split at h
          · simp at h
          rename_i rs e4
          injection h with h
          injection h with h1 h2
          subst h1; subst h2
          obtain ⟨t, q3, q4⟩ := readPolys_sound parse _ _ _ e3
          obtain ⟨q5, rfl⟩ := (checkPolys_ok _ _ _).1 e4
          refine ⟨p ++ t, by rw [q1, q3]; simp, .multiPolygon _ _ _ q4 ?_ q5 (q2 t)⟩
          rintro rfl; simp at hl
      split at h
      · rename_i ht
        obtain ⟨p, q1, q2⟩ := tag_sound _ _ _ _ _ e1 e2 _ (ht.trans k7)
        match s2, q1, h with
        | [], _, h => simp [readByte] at h
        | b :: s2, q1, h =>
          simp only [readByte] at h
          split at h
          · simp at h
          rename_i hb
          split at h
          · simp at h
          rename_i y s3 e3
          split at h
          · simp at h
          rename_i gs s4 e4
          split at h
          · simp at h
          rename_i hl
          injection h with h
          injection h with h1 h2
          subst h1; subst h2
          obtain ⟨w, q3, q4, _⟩ := readWhitespaceFrom_sound _ _ _ _ e3
          obtain ⟨t, q5, q6⟩ := ih.2 _ _ _ e4
          have hb' : b = 40#8 := by simpa [lparen] using hb
          rcases q6 with ⟨rfl, _⟩ | ⟨ms, inner, tail, rfl, r1, r2, r3, rfl⟩
          · simp at hl
          · refine ⟨p ++ (40#8 :: (w ++ (inner ++ (tail ++ [41#8])))), by rw [q1, q3, q5, hb']; simp,
              .collection ms w inner tail _ r1 r2 q4 r3 (q2 _)⟩
      · simp at h
    · intro s gs s' h
      rw [readMembers] at h
      match s, h with
      | [], h => simp [readByte] at h
      | b :: s, h =>
        simp only [readByte] at h
        split at h
        · rename_i hb
          injection h with h
          injection h with h1 h2
          subst h1; subst h2
          exact ⟨[41#8], by rw [hb]; rfl, .inl ⟨rfl, rfl⟩⟩
        split at h
        · simp at h
        rename_i g s1 e1
        split at h
        · simp at h
        rename_i x s2 e2
        obtain ⟨tg, q1, q2⟩ := ih.1 _ _ _ e1
        obtain ⟨w, q3, q4, _⟩ := readWhitespaceFrom_sound _ _ _ _ e2
        match s2, q3, h with
        | [], _, h => simp at h
        | d :: s2, q3, h =>
          simp only [] at h
          split at h
          · rename_i hd
            split at h
            · simp at h
            rename_i gs' s3 e3
            injection h with h
            injection h with h1 h2
            subst h1; subst h2
            rw [hd] at e3
            obtain ⟨rfl, rfl⟩ := readMembers_rparen parse c n _ _ _ e3
            refine ⟨tg ++ (w ++ [41#8]), ?_, members_last _ g tg w q2 q4⟩
            rw [q1, q3, hd]; simp [rparen]
          split at h
          · rename_i hd
            split at h
            · simp at h
            rename_i y s3 e3
            split at h
            · simp at h
            rename_i gs' s4 e4
            injection h with h
            injection h with h1 h2
            subst h1; subst h2
            obtain ⟨w', q5, q6, _⟩ := readWhitespaceFrom_sound _ _ _ _ e3
            obtain ⟨t, q7, q8⟩ := ih.2 _ _ _ e4
            refine ⟨tg ++ (w ++ (44#8 :: (w' ++ t))), ?_, members_step _ g gs' tg w w' t q2 q4 q6 q8⟩
            rw [q1, q3, q5, q7, hd]; simp [comma]
          · simp at h

theorem tagged_strip (kw : List Char) (body w t : List Byte) (h : Tagged kw body (w ++ t)) (hw : Blank w)
    (ha : ∀ b ∈ asc kw, isAlpha b = true) (hne : asc kw ≠ []) : Tagged kw body t := by
  obtain ⟨w1, k, w2, e, h1, h2, h3⟩ := h
  obtain ⟨a1, a2⟩ := keyword_alpha k (asc kw) h3 ha
  induction w generalizing w1 with
  | nil => exact ⟨w1, k, w2, e, h1, h2, h3⟩
  | cons d w ih =>
    have hd : isSpace d = true := (blank_iff _).1 hw d (by simp)
    have hw' : Blank w := fun b hb => hw b (by simp [hb])
    match w1, h1, e with
    | [], _, e =>
      match k, a1, a2, e with
      | [], _, a2, _ => exact absurd a2.symm hne
      | c :: k, a1, _, e =>
        have : d = c := by simpa using (List.cons.inj e).1
        rw [this, alpha_not_space c (a1 c (by simp))] at hd
        cases hd
    | c :: w1, h1, e =>
      exact ih hw' w1 (List.cons.inj e).2 (fun b hb => h1 b (by simp [hb]))

theorem tagged_split (kw : List Char) (body t : List Byte) (h : Tagged kw body t)
    (ha : ∀ b ∈ asc kw, isAlpha b = true) (hne : asc kw ≠ []) :
    ∃ w t' c u, t = w ++ t' ∧ Blank w ∧ t' = c :: u ∧ isAlpha c = true := by
  obtain ⟨w1, k, w2, rfl, h1, h2, h3⟩ := h
  obtain ⟨a1, a2⟩ := keyword_alpha k (asc kw) h3 ha
  match k, a1, a2 with
  | [], _, a2 => exact absurd a2.symm hne
  | c :: k, a1, _ => exact ⟨w1, _, c, k ++ (w2 ++ body), rfl, h1, rfl, a1 c (by simp)⟩

theorem text_split (same : Pt F64 → Pt F64 → Bool) (g : Geom F64) (t : List Byte) (h : Text parse same g t) :
    ∃ w t' c u, t = w ++ t' ∧ Blank w ∧ t' = c :: u ∧ isAlpha c = true := by
  cases h <;> rename_i ht <;> exact tagged_split _ _ _ ht (by decide) (by decide)

theorem parens_lparen {α : Type} {P : α → List Byte → Prop} {as : List α} {t : List Byte} (h : Parens P as t) :
    ∃ u, t = 40#8 :: u := by
  cases h <;> exact ⟨_, rfl⟩

/-- The reader accepts the text, also without white space in front of it. -/
def GeomOk (c : Cmp.Compare) (g : Geom F64) (t : List Byte) : Prop :=
  ∀ w t', t = w ++ t' → Blank w → ∀ n s', 2 * (t' ++ s').length + 1 ≤ n →
    readGeometry parse c n (t' ++ s') = .ok (g, s')

theorem readMembers_complete (c : Cmp.Compare) {same : Pt F64 → Pt F64 → Bool} (ms : List (Geom F64 × List Byte)) (inner : List Byte)
    (h : Commas (fun (m : Geom F64 × List Byte) u => u = m.2) ms inner)
    (hm : ∀ m ∈ ms, Text parse same m.1 m.2) (ih : ∀ m ∈ ms, GeomOk parse c m.1 m.2)
    (tail : List Byte) (ht : Blank tail ∨ ∃ v v', tail = v ++ (44#8 :: v') ∧ Blank v ∧ Blank v') (s' : List Byte) :
    ∀ w0, Blank w0 → ∃ x s2, readWhitespace (w0 ++ (inner ++ (tail ++ (41#8 :: s')))) = .ok (x, s2) ∧
      s2.length ≤ (w0 ++ (inner ++ (tail ++ (41#8 :: s')))).length ∧
      ∀ n, 2 * s2.length + 2 ≤ n → readMembers parse c n s2 = .ok (ms.map (·.1), s') := by
  induction h with
  | one m t h =>
    subst h
    intro w0 hw0
    obtain ⟨w, t', b, u, e, hw, e2, hb⟩ := text_split parse same m.1 m.2 (hm m (by simp))
    have hww : Blank (w0 ++ w) := by
      intro x hx
      rcases List.mem_append.1 hx with hx | hx
      · exact hw0 x hx
      · exact hw x hx
    refine ⟨!(w0 ++ w).isEmpty, t' ++ (tail ++ (41#8 :: s')), ?_, by rw [e]; simp; omega, ?_⟩
    · rw [e, e2]
      have := readWhitespace_complete (w0 ++ w) hww b (u ++ (tail ++ (41#8 :: s'))) (alpha_not_space b hb)
      rw [← List.cons_append] at this
      rw [← this]; simp
    · intro n hn
      match n with
      | n + 1 =>
        rw [readMembers]
        have e3 := ih m (by simp) w t' e hw n (tail ++ (41#8 :: s')) (by simp at hn ⊢; omega)
        have e4 : readByte (t' ++ (tail ++ (41#8 :: s'))) = .ok (b, u ++ (tail ++ (41#8 :: s'))) := by rw [e2]; rfl
        rw [e4]
        simp only []
        rw [if_neg (alpha_not_paren b hb), e3]
        simp only []
        rcases ht with ht | ⟨v, v', rfl, hv, hv'⟩
        · rw [readWhitespace_complete tail ht 41#8 s' (by decide)]
          simp only [readByte]
          rw [if_pos (by decide)]
          match n, hn with
          | 0, hn => rw [e2] at hn; simp at hn
          | n + 1, _ => rw [readMembers]; simp [readByte, rparen]
        · rw [List.append_assoc, List.cons_append, readWhitespace_complete v hv 44#8 _ (by decide)]
          simp only [readByte]
          rw [if_neg (by decide), if_pos (by decide), readWhitespace_complete v' hv' 41#8 s' (by decide)]
          simp only []
          match n, hn with
          | 0, hn => rw [e2] at hn; simp at hn
          | n + 1, _ => rw [readMembers]; simp [readByte, rparen]
      | 0 => omega
  | more m t v v' ms u' h hv hv' hc ihc =>
    subst h
    intro w0 hw0
    obtain ⟨w, t', b, u, e, hw, e2, hb⟩ := text_split parse same m.1 m.2 (hm m (by simp))
    have hww : Blank (w0 ++ w) := by
      intro x hx
      rcases List.mem_append.1 hx with hx | hx
      · exact hw0 x hx
      · exact hw x hx
    refine ⟨!(w0 ++ w).isEmpty, t' ++ (v ++ (44#8 :: (v' ++ (u' ++ (tail ++ (41#8 :: s')))))), ?_, by rw [e]; simp; omega, ?_⟩
    · rw [e, e2]
      have := readWhitespace_complete (w0 ++ w) hww b (u ++ (v ++ (44#8 :: (v' ++ (u' ++ (tail ++ (41#8 :: s')))))))
        (alpha_not_space b hb)
      rw [← List.cons_append] at this
      rw [← this]; simp
    · intro n hn
      match n with
      | n + 1 =>
        rw [readMembers]
        have e3 := ih m (by simp) w t' e hw n (v ++ (44#8 :: (v' ++ (u' ++ (tail ++ (41#8 :: s'))))))
          (by simp at hn ⊢; omega)
        have e4 : readByte (t' ++ (v ++ (44#8 :: (v' ++ (u' ++ (tail ++ (41#8 :: s'))))))) =
            .ok (b, u ++ (v ++ (44#8 :: (v' ++ (u' ++ (tail ++ (41#8 :: s'))))))) := by rw [e2]; rfl
        rw [e4]
        simp only []
        rw [if_neg (alpha_not_paren b hb), e3]
        simp only []
        rw [readWhitespace_complete v hv 44#8 _ (by decide)]
        simp only [readByte]
        rw [if_neg (by decide), if_pos (by decide)]
        obtain ⟨x, s2, q1, q2, q3⟩ := ihc (fun m hm' => hm m (by simp [hm'])) (fun m hm' => ih m (by simp [hm'])) v' hv'
        rw [q1]
        simp only []
        rw [q3 n (by simp at hn q2; omega)]
        rfl
      | 0 => omega

theorem geometry_complete (c : Cmp.Compare) (h0 : parse [] = none) (g : Geom F64) (t : List Byte)
    (h : Text parse c.pointEqual g t) : GeomOk parse c g t := by
  obtain ⟨k1, k2, k3, k4, k5, k6, k7⟩ := kw_eq
  induction h with
  | point p body t hp ht =>
    rintro w t' rfl hw n s' hn
    match n with
    | n + 1 =>
      obtain ⟨s1, x, e1, e2⟩ := tag_complete _ _ _ s' (tagged_strip _ _ _ _ ht hw (by decide) (by decide))
        (by decide) (by decide) (parens_lparen hp)
      rw [readGeometry, e1]
      simp only []
      rw [e2]
      simp only []
      rw [if_pos k1.symm, readPoints_complete parse h0 _ _ s' hp trivial]
  | multiPoint p body t hp ht =>
    rintro w t' rfl hw n s' hn
    match n with
    | n + 1 =>
      obtain ⟨s1, x, e1, e2⟩ := tag_complete _ _ _ s' (tagged_strip _ _ _ _ ht hw (by decide) (by decide))
        (by decide) (by decide) (parens_lparen hp)
      rw [readGeometry, e1]
      simp only []
      rw [e2]
      simp only []
      rw [if_neg (by decide), if_pos k2.symm, readPoints_complete parse h0 _ _ s' hp trivial]
  | lineString p body t hp hl ht =>
    rintro w t' rfl hw n s' hn
    match n with
    | n + 1 =>
      obtain ⟨s1, x, e1, e2⟩ := tag_complete _ _ _ s' (tagged_strip _ _ _ _ ht hw (by decide) (by decide))
        (by decide) (by decide) (parens_lparen hp)
      rw [readGeometry, e1]
      simp only []
      rw [e2]
      simp only []
      rw [if_neg (by decide), if_neg (by decide), if_pos k3.symm, readPoints_complete parse h0 _ _ s' hp trivial]
      simp only []
      rw [if_neg (by omega)]
  | multiLineString ls body t hp hne hl ht =>
    rintro w t' rfl hw n s' hn
    match n with
    | n + 1 =>
      obtain ⟨s1, x, e1, e2⟩ := tag_complete _ _ _ s' (tagged_strip _ _ _ _ ht hw (by decide) (by decide))
        (by decide) (by decide) (parens_lparen hp)
      rw [readGeometry, e1]
      simp only []
      rw [e2]
      simp only []
      rw [if_neg (by decide), if_neg (by decide), if_neg (by decide), if_pos k4.symm,
        readLines_complete parse h0 _ _ s' hp trivial]
      simp only []
      have hlen : ¬ ls.length < 1 := by
        have := List.length_pos_of_ne_nil hne; omega
      rw [if_neg hlen, if_neg]
      simp only [List.any_eq_true, not_exists, decide_eq_true_eq]
      rintro l ⟨h1, h2⟩
      have := hl l h1
      omega
  | polygon ls body t hp hne hl ht =>
    rintro w t' rfl hw n s' hn
    match n with
    | n + 1 =>
      obtain ⟨s1, x, e1, e2⟩ := tag_complete _ _ _ s' (tagged_strip _ _ _ _ ht hw (by decide) (by decide))
        (by decide) (by decide) (parens_lparen hp)
      rw [readGeometry, e1]
      simp only []
      rw [e2]
      simp only []
      rw [if_neg (by decide), if_neg (by decide), if_neg (by decide), if_neg (by decide), if_pos k5.symm,
        readLines_complete parse h0 _ _ s' hp trivial]
      simp only []
      have hlen : ¬ ls.length < 1 := by
        have := List.length_pos_of_ne_nil hne; omega
      rw [if_neg hlen, (checkRings_ok c ls _).2 ⟨hl, rfl⟩]
  | multiPolygon ls body t hp hne hl ht =>
    rintro w t' rfl hw n s' hn
    match n with
    | n + 1 =>
      obtain ⟨s1, x, e1, e2⟩ := tag_complete _ _ _ s' (tagged_strip _ _ _ _ ht hw (by decide) (by decide))
        (by decide) (by decide) (parens_lparen hp)
      rw [readGeometry, e1]
      simp only []
      rw [e2]
      simp only []
      rw [if_neg (by decide), if_neg (by decide), if_neg (by decide), if_neg (by decide), if_neg (by decide),
        if_pos k6.symm, readPolys_complete parse h0 _ _ s' hp trivial]
      simp only []
      have hlen : ¬ ls.length < 1 := by
        have := List.length_pos_of_ne_nil hne; omega
      rw [if_neg hlen, (checkPolys_ok c ls _).2 ⟨hl, rfl⟩]
  | collection ms w inner tail t hm hc hw0 htail ht ih =>
    rintro w1 t' rfl hw n s' hn
    match n with
    | n + 1 =>
      have ht' := tagged_strip _ _ _ _ ht hw (by decide) (by decide)
      obtain ⟨s1, x, e1, e2⟩ := tag_complete _ _ _ s' ht' (by decide) (by decide) ⟨_, rfl⟩
      rw [readGeometry, e1]
      simp only []
      rw [e2]
      simp only []
      rw [if_neg (by decide), if_neg (by decide), if_neg (by decide), if_neg (by decide), if_neg (by decide),
        if_neg (by decide), if_pos k7.symm]
      simp only [List.cons_append, readByte]
      rw [if_neg (by decide)]
      obtain ⟨x, s2, q1, q2, q3⟩ := readMembers_complete parse c ms inner hc hm ih tail htail s' w hw0
      have e3 : (w ++ (inner ++ (tail ++ [41#8]))) ++ s' = w ++ (inner ++ (tail ++ (41#8 :: s'))) := by simp
      rw [e3, q1]
      simp only []
      have hlt : (w ++ (inner ++ (tail ++ (41#8 :: s')))).length < (t' ++ s').length := by
        obtain ⟨v1, k, v2, rfl, _, _, hk⟩ := ht'
        simp; omega
      rw [q3 n (by omega)]
      simp only []
      have hne : ms.map (·.1) ≠ [] := by cases hc <;> simp
      have hlen : ¬ (ms.map (·.1)).length < 1 := by
        have := List.length_pos_of_ne_nil hne; omega
      rw [if_neg hlen]

/-! ## The bound on the recursion is never reached -/

theorem nofuel_of {α β : Type} {r : Except Err α} {e : Err} (h : r = .error e) (hx : r ≠ .error .fuel) :
    (.error e : Except Err β) ≠ .error .fuel := by
  rintro ⟨⟩
  exact hx h

theorem readByte_nofuel (s : List Byte) : readByte s ≠ .error .fuel := by
  cases s <;> simp [readByte]

theorem readWhitespace_nofuel (s : List Byte) : readWhitespace s ≠ .error .fuel := by
  have : ∀ r, readWhitespaceFrom r s ≠ .error .fuel := by
    induction s with
    | nil => intro r; simp [readWhitespaceFrom]
    | cons b s ih => intro r; rw [readWhitespaceFrom]; split <;> simp [ih]
  exact this _

theorem readRun_nofuel (p : Byte → Bool) (s : List Byte) : readRun p s ≠ .error .fuel := by
  induction s with
  | nil => simp [readRun]
  | cons b s ih =>
    rw [readRun]
    split
    · split
      · rename_i e h; exact nofuel_of h ih
      · simp
    · simp

theorem readFloat_nofuel (s : List Byte) : readFloat parse s ≠ .error .fuel := by
  unfold readFloat
  split
  · rename_i e h; exact nofuel_of h (readRun_nofuel isNumeric s)
  · split <;> simp

theorem readPoint_nofuel (s : List Byte) : readPoint parse s ≠ .error .fuel := by
  unfold readPoint
  split
  · rename_i e h; exact nofuel_of h (readFloat_nofuel parse s)
  · split
    · rename_i e h; exact nofuel_of h (readWhitespace_nofuel _)
    · split
      · simp
      · split
        · rename_i e h; exact nofuel_of h (readFloat_nofuel parse _)
        · simp

theorem readTag_nofuel (s : List Byte) : readTag s ≠ .error .fuel := by
  unfold readTag
  split
  · rename_i e h; exact nofuel_of h (readWhitespace_nofuel s)
  · split
    · rename_i e h; exact nofuel_of h (readRun_nofuel isAlpha _)
    · simp

theorem readItems_nofuel {α : Type} {item : Rd α} {P : α → List Byte → Prop} (hi : Sound item P)
    (hf : ∀ s, item s ≠ .error .fuel) (n : Nat) :
    ∀ s : List Byte, 1 ≤ s.length → s.length ≤ n → readItems item n s ≠ .error .fuel := by
  induction n with
  | zero => intro s h1 h2; omega
  | succ n ih =>
    intro s h1 h2
    rw [readItems]
    split
    · rename_i e h; exact nofuel_of h (hf s)
    · rename_i a s1 e1
      obtain ⟨t, q1, _⟩ := hi _ _ _ e1
      split
      · rename_i e h; exact nofuel_of h (readWhitespace_nofuel s1)
      · rename_i x s2 e2
        obtain ⟨w, q2, _⟩ := readWhitespaceFrom_sound _ _ _ _ e2
        cases s2 with
        | nil => simp [readByte]
        | cons b s2 =>
          simp only [readByte]
          split
          · split
            · rename_i e h; exact nofuel_of h (readWhitespace_nofuel s2)
            · rename_i y s3 e3
              obtain ⟨w', q3, _, _, c, u, q4, _⟩ := readWhitespaceFrom_sound _ _ _ _ e3
              split
              · rename_i e h
                exact nofuel_of h (ih s3 (by rw [q4]; simp) (by rw [q1, q2, q3] at h2; simp at h2; omega))
              · simp
          · split <;> simp

theorem readList_nofuel {α : Type} {item : Rd α} {P : α → List Byte → Prop} (hi : Sound item P)
    (hf : ∀ s, item s ≠ .error .fuel) (s : List Byte) : readList item s ≠ .error .fuel := by
  unfold readList
  cases s with
  | nil => simp [readByte]
  | cons b s =>
    simp only [readByte]
    split
    · simp
    · split
      · rename_i e h; exact nofuel_of h (readWhitespace_nofuel s)
      · rename_i x s1 e1
        cases s1 with
        | nil => simp
        | cons c s1 =>
          simp only []
          split
          · simp
          · exact readItems_nofuel hi hf _ _ (by simp) (by simp)

theorem readPoints_nofuel (s : List Byte) : readPoints parse s ≠ .error .fuel :=
  readList_nofuel (readPoint_sound parse) (readPoint_nofuel parse) s
theorem readLines_nofuel (s : List Byte) : readLines parse s ≠ .error .fuel :=
  readList_nofuel (readPoints_sound parse) (readPoints_nofuel parse) s
theorem readPolys_nofuel (s : List Byte) : readPolys parse s ≠ .error .fuel :=
  readList_nofuel (readLines_sound parse) (readLines_nofuel parse) s

theorem checkRing_nofuel (c : Cmp.Compare) (v : List (Pt F64)) : checkRing c v ≠ .error .fuel := by
  unfold checkRing
  split
  · simp
  · split
    · split <;> simp
    · simp

theorem checkRings_nofuel (c : Cmp.Compare) (vs : List (List (Pt F64))) : checkRings c vs ≠ .error .fuel := by
  induction vs with
  | nil => simp [checkRings]
  | cons v vs ih =>
    rw [checkRings]
    split
    · rename_i e h; exact nofuel_of h (checkRing_nofuel c v)
    · split
      · rename_i e h; exact nofuel_of h ih
      · simp

theorem checkPolys_nofuel (c : Cmp.Compare) (vs : List (List (List (Pt F64)))) : checkPolys c vs ≠ .error .fuel := by
  induction vs with
  | nil => simp [checkPolys]
  | cons v vs ih =>
    rw [checkPolys]
    split
    · rename_i e h; exact nofuel_of h (checkRings_nofuel c v)
    · split
      · rename_i e h; exact nofuel_of h ih
      · simp

theorem readTag_len (s t s1 : List Byte) (h : readTag s = .ok (t, s1)) : s1.length + t.length ≤ s.length := by
  unfold readTag at h
  split at h
  · simp at h
  · rename_i y s3 e3
    split at h
    · simp at h
    · rename_i k s4 e4
      injection h with h
      injection h with h3 h4
      subst h4; subst h3
      obtain ⟨w, q1, q2, _⟩ := readWhitespaceFrom_sound _ _ _ _ e3
      obtain ⟨q3, q4, _⟩ := readRun_sound _ _ _ _ e4
      rw [q1, q3]; simp; omega

theorem geometry_nofuel (c : Cmp.Compare) (n : Nat) :
    (∀ s : List Byte, 2 * s.length + 1 ≤ n → readGeometry parse c n s ≠ .error .fuel) ∧
    (∀ s : List Byte, 2 * s.length + 2 ≤ n → readMembers parse c n s ≠ .error .fuel) := by
  induction n with
  | zero => exact ⟨fun s h => by omega, fun s h => by omega⟩
  | succ n ih =>
    constructor
    · intro s hn
      rw [readGeometry]
      split
      · rename_i e h; exact nofuel_of h (readTag_nofuel s)
      rename_i tag s1 e1
      split
      · rename_i e h; exact nofuel_of h (readWhitespace_nofuel s1)
      rename_i x s2 e2
      have l1 := readTag_len _ _ _ e1
      obtain ⟨w, q1, _⟩ := readWhitespaceFrom_sound _ _ _ _ e2
      have l2 : s2.length ≤ s1.length := by rw [q1]; simp
      split
      · split
        · rename_i e h; exact nofuel_of h (readPoints_nofuel parse s2)
        · simp
        · simp
      split
      · split
        · rename_i e h; exact nofuel_of h (readPoints_nofuel parse s2)
        · simp
      split
      · split
        · rename_i e h; exact nofuel_of h (readPoints_nofuel parse s2)
        · split <;> simp
      split
      · split
        · rename_i e h; exact nofuel_of h (readLines_nofuel parse s2)
        · split
          · simp
          · split <;> simp
      split
      · split
        · rename_i e h; exact nofuel_of h (readLines_nofuel parse s2)
        · rename_i ls _ _
          split
          · simp
          · split
            · rename_i e h; exact nofuel_of h (checkRings_nofuel c ls)
            · simp
      split
      · split
        · rename_i e h; exact nofuel_of h (readPolys_nofuel parse s2)
        · rename_i ls _ _
          split
          · simp
          · split
            · rename_i e h; exact nofuel_of h (checkPolys_nofuel c ls)
            · simp
      split
      · cases s2 with
        | nil => simp [readByte]
        | cons b s2 =>
          simp only [readByte]
          split
          · simp
          split
          · rename_i e h; exact nofuel_of h (readWhitespace_nofuel s2)
          rename_i y s3 e3
          obtain ⟨w', q2, _⟩ := readWhitespaceFrom_sound _ _ _ _ e3
          have l3 : s3.length ≤ s2.length := by rw [q2]; simp
          simp at l2
          split
          · rename_i e h; exact nofuel_of h (ih.2 s3 (by omega))
          · split <;> simp
      · simp
    · intro s hn
      rw [readMembers]
      cases s with
      | nil => simp [readByte]
      | cons b s =>
        simp only [readByte]
        split
        · simp
        split
        · rename_i e h; exact nofuel_of h (ih.1 (b :: s) (by omega))
        rename_i g s1 e1
        split
        · rename_i e h; exact nofuel_of h (readWhitespace_nofuel s1)
        rename_i x s2 e2
        obtain ⟨t, q1, q1'⟩ := (geometry_sound parse c n).1 _ _ _ e1
        have lt : 1 ≤ t.length := by
          obtain ⟨w, t', d, u, rfl, _, rfl, _⟩ := text_split parse _ _ _ q1'
          simp; omega
        obtain ⟨w, q2, _⟩ := readWhitespaceFrom_sound _ _ _ _ e2
        have l2 : s2.length + 1 ≤ (b :: s).length := by rw [q1, q2]; simp; omega
        cases s2 with
        | nil => simp
        | cons d s2 =>
          simp only []
          split
          · split
            · rename_i e h; exact nofuel_of h (ih.2 (d :: s2) (by omega))
            · simp
          split
          · split
            · rename_i e h; exact nofuel_of h (readWhitespace_nofuel s2)
            rename_i y s3 e3
            obtain ⟨w', q3, _⟩ := readWhitespaceFrom_sound _ _ _ _ e3
            have l3 : s3.length ≤ s2.length := by rw [q3]; simp
            simp only [List.length_cons] at l2 hn
            split
            · rename_i e h; exact nofuel_of h (ih.2 s3 (by omega))
            · simp
          · simp

theorem decode_no_fuel (c : Cmp.Compare) (s : List Byte) : decodeRest parse c s ≠ .error .fuel :=
  (geometry_nofuel parse c _).1 s (by omega)

theorem decodeRest_iff (c : Cmp.Compare) (h0 : parse [] = none) (s : List Byte) (g : Geom F64) (r : List Byte) :
    decodeRest parse c s = .ok (g, r) ↔ ∃ t, s = t ++ r ∧ Text parse c.pointEqual g t := by
  constructor
  · exact (geometry_sound parse c _).1 s g r
  · rintro ⟨t, rfl, h⟩
    exact geometry_complete parse c h0 g t h [] t rfl (by simp [Blank]) _ r (by omega)

end Verif.Wkt
