import Verif.Lemmas.WktEnc

/-! # Lemmas for the WKT properties: parentheses -/

namespace Verif.Wkt
open Verif Verif.Spec.Wkt Verif.Spec.Wkb

/-- Opening minus closing parentheses. -/
def depth : List Byte → Int
  | [] => 0
  | b :: t => (if b = lparen then 1 else if b = rparen then -1 else 0) + depth t

theorem depth_append (a b : List Byte) : depth (a ++ b) = depth a + depth b := by
  induction a with
  | nil => simp [depth]
  | cons x a ih => simp only [List.cons_append, depth, ih]; omega

/-- No parenthesis in it. -/
def Bare (t : List Byte) : Prop := ∀ b ∈ t, b ≠ lparen ∧ b ≠ rparen

theorem depth_bare (t : List Byte) (h : Bare t) : depth t = 0 := by
  induction t with
  | nil => rfl
  | cons x t ih =>
    have := h x (by simp)
    rw [depth, if_neg this.1, if_neg this.2, ih (fun b hb => h b (by simp [hb]))]; rfl

theorem bare_append {a b : List Byte} (ha : Bare a) (hb : Bare b) : Bare (a ++ b) := by
  intro x hx
  rcases List.mem_append.1 hx with h | h
  · exact ha x h
  · exact hb x h

theorem bare_blank {w : List Byte} (h : Blank w) : Bare w := by
  rw [blank_iff] at h
  have key : ∀ b : Byte, isSpace b = true → b ≠ lparen ∧ b ≠ rparen := by decide +kernel
  exact fun b hb => key b (h b hb)

theorem bare_number {parse : List Byte → Option F64} {f : F64} {t : List Byte} (h : Number parse f t) : Bare t := by
  have key : ∀ b : Byte, isNumeric b = true → b ≠ lparen ∧ b ≠ rparen := by decide +kernel
  exact fun b hb => key b ((isNumeric_iff b).2 (h.1 b hb))

theorem bare_position {parse : List Byte → Option F64} {p : Pt F64} {t : List Byte} (h : Position parse p t) : Bare t := by
  obtain ⟨t1, w, t2, rfl, h1, h2, _, h3⟩ := h
  exact bare_append (bare_number h1) (bare_append (bare_blank h2) (bare_number h3))

theorem depth_commas {α : Type} {P : α → List Byte → Prop} {as : List α} {t : List Byte}
    (h : Commas P as t) (hP : ∀ a ∈ as, ∀ t, P a t → depth t = 0) : depth t = 0 := by
  induction h with
  | one a t h => exact hP _ (by simp) _ h
  | more a t w w' as u h hw hw' _ ih =>
    have e : depth (44#8 :: (w' ++ u)) = depth w' + depth u := by
      rw [depth, depth_append, if_neg (by decide), if_neg (by decide)]; omega
    rw [depth_append, depth_append, e, hP _ (by simp) _ h, depth_bare _ (bare_blank hw), depth_bare _ (bare_blank hw'),
      ih (fun a ha => hP a (by simp [ha]))]; rfl

theorem depth_paren (t : List Byte) : depth (40#8 :: (t ++ [41#8])) = depth t := by
  rw [depth, depth_append, if_pos (by decide)]
  have : depth [41#8] = -1 := rfl
  rw [this]; omega

theorem depth_parens {α : Type} {P : α → List Byte → Prop} (hP : ∀ a t, P a t → depth t = 0) (as : List α) (t : List Byte)
    (h : Parens P as t) : depth t = 0 := by
  cases h with
  | none w hw => rw [depth_paren, depth_bare _ (bare_blank hw)]
  | some w as t w' hw hc hw' =>
    have e : (40#8 :: (w ++ (t ++ (w' ++ [41#8])))) = 40#8 :: ((w ++ (t ++ w')) ++ [41#8]) := by simp
    rw [e, depth_paren, depth_append, depth_append, depth_bare _ (bare_blank hw), depth_bare _ (bare_blank hw'),
      depth_commas hc (fun a _ => hP a)]; rfl

theorem depth_tagged {kw : List Char} {body t : List Byte} (h : Tagged kw body t)
    (ha : ∀ b ∈ asc kw, isAlpha b = true) : depth t = depth body := by
  obtain ⟨w, k, w', rfl, hw, hw', hk⟩ := h
  obtain ⟨h1, _⟩ := keyword_alpha k (asc kw) hk ha
  have key : ∀ b : Byte, isAlpha b = true → b ≠ lparen ∧ b ≠ rparen := by decide +kernel
  have hb : Bare k := fun b q => key b (h1 b q)
  rw [depth_append, depth_append, depth_append, depth_bare _ (bare_blank hw), depth_bare _ (bare_blank hw'), depth_bare _ hb]
  omega

theorem tagged_mem {kw : List Char} {body t : List Byte} (h : Tagged kw body t) (hb : lparen ∈ body) : lparen ∈ t := by
  obtain ⟨w, k, w', rfl, _⟩ := h
  simp [hb]

theorem parens_mem {α : Type} {P : α → List Byte → Prop} {as : List α} {t : List Byte} (h : Parens P as t) : lparen ∈ t := by
  obtain ⟨u, rfl⟩ := parens_lparen h
  simp [lparen]

/-- Text of a geometry has matching parentheses, and at least one pair. -/
theorem text_depth (parse : List Byte → Option F64) (same : Pt F64 → Pt F64 → Bool) (g : Geom F64) (t : List Byte)
    (h : Text parse same g t) : depth t = 0 ∧ lparen ∈ t := by
  have d1 : ∀ a t, Position parse a t → depth t = 0 := fun a t h => depth_bare _ (bare_position h)
  have d2 := depth_parens (P := Position parse) d1
  have d3 := depth_parens (P := Parens (Position parse)) d2
  have d4 := depth_parens (P := Parens (Parens (Position parse))) d3
  induction h with
  | point p body t hp ht => exact ⟨by rw [depth_tagged ht (by decide), d2 _ _ hp], tagged_mem ht (parens_mem hp)⟩
  | multiPoint p body t hp ht => exact ⟨by rw [depth_tagged ht (by decide), d2 _ _ hp], tagged_mem ht (parens_mem hp)⟩
  | lineString p body t hp _ ht => exact ⟨by rw [depth_tagged ht (by decide), d2 _ _ hp], tagged_mem ht (parens_mem hp)⟩
  | multiLineString p body t hp _ _ ht => exact ⟨by rw [depth_tagged ht (by decide), d3 _ _ hp], tagged_mem ht (parens_mem hp)⟩
  | polygon p body t hp _ _ ht => exact ⟨by rw [depth_tagged ht (by decide), d3 _ _ hp], tagged_mem ht (parens_mem hp)⟩
  | multiPolygon p body t hp _ _ ht => exact ⟨by rw [depth_tagged ht (by decide), d4 _ _ hp], tagged_mem ht (parens_mem hp)⟩
  | collection ms w inner tail t hm hc hw htl ht ih =>
    refine ⟨?_, tagged_mem ht (by simp [lparen])⟩
    have e : (40#8 :: (w ++ (inner ++ (tail ++ [41#8])))) = 40#8 :: ((w ++ (inner ++ tail)) ++ [41#8]) := by simp
    have hb : Bare tail := by
      rcases htl with h | ⟨v, v', rfl, h1, h2⟩
      · exact bare_blank h
      · refine bare_append (bare_blank h1) ?_
        intro b hb
        rcases List.mem_cons.1 hb with rfl | hb
        · decide
        · exact bare_blank h2 b hb
    have hi : depth inner = 0 := by
      refine depth_commas hc ?_
      intro m hm' t ht
      subst ht
      exact (ih m hm').1
    rw [depth_tagged ht (by decide), e, depth_paren, depth_append, depth_append, depth_bare _ (bare_blank hw),
      depth_bare _ hb, hi]; rfl

/-! ## What the writer produces -/

/-- Matching parentheses. -/
structure Bal (t : List Byte) : Prop where
  total : depth t = 0
  nonneg : ∀ p q, t = p ++ q → 0 ≤ depth p

theorem bal_bare {t : List Byte} (h : Bare t) : Bal t := by
  refine ⟨depth_bare t h, ?_⟩
  rintro p q rfl
  rw [depth_bare p (fun b hb => h b (by simp [hb]))]
  exact Int.le_refl 0

theorem bal_append {a b : List Byte} (ha : Bal a) (hb : Bal b) : Bal (a ++ b) := by
  refine ⟨by rw [depth_append, ha.total, hb.total]; rfl, ?_⟩
  intro p q e
  rcases List.append_eq_append_iff.1 e with ⟨c, rfl, h⟩ | ⟨c, h, _⟩
  · rw [depth_append, ha.total, Int.zero_add]; exact hb.nonneg _ _ h
  · exact ha.nonneg _ _ h

/-- Proper prefixes of a parenthesised text: nothing, or inside the parentheses. -/
theorem paren_prefix {t : List Byte} (h : Bal t) (p q : List Byte) (hq : q ≠ [])
    (e : lparen :: (t ++ [rparen]) = p ++ q) : p = [] ∨ 1 ≤ depth p := by
  cases p with
  | nil => exact .inl rfl
  | cons b p =>
    right
    simp only [List.cons_append, List.cons.injEq] at e
    obtain ⟨rfl, e⟩ := e
    rw [depth, if_pos rfl]
    have : 0 ≤ depth p := by
      rcases List.append_eq_append_iff.1 e with ⟨c, rfl, h2⟩ | ⟨c, h2, _⟩
      · have : c = [] := by
          cases c with
          | nil => rfl
          | cons x c =>
            have h3 := congrArg List.length h2
            have : 0 < q.length := List.length_pos_iff.2 hq
            simp only [List.length_append, List.length_cons, List.length_nil] at h3; omega
        subst this
        rw [List.append_nil, h.total]; exact Int.le_refl 0
      · exact h.nonneg _ _ h2
    omega

theorem bal_paren {t : List Byte} (h : Bal t) : Bal (lparen :: (t ++ [rparen])) := by
  refine ⟨(depth_paren t).trans h.total, ?_⟩
  intro p q e
  by_cases hq : q = []
  · subst hq
    rw [List.append_nil] at e
    rw [← e, show depth (lparen :: (t ++ [rparen])) = depth t from depth_paren t, h.total]; exact Int.le_refl 0
  · rcases paren_prefix h p q hq e with rfl | h
    · exact Int.le_refl 0
    · omega

theorem bal_joinC (ts : List (List Byte)) (h : ∀ t ∈ ts, Bal t) : Bal (joinC ts) := by
  induction ts with
  | nil => exact bal_bare (fun b hb => by cases hb)
  | cons t ts ih =>
    have := ih fun t ht => h t (by simp [ht])
    by_cases q : ts = []
    · subst q; exact h t (by simp)
    · rw [joinC_cons_ne _ _ q, show t ++ comma :: joinC ts = t ++ ([comma] ++ joinC ts) from rfl]
      refine bal_append (h t (by simp)) (bal_append (bal_bare ?_) this)
      intro b hb
      rw [List.mem_singleton] at hb
      subst hb; decide

theorem bal_listText (ts : List (List Byte)) (h : ∀ t ∈ ts, Bal t) : Bal (listText ts) := by
  unfold listText
  split
  · exact bal_bare (by unfold Bare; decide)
  · exact bal_paren (bal_joinC ts h)

variable (fmt : F64 → List Byte)

theorem bare_pair (hf : ∀ f, Bare (fmt f)) (p : Pt F64) : Bare (encodePair fmt p) := by
  unfold encodePair
  split
  · unfold Bare; decide
  · refine bare_append (bare_append (hf _) ?_) (hf _)
    intro b hb
    rw [List.mem_singleton] at hb
    subst hb; decide

theorem bal_points (hf : ∀ f, Bare (fmt f)) (ty : GType) (mp : List (Pt F64)) : Bal (pointsText fmt ty mp) := by
  apply bal_listText
  intro t ht
  obtain ⟨p, _, rfl⟩ := List.mem_map.1 ht
  exact bal_bare (bare_pair fmt hf p)

theorem bal_lines (hf : ∀ f, Bare (fmt f)) (ty : GType) (ls : List (List (Pt F64))) : Bal (linesText fmt ty ls) := by
  apply bal_listText
  intro t ht
  obtain ⟨p, _, rfl⟩ := List.mem_map.1 ht
  exact bal_points fmt hf ty p

/-- The shape of a written geometry: a bare tag, and then EMPTY or a parenthesised
text. -/
def Shape (t : List Byte) : Prop :=
  ∃ k ts, t = k ++ listText ts ∧ Bare k ∧ ∀ t ∈ ts, Bal t

theorem shape_bal {t : List Byte} (h : Shape t) : Bal t := by
  obtain ⟨k, ts, rfl, h1, h2⟩ := h
  exact bal_append (bal_bare h1) (bal_listText ts h2)

mutual
theorem text_shape (hf : ∀ f, Bare (fmt f)) (g : Geom F64) : Shape (text fmt g) ∨ text fmt g = [] := by
  cases g with
  | other => exact .inr rfl
  | point p =>
    left
    refine ⟨tagPoint, if numeric p then [encodePair fmt p] else [], ?_, by unfold Bare; decide, ?_⟩
    · rw [text]; congr 1; unfold encodePoint; rw [isEmptyPoint_eq]; cases numeric p <;> rfl
    · intro t ht
      split at ht
      · rw [List.mem_singleton] at ht; subst ht; exact bal_bare (bare_pair fmt hf p)
      · cases ht
  | multiPoint ps =>
    left
    refine ⟨tagMultiPoint, _, by rw [text]; rfl, by unfold Bare; decide, ?_⟩
    intro t ht
    obtain ⟨p, _, rfl⟩ := List.mem_map.1 ht
    exact bal_bare (bare_pair fmt hf p)
  | lineString ps =>
    left
    refine ⟨tagLineString, _, by rw [text]; rfl, by unfold Bare; decide, ?_⟩
    intro t ht
    obtain ⟨p, _, rfl⟩ := List.mem_map.1 ht
    exact bal_bare (bare_pair fmt hf p)
  | multiLineString ps =>
    left
    refine ⟨tagMultiLineString, _, by rw [text]; rfl, by unfold Bare; decide, ?_⟩
    intro t ht
    obtain ⟨p, _, rfl⟩ := List.mem_map.1 ht
    exact bal_points fmt hf _ p
  | polygon ps =>
    left
    refine ⟨tagPolygon, _, by rw [text]; rfl, by unfold Bare; decide, ?_⟩
    intro t ht
    obtain ⟨p, _, rfl⟩ := List.mem_map.1 ht
    exact bal_points fmt hf _ p
  | multiPolygon ps =>
    left
    refine ⟨tagMultiPolygon, _, by rw [text], by unfold Bare; decide, ?_⟩
    intro t ht
    obtain ⟨p, _, rfl⟩ := List.mem_map.1 ht
    exact bal_lines fmt hf _ p
  | collection gs =>
    left
    exact ⟨tagCollection, texts fmt gs, by rw [text], by unfold Bare; decide, texts_bal hf gs⟩
theorem texts_bal (hf : ∀ f, Bare (fmt f)) (gs : List (Geom F64)) : ∀ t ∈ texts fmt gs, Bal t := by
  cases gs with
  | nil => intro t ht; cases ht
  | cons g gs =>
    intro t ht
    rw [texts] at ht
    rcases List.mem_cons.1 ht with rfl | ht
    · rcases text_shape hf g with h | h
      · exact shape_bal h
      · rw [h]; exact bal_bare (fun b hb => by cases hb)
    · exact texts_bal hf gs t ht
end

/-- A proper prefix of a written geometry has no parenthesis or one that is not
closed. -/
theorem shape_prefix {t : List Byte} (h : Shape t) (p q : List Byte) (hq : q ≠ []) (e : t = p ++ q) :
    lparen ∉ p ∨ 1 ≤ depth p := by
  obtain ⟨k, ts, rfl, h1, h2⟩ := h
  have hk : lparen ∉ k := fun hk => (h1 _ hk).1 rfl
  rcases List.append_eq_append_iff.1 e with ⟨c, rfl, h⟩ | ⟨c, rfl, _⟩
  · unfold listText at h
    split at h
    · left
      have hb : Bare emptyText := by unfold Bare; decide
      intro hp
      rcases List.mem_append.1 hp with hp | hp
      · exact hk hp
      · exact (hb lparen (by rw [h]; simp [hp])).1 rfl
    · rcases paren_prefix (bal_joinC ts h2) c q hq h with rfl | hd
      · left; simpa using hk
      · right
        rw [depth_append, depth_bare k h1]; omega
  · left
    intro hp
    exact hk (by simp [hp])

end Verif.Wkt
