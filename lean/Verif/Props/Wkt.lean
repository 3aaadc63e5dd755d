import Verif.Lemmas.WktBack
import Verif.Lemmas.WktBal
import Verif.Spec.Wkt
import Verif.Props.Cmp

/-!
# WKT text (C16, C17, C62–C64)

`fmt` is the number formatter of the encoder, `parse` the number parser of the decoder
and `c` the comparison that tests whether a ring is closed.
-/

namespace Verif.Props
open Verif Verif.Wkt Verif.Spec.Wkb Verif.Spec.Wkt

/-- A parser takes neither nothing nor the letter E for a number. -/
def SaneParser (parse : List Byte → Option F64) : Prop := parse [] = none ∧ parse [0x45#8] = none

/-! ## Numbers for the examples -/

/-- 0, 1 and 2 as doubles. -/
def x0 : F64 := 0x0000000000000000#64
def x1 : F64 := 0x3FF0000000000000#64
def x2 : F64 := 0x4000000000000000#64

/-- A formatter and a parser that know the digits 0, 1, 2. -/
def digitFmt (f : F64) : List Byte := if f = x1 then [0x31#8] else if f = x2 then [0x32#8] else [0x30#8]
def digitParse (t : List Byte) : Option F64 :=
  if t = [0x31#8] then some x1 else if t = [0x32#8] then some x2 else if t = [0x30#8] then some x0 else none

theorem digit_readsBack (f : F64) (h : f = x0 ∨ f = x1 ∨ f = x2) : ReadsBack digitFmt digitParse id f := by
  rcases h with rfl | rfl | rfl <;> refine ⟨?_, by decide⟩ <;> intro b hb <;>
    · simp only [digitFmt, x0, x1, x2] at hb
      revert hb
      simp
      rintro rfl
      left; decide

/-- A comparison with tolerance 1e-6 and 4 bits. -/
def wktCmp : Cmp.Compare := ⟨0x3EB0C6F7A0B5ED8D#64, 4#64⟩

/-- Something of every kind; the first ring is closed, the second is not; there are a
NaN vertex and a repeated vertex. -/
def sampleGeom : Geom F64 :=
  .collection
    [ .point (x1, x2)
    , .multiPoint [(x1, x1), (x1, x1)]
    , .lineString [(x0, x0), (x0, x0), (0x7FF8000000000001#64, x1), (x1, x1)]
    , .multiLineString [[(x0, x1), (x1, x1)]]
    , .polygon [[(x0, x0), (x2, x0), (x2, x2), (x0, x0)]]
    , .multiPolygon [[[(x0, x0), (x2, x0), (x2, x2)]]] ]

theorem sample_onCoords : OnCoords (ReadsBack digitFmt digitParse id) sampleGeom := by
  have h0 := digit_readsBack x0 (by simp)
  have h1 := digit_readsBack x1 (by simp)
  have h2 := digit_readsBack x2 (by simp)
  have hn : numeric (0x7FF8000000000001#64, x1) = false := by decide
  simp only [sampleGeom, OnCoords, OnCoordsAll, List.mem_cons, List.not_mem_nil, or_false, forall_eq_or_imp, forall_eq,
    h0, h1, h2, and_self, implies_true, hn, Bool.false_eq_true, false_implies]

theorem sample_ready : Ready sampleGeom := by
  simp only [sampleGeom, Ready, ReadyAll, List.mem_cons, List.not_mem_nil, or_false, forall_eq_or_imp, forall_eq]
  decide +kernel

/-! ## C16 -/

/-- C16, most general form: what comes back is the geometry without NaN vertices,
vertices repeated in a row and repeated closing vertices, with every coordinate as the
formatter and the parser leave it, and exactly the text that was written is consumed.
Hypotheses: the parser reads the formatter's numbers, and takes Go-equal numbers to
Go-equal numbers. -/
theorem C16_round_trip_general (fmt : F64 → List Byte) (parse : List Byte → Option F64) (rnd : F64 → F64)
    (c : Cmp.Compare) (hc : Spec.Cmp.Positive c) (hpar : SaneParser parse)
    (hq : ∀ a b : F64, a.eq b = true → (rnd a).eq (rnd b) = true)
    (strict : Bool) (g : Geom F64) (t rest : List Byte) (he : encode fmt strict g = (t, none))
    (hfmt : OnCoords (ReadsBack fmt parse rnd) g) (hr : Ready g) :
    decodeRest parse c (t ++ rest) = .ok (mapCoords rnd (tidy g), rest) := by
  obtain ⟨ha, rfl⟩ := (encode_iff fmt strict g t).1 he
  exact (geom_reads fmt parse rnd c hc hq hpar.1 hpar.2 strict g ha hfmt).1 hr _ rest (by simp; omega)

example : Spec.Cmp.Positive wktCmp ∧ SaneParser digitParse ∧ OnCoords (ReadsBack digitFmt digitParse id) sampleGeom ∧
    Ready sampleGeom ∧ (encode digitFmt false sampleGeom).2 = none ∧ (encode digitFmt true sampleGeom).2 ≠ none := by
  refine ⟨⟨by decide, by decide⟩, ⟨by decide, by decide⟩, sample_onCoords, sample_ready, by decide +kernel, by decide +kernel⟩

/-- C16: a geometry that is not empty at any level, without NaN, without vertices
repeated in a row and with open rings, lines of 2 vertices and rings of 3 vertices at
least: encoding succeeds and decoding the text returns it, provided the parser reads
every formatted coordinate back. -/
theorem C16_round_trip (fmt : F64 → List Byte) (parse : List Byte → Option F64) (c : Cmp.Compare)
    (hc : Spec.Cmp.Positive c) (hpar : SaneParser parse) (g : Geom F64)
    (hfmt : OnCoords (ReadsBack fmt parse id) g) (hr : Ready g) (ht : tidy g = g) :
    ∃ t, encode fmt false g = (t, none) ∧ decode parse c t = .ok g := by
  refine ⟨text fmt g, (encode_iff fmt false g _).2 ⟨accepted_of_ready g hr, rfl⟩, ?_⟩
  have := C16_round_trip_general fmt parse id c hc hpar (fun _ _ h => h) false g (text fmt g) []
    ((encode_iff fmt false g _).2 ⟨accepted_of_ready g hr, rfl⟩) hfmt hr
  rw [List.append_nil, mapCoords_id, ht] at this
  rw [decode, this]; rfl

example : OnCoords (ReadsBack digitFmt digitParse id) (tidy sampleGeom) ∧ Ready (tidy sampleGeom) ∧
    tidy (tidy sampleGeom) = tidy sampleGeom := by
  have e : tidy sampleGeom = .collection
    [ .point (x1, x2)
    , .multiPoint [(x1, x1), (x1, x1)]
    , .lineString [(x0, x0), (x1, x1)]
    , .multiLineString [[(x0, x1), (x1, x1)]]
    , .polygon [[(x0, x0), (x2, x0), (x2, x2)]]
    , .multiPolygon [[[(x0, x0), (x2, x0), (x2, x2)]]] ] := by rfl
  rw [e]
  have h0 := digit_readsBack x0 (by simp)
  have h1 := digit_readsBack x1 (by simp)
  have h2 := digit_readsBack x2 (by simp)
  refine ⟨?_, ?_, by rfl⟩
  · simp only [OnCoords, OnCoordsAll, List.mem_cons, List.not_mem_nil, or_false, forall_eq_or_imp, forall_eq,
      h0, h1, h2, and_self, implies_true]
  · simp only [Ready, ReadyAll, List.mem_cons, List.not_mem_nil, or_false, forall_eq_or_imp, forall_eq]
    decide +kernel

/-- C16: a number whose text has a plus sign (as in 1e+21, which the default format
gives for large numbers) does not come back: the text is refused. -/
theorem C16_plus_refused (fmt : F64 → List Byte) (parse : List Byte → Option F64) (c : Cmp.Compare)
    (p : Pt F64) (hp : numeric p = true) (a b : List Byte) (ha : ∀ d ∈ a, NumChar d)
    (hplus : fmt p.1 = a ++ 0x2B#8 :: b) :
    ∃ t e, encode fmt false (.point p) = (t, none) ∧ decode parse c t = .error e := by
  refine ⟨text fmt (.point p), ?_⟩
  have e1 : text fmt (.point p) = tagPoint ++ encodePoint fmt p ++ [] := by rw [text, List.append_nil]
  have e2 : encodePoint fmt p = lparen :: (a ++ 0x2B#8 :: (b ++ [space] ++ fmt p.2 ++ [rparen])) := by
    unfold encodePoint encodePair
    rw [isEmptyPoint_eq, hp, hplus]
    simp
  obtain ⟨s1, t1, t2⟩ := tag_dropLast tagPoint (encodePoint fmt p) (by decide) (by decide) (by decide)
    ⟨lparen, _, e2, by decide, by decide⟩ []
  have hpt : ∃ e, readPoints parse (encodePoint fmt p) = .error e := by
    rw [e2]
    have hp2 : ∀ u, ∃ e, readPoint parse (a ++ 0x2B#8 :: u) = .error e := by
      intro u
      rw [readPoint, readFloat, readRun_complete isNumeric a (fun d hd => (isNumeric_iff d).2 (ha d hd)) 0x2B#8 u (by decide)]
      simp only []
      cases parse a with
      | none => exact ⟨_, rfl⟩
      | some f =>
        simp only []
        have := readWhitespace_complete [] (fun b hb => by cases hb) 0x2B#8 u (by decide)
        rw [List.nil_append] at this
        rw [this]
        exact ⟨.expected, rfl⟩
    have hst : ∃ d u, a ++ 0x2B#8 :: (b ++ [space] ++ fmt p.2 ++ [rparen]) = d :: u ∧ isSpace d = false ∧ d ≠ rparen := by
      cases a with
      | nil => exact ⟨0x2B#8, _, rfl, by decide, by decide⟩
      | cons d a =>
        have := (isNumeric_iff d).2 (ha d (by simp))
        exact ⟨d, _, rfl, numeric_not_space d this, numeric_not_rparen d this⟩
    obtain ⟨d, u, ed, h1, h2⟩ := hst
    have w := readWhitespace_complete [] (fun b hb => by cases hb) d u h1
    rw [List.nil_append] at w
    obtain ⟨e, he⟩ := hp2 (b ++ [space] ++ fmt p.2 ++ [rparen])
    refine ⟨e, ?_⟩
    rw [readPoints, readList]
    simp only [readByte]
    rw [if_neg (by simp), ed, w]
    simp only []
    rw [if_neg h2, ← ed]
    have hl : (a ++ 0x2B#8 :: (b ++ [space] ++ fmt p.2 ++ [rparen])).length =
        (a.length + (b ++ [space] ++ fmt p.2 ++ [rparen]).length) + 1 := by simp; omega
    rw [hl, readItems, he]
  obtain ⟨e, he⟩ := hpt
  refine ⟨e, (encode_iff fmt false _ _).2 ⟨trivial, rfl⟩, ?_⟩
  rw [decode, decodeRest, e1, readGeometry, t1]
  simp only []
  rw [t2]
  simp only [List.append_nil]
  rw [if_pos (by decide), he]
  rfl

example : numeric (x1, x2) = true ∧ (∀ d ∈ [0x31#8, 0x65#8], NumChar d) ∧
    (fun _ : F64 => [0x31#8, 0x65#8, 0x2B#8, 0x32#8]) x1 = [0x31#8, 0x65#8] ++ 0x2B#8 :: [0x32#8] := by
  refine ⟨by decide, ?_, rfl⟩
  intro d hd
  simp only [List.mem_cons, List.not_mem_nil, or_false] at hd
  rcases hd with rfl | rfl
  · left; decide
  · right; decide

/-! ## C17 -/

/-- C17: no proper prefix of a text the encoder produced is decoded, whatever the number
formatter (as long as numbers have no parentheses) and the number parser. -/
theorem C17_prefix_refused (fmt : F64 → List Byte) (parse : List Byte → Option F64) (c : Cmp.Compare)
    (hfmt : ∀ f, ∀ b ∈ fmt f, b ≠ 0x28#8 ∧ b ≠ 0x29#8) (strict : Bool) (g : Geom F64) (t p q : List Byte)
    (he : encode fmt strict g = (t, none)) (ht : t = p ++ q) (hq : q ≠ []) :
    ∃ e, decode parse c p = .error e := by
  cases hd : decodeRest parse c p with
  | error e => exact ⟨e, by rw [decode, hd]; rfl⟩
  | ok x =>
    exfalso
    obtain ⟨g', r⟩ := x
    obtain ⟨t', rfl, hT⟩ := (geometry_sound parse c _).1 p g' r hd
    obtain ⟨d1, d2⟩ := text_depth parse _ g' t' hT
    obtain ⟨_, rfl⟩ := (encode_iff fmt strict g t).1 he
    rcases text_shape fmt hfmt g with hs | hs
    · rcases shape_prefix hs t' (r ++ q) (by simp [hq]) (by rw [ht]; simp) with h | h
      · exact h d2
      · omega
    · rw [hs] at ht
      have : q = [] := by
        have := congrArg List.length ht
        simp at this
        exact List.length_eq_zero_iff.1 (by omega)
      exact hq this

example : (∀ f, ∀ b ∈ digitFmt f, b ≠ 0x28#8 ∧ b ≠ 0x29#8) ∧ (encode digitFmt false sampleGeom).2 = none ∧
    10 < (encode digitFmt false sampleGeom).1.length := by
  refine ⟨?_, by decide +kernel, by decide +kernel⟩
  intro f b hb
  unfold digitFmt at hb
  split at hb
  · rw [List.mem_singleton] at hb; subst hb; decide
  · split at hb <;> rw [List.mem_singleton] at hb <;> subst hb <;> decide

/-! ## C62 -/

/-- C62: the decoder accepts exactly the texts that begin with WKT text of some
geometry, returns that geometry and leaves the rest unread. -/
theorem C62_accepts_exactly (parse : List Byte → Option F64) (c : Cmp.Compare) (h0 : parse [] = none)
    (s : List Byte) (g : Geom F64) :
    decode parse c s = .ok g ↔ ∃ t rest, s = t ++ rest ∧ Text parse c.pointEqual g t := by
  unfold decode
  constructor
  · intro h
    cases hd : decodeRest parse c s with
    | error e => rw [hd] at h; simp [Except.map] at h
    | ok x =>
      rw [hd] at h
      obtain ⟨g', r⟩ := x
      simp only [Except.map, Except.ok.injEq] at h
      subst h
      obtain ⟨t, e, ht⟩ := (decodeRest_iff parse c h0 s g' r).1 hd
      exact ⟨t, r, e, ht⟩
  · rintro ⟨t, r, e, ht⟩
    rw [(decodeRest_iff parse c h0 s g r).2 ⟨t, e, ht⟩]; rfl

example : digitParse [] = none ∧
    decode digitParse wktCmp ((encode digitFmt false sampleGeom).1 ++ [0x58#8]) = .ok (tidy sampleGeom) := by
  refine ⟨by decide, ?_⟩
  have e : encode digitFmt false sampleGeom = ((encode digitFmt false sampleGeom).1, none) := by
    have : (encode digitFmt false sampleGeom).2 = none := by decide +kernel
    rw [← this]
  have := C16_round_trip_general digitFmt digitParse id wktCmp ⟨by decide, by decide⟩ ⟨by decide, by decide⟩
    (fun _ _ h => h) false sampleGeom _ [0x58#8] e sample_onCoords sample_ready
  rw [mapCoords_id] at this
  rw [decode, this]; rfl

/-- C62: WKT text determines the geometry: no text begins with texts of two
geometries. -/
theorem C62_unambiguous (parse : List Byte → Option F64) (c : Cmp.Compare) (h0 : parse [] = none)
    (t t' r r' : List Byte) (g g' : Geom F64) (h : Text parse c.pointEqual g t) (h' : Text parse c.pointEqual g' t')
    (e : t ++ r = t' ++ r') : g = g' ∧ t = t' := by
  have h1 := (decodeRest_iff parse c h0 (t ++ r) g r).2 ⟨t, rfl, h⟩
  have h2 := (decodeRest_iff parse c h0 (t ++ r) g' r').2 ⟨t', e, h'⟩
  rw [h1] at h2
  simp only [Except.ok.injEq, Prod.mk.injEq] at h2
  obtain ⟨rfl, rfl⟩ := h2
  exact ⟨rfl, List.append_cancel_right e⟩

example : Text digitParse wktCmp.pointEqual (.point (x1, x2))
    [0x50#8, 0x6F#8, 0x69#8, 0x6E#8, 0x54#8, 0x28#8, 0x31#8, 0x20#8, 0x32#8, 0x29#8] := by
  refine .point _ [0x28#8, 0x31#8, 0x20#8, 0x32#8, 0x29#8] _ (.some [] _ [0x31#8, 0x20#8, 0x32#8] [] (by simp [Blank]) (.one _ _ ?_) (by simp [Blank]))
    ⟨[], [0x50#8, 0x6F#8, 0x69#8, 0x6E#8, 0x54#8], [], rfl, by simp [Blank], by simp [Blank], by decide⟩
  exact ⟨[0x31#8], [0x20#8], [0x32#8], rfl, digit_readsBack x1 (by simp), by simp [Blank], by simp, digit_readsBack x2 (by simp)⟩

/-- C62: decoding ends with a geometry or one of the decoder's errors; the bound of the
recursion in the model is never reached. -/
theorem C62_terminates (parse : List Byte → Option F64) (c : Cmp.Compare) (s : List Byte) :
    decodeRest parse c s ≠ .error .fuel := decode_no_fuel parse c s

example : decodeRest digitParse wktCmp (asc ['P', 'O', 'I', 'N', 'T', ' ', '(', '1', ' ', '2']) = .error .eof := by rfl

/-! ## C63 -/

/-- C63: the encoder accepts exactly the geometries described by `Accepted`. -/
theorem C63_accepts_exactly (fmt : F64 → List Byte) (strict : Bool) (g : Geom F64) :
    (encode fmt strict g).2 = none ↔ Accepted strict g := by
  constructor
  · intro h
    exact ((encode_iff fmt strict g (encode fmt strict g).1).1 (by rw [← h])).1
  · intro h
    rw [(encode_iff fmt strict g (text fmt g)).2 ⟨h, rfl⟩]

example : Accepted false sampleGeom ∧ ¬ Accepted true sampleGeom :=
  ⟨(C63_accepts_exactly digitFmt false _).1 (by decide +kernel), fun h =>
    absurd ((C63_accepts_exactly digitFmt true _).2 h) (by decide +kernel)⟩

/-- C63: strict mode only refuses; it never changes the text. -/
theorem C63_strict_same_text (fmt : F64 → List Byte) (g : Geom F64) (t : List Byte)
    (h : encode fmt true g = (t, none)) : encode fmt false g = (t, none) := by
  obtain ⟨a, rfl⟩ := (encode_iff fmt true g t).1 h
  exact (encode_iff fmt false g _).2 ⟨accepted_strict g a, rfl⟩

example : (encode digitFmt true (.polygon [[(x0, x0), (x2, x0), (x2, x2)]])).2 = none ∧
    (encode digitFmt true (.polygon [[(x0, x0), (x2, x0), (x2, x2)], []])).2 ≠ none ∧
    (encode digitFmt false (.polygon [[(x0, x0), (x2, x0), (x2, x2)], []])).2 = none ∧
    (encode digitFmt false (.polygon [[(x0, x0), (x2, x0)], []])).2 ≠ none := by decide +kernel

/-! ## C64 -/

/-- C64, full statement: what the encoder writes the decoder reads. -/
def C64_full : Prop :=
  ∀ (fmt : F64 → List Byte) (parse : List Byte → Option F64) (c : Cmp.Compare), Spec.Cmp.Positive c → SaneParser parse →
    ∀ (g : Geom F64) (t : List Byte), OnCoords (ReadsBack fmt parse id) g → encode fmt false g = (t, none) →
      ∃ g', decode parse c t = .ok g'

/-- C64 is violated: the text of a point with a NaN coordinate is POINT EMPTY, which the
decoder refuses. -/
theorem C64_violated : ¬ C64_full := by
  intro h
  obtain ⟨g', hg⟩ := h digitFmt digitParse wktCmp ⟨by decide, by decide⟩ ⟨by decide, by decide⟩
    (.point (0x7FF8000000000001#64, x1)) _ (fun q => absurd q (by decide)) rfl
  revert hg
  have : decode digitParse wktCmp (encode digitFmt false (.point (0x7FF8000000000001#64, x1))).1 = .error .expected := by rfl
  intro hg
  have e := this.symm.trans hg
  cases e

/-- C64 is violated without NaN and without anything empty: a ring of two vertices with
its closing vertex is accepted by the encoder and refused by the decoder. -/
theorem C64_violated_ring : ∃ (fmt : F64 → List Byte) (parse : List Byte → Option F64) (c : Cmp.Compare) (g : Geom F64)
    (t : List Byte), Spec.Cmp.Positive c ∧ SaneParser parse ∧ OnCoords (ReadsBack fmt parse id) g ∧
      (∃ a b, g = .polygon [[a, b, a]] ∧ numeric a = true ∧ numeric b = true ∧ samePoint a b = false) ∧
      encode fmt true g = (t, none) ∧ decode parse c t = .error .size := by
  refine ⟨digitFmt, digitParse, wktCmp, .polygon [[(x0, x0), (x2, x0), (x0, x0)]], _, ⟨by decide, by decide⟩,
    ⟨by decide, by decide⟩, ?_, ⟨(x0, x0), (x2, x0), rfl, by decide, by decide, by decide⟩, rfl, rfl⟩
  rw [OnCoords]
  intro l hl p hp _
  rw [List.mem_singleton] at hl
  subst hl
  simp only [List.mem_cons, List.not_mem_nil, or_false] at hp
  rcases hp with rfl | rfl | rfl <;> exact ⟨digit_readsBack _ (by simp), digit_readsBack _ (by simp)⟩

/-- C64, exact: the text is read if and only if nothing in it is EMPTY and every ring
has 3 vertices without its closing vertex. -/
theorem C64_reads_iff_partial (fmt : F64 → List Byte) (parse : List Byte → Option F64) (c : Cmp.Compare)
    (hc : Spec.Cmp.Positive c) (hpar : SaneParser parse) (strict : Bool) (g : Geom F64) (t : List Byte)
    (hfmt : OnCoords (ReadsBack fmt parse id) g) (he : encode fmt strict g = (t, none)) :
    (∃ g', decode parse c t = .ok g') ↔ Ready g := by
  obtain ⟨ha, rfl⟩ := (encode_iff fmt strict g t).1 he
  have key := geom_reads fmt parse id c hc (fun _ _ h => h) hpar.1 hpar.2 strict g ha hfmt
  constructor
  · rintro ⟨g', h⟩
    by_contra hn
    obtain ⟨e, h2⟩ := key.2 hn (2 * (text fmt g).length + 2) [] (by omega)
    rw [List.append_nil] at h2
    rw [decode, decodeRest, h2] at h
    simp [Except.map] at h
  · intro hr
    have := key.1 hr (2 * (text fmt g).length + 2) [] (by omega)
    rw [List.append_nil] at this
    exact ⟨_, by rw [decode, decodeRest, this]; rfl⟩

example : OnCoords (ReadsBack digitFmt digitParse id) sampleGeom ∧ (encode digitFmt false sampleGeom).2 = none :=
  ⟨sample_onCoords, by decide +kernel⟩

end Verif.Props
