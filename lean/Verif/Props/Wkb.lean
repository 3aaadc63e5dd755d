import Verif.Lemmas.WkbEnc

/-!
# WKB properties (C01–C05)

The vocabulary (`Encodable`, `NumericRings`, `openRings`, `Wire`) is in
`Verif/Spec/Wkb.lean`.
-/

namespace Verif.Props
open Verif Verif.Wkb Verif.Spec.Wkb

/-- A small geometry used in the non-vacuity examples: a collection holding a
point, a polygon with a closed and an open ring, and a nested collection. -/
def wkbSample : Geom F64 :=
  .collection [.point (F64.one, F64.negZero),
    .polygon [[(F64.zero, F64.zero), (F64.one, F64.zero), (F64.one, F64.one), (F64.zero, F64.zero)],
              [(F64.zero, F64.one), (F64.posInf, F64.nan), (F64.one, F64.one)]],
    .collection [.multiLineString [[], [(F64.one, F64.one)]], .multiPoint []]]

theorem wkbSample_encodable : Encodable wkbSample := by
  simp [wkbSample, Encodable, EncodableAll, fits]

theorem wkbSample_numeric : NumericRings wkbSample := by
  simp [wkbSample, NumericRings, NumericRingsAll, startsNumeric, F64.isNaN, F64.mag, F64.infMag,
    F64.one, 
    F64.zero]

/-! ## C01 -/

/-- C01: whatever the byte order, encoding succeeds and decoding the bytes gives
the geometry back (bit for bit), rings without their repeated closing vertex. -/
theorem C01_wkb_roundtrip (o : Order) (g : Geom F64) (hg : Encodable g) (hn : NumericRings g) :
    ∃ bs, encode o g = some bs ∧ decodeBytes bs = .ok (openRings g) := by
  have hb := noBad_of_encodable o g hg
  refine ⟨dataOf (items o g), by rw [encode_eq, if_pos hb], ?_⟩
  have := (decode_iff (dataOf (items o g)) (openRings g) []).2
    ⟨_, (List.append_nil _).symm, wire_items o g hg hn⟩
  simp [decodeBytes, this]

example : Encodable wkbSample ∧ NumericRings wkbSample :=
  ⟨wkbSample_encodable, wkbSample_numeric⟩

/-- C01, the identity part: a geometry none of whose rings repeats its first
vertex at the end comes back exactly. -/
theorem C01_wkb_roundtrip_open (o : Order) (g : Geom F64) (hg : Encodable g) (hn : NumericRings g)
    (hopen : openRings g = g) :
    ∃ bs, encode o g = some bs ∧ decodeBytes bs = .ok g := by
  have := C01_wkb_roundtrip o g hg hn
  rwa [hopen] at this

example : ∃ g, Encodable g ∧ NumericRings g ∧ openRings g = g ∧
    g = .polygon [[(F64.zero, F64.zero), (F64.one, F64.zero), (F64.one, F64.one)]] := by
  refine ⟨_, ?_, ?_, ?_, rfl⟩
  · simp [Encodable, fits]
  · simp [NumericRings, startsNumeric, F64.isNaN, F64.mag, F64.infMag, F64.zero]
  · decide +kernel

/-- C01 fails for a ring that starts with NaN: the encoder thinks the ring is not
closed and appends its first vertex, and the decoder does not take it off. -/
theorem C01_wkb_nan_ring_not_preserved :
    ∃ (o : Order) (g : Geom F64), Encodable g ∧
      ∃ bs g', encode o g = some bs ∧ decodeBytes bs = .ok g' ∧ g' ≠ openRings g := by
  refine ⟨.little, .polygon [[(F64.nan, F64.zero)]], by simp [Encodable, fits],
    (encode .little (.polygon [[(F64.nan, F64.zero)]])).get (by decide +kernel),
    .polygon [[(F64.nan, F64.zero), (F64.nan, F64.zero)]], by simp, by decide +kernel,
    by decide +kernel⟩

/-! ## C02 -/

/-- Reading `n` geometries one after another from a stream. -/
def readMany : Nat → List Byte → Option (List (Geom F64) × List Byte)
  | 0, s => some ([], s)
  | n + 1, s =>
    match decode s with
    | .error _ => none
    | .ok (g, s') => (readMany n s').map (fun r => (g :: r.1, r.2))

/-- C02: any sequence of geometries, each written in its own byte order, one
after another, is read back as the same sequence, and exactly the bytes written
after it are left, whatever they are. -/
theorem C02_wkb_stream (ogs : List (Order × Geom F64)) (rest : List Byte)
    (h : ∀ og ∈ ogs, Encodable og.2 ∧ NumericRings og.2) :
    ∃ chunks : List (List Byte), ogs.map (fun og => encode og.1 og.2) = chunks.map some ∧
      readMany ogs.length (chunks.flatten ++ rest) = some (ogs.map (fun og => openRings og.2), rest) := by
  induction ogs with
  | nil => exact ⟨[], rfl, rfl⟩
  | cons og ogs ih =>
    obtain ⟨cs, h1, h2⟩ := ih (fun x hx => h x (by simp [hx]))
    obtain ⟨he, hn⟩ := h og (by simp)
    refine ⟨dataOf (items og.1 og.2) :: cs, ?_, ?_⟩
    · rw [List.map_cons, h1, encode_eq, if_pos (noBad_of_encodable _ _ he)]; rfl
    · have := (decode_iff (dataOf (items og.1 og.2) ++ (cs.flatten ++ rest)) (openRings og.2)
        (cs.flatten ++ rest)).2 ⟨_, rfl, wire_items og.1 og.2 he hn⟩
      simp [readMany, this, h2]

example : ∀ og ∈ [(Order.big, wkbSample), (Order.little, wkbSample)],
    Encodable og.2 ∧ NumericRings og.2 := by
  simp [wkbSample_encodable, wkbSample_numeric]

/-! ## C03 -/

/-- C03: cutting an encoding anywhere before its end makes decoding fail. -/
theorem C03_wkb_truncated (o : Order) (g : Geom F64) (hg : Encodable g) (hn : NumericRings g)
    (bs : List Byte) (henc : encode o g = some bs) (k : Nat) (hk : k < bs.length) :
    ∃ e, decodeBytes (bs.take k) = .error e := by
  have hb := noBad_of_encodable o g hg
  rw [encode_eq, if_pos hb, Option.some.injEq] at henc
  cases hd : decode (bs.take k) with
  | error e => exact ⟨e, by simp [decodeBytes, hd]⟩
  | ok r =>
    obtain ⟨g', rest⟩ := r
    exfalso
    obtain ⟨u, hu, hw⟩ := (decode_iff _ _ _).1 hd
    have h1 := (decode_iff bs g' (rest ++ bs.drop k)).2
      ⟨u, by rw [← List.append_assoc, ← hu, List.take_append_drop], hw⟩
    have h2 := (decode_iff bs (openRings g) []).2
      ⟨bs, by simp, henc ▸ wire_items o g hg hn⟩
    rw [h1] at h2
    have h3 : rest ++ bs.drop k = [] := by
      have := Except.ok.inj h2
      exact (Prod.mk.inj this).2
    have h4 : (bs.drop k).length = 0 := by
      have := (List.append_eq_nil_iff.1 h3).2
      simp [this]
    simp at h4; omega

example : ∃ bs, encode .big wkbSample = some bs ∧ 100 < bs.length :=
  ⟨(encode .big wkbSample).get (by decide +kernel), by simp, by decide +kernel⟩

/-! ## C04 -/

/-- C04, any writer: what reaches the destination is a prefix of the full
encoding, and if no error is reported it is all of it. -/
theorem C04_wkb_any_writer (w : Writer) (o : Order) (g : Geom F64) (bs : List Byte)
    (henc : encode o g = some bs) :
    (encodeTo w o g).1 <+: bs ∧ ((encodeTo w o g).2 = none → (encodeTo w o g).1 = bs) := by
  rw [encode_eq] at henc
  split at henc
  · rw [Option.some.injEq] at henc
    subst henc
    obtain ⟨⟨s, h1, h2⟩, h3⟩ := run_prefix w {} rfl (items o g)
    simp only [encodeTo, geometry_run]
    refine ⟨by rw [h1]; simpa using h2, fun h => ?_⟩
    simpa using (h3 h).2
  · simp at henc

example : ∃ bs, encode .little wkbSample = some bs ∧
    (encodeTo (limitedWriter 30) .little wkbSample).1 ≠ bs :=
  ⟨(encode .little wkbSample).get (by decide +kernel), by simp, by decide +kernel⟩

/-- C04, a writer that accepts exactly `n` bytes: an error is reported exactly if
the encoding is longer than `n`, and exactly the first `n` bytes are written. -/
theorem C04_wkb_limited_writer (o : Order) (g : Geom F64) (bs : List Byte) (n : Nat)
    (henc : encode o g = some bs) :
    (encodeTo (limitedWriter n) o g).1 = bs.take n ∧
    ((encodeTo (limitedWriter n) o g).2 ≠ none ↔ n < bs.length) := by
  rw [encode_eq] at henc
  split at henc
  · rename_i hb
    rw [Option.some.injEq] at henc
    subst henc
    have := run_limited n {} rfl rfl (by simp) (items o g) hb
    simp only [encodeTo, geometry_run]
    refine ⟨by simpa using this.1, ?_⟩
    have h2 := this.2
    simp only [List.nil_append] at h2
    rw [Ne, h2]; omega
  · simp at henc

example : ∃ bs, encode .little wkbSample = some bs ∧ 17 < bs.length :=
  ⟨(encode .little wkbSample).get (by decide +kernel), by simp, by decide +kernel⟩

/-- C04: once a write has failed the writer is not called again: whatever the
writer would do after its first failure makes no difference. -/
theorem C04_wkb_no_write_after_failure (w w' : Writer) (o : Order) (g : Geom F64)
    (hsame : ∀ h d, (∀ p s, p ++ [s] <+: h → w p s = none) → w h d = w' h d) :
    encodeTo w o g = encodeTo w' o g := by
  have key : ∀ (is : List Item) (e : Enc),
      (∀ p s, p ++ [s] <+: e.writes → w p s = none) → run w e is = run w' e is := by
    intro is
    induction is with
    | nil => intro e _; rfl
    | cons i is ih =>
      intro e he
      change run w (step w e i) is = run w' (step w' e i) is
      have hstep : step w e i = step w' e i := by
        cases i with
        | bad => rfl
        | data bs =>
          simp only [step, Enc.write]
          rw [hsame e.writes bs he]
      rw [← hstep]
      cases hs : (step w e i).err with
      | some x => rw [run_err, run_err] <;> simp [hs]
      | none =>
        refine ih _ ?_
        intro p s hp
        cases i with
        | bad =>
          simp only [step] at hs hp
          split at hs <;> simp_all
        | data bs =>
          simp only [step, Enc.write] at hs hp
          cases he2 : e.err with
          | some _ => rw [he2] at hs; simp [he2] at hs
          | none =>
            simp only [he2] at hs hp
            cases hw : w e.writes bs with
            | some k => simp [hw] at hs
            | none =>
              simp only [hw] at hp
              rw [List.prefix_concat_iff] at hp
              rcases hp with hp | hp
              · have := List.append_inj' hp rfl
                obtain ⟨rfl, h2⟩ := this
                rw [List.singleton_inj] at h2
                rw [h2]; exact hw
              · exact he p s hp
  have := key (items o g) {} (by
    intro p s hp
    have := hp.length_le
    simp at this)
  simp [encodeTo, geometry_run, this]

example : ∃ w w' : Writer, (∃ h d, w h d ≠ w' h d) ∧
    ∀ h d, (∀ p s, p ++ [s] <+: h → w p s = none) → w h d = w' h d := by
  refine ⟨fun h _ => if h.length = 0 then some 1 else none,
    fun h _ => if h.length = 0 then some 1 else some 7, ⟨[[]], [], by simp⟩, ?_⟩
  intro h d hp
  cases h with
  | nil => rfl
  | cons a t => have := hp [] a (by simp); simp at this

/-- C04: values that are not geometries are refused. -/
theorem C04_wkb_encode_some_iff (o : Order) (g : Geom F64) :
    (∃ bs, encode o g = some bs) ↔ hasOther g = false := by
  rw [encode_eq]
  have key : noBad (items o g) = !hasOther g := by
    induction g using Geom.induct with
    | collection gs ih =>
      have aux : ∀ gs : List (Geom F64), (∀ g ∈ gs, noBad (items o g) = !hasOther g) →
          noBad (itemsAll o gs) = !hasOtherAny gs := by
        intro gs
        induction gs with
        | nil => intro _; rfl
        | cons g gs ihg =>
          intro h
          rw [itemsAll, noBad_append, h g (by simp), ihg (fun g' h' => h g' (by simp [h'])),
            hasOtherAny]
          simp
      rw [items, noBad_append, noBad_append, aux gs ih, hasOther]
      rfl
    | other => rfl
    | _ => simp [items, hasOther]; try rfl
  rw [key]
  cases hasOther g <;> simp

example : hasOther wkbSample = false ∧ hasOther (.collection [.point (F64.one, F64.one), .other]) := by
  decide +kernel

/-! ## C05 -/

/-- C05: decoding succeeds exactly on the well-formed records (followed by
anything), with exactly the geometry the record describes. -/
theorem C05_wkb_decode_iff_wire (bs : List Byte) (g : Geom F64) (rest : List Byte) :
    decode bs = .ok (g, rest) ↔ ∃ record, bs = record ++ rest ∧ Wire g record :=
  decode_iff bs g rest

example : ∃ g u, Wire g u ∧ 20 < u.length ∧ decode (u ++ [3#8]) = .ok (g, [3#8]) :=
  ⟨.point (F64.one, F64.nan), _, .point .big _, by decide +kernel, by decide +kernel⟩

/-- C05: the first byte must be 0 or 1. -/
theorem C05_wkb_bad_bom (b : Byte) (bs : List Byte) (h0 : b ≠ 0#8) (h1 : b ≠ 1#8) :
    decodeBytes (b :: bs) = .error (.badBom b) := by
  simp [decodeBytes, decode, byteOrderType, h0, h1]; rfl

example : (2#8 : Byte) ≠ 0#8 ∧ (2#8 : Byte) ≠ 1#8 := by decide

/-- C05: the geometry code must be one of 1 … 7. -/
theorem C05_wkb_bad_code (e : Endian) (code : Nat) (bs : List Byte) (hc : code < 2 ^ 32)
    (hbad : ¬ (1 ≤ code ∧ code ≤ 7)) :
    ∃ err, decodeBytes (header e code ++ bs) = .error err := by
  cases hd : decode (header e code ++ bs) with
  | error er => exact ⟨er, by simp [decodeBytes, hd]⟩
  | ok r =>
    exfalso
    obtain ⟨g, rest⟩ := r
    obtain ⟨u, hu, hw⟩ := (decode_iff _ _ _).1 hd
    have key : ∀ e', ∀ c, 1 ≤ c → c ≤ 7 → ∀ t t' : List Byte,
        header e code ++ t = header e' c ++ t' → False := by
      intro e' c hc1 hc2 t t' heq
      have hh : header e code = header e' c := by
        refine (List.append_inj heq ?_).1
        cases e <;> cases e' <;> rfl
      have h32 : code = c := by
        cases e <;> cases e' <;> simp [header, u32, octet] at hh <;>
          · obtain ⟨a1, a2, a3, a4⟩ := hh
            have b1 := congrArg BitVec.toNat a1
            have b2 := congrArg BitVec.toNat a2
            have b3 := congrArg BitVec.toNat a3
            have b4 := congrArg BitVec.toNat a4
            simp at b1 b2 b3 b4
            omega
      omega
    cases hw <;> rw [List.append_assoc] at hu <;> exact key _ _ (by omega) (by omega) _ _ hu

example : (8 : Nat) < 2 ^ 32 ∧ ¬ (1 ≤ 8 ∧ 8 ≤ 7) := by decide

/-- C05: a member of a multi geometry with the wrong code, or with a byte-order
mark other than 0 and 1, makes the whole value unreadable.  `code` is the code of
multipoint, multilinestring or multipolygon, whose members must have code
`code - 3`; `ms` are good members in front of the offending one. -/
theorem C05_wkb_bad_member (e : Endian) (code n : Nat) (ms : List (List Byte)) (bad : List Byte)
    (hc : 4 ≤ code ∧ code ≤ 6) (hn : n < 2 ^ 32) (hlt : ms.length < n)
    (hgood : ∀ m ∈ ms, (∃ g, Wire g m) ∧ ∃ e' v, m = header e' (code - 3) ++ v)
    (hbad : ∀ e' v, bad ≠ header e' (code - 3) ++ v) :
    ∃ err, decodeBytes (header e code ++ (u32 e n ++ (ms.flatten ++ bad))) = .error err := by
  have h4 : ∃ err, decode (header e code ++ (u32 e n ++ (ms.flatten ++ bad))) = .error err := by
    simp only [decode, byteOrderType_append e code (by omega), bind, Except.bind, u32_eq]
    have : code = 4 ∨ code = 5 ∨ code = 6 := by omega
    rcases this with rfl | rfl | rfl
    · obtain ⟨er, h⟩ := multi_bad (t := 1) (by decide) Geom.point (by intros; rfl) (toO e) n hn ms bad
        hlt hgood hbad
      exact ⟨er, by simp [body, tPoint, tLineString, tPolygon, tMultiPoint, multiPoint, h, bind,
        Except.bind]⟩
    · obtain ⟨er, h⟩ := multi_bad (t := 2) (by decide) Geom.lineString (by intros; rfl) (toO e) n hn ms
        bad hlt hgood hbad
      exact ⟨er, by simp [body, tPoint, tLineString, tPolygon, tMultiPoint, tMultiLineString,
        multiLineString, h, bind, Except.bind]⟩
    · obtain ⟨er, h⟩ := multi_bad (t := 3) (by decide) Geom.polygon (by intros; rfl) (toO e) n hn ms
        bad hlt hgood hbad
      exact ⟨er, by simp [body, tPoint, tLineString, tPolygon, tMultiPoint, tMultiLineString,
        tMultiPolygon, multiPolygon, h, bind, Except.bind]⟩
  obtain ⟨er, h⟩ := h4
  exact ⟨er, by simp [decodeBytes, h]⟩

example : (∀ m ∈ [header .big 1 ++ position .big (F64.one, F64.one)],
      (∃ g, Wire g m) ∧ ∃ e' v, m = header e' (4 - 3) ++ v) ∧
    (∀ e' v, header .little 2 ≠ header e' (4 - 3) ++ v) := by
  constructor
  · intro m hm
    rw [List.mem_singleton] at hm
    exact ⟨⟨_, hm ▸ Wire.point _ _⟩, _, _, hm⟩
  · intro e' v; cases e' <;> simp [header, u32, octet]

end Verif.Props
