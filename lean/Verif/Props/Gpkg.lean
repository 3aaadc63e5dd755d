import Verif.Lemmas.Gpkg
import Verif.Spec.Gpkg
import Verif.Props.Wkb
import Verif.Props.Extent

/-!
# GeoPackage blobs (C13–C15) and emptiness (C51, C52)
-/

namespace Verif.Props
open Verif Verif.Wkb Verif.Gpkg Verif.Spec.Wkb Verif.Spec.Extent Verif.Spec.Gpkg

/-! ## C13 -/

/-- C13: the flag byte reports back the byte order, envelope type, extended and
empty markers it was built from; bits 6 and 7 are zero. -/
theorem C13_flags_faithful (o : Order) (et : Byte) (extend empty : Bool) (het : et.toNat < 5) :
    flagEndian (encodeFlags o et extend empty) = o ∧
    flagEnvelope (encodeFlags o et extend empty) = et ∧
    flagIsStandard (encodeFlags o et extend empty) = !extend ∧
    flagIsEmpty (encodeFlags o et extend empty) = empty ∧
    (encodeFlags o et extend empty).toNat < 64 := by
  have : et = 0#8 ∨ et = 1#8 ∨ et = 2#8 ∨ et = 3#8 ∨ et = 4#8 := by
    have h := BitVec.ofNat_toNat 8 et
    simp only [BitVec.setWidth_eq] at h
    rw [← h]
    generalize et.toNat = n at het
    match n, het with
    | 0, _ => simp
    | 1, _ => simp
    | 2, _ => simp
    | 3, _ => simp
    | 4, _ => simp
  rcases this with rfl | rfl | rfl | rfl | rfl <;> cases o <;> cases extend <;> cases empty <;> decide

example : (3#8).toNat < 5 := by decide

/-- C13: two different settings never share a flag byte. -/
theorem C13_flags_injective (o o' : Order) (et et' : Byte) (x x' m m' : Bool)
    (h1 : et.toNat < 5) (h2 : et'.toNat < 5) (h : encodeFlags o et x m = encodeFlags o' et' x' m') :
    o = o' ∧ et = et' ∧ x = x' ∧ m = m' := by
  obtain ⟨a1, a2, a3, a4, _⟩ := C13_flags_faithful o et x m h1
  obtain ⟨b1, b2, b3, b4, _⟩ := C13_flags_faithful o' et' x' m' h2
  rw [h] at a1 a2 a3 a4
  refine ⟨a1.symm.trans b1, a2.symm.trans b2, ?_, a4.symm.trans b4⟩
  have := a3.symm.trans b3
  simpa using this

example : encodeFlags .big 2#8 true false = encodeFlags .big 2#8 true false ∧
    encodeFlags .big 2#8 true false ≠ encodeFlags .little 2#8 true false := by decide

/-! ## C14 -/

/-- C14: `NewBinaryHeader` accepts exactly the envelopes with the number of
doubles of their type. -/
theorem C14_newHeader_iff (o : Order) (srs : BitVec 32) (env : List F64) (et : Byte)
    (extend empty : Bool) :
    (newHeader o srs env et extend empty).isSome = true ↔ doubles et.toNat = some env.length := by
  have key : ∀ et : Byte, (doubles et.toNat).map (Int.ofNat) =
      if numElements et < 0 then none else some (numElements et) := by decide +kernel
  have hk := key et
  unfold newHeader
  split
  · rename_i hne
    simp only [Option.isSome_none, Bool.false_eq_true, false_iff]
    intro hd
    rw [hd] at hk
    simp only [Option.map_some] at hk
    split at hk
    · cases hk
    · exact hne (by rw [Option.some.injEq] at hk; exact hk.symm)
  · rename_i he
    simp only [ne_eq, Decidable.not_not] at he
    simp only [Option.isSome_some, true_iff]
    rw [he, if_neg (by omega)] at hk
    cases hd : doubles et.toNat with
    | none => rw [hd] at hk; cases hk
    | some n =>
      rw [hd] at hk
      simp only [Option.map_some, Option.some.injEq] at hk
      exact congrArg some (Int.ofNat.inj hk)

/-- C14: a header built by `NewBinaryHeader`, followed by any bytes, decodes to
itself; it reports the srs id, envelope, byte order, envelope type and markers it
was built with, and its size is the number of header bytes. -/
theorem C14_header_roundtrip (o : Order) (srs : BitVec 32) (env : List F64) (et : Byte)
    (extend empty : Bool) (h : Header) (hn : newHeader o srs env et extend empty = some h)
    (rest : List Byte) :
    decodeHeader (h.encode ++ rest) = .ok h ∧ h.encode.length = h.size ∧
    h.srsid = srs ∧ h.envelope = env ∧ flagEndian h.flags = o ∧ flagEnvelope h.flags = et ∧
    flagIsStandard h.flags = !extend ∧ flagIsEmpty h.flags = empty := by
  obtain ⟨hok, he, hs, hf, hne⟩ := new_ok hn
  have het : et.toNat < 5 := by
    rcases et_cases hne with ⟨rfl, _⟩ | ⟨rfl, _⟩ | ⟨rfl, _⟩ | ⟨rfl, _⟩ | ⟨rfl, _⟩ <;> decide
  obtain ⟨a1, a2, a3, a4, _⟩ := C13_flags_faithful o et extend empty het
  refine ⟨decode_encode h hok rest, ?_, hs, he, by rw [hf, a1], by rw [hf, a2], by rw [hf, a3],
    by rw [hf, a4]⟩
  simp only [Header.encode, Header.size, List.length_append, flatMap_putF_length, putN_length]
  simp
  omega

example : (newHeader .big 4326#32 [F64.nan, F64.one, F64.zero, F64.negInf, F64.one, F64.negZero] 3#8
    true false).isSome = true := by decide

/-- C14: a blob (header, then the WKB of the geometry in the byte order of the
header) decodes to the same header, srs id and geometry, rings open. -/
theorem C14_blob_roundtrip (o : Order) (srs : BitVec 32) (env : List F64) (et : Byte)
    (extend empty : Bool) (h : Header) (hn : newHeader o srs env et extend empty = some h)
    (g : Geom F64) (hg : Encodable g) (hr : NumericRings g) (s : BitVec 32) :
    ∃ bs, Binary.encode ⟨h, s, g⟩ = some bs ∧
      decodeGeometry bs = .ok ⟨h, srs, openRings g⟩ := by
  obtain ⟨w, hw, hd⟩ := C01_wkb_roundtrip (flagEndian h.flags) g hg hr
  obtain ⟨r1, r2, r3, _⟩ := C14_header_roundtrip o srs env et extend empty h hn w
  refine ⟨h.encode ++ w, by simp [Binary.encode, hw], ?_⟩
  simp only [decodeGeometry, r1, ← r2, List.drop_left, hd, r3]

example : (newHeader .little 3857#32 [F64.zero, F64.zero, F64.one, F64.one] 1#8 false false).isSome = true ∧
    Encodable wkbSample ∧ NumericRings wkbSample :=
  ⟨by decide, wkbSample_encodable, wkbSample_numeric⟩

/-- C14: `NewBinary` on any geometry of the seven kinds never panics or fails and
its blob decodes to the srs id and the geometry; the header says "empty" exactly
when no vertex has two numeric coordinates. -/
theorem C14_newBinary_roundtrip (srs : BitVec 32) (g : Geom F64) (hg : Encodable g)
    (hr : NumericRings g) (hk : known g = true) :
    ∃ b, newBinary srs g = .ok b ∧ b.srsid = srs ∧ b.geometry = g ∧
      (flagIsEmpty b.header.flags = true ↔ ∀ p ∈ verticesOf g, ¬ numPt p) ∧
      ∃ bs, b.encode = some bs ∧ decodeGeometry bs = .ok ⟨b.header, srs, openRings g⟩ := by
  have hemp := isEmptyGeo_iff g hk
  by_cases he : Cmp.isEmptyGeo g = true
  · have hsome : (newHeader .little srs [F64.nan, F64.nan, F64.nan, F64.nan] 1#8 false true).isSome = true := by
      rw [C14_newHeader_iff]; rfl
    obtain ⟨h, hh⟩ := Option.isSome_iff_exists.1 hsome
    refine ⟨⟨h, srs, g⟩, by simp [newBinary, he, hh], rfl, rfl, ?_,
      C14_blob_roundtrip _ _ _ _ _ _ h hh g hg hr srs⟩
    obtain ⟨_, _, _, _, _, _, _, r⟩ := C14_header_roundtrip _ _ _ _ _ _ h hh []
    simp only [r, true_iff]
    exact hemp.1 he
  · have hv : ∃ p ps, verticesOf g = p :: ps := by
      cases hv : verticesOf g with
      | nil => exact absurd (hemp.2 (by simp [hv])) he
      | cons p ps => exact ⟨p, ps, rfl⟩
    obtain ⟨p, ps, hv⟩ := hv
    have hx : ∃ e, Ext.newExtentFromGeometry g = some (some e) := by
      refine ⟨_, by rw [Ext.newExtentFromGeometry, Ext.coords_known g hk, hv]⟩
    obtain ⟨e, hx⟩ := hx
    have hsome : (newHeader .little srs [e.minx, e.miny, e.maxx, e.maxy] 1#8 false false).isSome = true := by
      rw [C14_newHeader_iff]; rfl
    obtain ⟨h, hh⟩ := Option.isSome_iff_exists.1 hsome
    refine ⟨⟨h, srs, g⟩, by simp [newBinary, he, hx, hh], rfl, rfl, ?_,
      C14_blob_roundtrip _ _ _ _ _ _ h hh g hg hr srs⟩
    obtain ⟨_, _, _, _, _, _, _, r⟩ := C14_header_roundtrip _ _ _ _ _ _ h hh []
    simp only [r, Bool.false_eq_true, false_iff]
    exact fun hc => he (hemp.2 hc)

example : Encodable wkbSample ∧ NumericRings wkbSample ∧ known wkbSample = true :=
  ⟨wkbSample_encodable, wkbSample_numeric, by decide⟩

/-! ## C15 -/

/-- C15, in full: decoding succeeds only on a complete header with a valid
envelope code and the magic bytes.  The code violates it, see
`C15_violated`. -/
def C15_full : Prop := ∀ (bs : List Byte) (h : Header), decodeHeader bs = .ok h →
  (∃ n, CompleteHeader bs n) ∧ Magic bs

theorem flagEnvelope_code (f : Byte) :
    flagEnvelope f = 5#8 ∧ doubles (f.toNat / 2 % 8) = none ∨
    flagEnvelope f ≠ 5#8 ∧ doubles (f.toNat / 2 % 8) = some (numElements (flagEnvelope f)).toNat ∧
      (flagEnvelope f = 0#8 ↔ f.toNat / 2 % 8 = 0) := by
  revert f; decide +kernel

/-- C15: the decoder's exact decision.  It succeeds if and only if there is a
complete header with a known envelope code and, unless the code is 0 (no
envelope), the magic bytes are right.  Missing from the full statement: the magic
check when there is no envelope. -/
theorem C15_header_accepts_partial (bs : List Byte) :
    (∃ h, decodeHeader bs = .ok h) ↔
      (∃ n, CompleteHeader bs n) ∧ (code bs = 0 ∨ Magic bs) := by
  unfold decodeHeader
  split
  · rename_i m0 m1 v f s0 s1 s2 s3 bytes
    simp only [CompleteHeader, code, Magic, List.getD_cons_succ, List.getD_cons_zero, List.take_succ_cons,
      List.take_zero, List.length_cons]
    rcases flagEnvelope_code f with ⟨h1, h2⟩ | ⟨h1, h2, h3⟩
    · simp [h1, h2]
    · simp only [if_neg h1]
      by_cases h0 : flagEnvelope f = 0#8
      · have hz := h3.1 h0
        simp only [if_pos h0]
        refine ⟨fun _ => ⟨⟨0, ?_, by omega⟩, .inl hz⟩, fun _ => ⟨_, rfl⟩⟩
        rw [hz]; rfl
      · simp only [if_neg h0]
        have hnz : f.toNat / 2 % 8 ≠ 0 := fun h => h0 (h3.2 h)
        split
        · rename_i hlt
          simp only [reduceCtorEq, exists_false, false_iff]
          rintro ⟨⟨n, hn, hl⟩, _⟩
          rw [h2, Option.some.injEq] at hn
          omega
        · rename_i hge
          split
          · rename_i hm
            simp only [reduceCtorEq, exists_false, false_iff]
            rintro ⟨_, hc | hc⟩
            · exact hnz hc
            · simp at hc; simp [hc] at hm
          · rename_i hm
            refine ⟨fun _ => ⟨⟨_, h2, by omega⟩, .inr ?_⟩, fun _ => ⟨_, rfl⟩⟩
            simp at hm
            simp [hm]
  · rename_i hno
    simp only [reduceCtorEq, exists_false, false_iff]
    rintro ⟨⟨n, _, hl⟩, _⟩
    match bs, hl with
    | m0 :: m1 :: v :: f :: s0 :: s1 :: s2 :: s3 :: bytes, _ => exact hno _ _ _ _ _ _ _ _ _ rfl
    | [], h => simp at h
    | [_], h => simp at h; omega
    | [_, _], h => simp at h; omega
    | [_, _, _], h => simp at h; omega
    | [_, _, _, _], h => simp at h; omega
    | [_, _, _, _, _], h => simp at h; omega
    | [_, _, _, _, _, _], h => simp at h; omega
    | [_, _, _, _, _, _, _], h => simp at h; omega

example : (∃ n, CompleteHeader ([0x47#8, 0x50#8, 0#8, 2#8] ++ List.replicate 36 0#8) n) ∧
    Magic ([0x47#8, 0x50#8, 0#8, 2#8] ++ List.replicate 36 0#8) :=
  ⟨⟨4, by unfold CompleteHeader; decide⟩, rfl⟩

/-- C15: what the decoder accepts it has read faithfully: re-encoding the header
gives the bytes consumed, so nothing is invented or skipped. -/
theorem C15_header_reencode (bs : List Byte) (h : Header) (hd : decodeHeader bs = .ok h) :
    h.encode = bs.take h.size ∧ h.size ≤ bs.length := by
  unfold decodeHeader at hd
  split at hd
  · rename_i m0 m1 v f s0 s1 s2 s3 bytes
    have hsrs : putN (flagEndian f) 4
        (BitVec.ofNat 32 (getN (flagEndian f) [s0, s1, s2, s3])).toNat = [s0, s1, s2, s3] := by
      have := putN_getN (flagEndian f) [s0, s1, s2, s3]
      rw [BitVec.toNat_ofNat]
      have hlt : getN (flagEndian f) [s0, s1, s2, s3] < 2 ^ 32 := by
        have := getN_lt (flagEndian f) [s0, s1, s2, s3]
        simpa using this
      rw [Nat.mod_eq_of_lt hlt]
      exact this
    simp only at hd
    split at hd
    · cases hd
    · split at hd
      · cases hd
        simp only [Header.encode, Header.size, hsrs]
        simp
      · split at hd
        · cases hd
        · rename_i hlen
          split at hd
          · cases hd
          · cases hd
            simp only [Header.encode, Header.size, hsrs, readEnvelope_length,
              readEnvelope_encode _ _ _ (Nat.le_of_not_lt hlen), List.length_cons]
            constructor
            · simp
            · omega
  · cases hd

example : ∃ h, decodeHeader ([0x47#8, 0x50#8, 0#8, 3#8] ++ List.replicate 40 1#8) = .ok h := by
  rw [C15_header_accepts_partial]
  exact ⟨⟨4, by unfold CompleteHeader; decide⟩, .inr rfl⟩

/-- C15 is violated: eight zero bytes are accepted as a header (magic `00 00`). -/
theorem C15_violated : ¬ C15_full := by
  intro h
  have := (h (List.replicate 8 0#8) ⟨0#8, 0#8, 0#8, 0#8, 0#32, []⟩ (by decide)).2
  revert this; unfold Magic; decide

/-! ## C51 -/

/-- C51: `IsEmptyGeo` says "empty" exactly when no vertex of the geometry has two
numeric coordinates; collections are looked into, nested ones too. -/
theorem C51_isEmptyGeo_iff (g : Geom F64) (hk : known g = true) :
    Cmp.isEmptyGeo g = true ↔ ∀ p ∈ verticesOf g, ¬ numPt p :=
  isEmptyGeo_iff g hk

example : known (Geom.collection [.multiPoint [], .collection [.polygon [[(F64.nan, F64.one)]]]]) = true ∧
    Cmp.isEmptyGeo (.collection [.multiPoint [], .collection [.polygon [[(F64.nan, F64.one)]]]]) = true ∧
    Cmp.isEmptyGeo (.collection [.multiPoint [], .collection [.polygon [[(F64.one, F64.one)]]]]) = false := by
  decide

/-- C51: the value of an unknown type is never empty, alone or as the first
non-empty member of a collection, so an empty verdict vouches for the whole value. -/
theorem C51_isEmptyGeo_known (g : Geom F64) (h : Cmp.isEmptyGeo g = true) : known g = true := by
  induction g using Geom.induct with
  | other => simp [Cmp.isEmptyGeo] at h
  | collection gs ih =>
    rw [Cmp.isEmptyGeo] at h
    rw [known]
    induction gs with
    | nil => rfl
    | cons g gs ihg =>
      rw [Cmp.isEmptyGeos] at h
      rw [knownAll]
      cases hg : Cmp.isEmptyGeo g
      · simp [hg] at h
      · simp only [hg, Bool.not_true, Bool.false_eq_true, if_false] at h
        rw [ih g (by simp) hg, ihg (fun g' h' => ih g' (by simp [h'])) h]
        rfl
  | _ => rfl

example : Cmp.isEmptyGeo (.collection [.multiPoint [(F64.one, F64.nan)], .collection []]) = true := by
  decide

/-! ## C52 -/

/-- C52, in full: the envelope `NewBinary` stores for a geometry with numeric
vertices is the tight box in the order of the GeoPackage specification. -/
def C52_full : Prop := ∀ (srs : BitVec 32) (g : Geom F64) (b : Binary), known g = true →
  verticesOf g ≠ [] → (∀ p ∈ verticesOf g, numPt p) → newBinary srs g = .ok b →
  ∃ bx : Box, Tight bx (verticesOf g) ∧ standardEnvelope bx b.header.envelope

/-- C52: the envelope holds the four bounds of the tight box, in the order minx,
miny, maxx, maxy.  Missing: the order the specification asks for. -/
theorem C52_envelope_partial (srs : BitVec 32) (g : Geom F64) (b : Binary) (hk : known g = true)
    (hne : verticesOf g ≠ []) (hp : ∀ p ∈ verticesOf g, numPt p) (hb : newBinary srs g = .ok b) :
    ∃ bx : Box, Tight bx (verticesOf g) ∧ b.header.envelope = [bx.left, bx.bottom, bx.right, bx.top] := by
  have he : Cmp.isEmptyGeo g = false := by
    cases he : Cmp.isEmptyGeo g
    · rfl
    · obtain ⟨p, hpm⟩ := List.exists_mem_of_ne_nil _ hne
      exact absurd (hp p hpm) ((isEmptyGeo_iff g hk).1 he p hpm)
  rcases C20_newExtentFromGeometry_tight g hk hp with ⟨h, _⟩ | ⟨e, hx, ht⟩
  · exact absurd h hne
  · refine ⟨Ext.box e, ht, ?_⟩
    simp only [newBinary, he, hx, Bool.false_eq_true, if_false] at hb
    split at hb
    · cases hb
    · rename_i h hh
      cases hb
      exact (new_ok hh).2.1

example : ∃ b, newBinary 4326#32 (.lineString [(f1, f2), (f3, f1)]) = .ok b ∧
    (∀ p ∈ verticesOf (.lineString [(f1, f2), (f3, f1)]), numPt p) :=
  ⟨_, rfl, by decide⟩

/-- C52 is violated: the line from (1,2) to (3,2) has minx 1, maxx 3, and the
stored envelope reads 1, 2, 3, 2. -/
theorem C52_violated : ¬ C52_full := by
  intro hc
  obtain ⟨b, hb⟩ : ∃ b, newBinary 0#32 (.lineString [(f1, f2), (f3, f2)]) = .ok b := ⟨_, rfl⟩
  have hp : ∀ p ∈ verticesOf (.lineString [(f1, f2), (f3, f2)]), numPt p := by decide
  obtain ⟨bx, ⟨h1, _⟩, h3⟩ := hc _ _ b rfl (by simp [verticesOf]) hp hb
  obtain ⟨by', ⟨h1', h2'⟩, h3'⟩ := C52_envelope_partial _ _ b rfl (by simp [verticesOf]) hp hb
  have henv : b.header.envelope = [f1, f2, f3, f2] := by
    have : newBinary 0#32 (.lineString [(f1, f2), (f3, f2)]) = .ok
        ⟨⟨0x47#8, 0x50#8, 0#8, 3#8, 0#32, [f1, f2, f3, f2]⟩, 0#32, .lineString [(f1, f2), (f3, f2)]⟩ := by
      rfl
    rw [hb] at this
    cases this
    rfl
  rw [h3] at henv
  obtain ⟨l, bo, r, t⟩ := bx
  simp only [List.cons.injEq] at henv
  obtain ⟨_, rfl, _⟩ := henv
  have := (h1 (f3, f2) (by simp [verticesOf])).2.1
  exact absurd this (by simp only; decide)

end Verif.Props
