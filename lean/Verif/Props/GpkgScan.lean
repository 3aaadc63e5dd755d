import Verif.Lemmas.GpkgScan
import Verif.Props.Gpkg
import Verif.Props.ExtentShape

/-!
# Geometries as values of a database (C170), types of geometry columns (C171)
-/

namespace Verif.Props
open Verif Verif.Gpkg Verif.Spec.Gpkg Verif.Spec.GpkgScan Verif.Spec.Wkb Verif.Spec.Extent
open Verif.Wkb (Order)

/-! ## C170 -/

/-- C170: what `Value` stores is what `Scan` reads, whatever was in the receiver. -/
def C170_full : Prop :=
  ∀ (sb r : Std) (bs : List Byte), value (some sb) = .ok bs → scan (some r) (.bytes bs) = (none, some sb)

/-- C170, the part that holds: for a header that was made by `NewBinaryHeader`, the srs id being that of the header and
the rings being open, `Scan` reads what `Value` stored. -/
theorem C170_roundtrip_partial (o : Order) (env : List F64) (et : Byte) (extend empty : Bool) (h : Header)
    (sb r : Std) (hn : newHeader o sb.srsid env et extend empty = some h) (hh : sb.header = some h)
    (hg : Encodable sb.geometry) (hr : NumericRings sb.geometry) (ho : openRings sb.geometry = sb.geometry) :
    ∃ bs, value (some sb) = .ok bs ∧ scan (some r) (.bytes bs) = (none, some sb) := by
  obtain ⟨w, hw, hd⟩ := C01_wkb_roundtrip (flagEndian h.flags) sb.geometry hg hr
  obtain ⟨hok, _, hs, _⟩ := new_ok hn
  obtain ⟨h1, h2⟩ := blob_again h (ok_read hok) sb.srsid sb.geometry _ w hw hd r
  obtain ⟨hd', s', g'⟩ := sb
  simp only at hh hs h1 h2 ho hn
  subst hh
  refine ⟨_, h1, ?_⟩
  rw [h2, hs, ho]

example : newHeader .little 4326#32 [f1, f2, f1, f2] 1#8 false false ≠ none ∧ Encodable (.point (f1, f2)) ∧
    NumericRings (.point (f1, f2)) ∧ openRings (.point (f1, f2)) = .point (f1, f2) :=
  ⟨by decide, by simp [Encodable], by simp [NumericRings], by simp [openRings]⟩

/-- C170, the part that holds: a row is read, given another geometry and any srs id, and stored; reading it gives the
header and srs id of the row, and the geometry with its rings open. -/
theorem C170_update_partial (r r' sb : Std) (bs : List Byte) (hs : scan (some r) (.bytes bs) = (none, some sb))
    (g : Geom F64) (s : BitVec 32) (hg : Encodable g) (hr : NumericRings g) :
    ∃ bs', value (some { sb with geometry := g, srsid := s }) = .ok bs' ∧
      scan (some r') (.bytes bs') = (none, some { sb with geometry := openRings g }) := by
  unfold scan at hs
  simp only at hs
  split at hs
  · cases hs
  · rename_i b hb
    simp only [Prod.mk.injEq, Option.some.injEq, true_and] at hs
    subst hs
    unfold decodeGeometry at hb
    split at hb
    · cases hb
    · rename_i h hh
      split at hb
      · cases hb
      · cases hb
        obtain ⟨w, hw, hd⟩ := C01_wkb_roundtrip (flagEndian h.flags) g hg hr
        obtain ⟨h1, h2⟩ := blob_again h (decoded_read hh) s g _ w hw hd r'
        exact ⟨_, h1, h2⟩

example : ∃ sb, scan (some ⟨none, 0#32, .other⟩)
    (.bytes ([0x47#8, 0x50#8, 0#8, 1#8, 7#8, 0#8, 0#8, 0#8, 1#8, 2#8, 0#8, 0#8, 0#8, 0#8, 0#8, 0#8, 0#8]))
    = (none, some sb) ∧ sb.srsid = 7#32 := ⟨_, rfl, rfl⟩

/-- C170: `Scan` accepts bytes that hold a GeoPackage geometry, and nothing else (not NULL, not text), into a receiver
that is not nil; the receiver gets what the bytes hold. -/
theorem C170_accepts_iff (r : Option Std) (v : Src) (sb : Option Std) :
    scan r v = (none, sb) ↔ ∃ r0 bs b, r = some r0 ∧ v = .bytes bs ∧ decodeGeometry bs = .ok b ∧
      sb = some ⟨some b.header, b.srsid, b.geometry⟩ := by
  constructor
  · intro h
    cases r with
    | none => simp [scan] at h
    | some r0 =>
      cases v with
      | bytes bs =>
        cases hd : decodeGeometry bs with
        | error e => simp [scan, hd] at h
        | ok b =>
          simp only [scan, hd, Prod.mk.injEq, true_and] at h
          exact ⟨r0, bs, b, rfl, rfl, hd, h.symm⟩
      | _ => simp [scan] at h
  · rintro ⟨r0, bs, b, rfl, rfl, hd, rfl⟩
    simp [scan, hd]

example : (scan (some ⟨none, 0#32, .other⟩) .null).1 = some .notBytes ∧
    (scan none (.bytes [])).1 = some .nilStandardBinary := ⟨rfl, rfl⟩

/-- C170: a `Scan` that returns an error leaves the receiver as it was. -/
theorem C170_failed_scan_keeps (r : Option Std) (v : Src) (e : ScanErr) (h : (scan r v).1 = some e) :
    (scan r v).2 = r := by
  cases r with
  | none => rfl
  | some r0 =>
    cases v with
    | bytes bs =>
      cases hd : decodeGeometry bs with
      | error e => simp [scan, hd]
      | ok b => simp [scan, hd] at h
    | _ => rfl

example : (scan (some ⟨none, 3#32, .point (f1, f2)⟩) (.bytes [0x47#8])).1 = some (.decode .insufficientBytes) := rfl

/-- C170: `Value` returns an error exactly for a nil receiver, a nil header, and a geometry that has something unknown in
it; it never panics. -/
theorem C170_value_error_iff (sb : Option Std) :
    (∃ e, value sb = .error e) ↔ sb = none ∨ ∃ s, sb = some s ∧ (s.header = none ∨ hasOther s.geometry = true) := by
  cases sb with
  | none => simp [value]
  | some s =>
    obtain ⟨h, i, g⟩ := s
    cases h with
    | none =>
      have e0 : encodeHeaderTo none = .error .envelopeMismatch := rfl
      simp [value, Std.encode, e0]
    | some h =>
      have := C04_wkb_encode_some_iff (flagEndian h.flags) g
      cases hw : Wkb.encode (flagEndian h.flags) g with
      | none =>
        rw [hw] at this
        simp only [reduceCtorEq, exists_false, false_iff, Bool.not_eq_false] at this
        simp [value, Std.encode, encodeHeaderTo, hw, this]
      | some w =>
        rw [hw] at this
        simp only [Option.some.injEq, exists_eq', true_iff] at this
        simp [value, Std.encode, encodeHeaderTo, hw, this]

example : (value (some ⟨none, 0#32, .point (f1, f2)⟩)).toOption = none ∧
    hasOther (.collection [.point (f1, f2), .other]) = true := by decide

/-- C170: `Extent` is nil for a nil receiver, for an unknown geometry and for one without a vertex whose coordinates are
numbers; if all coordinates are numbers it is the least box with all vertices. -/
theorem C170_extent (sb : Option Std) :
    (sb = none → extentOf sb = none) ∧
    (∀ s, sb = some s → known s.geometry = false → extentOf sb = none) ∧
    (∀ s, sb = some s → known s.geometry = true → (∀ p ∈ verticesOf s.geometry, ¬ numPt p) → extentOf sb = none) ∧
    (∀ s, sb = some s → known s.geometry = true → verticesOf s.geometry ≠ [] →
      (∀ p ∈ verticesOf s.geometry, numPt p) →
        ∃ e, extentOf sb = some e ∧ Tight (Verif.Ext.box e) (verticesOf s.geometry)) := by
  refine ⟨?_, ?_, ?_, ?_⟩
  · rintro rfl; rfl
  · rintro s rfl hk
    simp only [extentOf, (C165_error_iff _).2 hk, ite_self]
  · rintro s rfl hk h
    simp only [extentOf, (C51_isEmptyGeo_iff _ hk).2 h, if_true]
  · rintro s rfl hk hne hp
    have he : Cmp.isEmptyGeo s.geometry = false := by
      cases he : Cmp.isEmptyGeo s.geometry with
      | false => rfl
      | true =>
        obtain ⟨p, hpm⟩ := List.exists_mem_of_ne_nil _ hne
        exact absurd (hp p hpm) ((C51_isEmptyGeo_iff _ hk).1 he p hpm)
    rcases C20_newExtentFromGeometry_tight s.geometry hk hp with ⟨h, _⟩ | ⟨e, hx, ht⟩
    · exact absurd h hne
    · exact ⟨e, by simp [extentOf, he, hx], ht⟩

example : known (.lineString [(f1, f2), (f3, f2)]) = true ∧
    (∀ p ∈ verticesOf (.lineString [(f1, f2), (f3, f2)]), numPt p) ∧
    known (.collection [.point (f1, f2), .other]) = false := by decide

/-- The field `SRSID` is not stored: `Value` writes the id of the header. -/
theorem C170_violated : ¬ C170_full := by
  intro h
  have := h ⟨some ⟨0x47#8, 0x50#8, 0#8, 1#8, 7#32, []⟩, 8#32, .lineString []⟩ ⟨none, 0#32, .other⟩ _ rfl
  have h2 := congrArg (fun x => x.2.map Std.srsid) this
  revert h2
  decide +kernel

/-! ## C171 -/

/-- C171: for every type of geometry there is an empty geometry of that type. -/
def C171_full : Prop :=
  ∀ g : Geom F64, standardType g ≠ 0 →
    ∃ e, emptyOf (typeForGeometry (plain g)) = some e ∧ standardType e = standardType g ∧
      ∀ p ∈ verticesOf e, ¬ numPt p

/-- C171: the type of a geometry is the number of the standard, and its name that of the standard. -/
theorem C171_type (g : Geom F64) :
    typeForGeometry (plain g) = standardType g ∧ GpkgDb.geometryTypeName (typeForGeometry (plain g)) = standardName g := by
  cases g <;> simp [plain, typeForGeometry, standardType, standardName, GpkgDb.geometryTypeName]

/-- C171: it is the number that the WKB of the geometry starts with. -/
theorem C171_wkb (bs : List Byte) (g : Geom F64) (h : Wkb.decodeBytes bs = .ok g) :
    ∃ e rest, bs = header e (typeForGeometry (plain g)) ++ rest := by
  have hd : ∃ rest, Wkb.decode bs = .ok (g, rest) := by
    unfold Wkb.decodeBytes at h
    split at h
    · rename_i x hx
      cases h
      exact ⟨_, hx⟩
    · cases h
  obtain ⟨rest, hd⟩ := hd
  obtain ⟨u, rfl, hw⟩ := (C05_wkb_decode_iff_wire bs g rest).1 hd
  cases hw <;> simp only [plain, typeForGeometry, List.append_assoc] <;> exact ⟨_, _, rfl⟩

example : ∃ g, Wkb.decodeBytes [1#8, 7#8, 0#8, 0#8, 0#8, 0#8, 0#8, 0#8, 0#8] = .ok g := ⟨.collection [], rfl⟩

/-- C171, the part that holds: for every type but multipoint there is an empty geometry of that type, without a vertex
whose coordinates are numbers; for multipoint, and for the type of any geometry, there is an error. -/
theorem C171_empty_partial (g : Geom F64) :
    (emptyOf (standardType g) = none ↔ standardType g = 0 ∨ standardType g = 4) ∧
    ∀ e, emptyOf (standardType g) = some e → standardType e = standardType g ∧ ∀ p ∈ verticesOf e, ¬ numPt p := by
  have hnan : ¬ numPt (F64.nan, F64.nan) := by decide
  cases g <;> refine ⟨by simp [standardType, emptyOf], ?_⟩ <;> intro e he <;>
    simp only [standardType, emptyOf] at he <;> cases he <;> refine ⟨rfl, ?_⟩ <;>
    simp only [verticesOf, verticesOfAll, List.mem_cons, List.not_mem_nil, or_false, List.flatten_nil] <;>
    first
      | (rintro p rfl; exact hnan)
      | simp

example : emptyOf (standardType (.polygon [[(f1, f2)]])) = some (.polygon []) := rfl

/-- C171: names tell the types apart; "UNKNOWN" is the name of no type of the standard. -/
theorem C171_names (a b : Nat) (ha : a < 8) (hb : b < 8) :
    (GpkgDb.geometryTypeName a = GpkgDb.geometryTypeName b ↔ a = b) ∧ GpkgDb.geometryTypeName a ≠ "UNKNOWN" := by
  revert b
  revert a
  decide

/-- There is no empty multipoint. -/
theorem C171_violated : ¬ C171_full := by
  intro h
  obtain ⟨e, he, _⟩ := h (.multiPoint []) (by decide)
  have : emptyOf (typeForGeometry (plain (.multiPoint []))) = none := by
    rw [(C171_type _).1]; rfl
  rw [this] at he
  cases he

end Verif.Props
