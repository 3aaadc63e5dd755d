import Verif.Lemmas.GeoJsonFeat
import Verif.Lemmas.GeoJsonMem
import Verif.Lemmas.Wkb

/-!
# GeoJSON (C18, C19, C65–C68)

`fmt`/`parse` format and parse a float64, `fmtU`/`parseU` a uint64; the round
trip theorems assume only that a finite number reads back as itself.
-/

namespace Verif.Props
open Verif Verif.GeoJson Verif.Spec.GeoJson
open Verif.Spec.Wkb (samePoint)

/-- Finite numbers read back as they were written. -/
def ReadsNumbers (fmt : F64 → List Byte) (parse : List Byte → Option F64) : Prop :=
  ∀ f, fin f → parse (fmt f) = some f

/-- Identifiers read back as they were written. -/
def ReadsIds (fmtU : BitVec 64 → List Byte) (parseU : List Byte → Option (BitVec 64)) : Prop :=
  ∀ n, parseU (fmtU n) = some n

/-! ## Numbers for the examples -/

/-- Writes the eight bytes of the pattern. -/
def byteFmt (f : BitVec 64) : List Byte := Wkb.putF .big f
/-- Reads eight bytes. -/
def byteParse (bs : List Byte) : Option (BitVec 64) :=
  if bs.length = 8 then some (BitVec.ofNat 64 (Wkb.getN .big bs)) else none

theorem byte_reads (f : BitVec 64) : byteParse (byteFmt f) = some f := by
  simp [byteParse, byteFmt, Wkb.putF_length, Wkb.ofNat_getN_putF]

theorem byte_readsNumbers : ReadsNumbers byteFmt byteParse := fun f _ => byte_reads f

namespace GJ
/-- 0, 1 and 2. -/
def n0 : F64 := 0x0000000000000000#64
def n1 : F64 := 0x3FF0000000000000#64
def n2 : F64 := 0x4000000000000000#64
/-- An open triangle. -/
def tri : List (Pt F64) := [(n0, n0), (n2, n0), (n2, n2)]
/-- A closed one. -/
def triClosed : List (Pt F64) := [(n0, n0), (n2, n0), (n2, n2), (n0, n0)]
/-- A nested geometry with open, closed, empty and nil rings. -/
def nested : G :=
  .collection (some [.point (n1, n2), .multiPoint (some []), .collection (some
    [.polygon (some [some tri, some triClosed, some [], none]),
     .multiPolygon (some [some [some tri], none])]), .collection none])
instance (f : F64) : Decidable (fin f) := inferInstanceAs (Decidable (_ < _))
instance (p : Pt F64) : Decidable (finPt p) := inferInstanceAs (Decidable (_ ∧ _))
instance (mem : List (Pt F64)) (s : Slice) : Decidable (wellFormed mem s) := inferInstanceAs (Decidable (_ ∧ _))
theorem tri_fin : ∀ p ∈ tri, finPt p := by decide
theorem triClosed_fin : ∀ p ∈ triClosed, finPt p := by decide
theorem nested_writable : Writable nested := by
  have h : finPt (n1, n2) := by decide
  have h1 := tri_fin
  have h2 := triClosed_fin
  simp only [nested, Writable, WritableAll, finLine, Option.mem_def, Option.some.injEq, forall_eq', List.mem_cons,
    List.not_mem_nil, or_false, forall_eq_or_imp, forall_eq, reduceCtorEq, false_implies, implies_true, and_true]
  exact ⟨h, trivial, ⟨h1, h2⟩, h1⟩
end GJ
open GJ

/-! ## C18 — rings are closed exactly once -/

/-- What `closed` means: the ring itself or the ring with its first vertex
repeated, always ending where it starts, and longer only if it did not. -/
theorem C18_closed_meaning (r : List (Pt F64))
    (h : ∀ p ∈ r.head?, p.1.isNaN = false ∧ p.2.isNaN = false) :
    (∀ a ∈ r.head?, ∀ b ∈ r.getLast?, closed r = if samePoint a b then r else r ++ [a]) ∧
    (r = [] → closed r = []) ∧
    (∀ a ∈ (closed r).head?, ∀ b ∈ (closed r).getLast?, samePoint a b = true) ∧
    closed (closed r) = closed r := by
  refine ⟨?_, ?_, ?_, closed_closed h⟩
  · intro a ha b hb
    simp only [Option.mem_def] at ha hb
    simp only [closed, ha, hb]
  · rintro rfl; rfl
  · cases r with
    | nil => intro a ha; simp [closed] at ha
    | cons x t =>
      have hx := h x rfl
      have e : closed (x :: t) = if samePoint x ((x :: t).getLast (by simp)) then x :: t else x :: t ++ [x] := by
        simp only [closed, List.head?_cons, List.getLast?_eq_some_getLast (List.cons_ne_nil x t)]
      intro a ha b hb
      by_cases hs : samePoint x ((x :: t).getLast (by simp)) = true
      · rw [e, if_pos hs] at ha hb
        simp only [List.head?_cons, Option.mem_def, Option.some.injEq] at ha
        rw [List.getLast?_eq_some_getLast (List.cons_ne_nil x t)] at hb
        simp only [Option.mem_def, Option.some.injEq] at hb
        rw [← ha, ← hb]; exact hs
      · rw [e, if_neg hs] at ha hb
        rw [List.getLast?_append] at hb
        simp at ha hb
        rw [← ha, ← hb]; exact samePoint_refl hx.1 hx.2

example : closed tri = triClosed ∧ closed triClosed = triClosed ∧
    (∀ p ∈ tri.head?, p.1.isNaN = false ∧ p.2.isNaN = false) := by decide

/-- Every ring written is the caller's ring, closed; the caller's polygon still
refers to the same slices and these show the same vertices. -/
def C18_full : Prop :=
  ∀ (mem : List (Pt F64)) (ss : List Slice), (∀ s ∈ ss, wellFormed mem s) →
    (closePolygonMem mem ss).2.map (shows (closePolygonMem mem ss).1) = ss.map (fun s => closed (shows mem s)) ∧
    (closePolygonMem mem ss).2 = ss ∧
    ∀ s ∈ ss, shows (closePolygonMem mem ss).1 s = shows mem s

/-- Violated: the caller's polygon gets a longer ring. -/
theorem C18_violated : ¬ C18_full := by
  intro h
  have := (h tri [⟨0, 3, 3⟩] (by decide)).2.1
  revert this; decide

/-- Violated already for the rings that are written, when two rings are
neighbouring parts of one array: closing the first ring overwrites the first
vertex of the second. -/
theorem C18_violated_shared :
    ∃ (mem : List (Pt F64)) (ss : List Slice), (∀ s ∈ ss, wellFormed mem s) ∧
      (closePolygonMem mem ss).2.map (shows (closePolygonMem mem ss).1) ≠
        ss.map (fun s => closed (shows mem s)) := by
  refine ⟨tri ++ [(n1, n1), (n1, n2), (n2, n1)], [⟨0, 3, 6⟩, ⟨3, 3, 3⟩], ?_, ?_⟩ <;> decide

/-- Partial: when no ring's spare capacity overlaps another ring, what is
written are the closed rings; the caller's polygon then also holds the closed
rings (that is what is missing from the full statement); every ring slice taken
before still shows the same vertices, and so does any slice elsewhere. -/
theorem C18_rings_partial (mem : List (Pt F64)) (ss : List Slice) (hw : ∀ s ∈ ss, wellFormed mem s)
    (ha : ss.Pairwise fun s t => ∀ i, region s i → region t i → False) :
    (closePolygonMem mem ss).2.map (shows (closePolygonMem mem ss).1) = ss.map (fun s => closed (shows mem s)) ∧
    (∀ s ∈ ss, shows (closePolygonMem mem ss).1 s = shows mem s) ∧
    (∀ t, wellFormed mem t → (∀ s ∈ ss, ∀ i, region s i → region t i → False) →
      shows (closePolygonMem mem ss).1 t = shows mem t) := by
  obtain ⟨h1, h2, _, h4, h5, h6⟩ := close_all hw ha
  refine ⟨?_, ?_, ?_⟩
  · have e1 : (closePolygonMem mem ss).2.map (shows (closePolygonMem mem ss).1) =
        (closePolygonMem mem ss).2.map (Slice.read (closePolygonMem mem ss).1) :=
      List.map_congr_left fun s hs => shows_eq _ s (h2 s hs)
    rw [e1, h4]
    exact List.map_congr_left fun s hs => by rw [closeRing_eq, shows_eq _ s (hw s hs)]
  · intro s hs
    rw [shows_eq _ s (wf_grow h1 (hw s hs)), shows_eq _ s (hw s hs)]; exact h6 s hs
  · intro t ht hat
    rw [shows_eq _ t (wf_grow h1 ht), shows_eq _ t ht]
    exact (h5 t ht hat).1

example : (∀ s ∈ [(⟨0, 3, 4⟩ : Slice), ⟨4, 3, 3⟩], wellFormed (tri ++ [(n1, n1)] ++ tri) s) ∧
    ([(⟨0, 3, 4⟩ : Slice), ⟨4, 3, 3⟩]).Pairwise (fun s t => ∀ i, region s i → region t i → False) := by
  refine ⟨by decide, ?_⟩
  simp only [List.pairwise_cons, List.mem_cons, List.not_mem_nil, or_false, forall_eq,
    false_implies, implies_true, and_true, List.Pairwise.nil]
  intro i h1 h2
  simp only [region] at h1 h2
  omega

/-- Partial: marshalling the same polygon again changes nothing any more. -/
theorem C18_again_partial (mem : List (Pt F64)) (ss : List Slice) (hw : ∀ s ∈ ss, wellFormed mem s)
    (ha : ss.Pairwise fun s t => ∀ i, region s i → region t i → False)
    (hn : ∀ s ∈ ss, ∀ p ∈ (shows mem s).head?, p.1.isNaN = false ∧ p.2.isNaN = false) :
    closePolygonMem (closePolygonMem mem ss).1 (closePolygonMem mem ss).2 = closePolygonMem mem ss := by
  obtain ⟨h1, h2, _, h4, h5, h6⟩ := close_all hw ha
  have key : ∀ s ∈ (closePolygonMem mem ss).2,
      closeRing (s.read (closePolygonMem mem ss).1) = s.read (closePolygonMem mem ss).1 := by
    intro s hs
    have : s.read (closePolygonMem mem ss).1 ∈ ss.map (fun s => closeRing (s.read mem)) := by
      rw [← h4]; exact List.mem_map_of_mem hs
    obtain ⟨t, ht, e⟩ := List.mem_map.1 this
    rw [← e, closeRing_eq, closeRing_eq]
    exact closed_closed (by rw [← shows_eq _ t (hw t ht)]; exact hn t ht)
  exact close_none key

example : (closePolygonMem tri [⟨0, 3, 3⟩]).2.map (shows (closePolygonMem tri [⟨0, 3, 3⟩]).1) = [triClosed] := by
  decide

/-- Partial: a multipolygon is treated as the list of all its rings. -/
theorem C18_multi_partial (mem : List (Pt F64)) (ps : List (List Slice))
    (hw : ∀ p ∈ ps, ∀ s ∈ p, wellFormed mem s)
    (ha : ps.flatten.Pairwise fun s t => ∀ i, region s i → region t i → False) :
    (closeMultiMem mem ps).2.flatten.map (shows (closeMultiMem mem ps).1) =
      ps.flatten.map (fun s => closed (shows mem s)) ∧
    (closeMultiMem mem ps).2.map List.length = ps.map List.length := by
  obtain ⟨e1, e2⟩ := closeMulti_flat mem ps
  rw [e1, e2]
  refine ⟨(C18_rings_partial mem ps.flatten ?_ ha).1, closeMulti_shape mem ps⟩
  intro s hs
  obtain ⟨p, hp, hsp⟩ := List.mem_flatten.1 hs
  exact hw p hp s hsp

example : (closeMultiMem (tri ++ triClosed) [[⟨0, 3, 3⟩], [⟨3, 4, 4⟩]]).2.flatten.map
    (shows (closeMultiMem (tri ++ triClosed) [[⟨0, 3, 3⟩], [⟨3, 4, 4⟩]]).1) = [triClosed, triClosed] := by
  decide

/-! ## C19 — round trip of the geometry object -/

/-- Every geometry of the seven kinds with finite coordinates is written, and
read back as the same geometry with closed rings. -/
def C19_full : Prop :=
  ∀ (fmt : F64 → List Byte) (parse : List Byte → Option F64) (parseU : List Byte → Option (BitVec 64)),
    ReadsNumbers fmt parse → ∀ g, Writable g →
      ∃ j, marshalGeom fmt g = .ok j ∧ unmarshalGeom parse parseU j = .ok (closedGeom g)

/-- Violated: the nil multipoint is written with `null` coordinates, on which
the decoder panics. -/
theorem C19_violated : ¬ C19_full := by
  intro h
  obtain ⟨j, h1, h2⟩ := h byteFmt byteParse byteParse byte_readsNumbers (.multiPoint none) (by simp [Writable, finLine])
  have := (geom_back (parse := byteParse) (parseU := byteParse) byte_readsNumbers _ j h1).2 (by simp [NoNil])
  rw [this] at h2
  exact absurd h2 (by simp)

/-- Exactly the seven kinds with finite coordinates are written. -/
theorem C19_writes_iff (fmt : F64 → List Byte) (g : G) :
    (∃ j, marshalGeom fmt g = .ok j) ↔ Writable g := marshalGeom_ok g

example : Writable nested := nested_writable

example : ¬ Writable (.lineString (some [(n1, 0x7FF0000000000000#64)])) := by
  simp only [Writable, finLine, finPt, fin, Option.mem_def, Option.some.injEq, forall_eq', List.mem_cons,
    List.not_mem_nil, or_false, forall_eq]
  decide

/-- Partial: the round trip holds for every nesting as long as no coordinate
slice is nil. -/
theorem C19_roundtrip_partial (fmt : F64 → List Byte) (parse : List Byte → Option F64)
    (parseU : List Byte → Option (BitVec 64)) (hp : ReadsNumbers fmt parse) (g : G) (hg : Writable g)
    (hn : NoNil g) :
    ∃ j, marshalGeom fmt g = .ok j ∧ unmarshalGeom parse parseU j = .ok (closedGeom g) := by
  obtain ⟨j, hj⟩ := (marshalGeom_ok (fmt := fmt) g).2 hg
  exact ⟨j, hj, (geom_back hp g j hj).1 hn⟩

example : NoNil nested ∧ closedGeom nested =
    .collection (some [.point (n1, n2), .multiPoint (some []), .collection (some
      [.polygon (some [some triClosed, some triClosed, some [], none]),
       .multiPolygon (some [some [some triClosed], none])]), .collection (some [])]) := by
  refine ⟨by simp [nested, NoNil, NoNilAll], ?_⟩
  have h1 : closed tri = triClosed := by decide
  have h2 : closed triClosed = triClosed := by decide
  simp [nested, closedGeom, closedGeoms, h1, h2]; rfl

/-- Partial: with a nil coordinate slice anywhere inside, reading back what was
written panics — always, so this is exactly what is missing. -/
theorem C19_nil_panics_partial (fmt : F64 → List Byte) (parse : List Byte → Option F64)
    (parseU : List Byte → Option (BitVec 64)) (hp : ReadsNumbers fmt parse) (g : G) (j : Json)
    (h : marshalGeom fmt g = .ok j) : unmarshalGeom parse parseU j = .panic ↔ ¬ NoNil g := by
  have hb := geom_back (parseU := parseU) hp g j h
  constructor
  · intro e hn; rw [hb.1 hn] at e; cases e
  · exact hb.2

example : Writable (.collection (some [.polygon none])) ∧ ¬ NoNil (.collection (some [.polygon none])) := by
  simp [Writable, WritableAll, NoNil, NoNilAll]

/-! ## C65 — features and feature collections -/

/-- Marshal followed by Unmarshal gives back every feature whose numbers are
finite (id, geometry with closed rings, properties), a nil geometry being
allowed as the documentation of Feature says. -/
def C65_full : Prop :=
  ∀ (fmt : F64 → List Byte) (fmtU : BitVec 64 → List Byte) (parse : List Byte → Option F64)
    (parseU : List Byte → Option (BitVec 64)), ReadsNumbers fmt parse → ReadsIds fmtU parseU →
    ∀ id g props, (Writable g ∨ g = .other) → FinProps props → MapProps props →
      ∃ j, marshal fmt fmtU (.value (.feature id g props)) = .ok j ∧
        unmarshal parse parseU j = .ok (.feature id (closedGeom g) props)

/-- Violated: a feature without geometry is not written. -/
theorem C65_violated : ¬ C65_full := by
  intro h
  obtain ⟨j, h1, _⟩ := h byteFmt byteFmt byteParse byteParse byte_readsNumbers byte_reads none .other none
    (Or.inr rfl) (by simp [FinProps]) (by simp [MapProps])
  simp [marshal, featureJson, marshalGeom] at h1

/-- Nor is one read: `{"type":"Feature","geometry":null}`, which GeoJSON allows,
is refused. -/
theorem C65_violated_read (parse : List Byte → Option F64) (parseU : List Byte → Option (BitVec 64)) :
    unmarshal parse parseU (.obj [(kType, .str tFeature), (kGeometry, .null)]) = .err := by
  rw [unmarshal, topType_first (by intro k hk; simp at hk; subst hk; show fold kGeometry ≠ kType; decide),
    Res.bind_ok', if_pos rfl, ff_type, ff_geometry, ff_nil]
  rfl

/-- Exactly which features are written. -/
theorem C65_writes_iff (fmt : F64 → List Byte) (fmtU : BitVec 64 → List Byte)
    (id : Option (BitVec 64)) (g : G) (props : Props) :
    (∃ j, marshal fmt fmtU (.value (.feature id g props)) = .ok j) ↔ Writable g ∧ FinProps props := by
  rw [marshal]; exact featureJson_ok

example : FinProps (some [(['a'], .arr [.num n1, .nil]), (['b'], .map [(['c'], .bool true)])]) := by
  have h1 : fin n1 := by show (_ : Nat) < _; decide
  simp [FinProps, FinVal, FinVals, FinFields, h1]

/-- Partial: every feature that is written and has no nil coordinate slice is
read back: same id, same properties, geometry with closed rings. -/
theorem C65_feature_partial (fmt : F64 → List Byte) (fmtU : BitVec 64 → List Byte)
    (parse : List Byte → Option F64) (parseU : List Byte → Option (BitVec 64))
    (hp : ReadsNumbers fmt parse) (hu : ReadsIds fmtU parseU)
    (id : Option (BitVec 64)) (g : G) (props : Props) (hg : Writable g) (hf : FinProps props)
    (hm : MapProps props) (hn : NoNil g) :
    ∃ j, marshal fmt fmtU (.value (.feature id g props)) = .ok j ∧
      unmarshal parse parseU j = .ok (.feature id (closedGeom g) props) := by
  obtain ⟨j, hj⟩ := (C65_writes_iff fmt fmtU id g props).2 ⟨hg, hf⟩
  rw [marshal] at hj
  exact ⟨j, by rw [marshal]; exact hj, (feature_back hp hu hm hj).1 hn⟩

example : ReadsNumbers byteFmt byteParse ∧ ReadsIds byteFmt byteParse ∧
    MapProps (some [(['a'], .arr [.num n1, .nil]), (['b'], .map [(['c'], .bool true)])]) :=
  ⟨byte_readsNumbers, byte_reads, by simp [MapProps, MapVal, MapVals, MapFields]⟩

/-- Partial: a collection of such features comes back feature by feature, in
order; a collection with the nil list too. -/
theorem C65_collection_partial (fmt : F64 → List Byte) (fmtU : BitVec 64 → List Byte)
    (parse : List Byte → Option F64) (parseU : List Byte → Option (BitVec 64))
    (hp : ReadsNumbers fmt parse) (hu : ReadsIds fmtU parseU) (fs : List G)
    (hw : ∀ f ∈ fs, WritableFeature f) (hm : ∀ f ∈ fs, MapFeature f) (hn : ∀ f ∈ fs, NoNilFeature f) :
    (∃ j, marshal fmt fmtU (.value (.features (some fs))) = .ok j ∧
      unmarshal parse parseU j = .ok (.features (some (fs.map closedFeature)))) ∧
    (∃ j, marshal fmt fmtU (.value (.features none)) = .ok j ∧
      unmarshal parse parseU j = .ok (.features none)) := by
  constructor
  · obtain ⟨j, hj⟩ := (featuresJson_ok (fmt := fmt) (fmtU := fmtU) (fs := some fs)).2
      (by intro l hl; cases hl; exact hw)
    exact ⟨j, hj, (features_back hp hu hm hj).1 hn⟩
  · obtain ⟨j, hj⟩ := (featuresJson_ok (fmt := fmt) (fmtU := fmtU) (fs := none)).2 (by simp)
    exact ⟨j, hj, features_back_nil hj⟩

example : WritableFeature (.feature (some 7#64) nested none) ∧ NoNilFeature (.feature (some 7#64) nested none) :=
  ⟨⟨nested_writable, trivial⟩, by simp [NoNilFeature, nested, NoNil, NoNilAll]⟩

/-- Partial: a bare geometry, or a `Geometry` wrapper, becomes a feature without
id and properties; a slice of geometries becomes a collection of such features;
anything else among them is refused. -/
theorem C65_wraps_partial (fmt : F64 → List Byte) (fmtU : BitVec 64 → List Byte)
    (parse : List Byte → Option F64) (parseU : List Byte → Option (BitVec 64))
    (hp : ReadsNumbers fmt parse) (hu : ReadsIds fmtU parseU) :
    (∀ g, Writable g → NoNil g → ∃ j, marshal fmt fmtU (.value g) = .ok j ∧
      marshal fmt fmtU (.wrapped g) = .ok j ∧
      unmarshal parse parseU j = .ok (.feature none (closedGeom g) none)) ∧
    (∀ gs : List G, (∀ g ∈ gs, Writable g) → (∀ g ∈ gs, NoNil g) →
      ∃ j, marshal fmt fmtU (.slice gs) = .ok j ∧
        unmarshal parse parseU j = .ok (.features (some (gs.map fun g => .feature none (closedGeom g) none)))) ∧
    (∀ gs : List G, (∃ g ∈ gs, ¬ Writable g) → marshal fmt fmtU (.slice gs) = .err) := by
  have hval : ∀ g, Writable g → marshal fmt fmtU (.value g) = featureJson fmt fmtU none g none := by
    intro g hg; cases g <;> first | rfl | simp [Writable] at hg
  have hgeom : ∀ g, Writable g → isGeom g = true := by
    intro g hg; cases g <;> first | rfl | simp [Writable] at hg
  have hslice : ∀ gs : List G, gs.all isGeom = true → marshal fmt fmtU (.slice gs) =
      featuresJson fmt fmtU (some (gs.map fun g => .feature none g none)) := by
    intro gs h; rw [marshal, if_pos h]
  refine ⟨?_, ?_, ?_⟩
  · intro g hg hn
    obtain ⟨j, hj⟩ := (featureJson_ok (fmt := fmt) (fmtU := fmtU) (id := none) (g := g) (props := none)).2
      ⟨hg, trivial⟩
    exact ⟨j, (hval g hg).trans hj, hj, (feature_back (props := none) hp hu trivial hj).1 hn⟩
  · intro gs hg hn
    rw [hslice gs (List.all_eq_true.2 fun g h => hgeom g (hg g h))]
    have hw : ∀ f ∈ gs.map (fun g => G.feature none g none), WritableFeature f := by
      intro f hf; obtain ⟨g, h, rfl⟩ := List.mem_map.1 hf; exact ⟨hg g h, trivial⟩
    have hm : ∀ f ∈ gs.map (fun g => G.feature none g none), MapFeature f := by
      intro f hf; obtain ⟨g, h, rfl⟩ := List.mem_map.1 hf; trivial
    have hnn : ∀ f ∈ gs.map (fun g => G.feature none g none), NoNilFeature f := by
      intro f hf; obtain ⟨g, h, rfl⟩ := List.mem_map.1 hf; exact hn g h
    obtain ⟨j, hj⟩ := (featuresJson_ok (fmt := fmt) (fmtU := fmtU)
      (fs := some (gs.map fun g => G.feature none g none))).2 (by intro l hl; cases hl; exact hw)
    refine ⟨j, hj, ?_⟩
    rw [(features_back hp hu hm hj).1 hnn, List.map_map]
    rfl
  · rintro gs ⟨g, hg, hw⟩
    rw [marshal]
    split
    · cases e : featuresJson fmt fmtU (some (gs.map fun g => .feature none g none)) with
      | ok j =>
        have := (featuresJson_ok (fmt := fmt) (fmtU := fmtU)).1 ⟨j, e⟩ _ rfl _ (List.mem_map_of_mem hg)
        exact absurd this.1 hw
      | err => rfl
      | panic =>
        exfalso
        have hg' : ∀ g : G, marshalGeom fmt g ≠ .panic := marshalGeom_np
        refine Res.map_ne_panic (slJson_ne_panic ?_ _) e
        intro f
        cases f <;> simp only [memberJson, ne_eq, reduceCtorEq, not_false_eq_true]
        exact Res.bind_ne_panic (hg' _) fun _ _ => Res.bind_ne_panic (propsJson_np _) fun _ _ => by simp
    · rfl

example : (∀ g ∈ [G.point (n1, n2), .multiPoint (some [])], Writable g) ∧
    (∃ g ∈ [G.point (n1, n2), .other], ¬ Writable g) := by
  have h1 : fin n1 := by show (_ : Nat) < _; decide
  have h2 : fin n2 := by show (_ : Nat) < _; decide
  simp [Writable, finPt, finLine, h1, h2]

/-! ## C66 — decoding does not panic -/

/-- No document makes the decoder panic. -/
def C66_full : Prop :=
  ∀ (parse : List Byte → Option F64) (parseU : List Byte → Option (BitVec 64)) (j : Json),
    unmarshal parse parseU j ≠ .panic

/-- Violated by `{"type":"Feature","geometry":{"type":"Point","coordinates":null}}`. -/
theorem C66_violated : ¬ C66_full := by
  intro h
  apply h byteParse byteParse (.obj [(kType, .str tFeature),
    (kGeometry, .obj [(kType, .str tPoint), (kCoordinates, .null)])])
  rw [unmarshal, topType_first (by intro k hk; simp at hk; subst hk; show fold kGeometry ≠ kType; decide),
    Res.bind_ok', if_pos rfl, ff_type, ff_geometry, ff_nil, back_point]
  rfl

/-- Also violated by a `null` member of a geometry collection and by a `null`
type. -/
theorem C66_violated_more (parse : List Byte → Option F64) (parseU : List Byte → Option (BitVec 64)) :
    unmarshalGeom parse parseU (collectionObj [.null]) = .panic ∧
    unmarshalGeom parse parseU (.obj [(kType, .null)]) = .panic := by
  constructor
  · rw [back_collection]; rfl
  · rw [unmarshalGeom]; rfl

/-- Partial: a document without such nulls never makes it panic. -/
theorem C66_no_panic_partial (parse : List Byte → Option F64) (parseU : List Byte → Option (BitVec 64))
    (j : Json) (h : NoNulls j) :
    unmarshal parse parseU j ≠ .panic ∧ unmarshalGeom parse parseU j ≠ .panic :=
  ⟨np_unmarshal j h, np_geom j h⟩

example : NoNulls (.obj [(kType, .str tFeature), (kProperties, .null),
    (kGeometry, .obj [(kType, .str tCollection), (kGeometries, .arr [.str tPoint, .arr [.null]])])]) := by
  simp [NoNulls, NoNullsAll, NoNullsFields, kType, kProperties, kGeometry, kGeometries]

/-! ## C67 — positions have two numbers -/

/-- A position is accepted only if it starts with two numbers. -/
def C67_full : Prop :=
  ∀ (parse : List Byte → Option F64) (parseU : List Byte → Option (BitVec 64)) (c : Json) (g : G),
    unmarshalGeom parse parseU (.obj [("type".toList, .str "Point".toList), ("coordinates".toList, c)]) = .ok g →
      ∃ l1 l2 rest, c = .arr (.num l1 :: .num l2 :: rest)

/-- Violated: `{"type":"Point","coordinates":[]}` is the point (0, 0). -/
theorem C67_violated : ¬ C67_full := by
  intro h
  obtain ⟨l1, l2, rest, e⟩ := h byteParse byteParse (.arr []) (.point (n0, n0)) (by
    show unmarshalGeom _ _ (.obj [(kType, .str tPoint), (kCoordinates, .arr [])]) = _
    rw [back_point]; rfl)
  cases e

/-- What a coordinate is taken for: a number by its value, `null` as 0. -/
def coordinate (parse : List Byte → Option F64) : Json → Option F64
  | .num lit => parse lit
  | .null => some n0
  | _ => none

/-- Partial: exactly which positions are accepted and as what point.  Missing
and `null` coordinates count as 0; everything after the second is ignored. -/
theorem C67_position_partial (parse : List Byte → Option F64) (parseU : List Byte → Option (BitVec 64))
    (c : Json) (p : Pt F64) :
    unmarshalGeom parse parseU (.obj [("type".toList, .str "Point".toList), ("coordinates".toList, c)]) =
      .ok (.point p) ↔
    ∃ js : List Json, c = .arr js ∧
      coordinate parse (js.headD .null) = some p.1 ∧ coordinate parse (js.tail.headD .null) = some p.2 := by
  have hnum : ∀ j x, decNum parse j = .ok x ↔ coordinate parse j = some x := by
    intro j x
    cases j <;> simp only [decNum, coordinate]
    · show Res.ok (0#64 : F64) = _ ↔ some n0 = _; simp [n0]
    · simp
    · cases parse _ <;> simp
    · simp
    · simp
    · simp
  have hz : coordinate parse .null = some F64.zero := rfl
  show unmarshalGeom _ _ (.obj [(kType, .str tPoint), (kCoordinates, c)]) = _ ↔ _
  rw [back_point]
  obtain ⟨x, y⟩ := p
  cases c with
  | null => simp [decodeField]
  | bool b => simp [decodeField, decPos]
  | num l => simp [decodeField, decPos]
  | str s => simp [decodeField, decPos]
  | obj kvs => simp [decodeField, decPos]
  | arr js =>
    rw [decodeField_some (by simp), Res.map_ok]
    match js with
    | [] => simp [decPos, hz]
    | [a] =>
      simp only [decPos, Res.bind_ok, hnum, Json.arr.injEq, exists_eq_left', List.headD_cons, List.tail_cons,
        List.headD_nil, hz]
      constructor
      · rintro ⟨q, ⟨u, h1, h2⟩, h3⟩; cases h2; cases h3; exact ⟨h1, rfl⟩
      · rintro ⟨h1, h2⟩; cases h2; exact ⟨_, ⟨x, h1, rfl⟩, rfl⟩
    | a :: b :: r =>
      simp only [decPos, Res.bind_ok, hnum, Json.arr.injEq, exists_eq_left', List.headD_cons, List.tail_cons]
      constructor
      · rintro ⟨q, ⟨u, h1, v, h2, h3⟩, h4⟩; cases h3; cases h4; exact ⟨h1, h2⟩
      · rintro ⟨h1, h2⟩; exact ⟨_, ⟨x, h1, y, h2, rfl⟩, rfl⟩

example : ∃ js : List Json, (.arr [.num (byteFmt n1)] : Json) = .arr js ∧
    coordinate byteParse (js.headD .null) = some n1 ∧ coordinate byteParse (js.tail.headD .null) = some n0 :=
  ⟨_, rfl, byte_reads n1, rfl⟩

/-! ## C68 — foreign members and member order do not matter -/

/-- A member with an unknown name changes nothing, wherever it stands and
whatever it holds, in a feature, a feature collection or a geometry. -/
theorem C68_foreign (parse : List Byte → Option F64) (parseU : List Byte → Option (BitVec 64))
    (k : Str) (hk : Foreign k) (j : Json) (before after : List (Str × Json)) :
    unmarshal parse parseU (.obj (before ++ (k, j) :: after)) = unmarshal parse parseU (.obj (before ++ after)) ∧
    unmarshalGeom parse parseU (.obj (before ++ (k, j) :: after)) =
      unmarshalGeom parse parseU (.obj (before ++ after)) :=
  ⟨unmarshal_foreign hk j before after, unmarshalGeom_foreign hk j before after⟩

example : Foreign "bbox".toList ∧ ¬ Foreign "Geometry".toList := by
  constructor
  · show _ ∉ _; decide
  · show ¬ (_ ∉ _); decide

/-- The members of an object may be in any order, as long as no two names are
the same up to case. -/
theorem C68_order (parse : List Byte → Option F64) (parseU : List Byte → Option (BitVec 64))
    (a b : List (Str × Json)) (h : a.Perm b) (hn : (a.map fun kv => kv.1.map Char.toLower).Nodup) :
    unmarshal parse parseU (.obj a) = unmarshal parse parseU (.obj b) ∧
    unmarshalGeom parse parseU (.obj a) = unmarshalGeom parse parseU (.obj b) :=
  ⟨unmarshal_perm h hn, unmarshalGeom_perm h hn⟩

example : (([(kType, Json.null), (kGeometry, .null), (kId, .null)] : List (Str × Json)).map
    fun kv => kv.1.map Char.toLower).Nodup := by
  simp only [List.map_cons, List.map_nil]; decide

end Verif.Props
