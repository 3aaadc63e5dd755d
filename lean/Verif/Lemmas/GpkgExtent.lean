import Verif.Spec.GpkgDb
import Verif.Lemmas.Gpkg
import Verif.Lemmas.Extent
import Verif.Lemmas.Wkb

/-!
# Lemmas for the extents of tables
-/

namespace Verif.Lemmas.GpkgDb
open Verif Verif.GpkgDb Verif.Spec.GpkgDb Verif.Spec.Extent Verif.Ext

variable {G B : Type}

theorem within_pair {a b c d : F64} (hv : (⟨a, b, c, d⟩ : Box).valid) (B : Box) :
    (∀ p ∈ [(a, b), (c, d)], B.has p) ↔ (⟨a, b, c, d⟩ : Box).within B := by
  simp only [List.mem_cons, List.not_mem_nil, or_false, forall_eq_or_imp, forall_eq, Box.has, Box.within,
    Box.valid] at *
  constructor
  · rintro ⟨⟨h1, h2, h3, h4⟩, h5, h6, h7, h8⟩
    exact ⟨h1, h6, h3, h8⟩
  · rintro ⟨h1, h2, h3, h4⟩
    exact ⟨⟨h1, le_trans' hv.1 h2, h3, le_trans' hv.2 h4⟩, le_trans' h1 hv.1, h2, le_trans' h3 hv.2, h4⟩

theorem newExtent_pair {a b c d : F64} (hv : (⟨a, b, c, d⟩ : Box).valid) :
    ∃ e, newExtent [(a, b), (c, d)] = some e ∧ (Ext.box e).valid ∧
      ∀ B, (Ext.box e).within B ↔ (⟨a, b, c, d⟩ : Box).within B := by
  have hn := numeric_of_valid hv
  have n1 : numPt (a, b) := ⟨hn.1, hn.2.1⟩
  have n2 : numPt (c, d) := ⟨hn.2.2.1, hn.2.2.2⟩
  refine ⟨_, rfl, ?_, ?_⟩
  · exact (fold_grows grow_grows (fun e h => numeric_of_valid h) [(c, d)] _ (single_valid n1)
      (by intro p hp; rw [List.mem_singleton] at hp; subst hp; exact n2)).1
  · intro B
    have ht := fold_tight grow_grows (fun e h => numeric_of_valid h) (fun p h => single_valid h) (a, b) [(c, d)]
      (by intro p hp
          simp only [List.mem_cons, List.not_mem_nil, or_false] at hp
          rcases hp with rfl | rfl
          · exact n1
          · exact n2)
    rw [← within_pair hv]
    exact ⟨fun h p hp => has_of_within h (ht.1 p hp), ht.2 B⟩

theorem add_valid {e m : Ext} (he : (Ext.box e).valid) (hm : (Ext.box m).valid) :
    ∃ r, Ext.add (some e) m = some r ∧ (Ext.box r).valid ∧
      ∀ B, (Ext.box r).within B ↔ (Ext.box e).within B ∧ (Ext.box m).within B := by
  refine ⟨_, rfl, ?_⟩
  simp only [Box.valid, Ext.box, F64.le_iff] at he hm
  obtain ⟨⟨h1, h3, h5⟩, h2, h4, h6⟩ := he
  obtain ⟨⟨m1, m3, m5⟩, m2, m4, m6⟩ := hm
  obtain ⟨a1, a2⟩ := F64.min_spec h1 m1
  obtain ⟨b1, b2⟩ := F64.min_spec h2 m2
  obtain ⟨c1, c2⟩ := F64.max_spec h3 m3
  obtain ⟨d1, d2⟩ := F64.max_spec h4 m4
  constructor
  · simp only [Box.valid, Ext.box, F64.le_iff, a1, a2, b1, b2, c1, c2, d1, d2, true_and]
    constructor <;> split <;> split <;> omega
  · intro B
    simp only [Box.within, Ext.box, F64.le_iff, a1, a2, b1, b2, c1, c2, d1, d2, h1, h2, h3, h4, m1, m2, m3, m4,
      true_and]
    constructor
    · rintro ⟨⟨q1, q2⟩, ⟨q3, q4⟩, ⟨q5, q6⟩, q7, q8⟩
      refine ⟨⟨⟨q1, ?_⟩, ⟨q3, ?_⟩, ⟨q5, ?_⟩, q7, ?_⟩, ⟨q1, ?_⟩, ⟨q3, ?_⟩, ⟨q5, ?_⟩, q7, ?_⟩ <;>
        · (first | (split at q2 <;> split at q4 <;> split at q6 <;> split at q8 <;> omega))
    · rintro ⟨⟨⟨q1, q2⟩, ⟨q3, q4⟩, ⟨q5, q6⟩, q7, q8⟩, ⟨-, r2⟩, ⟨-, r4⟩, ⟨-, r6⟩, -, r8⟩
      refine ⟨⟨q1, ?_⟩, ⟨q3, ?_⟩, ⟨q5, ?_⟩, q7, ?_⟩ <;> split <;> omega

/-- The bounds of the row are around the extents so far. -/
def Holds (es : List Ext) (r : Contents) : Prop :=
  (es = [] ∧ r.minX = none ∧ r.minY = none ∧ r.maxX = none ∧ r.maxY = none) ∨
  ∃ b, bounds r = some b ∧ b.valid ∧ ∀ B, b.within B ↔ ∀ e ∈ es, (Ext.box e).within B

theorem bounds_some {r : Contents} {b : Box} (h : bounds r = some b) :
    r.minX = some b.left ∧ r.minY = some b.bottom ∧ r.maxX = some b.right ∧ r.maxY = some b.top := by
  unfold bounds at h
  split at h
  · rename_i h1 h2 h3 h4
    cases h
    exact ⟨h1, h2, h3, h4⟩
  · cases h

theorem grown_holds {es : List Ext} {r : Contents} {e : Ext} (h : Holds es r) (he : (Ext.box e).valid) :
    (Ext.box (grown r e)).valid ∧
      ∀ B, (Ext.box (grown r e)).within B ↔ ∀ x ∈ es ++ [e], (Ext.box x).within B := by
  rcases h with ⟨rfl, h1, h2, h3, h4⟩ | ⟨b, hb, hv, hw⟩
  · have : grown r e = e := by simp [grown, h1]
    rw [this]
    exact ⟨he, fun B => by simp⟩
  · obtain ⟨h1, h2, h3, h4⟩ := bounds_some hb
    obtain ⟨e0, he0, hv0, hw0⟩ := newExtent_pair (a := b.left) (b := b.bottom) (c := b.right) (d := b.top) hv
    obtain ⟨x, hx, hvx, hwx⟩ := add_valid hv0 he
    have : grown r e = x := by simp [grown, h1, h2, h3, h4, he0, hx]
    rw [this]
    refine ⟨hvx, fun B => ?_⟩
    rw [hwx, hw0]
    have := hw B
    simp only [List.mem_append, List.mem_singleton, or_imp, forall_and, forall_eq]
    rw [← this]

/-- What a call stores in the row of its table. -/
def rewritten (r : Contents) (x : Ext) : Contents :=
  { r with minX := stored x.minx, minY := stored x.miny, maxX := stored x.maxx, maxY := stored x.maxy }

theorem rewritten_bounds {r : Contents} {x : Ext} (h : (Ext.box x).valid) :
    bounds (rewritten r x) = some (Ext.box x) := by
  have hn := numeric_of_valid h
  simp only [Box.numeric, num, Ext.box] at hn
  simp [bounds, rewritten, stored, hn, Ext.box]

theorem find_update (name : String) (e : Option Ext) (db : Db G B) (q : String) :
    (updateGeometryExtent name e db).1.contents.find? (fun r => decide (r.tableName = q)) =
      (db.contents.find? (fun r => decide (r.tableName = q))).map fun r =>
        match e with
        | some e => if q = name then rewritten r (grown r e) else r
        | none => r := by
  unfold updateGeometryExtent
  cases e with
  | none => simp
  | some e =>
    simp only
    cases hf : db.contents.find? (fun r => decide (r.tableName = name)) with
    | none =>
      simp only
      cases hq : db.contents.find? (fun r => decide (r.tableName = q)) with
      | none => rfl
      | some r =>
        simp only [Option.map_some, Option.some.injEq]
        split
        · rename_i h
          subst h
          rw [hf] at hq
          cases hq
        · rfl
    | some r0 =>
      simp only
      rw [List.find?_map]
      have : ((fun r : Contents => decide (r.tableName = q)) ∘ fun r =>
          if r.tableName = name then rewritten r (grown r0 e) else r) = fun r => decide (r.tableName = q) := by
        funext r
        simp only [Function.comp]
        split <;> rfl
      have hg : (fun r : Contents => if r.tableName = name then
          ({ r with minX := stored (grown r0 e).minx, minY := stored (grown r0 e).miny,
                    maxX := stored (grown r0 e).maxx, maxY := stored (grown r0 e).maxy } : Contents) else r) =
          fun r => if r.tableName = name then rewritten r (grown r0 e) else r := rfl
      rw [hg, this]
      cases hq : db.contents.find? (fun r => decide (r.tableName = q)) with
      | none => rfl
      | some r =>
        simp only [Option.map_some, Option.some.injEq]
        have hrq := List.find?_some hq
        simp only [decide_eq_true_eq] at hrq
        by_cases hqn : q = name
        · subst hqn
          rw [hf, Option.some.injEq] at hq
          subst hq
          simp [hrq]
        · rw [hrq]; simp [hqn]

theorem history_holds (calls : List (String × Option Ext)) (name : String) (db : Db G B) (es : List Ext)
    (hv : ∀ e ∈ given calls name, (Ext.box e).valid) {r : Contents}
    (hr : db.contents.find? (fun r => decide (r.tableName = name)) = some r) (hh : Holds es r) :
    ∃ r', ((calls.foldl (fun db c => (updateGeometryExtent c.1 c.2 db).1) db).contents.find?
        (fun r => decide (r.tableName = name)) = some r') ∧
      r' = { r with minX := r'.minX, minY := r'.minY, maxX := r'.maxX, maxY := r'.maxY } ∧
      (given calls name = [] → r' = r) ∧ Holds (es ++ given calls name) r' := by
  induction calls generalizing db es r with
  | nil => exact ⟨r, hr, rfl, fun _ => rfl, by simpa [given] using hh⟩
  | cons c calls ih =>
    rw [List.foldl_cons]
    have hf := find_update c.1 c.2 db name
    rw [hr, Option.map_some] at hf
    cases hc : c.2 with
    | none =>
      rw [hc] at hf
      simp only at hf
      have hg : given (c :: calls) name = given calls name := by simp [given, hc]
      rw [hg] at hv ⊢
      exact ih _ es hv hf hh
    | some e =>
      rw [hc] at hf
      simp only at hf
      by_cases hn : c.1 = name
      · rw [if_pos hn.symm] at hf
        have hg : given (c :: calls) name = e :: given calls name := by simp [given, hc, hn]
        rw [hg] at hv ⊢
        obtain ⟨hv1, hw1⟩ := grown_holds hh (hv e (by simp))
        obtain ⟨r', h1, h2, h3, h4⟩ := ih _ (es ++ [e]) (fun x hx => hv x (by simp [hx])) hf
          (Or.inr ⟨_, rewritten_bounds hv1, hv1, hw1⟩)
        refine ⟨r', h1, ?_, by simp, by simpa using h4⟩
        rw [h2]
        rfl
      · rw [if_neg (fun h => hn h.symm)] at hf
        have hg : given (c :: calls) name = given calls name := by simp [given, hc, hn]
        rw [hg] at hv ⊢
        exact ih _ es hv hf hh

/-! ## Reading the geometries -/

theorem wire_known {g : Geom F64} {u : List Byte} (h : Spec.Wkb.Wire g u) : known g = true := by
  induction h with
  | collection e ms _ _ ih =>
    simp only [known]
    rename_i hf hm
    clear hf hm
    revert ih
    induction ms with
    | nil => intro _; rfl
    | cons m ms ihm =>
      intro ih
      simp only [List.map_cons, knownAll, Bool.and_eq_true]
      exact ⟨ih m (by simp), ihm (fun m' h' => ih m' (by simp [h']))⟩
  | _ => rfl

theorem decode_known {bytes : List Byte} {b : Gpkg.Binary} (h : Gpkg.decodeGeometry bytes = .ok b) :
    known b.geometry = true := by
  unfold Gpkg.decodeGeometry at h
  split at h
  · cases h
  · split at h
    · cases h
    · rename_i g hg
      cases h
      unfold Wkb.decodeBytes at hg
      split at hg
      · rename_i g' rest hd
        cases hg
        rw [Wkb.decode_eq_record] at hd
        obtain ⟨u, -, hw⟩ := Wkb.record_sound hd
        exact wire_known hw
      · cases hg

/-- The extent is the least box around the points. -/
def Fits (ext : Option Ext) (ps : List (Pt F64)) : Prop :=
  (ext = none ∧ ps = []) ∨
  ∃ e, ext = some e ∧ ps ≠ [] ∧ (Ext.box e).numeric ∧ ∀ B, (Ext.box e).within B ↔ ∀ p ∈ ps, B.has p

theorem fits_tight {e : Ext} {ps : List (Pt F64)} (h : Fits (some e) ps) : Tight (Ext.box e) ps := by
  rcases h with ⟨h, -⟩ | ⟨e', he, -, hn, hw⟩
  · cases h
  · cases he
    exact ⟨(hw _).1 (within_refl hn), fun B => (hw B).2⟩

theorem fits_congr {ext : Option Ext} {ps qs : List (Pt F64)} (h : Fits ext ps) (hm : ∀ p, p ∈ ps ↔ p ∈ qs) :
    Fits ext qs := by
  have he : ps = [] ↔ qs = [] := by
    rw [List.eq_nil_iff_forall_not_mem, List.eq_nil_iff_forall_not_mem]
    exact forall_congr' fun p => not_congr (hm p)
  rcases h with ⟨h1, h2⟩ | ⟨e, h1, h2, h3, h4⟩
  · exact Or.inl ⟨h1, he.1 h2⟩
  · refine Or.inr ⟨e, h1, fun h => h2 (he.2 h), h3, fun B => ?_⟩
    rw [h4]
    exact forall_congr' fun p => by rw [hm p]

/-- The numeric vertices of one geometry. -/
def pts (g : Geom F64) : List (Pt F64) := (verticesOf g).filter fun p => !p.1.isNaN && !p.2.isNaN

theorem mem_pts {g : Geom F64} {p : Pt F64} : p ∈ pts g ↔ p ∈ verticesOf g ∧ numPt p := by
  simp [pts, numPt, num]

theorem pts_empty {g : Geom F64} (hk : known g = true) (he : Cmp.isEmptyGeo g = true) : pts g = [] := by
  rw [List.eq_nil_iff_forall_not_mem]
  intro p hp
  rw [mem_pts] at hp
  exact (Gpkg.isEmptyGeo_iff g hk).1 he p hp.1 hp.2

theorem pts_all {g : Geom F64} (hn : ∀ p ∈ verticesOf g, numPt p) : pts g = verticesOf g := by
  rw [pts, List.filter_eq_self]
  intro p hp
  have := hn p hp
  simp only [numPt, num] at this
  simp [this]

/-- The extent after one geometry more. -/
def joined (ext : Option Ext) (g : Geom F64) : Option Ext :=
  if Cmp.isEmptyGeo g then ext else
    match ext with
    | none => (newExtentFromGeometry g).getD none
    | some e => (Ext.addGeometry (some e) g).1

/-- One geometry more. -/
theorem fits_geometry {ext : Option Ext} {ps : List (Pt F64)} (h : Fits ext ps) {g : Geom F64}
    (hk : known g = true) (hn : Cmp.isEmptyGeo g = false → ∀ p ∈ verticesOf g, numPt p) :
    Fits (joined ext g) (ps ++ pts g) := by
  unfold joined
  split
  · rename_i he
    rw [pts_empty hk he]
    simpa using h
  · rename_i he
    have hn := hn (by simpa using he)
    rw [pts_all hn]
    have hne : verticesOf g ≠ [] := by
      intro hv
      refine he ((Gpkg.isEmptyGeo_iff g hk).2 ?_)
      rw [hv]; simp
    cases ext with
    | none =>
      rcases h with ⟨-, rfl⟩ | ⟨e, he, -⟩
      · simp only [newExtentFromGeometry, coords_known g hk]
        cases hv : verticesOf g with
        | nil => exact absurd hv hne
        | cons p vs =>
          rw [hv] at hn
          refine Or.inr ⟨_, rfl, by simp, ?_, ?_⟩
          · have hp := hn p (by simp)
            exact (fold_grows addPoint_grows (fun e h => h) (p :: vs) _
              (numeric_of_valid (single_valid hp)) hn).1
          · intro B
            have hp := hn p (by simp)
            rw [foldl_clauses _ _ (numeric_of_valid (single_valid hp)) hn]
            constructor
            · rintro ⟨-, h⟩; exact h
            · intro h
              exact ⟨single_least (h p (by simp)), h⟩
      · cases he
    | some e =>
      rcases h with ⟨h, -⟩ | ⟨e', he', hps, hnum, hw⟩
      · cases h
      · cases he'
        simp only [addGeometry_eq, coords_known g hk, addPoints, Option.map_some]
        refine Or.inr ⟨_, rfl, by simp [hps], ?_, ?_⟩
        · exact (fold_grows addPoint_grows (fun e h => h) (verticesOf g) _ hnum hn).1
        · intro B
          rw [foldl_clauses _ _ hnum hn, hw]
          simp only [List.mem_append, or_imp, forall_and]

/-- The geometry in the scanner after a value. -/
def scanned (sb : Option (Geom F64)) (v : Option (List Byte)) : Option (Geom F64) :=
  match v.bind fun bytes => ((Gpkg.decodeGeometry bytes).toOption).map (·.geometry) with
  | some g => some g
  | none => sb

theorem extentLoop_cons (sb : Option (Geom F64)) (ext : Option Ext) (v : Option (List Byte))
    (vs : List (Option (List Byte))) :
    extentLoop sb ext (v :: vs) = extentLoop (scanned sb v) (match scanned sb v with
      | none => ext
      | some g => joined ext g) vs := by
  have body : ∀ sb' : Option (Geom F64), (match sb' with
      | none => extentLoop sb' ext vs
      | some g =>
        if Cmp.isEmptyGeo g then extentLoop sb' ext vs
        else
          match ext with
          | none =>
            match Ext.newExtentFromGeometry g with
            | none => extentLoop sb' none vs
            | some e => extentLoop sb' e vs
          | some e => extentLoop sb' (Ext.addGeometry (some e) g).1 vs) =
      extentLoop sb' (match sb' with
        | none => ext
        | some g => joined ext g) vs := by
    intro sb'
    cases sb' with
    | none => rfl
    | some g =>
      simp only [joined]
      split
      · rfl
      · cases ext with
        | none =>
          simp only
          cases newExtentFromGeometry g <;> rfl
        | some e => rfl
  cases v with
  | none => exact body sb
  | some bytes =>
    rw [extentLoop.eq_def]
    simp only [scanned, Option.bind_some]
    cases Gpkg.decodeGeometry bytes with
    | error e => exact body sb
    | ok b => exact body (some b.geometry)

theorem extentLoop_fits (vs : List (Option (List Byte))) (sb : Option (Geom F64)) (ext : Option Ext)
    (ps : List (Pt F64)) (h : Fits ext ps)
    (hsb : ∀ g, sb = some g → known g = true ∧
      (Cmp.isEmptyGeo g = false → ∀ p ∈ verticesOf g, numPt p) ∧ ∀ p ∈ pts g, p ∈ ps)
    (hn : ∀ g ∈ readable vs, Cmp.isEmptyGeo g = false → ∀ p ∈ verticesOf g, numPt p) :
    Fits (extentLoop sb ext vs) (ps ++ points (readable vs)) := by
  induction vs generalizing sb ext ps with
  | nil => simpa [extentLoop, readable, points] using h
  | cons v vs ih =>
    rw [extentLoop_cons]
    cases hv : v.bind fun bytes => ((Gpkg.decodeGeometry bytes).toOption).map (·.geometry) with
    | none =>
      have hr : readable (v :: vs) = readable vs := by rw [readable, List.filterMap_cons, hv]; rfl
      have hs : scanned sb v = sb := by rw [scanned, hv]
      rw [hr] at hn ⊢
      rw [hs]
      refine ih _ _ _ ?_ hsb hn
      cases sb with
      | none => exact h
      | some g =>
        obtain ⟨h1, h2, h3⟩ := hsb g rfl
        refine fits_congr (fits_geometry h h1 h2) ?_
        intro p
        rw [List.mem_append]
        exact ⟨fun hp => hp.elim id (h3 p), Or.inl⟩
    | some g =>
      have hr : readable (v :: vs) = g :: readable vs := by rw [readable, List.filterMap_cons, hv]; rfl
      have hs : scanned sb v = some g := by rw [scanned, hv]
      rw [hr] at hn ⊢
      rw [hs]
      have hk : known g = true := by
        cases v with
        | none => cases hv
        | some bytes =>
          simp only [Option.bind_some] at hv
          cases hd : Gpkg.decodeGeometry bytes with
          | error e => rw [hd] at hv; cases hv
          | ok b =>
            rw [hd] at hv
            have : b.geometry = g := by simpa [Except.toOption] using hv
            rw [← this]
            exact decode_known hd
      have := ih (some g) _ (ps ++ pts g) (fits_geometry h hk (hn g (by simp)))
        (by
          intro g' hg'
          cases hg'
          exact ⟨hk, hn g (by simp), fun p hp => List.mem_append_right _ hp⟩)
        (fun g' hg' => hn g' (by simp [hg']))
      rw [List.append_assoc] at this
      exact this

end Verif.Lemmas.GpkgDb
