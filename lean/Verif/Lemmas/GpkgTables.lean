import Verif.Spec.GpkgDb
import Verif.Lemmas.GpkgIndex

/-!
# Lemmas for the metadata tables
-/

namespace Verif.Lemmas.GpkgDb
open Verif Verif.GpkgDb Verif.Spec.GpkgDb

variable {G B : Type}

/-! ## Spatial reference systems -/

theorem insertSrs_find (rows : List Srs) (s : Srs) (i : Int) :
    (insertSrs rows s).find? (fun r => decide (r.id = i)) =
      (rows.find? (fun r => decide (r.id = i))).or ([s].find? fun r => decide (r.id = i)) := by
  unfold insertSrs
  split
  · rename_i h
    rw [List.any_eq_true] at h
    obtain ⟨r, hr, hk⟩ := h
    cases hf : rows.find? (fun r => decide (r.id = i)) with
    | some q => rfl
    | none =>
      rw [List.find?_eq_none] at hf
      have := hf r hr
      simp only [decide_eq_true_eq] at this hk
      have hne : ¬ s.id = i := hk ▸ this
      simp [hne]
  · rw [List.find?_append]

theorem foldl_insertSrs_find (srss rows : List Srs) (i : Int) :
    (srss.foldl insertSrs rows).find? (fun r => decide (r.id = i)) =
      (rows.find? (fun r => decide (r.id = i))).or (srss.find? fun r => decide (r.id = i)) := by
  induction srss generalizing rows with
  | nil => simp
  | cons s srss ih =>
    rw [List.foldl_cons, ih, insertSrs_find, Option.or_assoc, ← List.find?_append]; rfl

theorem insertSrs_sub (rows : List Srs) (s : Srs) : rows <+: insertSrs rows s := by
  unfold insertSrs
  split
  · exact List.prefix_rfl
  · exact List.prefix_append _ _

theorem foldl_insertSrs_sub (srss rows : List Srs) : rows <+: srss.foldl insertSrs rows := by
  induction srss generalizing rows with
  | nil => exact List.prefix_rfl
  | cons s srss ih => exact (insertSrs_sub rows s).trans (ih _)

theorem insertSrs_nodup {rows : List Srs} (h : (rows.map (·.id)).Nodup) (s : Srs) :
    ((insertSrs rows s).map (·.id)).Nodup := by
  unfold insertSrs
  split
  · exact h
  · rename_i hn
    rw [List.map_append, List.nodup_append]
    refine ⟨h, by simp, ?_⟩
    intro x hx y hy he
    simp only [List.map_cons, List.map_nil, List.mem_singleton] at hy
    subst hy
    obtain ⟨r, hr, rfl⟩ := List.mem_map.1 hx
    refine hn ?_
    rw [List.any_eq_true]
    exact ⟨r, hr, by simpa using he⟩

theorem foldl_insertSrs_nodup (srss : List Srs) {rows : List Srs} (h : (rows.map (·.id)).Nodup) :
    ((srss.foldl insertSrs rows).map (·.id)).Nodup := by
  induction srss generalizing rows with
  | nil => exact h
  | cons s srss ih => exact ih (insertSrs_nodup h s)

theorem insertSrs_has (rows : List Srs) (s : Srs) : ∃ r ∈ insertSrs rows s, r.id = s.id := by
  unfold insertSrs
  split
  · rename_i h
    rw [List.any_eq_true] at h
    obtain ⟨r, hr, hk⟩ := h
    exact ⟨r, hr, by simpa using hk⟩
  · exact ⟨s, by simp, rfl⟩

theorem hasSrs_iff (db : Db G B) (i : Int) : HasSrs db i ↔ db.srs.any (fun r => decide (r.id = i)) = true := by
  unfold HasSrs
  rw [List.any_eq_true]
  simp

theorem hasSrs_update {db : Db G B} {i : Int} (h : HasSrs db i) (srss : List Srs) :
    HasSrs (updateSRS db srss) i := by
  obtain ⟨s, hs, hi⟩ := h
  exact ⟨s, (foldl_insertSrs_sub srss db.srs).subset hs, hi⟩

/-! ## The statements of AddGeometryTable -/

theorem srsStep_ok {d : Desc} {db db' : Db G B} (h : srsStep d db = .ok db') :
    HasSrs db' d.srs ∧ ∃ l, db' = updateSRS db l := by
  unfold srsStep at h
  split at h
  · rename_i ha
    cases h
    exact ⟨(hasSrs_iff _ _).2 ha, [], rfl⟩
  · split at h
    · cases h
    · rename_i s hs
      cases h
      obtain ⟨r, hr, hk⟩ := insertSrs_has db.srs s
      refine ⟨⟨r, hr, ?_⟩, [s], rfl⟩
      have := List.find?_some hs
      rw [hk]; simpa using this

theorem fieldStep_ok {d : Desc} {db db' : Db G B} (h : fieldStep d db = .ok db') :
    db' = db ∧ ∃ t, db.table? d.name = some t ∧ d.geometryField ∈ t.columns := by
  unfold fieldStep at h
  split at h
  · cases h
  · rename_i t ht
    split at h
    · rename_i hf
      cases h
      exact ⟨rfl, t, ht, hf⟩
    · cases h

/-- The row of the contents that `AddGeometryTable` writes. -/
def contentsRow (d : Desc) : Contents :=
  ⟨d.name, "features", d.shortName, d.description, none, none, none, none, d.srs⟩

/-- The row of the geometry columns that `AddGeometryTable` writes. -/
def geomColRow (d : Desc) : GeomCol :=
  ⟨d.name, d.geometryField, geometryTypeName d.geometryType, d.srs, d.z, d.m⟩

theorem contentsStep_ok {d : Desc} {db db' : Db G B} (h : contentsStep d db = .ok db') :
    ((∃ r ∈ db.contents, r.tableName = d.name) ∧ db' = db) ∨
    ((∀ r ∈ db.contents, r.tableName ≠ d.name) ∧ (∀ r ∈ db.contents, r.identifier ≠ d.shortName) ∧
      db' = { db with contents := db.contents ++ [contentsRow d] }) := by
  unfold contentsStep at h
  split at h
  · rename_i ha
    cases h
    rw [List.any_eq_true] at ha
    obtain ⟨r, hr, hk⟩ := ha
    exact Or.inl ⟨⟨r, hr, by simpa using hk⟩, rfl⟩
  · rename_i ha
    split at h
    · cases h
    · rename_i hb
      cases h
      refine Or.inr ⟨?_, ?_, rfl⟩
      · intro r hr hk
        exact ha (List.any_eq_true.2 ⟨r, hr, by simpa using hk⟩)
      · intro r hr hk
        exact hb (List.any_eq_true.2 ⟨r, hr, by simpa using hk⟩)

theorem geomColStep_ok {d : Desc} {db db' : Db G B} (h : geomColStep d db = .ok db') :
    ((∃ r ∈ db.geomCols, r.tableName = d.name) ∧ db' = db) ∨
    ((∀ r ∈ db.geomCols, r.tableName ≠ d.name) ∧
      db' = { db with geomCols := db.geomCols ++ [geomColRow d] }) := by
  unfold geomColStep at h
  split at h
  · rename_i ha
    cases h
    rw [List.any_eq_true] at ha
    obtain ⟨r, hr, hk⟩ := ha
    exact Or.inl ⟨⟨r, hr, by simpa using hk⟩, rfl⟩
  · rename_i ha
    cases h
    refine Or.inr ⟨?_, rfl⟩
    intro r hr hk
    exact ha (List.any_eq_true.2 ⟨r, hr, by simpa using hk⟩)

theorem pkStep_ok {d : Desc} {db db' : Db G B} (h : pkStep d db = .ok db') :
    db' = db ∧ ∃ t, db.table? d.name = some t ∧ t.pk.isSome = true := by
  unfold pkStep at h
  split at h
  · cases h
  · rename_i t ht
    split at h
    · rename_i hf
      cases h
      exact ⟨rfl, t, ht, hf⟩
    · cases h

theorem rtreeStep_ok {d : Desc} {db db' : Db G B} (h : rtreeStep d db = .ok db') :
    (∀ t ∈ db.tables, t.name ≠ rtreeName d.name d.geometryField ∧
      ∀ ix ∈ t.indexes, rtreeName t.name ix.column ≠ rtreeName d.name d.geometryField) ∧
    db' = db.mapTable d.name fun t => { t with indexes := t.indexes ++ [⟨d.geometryField, [], []⟩] } := by
  unfold rtreeStep at h
  simp only at h
  split at h
  · cases h
  · rename_i ha
    cases h
    refine ⟨fun t ht => ⟨fun hk => ha ?_, fun ix hix hk => ha ?_⟩, rfl⟩
    · exact List.any_eq_true.2 ⟨t, ht, by simp [hk]⟩
    · refine List.any_eq_true.2 ⟨t, ht, ?_⟩
      rw [Bool.or_eq_true]
      exact Or.inr (List.any_eq_true.2 ⟨ix, hix, by simpa using hk⟩)

theorem trigStep_ok {d : Desc} {tr : Trig} {db db' : Db G B} (h : trigStep d tr db = .ok db') :
    (∀ c ∈ d.name.toList, plainChar c = true) ∧ (∀ c ∈ d.geometryField.toList, plainChar c = true) ∧
    db' = db.mapTable d.name fun t => { t with indexes := t.indexes.map fun ix =>
      if ix.column = d.geometryField then { ix with trigs := ix.trigs ++ [tr] } else ix } := by
  unfold trigStep at h
  split at h
  · cases h
  · rename_i ha
    split at h
    · cases h
    · cases h
      simp only [Bool.not_eq_true', Bool.not_eq_false, Bool.and_eq_true, List.all_eq_true] at ha
      exact ⟨ha.1, ha.2, rfl⟩

theorem extensionStep_ok {d : Desc} {db db' : Db G B} (h : extensionStep d db = .ok db') :
    db' = db ∨ ((∀ r ∈ db.extensions, (r.tableName, r.columnName, r.extensionName) ≠
        (d.name, d.geometryField, "gpkg_rtree_index")) ∧
      ∃ r : Extension, (r.tableName, r.columnName, r.extensionName) =
          (d.name, d.geometryField, "gpkg_rtree_index") ∧
        db' = { db with extensions := db.extensions ++ [r] }) := by
  unfold extensionStep at h
  split at h
  · cases h; exact Or.inl rfl
  · rename_i ha
    cases h
    refine Or.inr ⟨?_, _, rfl, rfl⟩
    intro r hr he
    simp only [Prod.mk.injEq] at he
    exact ha (List.any_eq_true.2 ⟨r, hr, by simp [he.1, he.2.1, he.2.2]⟩)

/-! ## Running statements -/

theorem run_append (ss ts : List (Db G B → Except Err (Db G B))) (db : Db G B) :
    run (ss ++ ts) db = match run ss db with
      | (db', none) => run ts db'
      | (db', some e) => (db', some e) := by
  induction ss generalizing db with
  | nil => rfl
  | cons s ss ih =>
    rw [List.cons_append, run, run]
    cases s db with
    | error e => rfl
    | ok db => exact ih db

/-- A property that each statement hands on, at every point of the run. -/
theorem run_chain (P : Nat → Db G B → Prop) (ss : List (Db G B → Except Err (Db G B))) (k : Nat)
    (h : ∀ i s, ss[i]? = some s → ∀ db db', P (k + i) db → s db = .ok db' → P (k + i + 1) db')
    (db : Db G B) (h0 : P k db) : ∃ j, P j (run ss db).1 := by
  induction ss generalizing k db with
  | nil => exact ⟨k, h0⟩
  | cons s ss ih =>
    rw [run]
    cases hs : s db with
    | error e => exact ⟨k, h0⟩
    | ok db1 =>
      refine ih (k + 1) ?_ db1 (h 0 s rfl db db1 h0 hs)
      intro i t ht db2 db3 h2 h3
      have he : k + (i + 1) = k + 1 + i := by omega
      have := h (i + 1) t (by simpa using ht) db2 db3 (by rw [he]; exact h2) h3
      rw [he] at this
      exact this

/-! ## Soundness of the metadata -/

theorem _root_.Verif.Spec.GpkgDb.Sound.updateSRS {db : Db G B} (h : Sound db) (srss : List Srs) : Sound (updateSRS db srss) where
  contentsSrs := fun r hr => hasSrs_update (h.contentsSrs r hr) srss
  columnsContents := h.columnsContents
  columnsSrs := fun r hr => hasSrs_update (h.columnsSrs r hr) srss
  srsKeys := foldl_insertSrs_nodup srss h.srsKeys
  contentsKeys := h.contentsKeys
  identifiers := h.identifiers
  columnKeys := h.columnKeys
  extensionKeys := h.extensionKeys

theorem _root_.Verif.Spec.GpkgDb.Sound.tables {db : Db G B} (h : Sound db) (ts : List (Table G B)) : Sound { db with tables := ts } where
  contentsSrs := h.contentsSrs
  columnsContents := h.columnsContents
  columnsSrs := h.columnsSrs
  srsKeys := h.srsKeys
  contentsKeys := h.contentsKeys
  identifiers := h.identifiers
  columnKeys := h.columnKeys
  extensionKeys := h.extensionKeys

theorem nodup_snoc {α β : Type} {f : α → β} {l : List α} {x : α} (h : (l.map f).Nodup)
    (hx : ∀ y ∈ l, f y ≠ f x) : ((l ++ [x]).map f).Nodup := by
  rw [List.map_append, List.nodup_append]
  refine ⟨h, by simp, ?_⟩
  intro a ha b hb
  simp only [List.map_cons, List.map_nil, List.mem_singleton] at hb
  subst hb
  obtain ⟨y, hy, rfl⟩ := List.mem_map.1 ha
  exact hx y hy

/-- What holds before the statement with number `k`. -/
def Before (d : Desc) (k : Nat) (db : Db G B) : Prop :=
  Sound db ∧ (1 ≤ k → HasSrs db d.srs) ∧ (3 ≤ k → ∃ r ∈ db.contents, r.tableName = d.name)

theorem before_step (d : Desc) (i : Nat) (s : Db G B → Except Err (Db G B))
    (hs : (statements d)[i]? = some s) (db db' : Db G B) (h : Before d i db) (ho : s db = .ok db') :
    Before d (i + 1) db' := by
  obtain ⟨h1, h2, h3⟩ := h
  have mapped : ∀ f, 3 ≤ i → Before d (i + 1) (db.mapTable d.name f) := fun f hi =>
    ⟨h1.tables _, fun _ => h2 (by omega), fun _ => h3 (by omega)⟩
  have trig : ∀ tr, 3 ≤ i → trigStep d tr db = .ok db' → Before d (i + 1) db' := by
    intro tr hi ho
    rw [(trigStep_ok ho).2.2]
    exact mapped _ hi
  match i with
  | 0 =>
    simp only [statements, List.getElem?_cons_zero, Option.some.injEq] at hs
    subst hs
    obtain ⟨hsrs, l, rfl⟩ := srsStep_ok ho
    exact ⟨h1.updateSRS l, fun _ => hsrs, fun hi => by omega⟩
  | 1 =>
    simp only [statements, List.getElem?_cons_zero, List.getElem?_cons_succ, Option.some.injEq] at hs
    subst hs
    obtain ⟨rfl, _⟩ := fieldStep_ok ho
    exact ⟨h1, fun _ => h2 (by omega), fun hi => by omega⟩
  | 2 =>
    simp only [statements, List.getElem?_cons_zero, List.getElem?_cons_succ, Option.some.injEq] at hs
    subst hs
    rcases contentsStep_ok ho with ⟨hex, rfl⟩ | ⟨hn, hid, rfl⟩
    · exact ⟨h1, fun _ => h2 (by omega), fun _ => hex⟩
    · refine ⟨?_, fun _ => h2 (by omega), fun _ => ⟨contentsRow d, by simp, rfl⟩⟩
      exact { contentsSrs := by
                intro r hr
                rcases List.mem_append.1 hr with hr | hr
                · exact h1.contentsSrs r hr
                · rw [List.mem_singleton] at hr
                  subst hr
                  exact h2 (by omega)
              columnsContents := by
                intro r hr
                obtain ⟨q, hq, hk⟩ := h1.columnsContents r hr
                exact ⟨q, List.mem_append_left _ hq, hk⟩
              columnsSrs := h1.columnsSrs
              srsKeys := h1.srsKeys
              contentsKeys := nodup_snoc h1.contentsKeys hn
              identifiers := nodup_snoc h1.identifiers hid
              columnKeys := h1.columnKeys
              extensionKeys := h1.extensionKeys }
  | 3 =>
    simp only [statements, List.getElem?_cons_zero, List.getElem?_cons_succ, Option.some.injEq] at hs
    subst hs
    rcases geomColStep_ok ho with ⟨hex, rfl⟩ | ⟨hn, rfl⟩
    · exact ⟨h1, fun _ => h2 (by omega), fun _ => h3 (by omega)⟩
    · refine ⟨?_, fun _ => h2 (by omega), fun _ => h3 (by omega)⟩
      exact { contentsSrs := h1.contentsSrs
              columnsContents := by
                intro r hr
                rcases List.mem_append.1 hr with hr | hr
                · exact h1.columnsContents r hr
                · rw [List.mem_singleton] at hr
                  subst hr
                  exact h3 (by omega)
              columnsSrs := by
                intro r hr
                rcases List.mem_append.1 hr with hr | hr
                · exact h1.columnsSrs r hr
                · rw [List.mem_singleton] at hr
                  subst hr
                  exact h2 (by omega)
              srsKeys := h1.srsKeys
              contentsKeys := h1.contentsKeys
              identifiers := h1.identifiers
              columnKeys := nodup_snoc h1.columnKeys hn
              extensionKeys := h1.extensionKeys }
  | 4 =>
    simp only [statements, List.getElem?_cons_zero, List.getElem?_cons_succ, Option.some.injEq] at hs
    subst hs
    obtain ⟨rfl, _⟩ := pkStep_ok ho
    exact ⟨h1, fun _ => h2 (by omega), fun _ => h3 (by omega)⟩
  | 5 =>
    simp only [statements, List.getElem?_cons_zero, List.getElem?_cons_succ, Option.some.injEq] at hs
    subst hs
    rw [(rtreeStep_ok ho).2]
    exact mapped _ (by omega)
  | 6 | 7 | 8 | 9 | 10 | 11 =>
    simp only [statements, List.getElem?_cons_zero, List.getElem?_cons_succ, Option.some.injEq] at hs
    subst hs
    exact trig _ (by omega) ho
  | 12 =>
    simp only [statements, List.getElem?_cons_zero, List.getElem?_cons_succ, Option.some.injEq] at hs
    subst hs
    rcases extensionStep_ok ho with rfl | ⟨hn, r, hr, rfl⟩
    · exact ⟨h1, fun _ => h2 (by omega), fun _ => h3 (by omega)⟩
    · refine ⟨?_, fun _ => h2 (by omega), fun _ => h3 (by omega)⟩
      exact { contentsSrs := h1.contentsSrs
              columnsContents := h1.columnsContents
              columnsSrs := h1.columnsSrs
              srsKeys := h1.srsKeys
              contentsKeys := h1.contentsKeys
              identifiers := h1.identifiers
              columnKeys := h1.columnKeys
              extensionKeys := nodup_snoc h1.extensionKeys (fun y hy => by rw [hr]; exact hn y hy) }
  | n + 13 => simp [statements] at hs

theorem cut_sound (d : Desc) (n : Nat) {db : Db G B} (h : Sound db) : Sound (addGeometryTableCut d n db) := by
  have := run_chain (Before d) ((statements d).take n) 0 ?_ db ⟨h, fun hi => by omega, fun hi => by omega⟩
  · obtain ⟨j, hj⟩ := this
    exact hj.1
  · intro i s hs db db' hb ho
    rw [List.getElem?_take] at hs
    split at hs
    · rw [Nat.zero_add] at hb ⊢
      exact before_step d i s hs db db' hb ho
    · cases hs

theorem cut_all (d : Desc) (db : Db G B) : addGeometryTableCut d 13 db = (addGeometryTable d db).1 := rfl

theorem add_sound (d : Desc) {db : Db G B} (h : Sound db) : Sound (addGeometryTable d db).1 :=
  cut_sound d 13 h

theorem extent_sound (name : String) (e : Option Ext) {db : Db G B} (h : Sound db) :
    Sound (updateGeometryExtent name e db).1 := by
  unfold updateGeometryExtent
  split
  · exact h
  · split
    · exact h
    · simp only
      have keep : ∀ {β : Type} (f : Contents → β), (∀ (r : Contents) a b c d,
          f { r with minX := a, minY := b, maxX := c, maxY := d } = f r) → ∀ (g : Contents → Contents) (l : List Contents),
          (∀ r, g r = r ∨ ∃ a b c d, g r = { r with minX := a, minY := b, maxX := c, maxY := d }) →
          (l.map g).map f = l.map f := by
        intro β f hf g l hg
        rw [List.map_map]
        refine List.map_congr_left fun r _ => ?_
        rcases hg r with h | ⟨a, b, c, d, h⟩
        · simp [h]
        · simp only [Function.comp, h]; exact hf r a b c d
      rename_i e _ r0 _
      have hg : ∀ r : Contents, (if r.tableName = name then
          ({ r with minX := stored (grown r0 e).minx, minY := stored (grown r0 e).miny,
                    maxX := stored (grown r0 e).maxx, maxY := stored (grown r0 e).maxy } : Contents) else r) = r ∨
          ∃ a b c d, (if r.tableName = name then
          ({ r with minX := stored (grown r0 e).minx, minY := stored (grown r0 e).miny,
                    maxX := stored (grown r0 e).maxx, maxY := stored (grown r0 e).maxy } : Contents) else r) =
            { r with minX := a, minY := b, maxX := c, maxY := d } := by
        intro r
        split
        · exact Or.inr ⟨_, _, _, _, rfl⟩
        · exact Or.inl rfl
      exact { contentsSrs := by
                intro r hr
                obtain ⟨q, hq, rfl⟩ := List.mem_map.1 hr
                have := h.contentsSrs q hq
                split <;> exact this
              columnsContents := by
                intro r hr
                obtain ⟨q, hq, hk⟩ := h.columnsContents r hr
                refine ⟨_, List.mem_map.2 ⟨q, hq, rfl⟩, ?_⟩
                split <;> exact hk
              columnsSrs := h.columnsSrs
              srsKeys := h.srsKeys
              contentsKeys := by
                rw [keep (·.tableName) (by intros; rfl) _ _ hg]; exact h.contentsKeys
              identifiers := by
                rw [keep (·.identifier) (by intros; rfl) _ _ hg]; exact h.identifiers
              columnKeys := h.columnKeys
              extensionKeys := h.extensionKeys }

end Verif.Lemmas.GpkgDb
