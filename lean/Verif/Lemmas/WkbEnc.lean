import Verif.Lemmas.Wkb

namespace Verif.Wkb
open Verif Verif.Spec.Wkb

/-! ## The encoder as a sequence of writes -/

/-- What the encoder wants to do next: write data or report a non-geometry. -/
inductive Item where
  | data (bs : List Byte)
  | bad

def step (w : Writer) (e : Enc) : Item → Enc
  | .data bs => e.write w bs
  | .bad => if e.err.isSome then e else { e with err := some true }

def run (w : Writer) (e : Enc) (is : List Item) : Enc := is.foldl (step w) e

theorem run_append (w e a b) : run w e (a ++ b) = run w (run w e a) b := by
  simp [run, List.foldl_append]

theorem run_err (w) (e : Enc) (is : List Item) (h : e.err.isSome) : run w e is = e := by
  induction is with
  | nil => rfl
  | cons i is ih =>
    have : step w e i = e := by
      cases i with
      | data bs =>
        simp only [step, Enc.write]
        cases he : e.err with
        | none => simp [he] at h
        | some _ => rfl
      | bad => simp [step, h]
    simpa [run, this] using ih

def iPair (o : Order) (p : Pt F64) : List Item := [.data (putF o p.1), .data (putF o p.2)]
def iHead (o : Order) (t : Nat) : List Item := [.data [bomByte o], .data (put32 o t)]
def iPoint (o : Order) (p : Pt F64) : List Item := iHead o tPoint ++ iPair o p
def iCount (o : Order) (n : Nat) : List Item := [.data (put32 o n)]
def iMultiPoint (o : Order) (ps : List (Pt F64)) : List Item :=
  iHead o tMultiPoint ++ iCount o ps.length ++ ps.flatMap (iPoint o)
def iLineString (o : Order) (ps : List (Pt F64)) : List Item :=
  iHead o tLineString ++ iCount o ps.length ++ ps.flatMap (iPair o)
def iMultiLineString (o : Order) (ls : List (List (Pt F64))) : List Item :=
  iHead o tMultiLineString ++ iCount o ls.length ++ ls.flatMap (iLineString o)
def iRing (o : Order) (r : List (Pt F64)) : List Item :=
  iCount o (r.length + (closing r).length) ++ (r ++ closing r).flatMap (iPair o)
def iPolygon (o : Order) (rs : List (List (Pt F64))) : List Item :=
  iHead o tPolygon ++ iCount o rs.length ++ rs.flatMap (iRing o)
def iMultiPolygon (o : Order) (ps : List (List (List (Pt F64)))) : List Item :=
  iHead o tMultiPolygon ++ iCount o ps.length ++ ps.flatMap (iPolygon o)

mutual
def items (o : Order) : Geom F64 → List Item
  | .point p => iPoint o p
  | .multiPoint ps => iMultiPoint o ps
  | .lineString ps => iLineString o ps
  | .multiLineString ls => iMultiLineString o ls
  | .polygon rs => iPolygon o rs
  | .multiPolygon ps => iMultiPolygon o ps
  | .collection gs => iHead o tCollection ++ iCount o gs.length ++ itemsAll o gs
  | .other => [.bad]
def itemsAll (o : Order) : List (Geom F64) → List Item
  | [] => []
  | g :: gs => items o g ++ itemsAll o gs
end

theorem foldl_run {α : Type} (w : Writer) (f : Enc → α → Enc) (it : α → List Item)
    (h : ∀ e x, f e x = run w e (it x)) (xs : List α) (e : Enc) :
    xs.foldl f e = run w e (xs.flatMap it) := by
  induction xs generalizing e with
  | nil => rfl
  | cons x xs ih => simp [run_append, h, ih]

theorem pair_run (w o e p) : Enc.pair w o e p = run w e (iPair o p) := rfl
theorem point_run (w o e p) : Enc.point w o e p = run w e (iPoint o p) := rfl

theorem multiPoint_run (w o e ps) : Enc.multiPoint w o e ps = run w e (iMultiPoint o ps) := by
  rw [Enc.multiPoint, foldl_run w _ (iPoint o) (point_run w o), iMultiPoint, run_append]; rfl

theorem lineString_run (w o e ps) : Enc.lineString w o e ps = run w e (iLineString o ps) := by
  rw [Enc.lineString, foldl_run w _ (iPair o) (pair_run w o), iLineString, run_append]; rfl

theorem multiLineString_run (w o e ls) :
    Enc.multiLineString w o e ls = run w e (iMultiLineString o ls) := by
  rw [Enc.multiLineString, foldl_run w _ (iLineString o) (lineString_run w o), iMultiLineString,
    run_append]; rfl

theorem ring_run (w o e r) : Enc.ring w o e r = run w e (iRing o r) := by
  rw [Enc.ring, foldl_run w _ (iPair o) (pair_run w o), foldl_run w _ (iPair o) (pair_run w o),
    iRing, run_append, List.flatMap_append, run_append]; rfl

theorem polygon_run (w o e rs) : Enc.polygon w o e rs = run w e (iPolygon o rs) := by
  rw [Enc.polygon, foldl_run w _ (iRing o) (ring_run w o), iPolygon, run_append]; rfl

theorem multiPolygon_run (w o e ps) :
    Enc.multiPolygon w o e ps = run w e (iMultiPolygon o ps) := by
  rw [Enc.multiPolygon, foldl_run w _ (iPolygon o) (polygon_run w o), iMultiPolygon, run_append]; rfl

theorem guard_run (w e is) : (if e.err.isSome then e else run w e is) = run w e is := by
  split
  · rw [run_err]; assumption
  · rfl

theorem geometry_run (w o) (g : Geom F64) : ∀ e, Enc.geometry w o e g = run w e (items o g) := by
  induction g using Geom.induct with
  | point p => intro e; rw [Enc.geometry, point_run, guard_run]; rfl
  | multiPoint p => intro e; rw [Enc.geometry, multiPoint_run, guard_run]; rfl
  | lineString p => intro e; rw [Enc.geometry, lineString_run, guard_run]; rfl
  | multiLineString p => intro e; rw [Enc.geometry, multiLineString_run, guard_run]; rfl
  | polygon p => intro e; rw [Enc.geometry, polygon_run, guard_run]; rfl
  | multiPolygon p => intro e; rw [Enc.geometry, multiPolygon_run, guard_run]; rfl
  | other => intro e; rw [Enc.geometry]; rfl
  | collection gs ih =>
    have key : ∀ gs : List (Geom F64),
        (∀ g ∈ gs, ∀ e, Enc.geometry w o e g = run w e (items o g)) →
        ∀ e, Enc.geometries w o e gs = run w e (itemsAll o gs) := by
      intro gs
      induction gs with
      | nil => intro _ e; rfl
      | cons g gs ihg =>
        intro h e
        rw [Enc.geometries, h g (by simp), itemsAll, run_append]
        split
        · rename_i h'; rw [run_err _ _ _ h']
        · exact ihg (fun g' h' => h g' (by simp [h'])) _
    intro e
    rw [Enc.geometry, key gs ih, items, run_append, guard_run_aux]
where
  guard_run_aux {w o} {e : Enc} {gs : List (Geom F64)} :
    (if e.err.isSome then e else
      run w (((e.bom w o).write w (put32 o tCollection)).write w (put32 o gs.length)) (itemsAll o gs))
      = run w (run w e (iHead o tCollection ++ iCount o gs.length)) (itemsAll o gs) := by
    rw [← run_append, ← guard_run w e, run_append]; rfl

/-! ## Good writers -/

/-- The data of the items, up to the first non-geometry. -/
def dataOf : List Item → List Byte
  | [] => []
  | .data bs :: is => bs ++ dataOf is
  | .bad :: _ => []

def noBad : List Item → Bool
  | [] => true
  | .data _ :: is => noBad is
  | .bad :: _ => false

theorem run_good (e : Enc) (he : e.err = none) (is : List Item) :
    (run goodWriter e is).out = e.out ++ dataOf is ∧
    (run goodWriter e is).err = if noBad is then none else some true := by
  induction is generalizing e with
  | nil => simp [run, dataOf, noBad, he]
  | cons i is ih =>
    cases i with
    | data bs =>
      have h := ih (step goodWriter e (.data bs)) (by simp [step, Enc.write, he, goodWriter])
      have h2 : (step goodWriter e (.data bs)).out = e.out ++ bs := by
        simp [step, Enc.write, he, goodWriter]
      rw [h2] at h
      refine ⟨?_, h.2⟩
      rw [dataOf, ← List.append_assoc]; exact h.1
    | bad =>
      have h0 : step goodWriter e .bad = { e with err := some true } := by simp [step, he]
      have : run goodWriter e (.bad :: is) = { e with err := some true } := by
        change run goodWriter (step goodWriter e .bad) is = _
        rw [h0]; exact run_err _ _ _ rfl
      rw [this]; simp [dataOf, noBad]

theorem encode_eq (o g) :
    encode o g = if noBad (items o g) then some (dataOf (items o g)) else none := by
  have h := run_good {} rfl (items o g)
  simp only [encode, encodeTo, geometry_run, h.1, h.2]
  split <;> simp_all

theorem noBad_append (a b) : noBad (a ++ b) = (noBad a && noBad b) := by
  induction a with
  | nil => rfl
  | cons i a ih => cases i <;> simp [noBad, ih]

theorem noBad_flatMap {α : Type} (f : α → List Item) (h : ∀ x, noBad (f x) = true) (xs : List α) :
    noBad (xs.flatMap f) = true := by
  induction xs with
  | nil => rfl
  | cons x xs ih => simp [noBad_append, h, ih]

theorem dataOf_append (a b) (h : noBad a = true) : dataOf (a ++ b) = dataOf a ++ dataOf b := by
  induction a with
  | nil => rfl
  | cons i a ih =>
    cases i with
    | data bs => simp [dataOf, ih (by simpa [noBad] using h)]
    | bad => simp [noBad] at h

theorem dataOf_flatMap {α : Type} (f : α → List Item) (h : ∀ x, noBad (f x) = true) (xs : List α) :
    dataOf (xs.flatMap f) = xs.flatMap (fun x => dataOf (f x)) := by
  induction xs with
  | nil => rfl
  | cons x xs ih => simp [dataOf_append _ _ (h x), ih]

@[simp] theorem noBad_pair (o p) : noBad (iPair o p) = true := rfl
@[simp] theorem noBad_head (o p) : noBad (iHead o p) = true := rfl
@[simp] theorem noBad_count (o p) : noBad (iCount o p) = true := rfl
@[simp] theorem noBad_point (o p) : noBad (iPoint o p) = true := rfl
@[simp] theorem noBad_multiPoint (o p) : noBad (iMultiPoint o p) = true := by
  simp [iMultiPoint, noBad_append, noBad_flatMap _ (noBad_point o)]
@[simp] theorem noBad_lineString (o p) : noBad (iLineString o p) = true := by
  simp [iLineString, noBad_append, noBad_flatMap _ (noBad_pair o)]
@[simp] theorem noBad_multiLineString (o p) : noBad (iMultiLineString o p) = true := by
  simp [iMultiLineString, noBad_append, noBad_flatMap _ (noBad_lineString o)]
@[simp] theorem noBad_ring (o p) : noBad (iRing o p) = true := by
  simp [iRing, noBad_append, noBad_flatMap _ (noBad_pair o), -List.flatMap_append]
@[simp] theorem noBad_polygon (o p) : noBad (iPolygon o p) = true := by
  simp [iPolygon, noBad_append, noBad_flatMap _ (noBad_ring o)]
@[simp] theorem noBad_multiPolygon (o p) : noBad (iMultiPolygon o p) = true := by
  simp [iMultiPolygon, noBad_append, noBad_flatMap _ (noBad_polygon o)]

theorem data_pair (o p) : dataOf (iPair o p) = position (ofO o) p := by
  simp [iPair, dataOf, position_eq]
theorem data_head (o t) : dataOf (iHead o t) = header (ofO o) t := by
  simp [iHead, dataOf, header_eq]
theorem data_count (o n) : dataOf (iCount o n) = u32 (ofO o) n := by
  simp [iCount, dataOf, u32_eq]
theorem data_point (o p) : dataOf (iPoint o p) = header (ofO o) 1 ++ position (ofO o) p := by
  rw [iPoint, dataOf_append _ _ rfl, data_pair, data_head]; rfl
theorem data_multiPoint (o ps) : dataOf (iMultiPoint o ps) =
    header (ofO o) 4 ++ (u32 (ofO o) ps.length ++
      ps.flatMap (fun p => header (ofO o) 1 ++ position (ofO o) p)) := by
  rw [iMultiPoint, dataOf_append _ _ rfl, dataOf_append _ _ rfl, data_head, data_count,
    dataOf_flatMap _ (noBad_point o)]
  simp [data_point, tMultiPoint]
theorem data_lineString (o ps) : dataOf (iLineString o ps) =
    header (ofO o) 2 ++ positions (ofO o) ps := by
  rw [iLineString, dataOf_append _ _ rfl, dataOf_append _ _ rfl, data_head, data_count,
    dataOf_flatMap _ (noBad_pair o)]
  simp [data_pair, tLineString, positions]
theorem data_multiLineString (o ls) : dataOf (iMultiLineString o ls) =
    header (ofO o) 5 ++ (u32 (ofO o) ls.length ++
      ls.flatMap (fun l => header (ofO o) 2 ++ positions (ofO o) l)) := by
  rw [iMultiLineString, dataOf_append _ _ rfl, dataOf_append _ _ rfl, data_head, data_count,
    dataOf_flatMap _ (noBad_lineString o)]
  simp [data_lineString, tMultiLineString]
theorem data_ring (o r) : dataOf (iRing o r) = positions (ofO o) (r ++ closing r) := by
  rw [iRing, dataOf_append _ _ rfl, data_count, dataOf_flatMap _ (noBad_pair o)]
  simp [data_pair, positions]
theorem data_polygon (o rs) : dataOf (iPolygon o rs) =
    header (ofO o) 3 ++ (u32 (ofO o) rs.length ++
      rs.flatMap (fun r => positions (ofO o) (r ++ closing r))) := by
  rw [iPolygon, dataOf_append _ _ rfl, dataOf_append _ _ rfl, data_head, data_count,
    dataOf_flatMap _ (noBad_ring o)]
  simp [data_ring, tPolygon]
theorem data_multiPolygon (o ps) : dataOf (iMultiPolygon o ps) =
    header (ofO o) 6 ++ (u32 (ofO o) ps.length ++
      ps.flatMap (fun rs => header (ofO o) 3 ++ (u32 (ofO o) rs.length ++
        rs.flatMap (fun r => positions (ofO o) (r ++ closing r))))) := by
  rw [iMultiPolygon, dataOf_append _ _ rfl, dataOf_append _ _ rfl, data_head, data_count,
    dataOf_flatMap _ (noBad_polygon o)]
  simp [data_polygon, tMultiPolygon]

/-! ## Rings: closing then opening -/

theorem closing_length (r) : (closing r).length ≤ 1 := by
  unfold closing; split
  · split <;> simp
  · simp

theorem feq_self {f : F64} (h : f.isNaN = false) : F64.eq f f = true := by
  simp [F64.eq, h]

theorem samePoint_self {a : Pt F64} (h1 : a.1.isNaN = false) (h2 : a.2.isNaN = false) :
    samePoint a a = true := by simp [samePoint, feq_self, h1, h2]

theorem ptNe_eq (a b) : ptNe a b = !samePoint a b := by
  simp [ptNe, samePoint, Bool.not_and]

theorem openRing_closing (r : List (Pt F64)) (h : startsNumeric r) :
    openRing (r ++ closing r) = openRing r := by
  match r with
  | [] => rfl
  | [a] =>
    have h' := h a (by simp)
    have hs := samePoint_self h'.1 h'.2
    simp [closing, ptNe_eq, hs]
  | a :: b :: t =>
    have h' := h a (by simp)
    have hs := samePoint_self h'.1 h'.2
    have hl : (a :: b :: t).getLast? = some ((b :: t).getLast (by simp)) := by
      simp [List.getLast?_eq_some_getLast]
    have hc : closing (a :: b :: t) = if samePoint a ((b :: t).getLast (by simp)) then [] else [a] := by
      unfold closing
      rw [List.head?_cons, hl]
      simp only [ptNe_eq]
      cases samePoint a ((b :: t).getLast (by simp)) <;> simp
    cases hsp : samePoint a ((b :: t).getLast (by simp)) with
    | true => simp [hc, hsp]
    | false =>
      have e1 : (a :: b :: t) ++ closing (a :: b :: t) = a :: b :: (t ++ [a]) := by simp [hc, hsp]
      rw [e1]
      have e2 : (b :: (t ++ [a])).getLast (by simp) = a := by
        rw [List.getLast_cons (by simp), List.getLast_concat]
      have e3 : (a :: b :: (t ++ [a])).dropLast = a :: b :: t := by
        have : a :: b :: (t ++ [a]) = (a :: b :: t) ++ [a] := by simp
        rw [this, List.dropLast_concat]
      simp only [openRing, e2, hs, e3, hsp]
      simp

/-! ## Encodings are well-formed records -/

theorem noBad_of_encodable (o) (g : Geom F64) : Encodable g → noBad (items o g) = true := by
  induction g using Geom.induct with
  | collection gs ih =>
    intro h
    have key : ∀ gs : List (Geom F64), (∀ g ∈ gs, Encodable g → noBad (items o g) = true) →
        EncodableAll gs → noBad (itemsAll o gs) = true := by
      intro gs
      induction gs with
      | nil => intro _ _; rfl
      | cons g gs ihg =>
        intro h1 h2
        rw [EncodableAll] at h2
        rw [itemsAll, noBad_append, h1 g (by simp) h2.1,
          ihg (fun g' h' => h1 g' (by simp [h'])) h2.2]
        rfl
    rw [Encodable] at h
    simp [items, noBad_append, key gs ih h.2]
  | other => intro h; rw [Encodable] at h; exact h.elim
  | point p => intro; rfl
  | multiPoint p => intro; simp [items]
  | lineString p => intro; simp [items]
  | multiLineString p => intro; simp [items]
  | polygon p => intro; simp [items]
  | multiPolygon p => intro; simp [items]

theorem wire_items (o) (g : Geom F64) : Encodable g → NumericRings g →
    Wire (openRings g) (dataOf (items o g)) := by
  induction g using Geom.induct with
  | point p => intro _ _; rw [items, data_point]; exact .point _ _
  | lineString ps => intro h _; rw [items, data_lineString]; exact .lineString _ _ (by simpa [Encodable] using h)
  | multiPoint ps =>
    intro h _
    rw [Encodable] at h
    rw [items, data_multiPoint]
    have := Wire.multiPoint (ofO o) (ps.map (fun p => (ofO o, p))) (by simpa [fits] using h)
    simpa [List.flatMap_map, Function.comp_def, openRings] using this
  | multiLineString ls =>
    intro h _
    rw [Encodable] at h
    rw [items, data_multiLineString]
    have := Wire.multiLineString (ofO o) (ls.map (fun p => (ofO o, p))) (by simpa [fits] using h.1)
      (by
        intro m hm
        obtain ⟨l, hl, rfl⟩ := List.mem_map.1 hm
        exact h.2 l hl)
    simpa [List.flatMap_map, Function.comp_def, openRings] using this
  | polygon rs =>
    intro h hn
    rw [Encodable] at h
    rw [NumericRings] at hn
    rw [items, data_polygon, openRings]
    have := Wire.polygon (ofO o) (rs.map (fun r => r ++ closing r)) (by simpa [fits] using h.1)
      (by
        intro m hm
        obtain ⟨l, hl, rfl⟩ := List.mem_map.1 hm
        have := h.2 l hl
        have := closing_length l
        simp only [fits, List.length_append]
        omega)
    have e1 : (rs.map (fun r => r ++ closing r)).map openRing = rs.map openRing := by
      rw [List.map_map]
      apply List.map_congr_left
      intro r hr
      exact openRing_closing r (hn r hr)
    rw [e1] at this
    simpa [List.flatMap_map, Function.comp_def] using this
  | multiPolygon ps =>
    intro h hn
    rw [Encodable] at h
    rw [NumericRings] at hn
    rw [items, data_multiPolygon, openRings]
    have := Wire.multiPolygon (ofO o) (ps.map (fun rs => (ofO o, rs.map (fun r => r ++ closing r))))
      (by simpa [fits] using h.1)
      (by
        intro m hm
        obtain ⟨l, hl, rfl⟩ := List.mem_map.1 hm
        have := (h.2 l hl).1
        simpa [fits] using this)
      (by
        intro m hm r hr
        obtain ⟨l, hl, rfl⟩ := List.mem_map.1 hm
        obtain ⟨r', hr', rfl⟩ := List.mem_map.1 hr
        have := (h.2 l hl).2 r' hr'
        have := closing_length r'
        simp only [fits, List.length_append]
        omega)
    have e1 : (ps.map (fun rs => (ofO o, rs.map (fun r => r ++ closing r)))).map
        (fun m => m.2.map openRing) = ps.map (·.map openRing) := by
      rw [List.map_map]
      apply List.map_congr_left
      intro rs hrs
      simp only [Function.comp_apply, List.map_map]
      apply List.map_congr_left
      intro r hr
      exact openRing_closing r (hn rs hrs r hr)
    rw [e1] at this
    simpa [List.flatMap_map, Function.comp_def] using this
  | collection gs ih =>
    intro h hn
    rw [Encodable] at h
    rw [NumericRings] at hn
    have key : ∀ gs : List (Geom F64),
        (∀ g ∈ gs, Encodable g → NumericRings g → Wire (openRings g) (dataOf (items o g))) →
        EncodableAll gs → NumericRingsAll gs →
        ∃ ms : List (Geom F64 × List Byte), ms.map (·.1) = openRingsAll gs ∧
          ms.flatMap (·.2) = dataOf (itemsAll o gs) ∧ ms.length = gs.length ∧
          ∀ m ∈ ms, Wire m.1 m.2 := by
      intro gs
      induction gs with
      | nil => intro _ _ _; exact ⟨[], rfl, rfl, rfl, by simp⟩
      | cons g gs ihg =>
        intro h1 h2 h3
        rw [EncodableAll] at h2
        rw [NumericRingsAll] at h3
        obtain ⟨ms, e1, e2, e3, e4⟩ := ihg (fun g' h' => h1 g' (by simp [h'])) h2.2 h3.2
        refine ⟨(openRings g, dataOf (items o g)) :: ms, by simp [e1, openRingsAll], ?_, by simp [e3], ?_⟩
        · rw [itemsAll, dataOf_append _ _ (noBad_of_encodable o g h2.1)]
          simp [e2]
        · intro m hm
          rcases List.mem_cons.1 hm with rfl | hm
          · exact h1 g (by simp) h2.1 h3.1
          · exact e4 m hm
    obtain ⟨ms, e1, e2, e3, e4⟩ := key gs ih h.2 hn
    have := Wire.collection (ofO o) ms (by rw [fits, e3]; exact h.1) e4
    rw [items, openRings, dataOf_append _ _ rfl, dataOf_append _ _ rfl, data_head, data_count,
      ← e1, ← e2, ← e3, List.append_assoc]
    exact this
  | other => intro h; rw [Encodable] at h; exact h.elim

/-! ## Arbitrary writers -/

/-- Chunks of the items up to the first non-geometry. -/
theorem run_prefix (w : Writer) (e : Enc) (he : e.err = none) (is : List Item) :
    (∃ s, (run w e is).out = e.out ++ s ∧ s <+: dataOf is) ∧
    ((run w e is).err = none → noBad is = true ∧ (run w e is).out = e.out ++ dataOf is) := by
  induction is generalizing e with
  | nil => simp [run, dataOf, noBad]
  | cons i is ih =>
    cases i with
    | bad =>
      have h0 : step w e .bad = { e with err := some true } := by simp [step, he]
      have : run w e (.bad :: is) = { e with err := some true } := by
        change run w (step w e .bad) is = _
        rw [h0]; exact run_err _ _ _ rfl
      rw [this]
      exact ⟨⟨[], by simp⟩, by simp⟩
    | data bs =>
      have hrun : run w e (.data bs :: is) = run w (e.write w bs) is := rfl
      rw [hrun]
      cases hw : w e.writes bs with
      | none =>
        have hwr : e.write w bs = { e with writes := e.writes ++ [bs], out := e.out ++ bs } := by
          simp [Enc.write, he, hw]
        rw [hwr]
        obtain ⟨⟨s, h1, h2⟩, h3⟩ := ih { e with writes := e.writes ++ [bs], out := e.out ++ bs } he
        refine ⟨⟨bs ++ s, by simp [h1], ?_⟩, ?_⟩
        · simp only [dataOf]; exact List.prefix_append_right_inj bs |>.2 h2
        · intro h4
          obtain ⟨h5, h6⟩ := h3 h4
          exact ⟨by simpa [noBad] using h5, by simp [h6, dataOf]⟩
      | some k =>
        have hwr : e.write w bs = { e with out := e.out ++ bs.take k, err := some false } := by
          simp [Enc.write, he, hw]
        rw [hwr, run_err _ _ _ rfl]
        refine ⟨⟨bs.take k, rfl, ?_⟩, by simp⟩
        simp only [dataOf]
        exact (List.take_prefix k bs).trans (List.prefix_append bs _)

/-- With a limited writer the outcome is decided by the length. -/
theorem run_limited (n : Nat) (e : Enc) (he : e.err = none) (hf : e.writes.flatten = e.out)
    (hn : e.out.length ≤ n) (is : List Item) (hb : noBad is = true) :
    (run (limitedWriter n) e is).out = (e.out ++ dataOf is).take n ∧
    ((run (limitedWriter n) e is).err = none ↔ (e.out ++ dataOf is).length ≤ n) := by
  induction is generalizing e with
  | nil => simp [run, dataOf, he, hn, List.take_of_length_le hn]
  | cons i is ih =>
    cases i with
    | bad => simp [noBad] at hb
    | data bs =>
      have hrun : run (limitedWriter n) e (.data bs :: is) = run (limitedWriter n) (e.write (limitedWriter n) bs) is := rfl
      rw [hrun]
      by_cases hle : e.out.length + bs.length ≤ n
      · have hw : limitedWriter n e.writes bs = none := by simp [limitedWriter, hf, hle]
        have hwr : e.write (limitedWriter n) bs =
            { e with writes := e.writes ++ [bs], out := e.out ++ bs } := by
          simp [Enc.write, he, hw]
        rw [hwr]
        have := ih { e with writes := e.writes ++ [bs], out := e.out ++ bs } he
          (by simp [hf]) (by simpa using hle) (by simpa [noBad] using hb)
        simpa [dataOf] using this
      · have hw : limitedWriter n e.writes bs = some (n - e.out.length) := by
          simp [limitedWriter, hf, hle]
        have hwr : e.write (limitedWriter n) bs =
            { e with out := e.out ++ bs.take (n - e.out.length), err := some false } := by
          simp [Enc.write, he, hw]
        rw [hwr, run_err _ _ _ rfl]
        constructor
        · simp only [dataOf]
          rw [← List.append_assoc, List.take_append_of_le_length (l₁ := e.out ++ bs) (by simp; omega),
            List.take_append]
          rw [List.take_of_length_le hn]
        · simp [dataOf]; omega

/-! ## Bad members -/

theorem readN_bad {α : Type} {d : Dec α} {n : Nat} (ms : List (List Byte)) (bad : List Byte)
    (hlt : ms.length < n) (hgood : ∀ m ∈ ms, ∀ rest, ∃ x, d (m ++ rest) = .ok (x, rest))
    (hbad : ∃ e, d bad = .error e) : ∃ e, readN d n (ms.flatten ++ bad) = .error e := by
  induction ms generalizing n with
  | nil =>
    obtain ⟨e, he⟩ := hbad
    cases n with
    | zero => simp at hlt
    | succ n => exact ⟨e, by simp [readN, he, bind, Except.bind]⟩
  | cons m ms ih =>
    cases n with
    | zero => simp at hlt
    | succ n =>
      obtain ⟨e, he⟩ := ih (n := n) (by simpa using hlt) (fun m' h' => hgood m' (by simp [h']))
      obtain ⟨x, hx⟩ := hgood m (by simp) (ms.flatten ++ bad)
      exact ⟨e, by simp [readN, hx, he, bind, Except.bind]⟩

theorem member_bad {α : Type} {t : Nat} {d : Order → Dec α} (bad : List Byte)
    (h : ∀ e rest, bad ≠ header e t ++ rest) : ∃ e, member t d bad = .error e := by
  unfold member
  cases hb : byteOrderType bad with
  | error e => exact ⟨e, by simp [bind, Except.bind]⟩
  | ok r =>
    obtain ⟨⟨o, t'⟩, rest⟩ := r
    obtain ⟨h1, -⟩ := byteOrderType_ok hb
    by_cases ht : t' = t
    · subst ht; exact absurd h1 (h _ _)
    · exact ⟨.invalidType t', by simp [bind, Except.bind, ht]⟩

theorem member_good {α : Type} {t : Nat} (ht : t < 2 ^ 32) {d : Order → Dec α}
    (C : α → Geom F64)
    (hbody : ∀ unk col o bs, body unk col o t bs = (do let (p, bs) ← d o bs; return (C p, bs)))
    (m : List Byte) (g : Geom F64) (hw : Wire g m) (hm : ∃ e v, m = header e t ++ v)
    (rest : List Byte) : ∃ x, member t d (m ++ rest) = .ok (x, rest) := by
  obtain ⟨e, v, rfl⟩ := hm
  have h := (decode_iff (header e t ++ v ++ rest) g rest).2 ⟨_, rfl, hw⟩
  simp only [decode, List.append_assoc, byteOrderType_append e t ht, bind, Except.bind] at h
  rw [hbody] at h
  simp only [bind_ok, pure_ok, Prod.exists, Prod.mk.injEq] at h
  obtain ⟨x, b, h1, -, rfl⟩ := h
  exact ⟨x, by simp [member, byteOrderType_append e t ht, bind, Except.bind, h1]⟩

theorem multi_bad {α : Type} {t : Nat} (ht : t < 2 ^ 32) {d : Order → Dec α}
    (C : α → Geom F64)
    (hbody : ∀ unk col o bs, body unk col o t bs = (do let (p, bs) ← d o bs; return (C p, bs)))
    (o : Order) (n : Nat) (hn : n < 2 ^ 32) (ms : List (List Byte)) (bad : List Byte)
    (hlt : ms.length < n)
    (hgood : ∀ m ∈ ms, (∃ g, Wire g m) ∧ ∃ e v, m = header e t ++ v)
    (hbad : ∀ e rest, bad ≠ header e t ++ rest) :
    ∃ e, counted o (member t d) (put32 o n ++ (ms.flatten ++ bad)) = .error e := by
  simp only [counted, get32_append _ _ _ hn, bind, Except.bind]
  refine readN_bad ms bad hlt ?_ (member_bad bad hbad)
  intro m hm rest
  obtain ⟨⟨g, hw⟩, he⟩ := hgood m hm
  exact member_good ht C hbody m g hw he rest

end Verif.Wkb
