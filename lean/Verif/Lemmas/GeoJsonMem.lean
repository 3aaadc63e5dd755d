import Verif.Lemmas.GeoJson

/-! Helper lemmas about closing rings in shared memory. -/

namespace Verif.GeoJson
open Verif Verif.Spec.GeoJson
open Verif.Spec.Wkb (samePoint)

/-- Two slices that cannot write into each other. -/
def Apart (s t : Slice) : Prop := ∀ i, region s i → region t i → False

theorem read_get (mem : List (Pt F64)) (s : Slice) (i : Nat) :
    (s.read mem)[i]? = if i < s.len then mem[s.off + i]? else none := by
  simp [Slice.read, List.getElem?_take]

theorem read_congr {mem mem' : List (Pt F64)} {s s' : Slice} (ho : s'.len = s.len)
    (h : ∀ i, i < s.len → mem'[s'.off + i]? = mem[s.off + i]?) : s'.read mem' = s.read mem := by
  apply List.ext_getElem?
  intro i
  rw [read_get, read_get, ho]
  split
  · rename_i hi; exact h i hi
  · rfl

theorem shows_eq (mem : List (Pt F64)) (s : Slice) (h : wellFormed mem s) : shows mem s = s.read mem := by
  obtain ⟨h1, h2⟩ := h
  have : ∀ n, s.off + n ≤ mem.length →
      (List.range n).filterMap (fun i => mem[s.off + i]?) = (mem.drop s.off).take n := by
    intro n hn
    induction n with
    | zero => simp
    | succ n ih =>
      rw [List.range_succ, List.filterMap_append, ih (by omega), List.take_add_one]
      congr 1
      rw [List.getElem?_drop, List.getElem?_eq_getElem (by omega)]
      simp [List.getElem?_eq_getElem (show s.off + n < mem.length by omega)]
  exact this s.len (by omega)

theorem read_length {mem : List (Pt F64)} {s : Slice} (h : wellFormed mem s) :
    (s.read mem).length = s.len := by
  obtain ⟨h1, h2⟩ := h
  simp [Slice.read]; omega

/-- What closing one ring does to memory. -/
structure Step (mem : List (Pt F64)) (s : Slice) (mem' : List (Pt F64)) (s' : Slice) : Prop where
  grow : mem.length ≤ mem'.length
  keep : ∀ i, i < mem.length → ¬ region s i → mem'[i]? = mem[i]?
  own : ∀ i, i < s.len → mem'[s.off + i]? = mem[s.off + i]?
  wf : wellFormed mem' s'
  place : ∀ i, region s' i → region s i ∨ mem.length ≤ i
  value : s'.read mem' = closeRing (s.read mem)

theorem append_step {mem : List (Pt F64)} {s : Slice} (h : wellFormed mem s) (v : Pt F64)
    (hv : closeRing (s.read mem) = s.read mem ++ [v]) :
    Step mem s (s.append mem v).1 (s.append mem v).2 := by
  have hl := read_length h
  obtain ⟨h1, h2⟩ := h
  unfold Slice.append
  split
  · rename_i hc
    refine ⟨by simp, ?_, ?_, ⟨by simp; omega, by simp; omega⟩, fun i hi => Or.inl hi, ?_⟩
    · intro i _ hr
      rw [List.getElem?_set_ne]
      rintro rfl; exact hr ⟨by omega, by omega⟩
    · intro i hi
      rw [List.getElem?_set_ne]; omega
    · rw [hv]
      apply List.ext_getElem?
      intro i
      rw [read_get, List.getElem?_append, hl]
      simp only []
      by_cases hi : i < s.len
      · rw [if_pos (by omega), if_pos hi, List.getElem?_set_ne (by omega), read_get, if_pos hi]
      · rw [if_neg hi]
        by_cases he : i = s.len
        · subst he
          rw [if_pos (by omega), List.getElem?_set_self (by omega)]; simp
        · rw [if_neg (by omega)]
          rw [List.getElem?_eq_none]; simp; omega
  · rename_i hc
    refine ⟨by simp, ?_, ?_, ⟨by simp, by simp [hl]⟩, ?_, ?_⟩
    · intro i hi _; rw [List.getElem?_append_left hi]
    · intro i hi; rw [List.getElem?_append_left (by omega)]
    · intro i hi; exact Or.inr hi.1
    · rw [hv]
      have : (⟨mem.length, s.len + 1, s.len + 1⟩ : Slice).read (mem ++ (s.read mem ++ [v])) =
          (s.read mem ++ [v]).take (s.len + 1) := by
        simp [Slice.read]
      rw [this, List.take_of_length_le (by simp [hl])]

theorem stay_step {mem : List (Pt F64)} {s : Slice} (h : wellFormed mem s)
    (hv : closeRing (s.read mem) = s.read mem) : Step mem s mem s :=
  ⟨Nat.le_refl _, fun _ _ _ => rfl, fun _ _ => rfl, h, fun _ hi => Or.inl hi, hv.symm⟩

theorem close_step {mem : List (Pt F64)} {s : Slice} (h : wellFormed mem s) :
    Step mem s (closeSlice mem s).1 (closeSlice mem s).2 := by
  unfold closeSlice
  split
  · rename_i e
    exact stay_step h (by rw [e]; rfl)
  · rename_i a t e
    split
    · rename_i hc
      exact append_step h a (by rw [e, closeRing, if_pos hc])
    · rename_i hc
      exact stay_step h (by rw [e, closeRing, if_neg hc])

theorem wf_grow {mem mem' : List (Pt F64)} {s : Slice} (h : mem.length ≤ mem'.length)
    (hs : wellFormed mem s) : wellFormed mem' s := ⟨hs.1, Nat.le_trans hs.2 h⟩

/-- A slice apart from the one being closed keeps its contents. -/
theorem step_other {mem mem' : List (Pt F64)} {s s' t : Slice} (h : Step mem s mem' s')
    (ht : wellFormed mem t) (ha : Apart s t) : t.read mem' = t.read mem := by
  refine read_congr rfl fun i hi => ?_
  obtain ⟨h1, h2⟩ := ht
  exact h.keep _ (by omega) fun hr => ha _ hr ⟨by omega, by omega⟩

theorem step_apart {mem mem' : List (Pt F64)} {s s' t : Slice} (h : Step mem s mem' s')
    (ht : wellFormed mem t) (ha : Apart s t) : Apart s' t := by
  intro i hi hit
  rcases h.place i hi with hr | hr
  · exact ha i hr hit
  · have := ht.2; have := hit.2; omega

/-- Closing all rings of a polygon whose slices are apart from each other, and
from a bystander. -/
theorem close_all {mem : List (Pt F64)} {ss : List Slice} (hw : ∀ s ∈ ss, wellFormed mem s)
    (ha : ss.Pairwise Apart) :
    mem.length ≤ (closePolygonMem mem ss).1.length ∧
    (∀ s ∈ (closePolygonMem mem ss).2, wellFormed (closePolygonMem mem ss).1 s) ∧
    (closePolygonMem mem ss).2.Pairwise Apart ∧
    (closePolygonMem mem ss).2.map (Slice.read (closePolygonMem mem ss).1) =
      ss.map (fun s => closeRing (s.read mem)) ∧
    (∀ t, wellFormed mem t → (∀ s ∈ ss, Apart s t) →
      t.read (closePolygonMem mem ss).1 = t.read mem ∧
      ∀ s ∈ (closePolygonMem mem ss).2, Apart s t) ∧
    (∀ s ∈ ss, s.read (closePolygonMem mem ss).1 = s.read mem) := by
  induction ss generalizing mem with
  | nil => simp [closePolygonMem]
  | cons s ss ih =>
    have hs := close_step (hw s (by simp))
    rw [List.pairwise_cons] at ha
    have hw' : ∀ t ∈ ss, wellFormed (closeSlice mem s).1 t :=
      fun t ht => wf_grow hs.grow (hw t (by simp [ht]))
    obtain ⟨g1, g2, g3, g4, g5, g6⟩ := ih hw' ha.2
    have hst : ∀ t ∈ ss, Apart (closeSlice mem s).2 t :=
      fun t ht => step_apart hs (hw t (by simp [ht])) (ha.1 t ht)
    have hsym : ∀ t ∈ ss, Apart t (closeSlice mem s).2 := fun t ht i a b => hst t ht i b a
    have h5 := g5 _ hs.wf hsym
    simp only [closePolygonMem]
    refine ⟨Nat.le_trans hs.grow g1, ?_, ?_, ?_, ?_, ?_⟩
    · intro t ht
      rcases List.mem_cons.1 ht with rfl | ht
      · exact wf_grow g1 hs.wf
      · exact g2 t ht
    · rw [List.pairwise_cons]
      exact ⟨fun t ht i a b => h5.2 t ht i b a, g3⟩
    · simp only [List.map_cons]
      rw [h5.1, hs.value, g4]
      congr 1
      apply List.map_congr_left
      intro t ht
      rw [step_other hs (hw t (by simp [ht])) (ha.1 t ht)]
    · intro t ht hat
      have hto := step_other hs ht (hat s (by simp))
      have := g5 t (wf_grow hs.grow ht) fun u hu => hat u (by simp [hu])
      refine ⟨this.1.trans hto, ?_⟩
      intro u hu
      rcases List.mem_cons.1 hu with rfl | hu
      · exact step_apart hs ht (hat s (by simp))
      · exact this.2 u hu
    · intro t ht
      rcases List.mem_cons.1 ht with rfl | ht
      · have := (g5 t (wf_grow hs.grow (hw t (by simp))) fun u hu i a b => ha.1 u hu i b a).1
        rw [this]
        exact read_congr rfl hs.own
      · rw [g6 t ht, step_other hs (hw t (by simp [ht])) (ha.1 t ht)]

theorem closePolygonMem_append (mem : List (Pt F64)) (a b : List Slice) :
    closePolygonMem mem (a ++ b) =
      ((closePolygonMem (closePolygonMem mem a).1 b).1,
        (closePolygonMem mem a).2 ++ (closePolygonMem (closePolygonMem mem a).1 b).2) := by
  induction a generalizing mem with
  | nil => rfl
  | cons s a ih => simp only [List.cons_append, closePolygonMem, ih]

theorem closeMulti_flat (mem : List (Pt F64)) (ps : List (List Slice)) :
    (closeMultiMem mem ps).1 = (closePolygonMem mem ps.flatten).1 ∧
    (closeMultiMem mem ps).2.flatten = (closePolygonMem mem ps.flatten).2 := by
  induction ps generalizing mem with
  | nil => simp [closeMultiMem, closePolygonMem]
  | cons p ps ih =>
    simp only [closeMultiMem, List.flatten_cons, closePolygonMem_append]
    exact ⟨(ih _).1, by rw [(ih _).2]⟩

theorem closePolygonMem_length (mem : List (Pt F64)) (ss : List Slice) :
    (closePolygonMem mem ss).2.length = ss.length := by
  induction ss generalizing mem with
  | nil => rfl
  | cons s ss ih => simp [closePolygonMem, ih]

theorem closeMulti_shape (mem : List (Pt F64)) (ps : List (List Slice)) :
    (closeMultiMem mem ps).2.map List.length = ps.map List.length := by
  induction ps generalizing mem with
  | nil => rfl
  | cons p ps ih => simp [closeMultiMem, closePolygonMem_length, ih]

theorem closed_closed {r : List (Pt F64)} (h : ∀ p ∈ r.head?, p.1.isNaN = false ∧ p.2.isNaN = false) :
    closed (closed r) = closed r := by
  cases r with
  | nil => rfl
  | cons a t =>
    have ha := h a rfl
    have hr := samePoint_refl ha.1 ha.2
    have e : closed (a :: t) = if samePoint a ((a :: t).getLast (by simp)) then a :: t else a :: t ++ [a] := by
      simp only [closed, List.head?_cons, List.getLast?_eq_some_getLast (List.cons_ne_nil a t)]
    by_cases hs : samePoint a ((a :: t).getLast (by simp)) = true
    · have : closed (a :: t) = a :: t := by rw [e, if_pos hs]
      rw [this, this]
    · have : closed (a :: t) = a :: (t ++ [a]) := by rw [e, if_neg hs]; rfl
      rw [this]
      simp only [closed, List.head?_cons]
      rw [show a :: (t ++ [a]) = (a :: t) ++ [a] from rfl, List.getLast?_append]
      simp [hr]

/-- A polygon whose rings need no closing is left as it is. -/
theorem close_none {mem : List (Pt F64)} {ss : List Slice}
    (h : ∀ s ∈ ss, closeRing (s.read mem) = s.read mem) : closePolygonMem mem ss = (mem, ss) := by
  induction ss with
  | nil => rfl
  | cons s ss ih =>
    have hs : closeSlice mem s = (mem, s) := by
      have := h s (by simp)
      unfold closeSlice
      split
      · rfl
      · rename_i a t e
        rw [e, closeRing] at this
        split
        · rename_i hc
          rw [if_pos hc] at this
          simp at this
        · rfl
    simp only [closePolygonMem, hs]
    rw [ih fun t ht => h t (by simp [ht])]

end Verif.GeoJson
