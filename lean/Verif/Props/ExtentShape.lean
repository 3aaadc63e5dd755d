import Verif.Props.Extent
import Verif.Lemmas.ExtentShape

/-!
# What an extent is (C165)
-/

namespace Verif.Props
open Verif Verif.Ext Verif.Spec.Extent

/-- A point with two numbers that are not infinite. -/
def finitePt (p : Pt F64) : Prop := numPt p ∧ p.1.isInf = false ∧ p.2.isInf = false

instance (p : Pt F64) : Decidable (finitePt p) := inferInstanceAs (Decidable (_ ∧ _ ∧ _))

/-- **C165**: a nil extent has every point with finite coordinates between its bounds, contains it, and stays as it
is when points or extents are added. -/
theorem C165_nil (p q : Pt F64) (hp : finitePt p) (ps : List (Pt F64)) (m : Ext) :
    (box (extent none)).has p ∧ containsPoint none p = true ∧ containsLine none p q = true ∧
      addPoints none ps = none ∧ addPointers none ps = none ∧ add none m = none := by
  refine ⟨?_, rfl, rfl, rfl, ?_, rfl⟩
  · obtain ⟨⟨h1, h2⟩, h3, h4⟩ := hp
    exact ⟨(finite_bounds h1 h3).1, (finite_bounds h1 h3).2, (finite_bounds h2 h4).1, (finite_bounds h2 h4).2⟩
  · unfold addPointers
    induction ps with
    | nil => rfl
    | cons p ps ih => exact ih

example : finitePt (f3, F64.maxFloat) ∧ ¬ finitePt (f3, F64.negInf) := by decide

/-- **C165**: the vertices are the corners: the extent is the tightest box around them. -/
theorem C165_corners (e : Ext) (he : (box e).valid) :
    Tight (box e) (vertices (some e)) ∧ ∃ r, newExtent (vertices (some e)) = some r ∧ (box r).same (box e) := by
  have hn := numeric_of_valid he
  have ht : Tight (box e) (vertices (some e)) := by
    obtain ⟨h1, h2, h3, h4⟩ := hn
    obtain ⟨v1, v2⟩ := he
    have r : ∀ {x : F64}, num x → x.le x = true := fun h => by simp only [num] at h; simp [F64.le_iff, h]
    constructor
    · intro p hp
      simp only [vertices, minX, minY, maxX, maxY, List.mem_cons, List.not_mem_nil, or_false] at hp
      rcases hp with rfl | rfl | rfl | rfl
      · exact ⟨r h1, v1, r h2, v2⟩
      · exact ⟨v1, r h3, r h2, v2⟩
      · exact ⟨v1, r h3, v2, r h4⟩
      · exact ⟨r h1, v1, v2, r h4⟩
    · intro b hb
      have a := hb (e.minx, e.miny) (by simp [vertices, minX, minY])
      have c := hb (e.maxx, e.maxy) (by simp [vertices, maxX, maxY])
      exact ⟨a.1, c.2.1, a.2.2.1, c.2.2.2⟩
  refine ⟨ht, ?_⟩
  obtain ⟨r, h1, h2⟩ := C20_newExtent_tight (vertices (some e)) (by simp [vertices]) (by
    obtain ⟨h1, h2, h3, h4⟩ := hn
    intro p hp
    simp only [vertices, minX, minY, maxX, maxY, List.mem_cons, List.not_mem_nil, or_false] at hp
    rcases hp with rfl | rfl | rfl | rfl
    · exact ⟨h1, h2⟩
    · exact ⟨h3, h2⟩
    · exact ⟨h3, h4⟩
    · exact ⟨h1, h4⟩)
  exact ⟨r, h1, tight_unique h2 ht⟩

example : (box ⟨f1, F64.negInf, f2, f3⟩).valid := by decide

/-- **C165**: the vertices are in order around the extent, from the least one and first along the lower side; they
are the one ring of the polygon, and each edge goes from one of them to the next. -/
theorem C165_around (e : Option Ext) :
    ∃ a b c d, vertices e = [a, b, c, d] ∧ asPolygon e = [[a, b, c, d]] ∧
      edges e none = [(a, b), (b, c), (c, d), (d, a)] ∧
      a = (minX e, minY e) ∧ c = (maxX e, maxY e) ∧ a.2 = b.2 ∧ b.1 = c.1 ∧ c.2 = d.2 ∧ d.1 = a.1 :=
  ⟨_, _, _, _, rfl, rfl, rfl, rfl, rfl, rfl, rfl, rfl, rfl⟩

/-- **C165**: with a function that tells which way round points go, and tells the opposite of the points in reverse,
the edges go the way for which it answers yes; they are the same four segments, one after the other. -/
theorem C165_edges (e : Option Ext) (f : List (Pt F64) → Bool) (hf : f (vertices e).reverse = !f (vertices e)) :
    f ((edges e (some f)).map Prod.fst) = true ∧
    (∃ a b c d, edges e (some f) = [(a, b), (b, c), (c, d), (d, a)]) ∧
    ((edges e (some f)).Perm (edges e none) ∨ ((edges e (some f)).map Prod.swap).Perm (edges e none)) := by
  unfold edges
  simp only
  cases h : f (vertices e) with
  | true =>
    rw [if_neg (by simp)]
    exact ⟨h, ⟨_, _, _, _, rfl⟩, .inl (.refl _)⟩
  | false =>
    rw [if_pos (by simp)]
    refine ⟨?_, ⟨_, _, _, _, rfl⟩, .inr ?_⟩
    · rw [h] at hf
      exact hf
    · simp only [List.map_cons, List.map_nil, Prod.swap_prod_mk]
      refine (List.Perm.trans (List.reverse_perm _).symm ?_)
      simp only [List.reverse_cons, List.reverse_nil, List.nil_append, List.cons_append]
      exact (List.perm_append_comm (l₁ := [_]) (l₂ := [_, _, _]))

/-- Such a function: whether the third point is above the second. -/
example : let f : List (Pt F64) → Bool := fun l => match l with
      | _ :: p :: q :: _ => p.2.lt q.2
      | _ => true
    let e : Option Ext := some ⟨f1, f1, f2, f3⟩
    f (vertices e) = true ∧ f (vertices e).reverse = !f (vertices e) := by decide

/-- **C165**: a line is contained just if both of its ends are. -/
theorem C165_line_iff (e : Option Ext) (a b : Pt F64) :
    containsLine e a b = true ↔ containsPoint e a = true ∧ containsPoint e b = true := by
  cases e with
  | none => exact ⟨fun _ => ⟨rfl, rfl⟩, fun _ => rfl⟩
  | some e => simp [containsLine]

example : containsLine (some ⟨f1, f1, f2, f2⟩) (f1, f2) (f2, f1) = true ∧
    containsLine (some ⟨f1, f1, f2, f2⟩) (f1, f2) (f3, f1) = false := by decide

/-- **C165**: `AddPointers` is `AddPoints`. -/
theorem C165_addPointers (e : Option Ext) (ps : List (Pt F64)) : addPointers e ps = addPoints e ps := by
  unfold addPointers
  induction ps generalizing e with
  | nil => cases e <;> rfl
  | cons p ps ih => rw [List.foldl_cons, ih]; cases e <;> rfl

example : addPointers (some ⟨f1, f1, f2, f2⟩) [(f3, f1), (f1, F64.zero)] = some ⟨f1, F64.zero, f3, f2⟩ := by decide

/-- **C165**: an extent with finite bounds is the universe just if every point with finite coordinates is in it. -/
theorem C165_universe_iff (e : Ext) (h1 : finitePt (e.minx, e.miny)) (h2 : finitePt (e.maxx, e.maxy)) :
    isUniverse (some e) = true ↔ ∀ p, finitePt p → containsPoint (some e) p = true := by
  constructor
  · intro h p ⟨⟨n1, n2⟩, i1, i2⟩
    simp only [isUniverse, Bool.and_eq_true, F64.eq_iff] at h
    have b1 := finite_bounds n1 i1
    have b2 := finite_bounds n2 i2
    simp only [F64.le_iff] at b1 b2
    simp only [containsPoint, Bool.and_eq_true, F64.le_iff]
    obtain ⟨⟨⟨⟨a1, _, a2⟩, a3, _, a4⟩, a5, _, a6⟩, a7, _, a8⟩ := h
    rw [a2, a4, a6, a8]
    exact ⟨⟨⟨⟨a1, b1.1.2.1, b1.1.2.2⟩, b1.2.1, a3, b1.2.2.2⟩, a5, b2.1.2.1, b2.1.2.2⟩, b2.2.1, a7, b2.2.2.2⟩
  · intro h
    have lo := h (F64.negMaxFloat, F64.negMaxFloat) (by decide)
    have hi := h (F64.maxFloat, F64.maxFloat) (by decide)
    have a1 := finite_bounds h1.1.1 h1.2.1
    have a2 := finite_bounds h1.1.2 h1.2.2
    have a3 := finite_bounds h2.1.1 h2.2.1
    have a4 := finite_bounds h2.1.2 h2.2.2
    simp only [containsPoint, Bool.and_eq_true, F64.le_iff] at lo hi a1 a2 a3 a4
    simp only [isUniverse, Bool.and_eq_true, F64.eq_iff]
    obtain ⟨⟨⟨⟨l1, l2, l3⟩, _⟩, l4, _, l5⟩, _⟩ := lo
    obtain ⟨⟨⟨_, u1, u2, u3⟩, _⟩, _, u4, u5⟩ := hi
    exact ⟨⟨⟨⟨l1, l2, Int.le_antisymm l3 a1.1.2.2⟩, u2, u1, Int.le_antisymm a3.2.2.2 u3⟩, l4, l2, Int.le_antisymm l5 a2.1.2.2⟩,
      u4, u1, Int.le_antisymm a4.2.2.2 u5⟩

example : finitePt (F64.negMaxFloat, f1) ∧ isUniverse (some ⟨F64.negMaxFloat, F64.negMaxFloat, F64.maxFloat, F64.maxFloat⟩) = true ∧
    isUniverse (some ⟨F64.negMaxFloat, f1, F64.maxFloat, F64.maxFloat⟩) = false := by decide

/-- **C165**: the universe contains every geometry, and nil is the universe. -/
theorem C165_universe_geom (e : Option Ext) (h : isUniverse e = true) (g : Geom F64) :
    containsGeom e g = some true ∧ isUniverse none = true := by
  refine ⟨?_, rfl⟩
  unfold containsGeom
  rw [if_pos h]

example : isUniverse (some ⟨F64.negMaxFloat, F64.negMaxFloat, F64.maxFloat, F64.maxFloat⟩) = true := by decide

/-- **C165**: `NewExtentFromGeometry` fails just for geometries with a part of a type it does not know. -/
theorem C165_error_iff (g : Geom F64) : newExtentFromGeometry g = none ↔ known g = false := by
  have h := coords_err g
  unfold newExtentFromGeometry
  rcases hc : g.coords with ⟨ps, b⟩
  rw [hc] at h
  simp only at h
  cases b with
  | true => simpa using h.symm
  | false => cases ps <;> simp_all

example : known (.collection [.point (f1, f2), .other]) = false := by decide

end Verif.Props
