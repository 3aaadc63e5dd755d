import Verif.Lemmas.SubWalk
import Verif.Lemmas.SubNew
import Mathlib.Algebra.Order.Ring.Rat
import Mathlib.Data.Rat.Floor

/-!
# Properties C130, C131: walking over a subdivision, and its vertex index

`WalkAllEdges` and `VertexIndex` of `planar/triangulate/delaunay/subdivision`.
-/

namespace Verif.Props
open Verif.Quad Verif.Spec.Quad Verif.Lemmas.Quad Verif.Subdivision Verif.Spec.Subdivision
open Verif.Lemmas.SubWalk Verif.Lemmas.SubNew

/-! ## C130 -/

/-- **C130**: in every structure that can be built, and from every edge of it, `WalkAllEdges` calls the
function for every edge that hangs together with the first one, in one of its two directions, and for no
edge twice; it calls it for no other edge. -/
theorem C130_every_edge_once {P : Type} (s : Store P) (h : Reached s) (se : E) (k : Primal se)
    (a : Allocated s se) :
    (∀ y, Connected s se y ↔ y ∈ walkAllEdges s (fun _ => true) se ∨ sym y ∈ walkAllEdges s (fun _ => true) se) ∧
    (walkAllEdges s (fun _ => true) se).Nodup ∧
    ∀ y ∈ walkAllEdges s (fun _ => true) se, sym y ∉ walkAllEdges s (fun _ => true) se := by
  obtain ⟨h1, h2⟩ := walk_all_edges (Reached.inv h) k a
  refine ⟨h2, h1.of_map, ?_⟩
  intro y hy hs
  have := List.inj_on_of_nodup_map h1 hy hs (sym_q y).symm
  exact sym_ne y this.symm

/-- **C130**: the first edge is the one given, and the walk ends with the first edge for which the function
returns an error. -/
theorem C130_order {P : Type} (s : Store P) (cont : E → Bool) (se : E) :
    walkAllEdges s cont se = upTo cont (walkAllEdges s (fun _ => true) se) ∧
    (walkAllEdges s cont se).head? = some se := by
  refine ⟨walk_stop cont _ _ _, ?_⟩
  unfold walkAllEdges walkEdgesLoop
  simp only [List.not_mem_nil, if_false]
  split_ifs <;> rfl

example : Reached exTriangle ∧ Primal ⟨1, 0⟩ ∧ Allocated exTriangle ⟨1, 0⟩ ∧
    walkAllEdges exTriangle (fun _ => true) ⟨1, 0⟩ = [⟨1, 0⟩, ⟨2, 0⟩, ⟨0, 0⟩] ∧
    walkAllEdges exTriangle (fun e => e.q != 2) ⟨1, 0⟩ = [⟨1, 0⟩, ⟨2, 0⟩] :=
  ⟨exTriangle_reached, by decide, by decide, by decide, by decide⟩

/-! ## C131 -/

section Index
variable {K : Type} [Field K] [LinearOrder K]

/-- **C131**: with the index `NewVertexIndex` makes, looking up a point finds an edge of the structure whose
origin rounds as the point does, whenever there is one, and nothing otherwise. -/
theorem C131_new_index (rnd : Pt K → Pt K) (s : Store (Pt K)) (h : Reached s) (se : E) (k : Primal se)
    (a : Allocated s se) (hp : ∀ e, Connected s se e → orig s e ≠ none) :
    ∃ vx, newVertexIndex rnd s se = some vx ∧ Finds rnd s (Connected s se) (viGet rnd vx) := by
  obtain ⟨h1, h2⟩ := walk_all_edges (Reached.inv h) k a
  obtain ⟨vx, e1, e2, _, e4⟩ := viAddAll_some (rnd := rnd) (s := s) (walkAllEdges s (fun _ => true) se)
    (fun _ => none) (fun e he => ⟨hp e ((h2 e).2 (Or.inl he)), hp (sym e) (((h2 e).2 (Or.inl he)).sym)⟩)
  refine ⟨vx, e1, ?_, ?_⟩
  · intro p e he
    rcases e2 _ _ he with g | ⟨g, g'⟩
    · cases g
    · exact ⟨(h2 e).2 g, g'⟩
  · intro p e o he ho hr
    unfold viGet
    rw [hr]
    exact e4 e o ((h2 e).1 he) ho

/-- **C131**: a right index stays right when an edge is taken out of it and then out of the structure,
given that no two vertices round to one point. -/
theorem C131_remove (rnd : Pt K → Pt K) (s : Store (Pt K)) (h : Reached s) (hag : OriginsAgree s)
    (live : E → Prop)
    (vx : VertexIndex K)
    (hl : ∀ x, live x → Primal x ∧ live (onext s x) ∧ live (sym x))
    (hr : ∀ x y a b, live x → live y → orig s x = some a → orig s y = some b → rnd a = rnd b → Around s x y)
    (hx : Finds rnd s live (viGet rnd vx)) (e : E) (he : live e) (o d : Pt K) (ho : orig s e = some o)
    (hd : dest s e = some d) (hne : rnd o ≠ rnd d) :
    ∃ vx', viRemove rnd s vx e = some vx' ∧
      Finds rnd (delete s e) (fun x => live x ∧ x ≠ e ∧ x ≠ sym e) (viGet rnd vx') := by
  have hi := Reached.inv h
  unfold viRemove
  simp only [ho, hd]
  refine ⟨_, rfl, ?_⟩
  have hs := (hl e he).2.2
  have hl' : ∀ x, live x → Primal x ∧ live (onext s x) := fun x h => ⟨(hl x h).1, (hl x h).2.1⟩
  have A := viRemove1_end (vx := vx) hi hag hl' hr (Or.inl rfl) he ho hd hne (fun x h => hx.1 o x h)
    (hx.2 o e o he ho rfl)
  have B := viRemove1_end (vx := viRemove1 s e vx (rnd o)) hi hag hl' hr (Or.inr rfl) hs hd
    (by rw [sym_sym]; exact ho) (Ne.symm hne)
    (fun x h => by rw [viRemove1_other (Ne.symm hne)] at h; exact hx.1 d x h)
    (by rw [viRemove1_other (Ne.symm hne)]; exact hx.2 d (sym e) d hs hd rfl)
  have ov : ∀ x, orig (delete s e) x = orig s x := fun _ => rfl
  refine ⟨?_, ?_⟩
  · intro p x hp
    simp only [ov]
    unfold viGet at hp
    by_cases c1 : rnd p = rnd d
    · rw [c1] at hp ⊢
      exact B.1 x hp
    · rw [viRemove1_other c1] at hp
      by_cases c2 : rnd p = rnd o
      · rw [c2] at hp ⊢
        exact A.1 x hp
      · rw [viRemove1_other c2] at hp
        obtain ⟨g1, a, g2, g3⟩ := hx.1 p x hp
        refine ⟨⟨g1, ?_, ?_⟩, a, g2, g3⟩
        · rintro rfl
          rw [ho] at g2; obtain rfl := Option.some.inj g2
          exact c2 g3.symm
        · rintro rfl
          rw [show orig s (sym e) = some d from hd] at g2; obtain rfl := Option.some.inj g2
          exact c1 g3.symm
  · rintro p x a ⟨g1, g2, g3⟩ ga hra
    rw [ov] at ga
    unfold viGet
    by_cases c1 : rnd p = rnd d
    · rw [c1] at hra ⊢
      exact B.2 x a g1 g2 g3 ga hra.symm
    · rw [viRemove1_other c1]
      by_cases c2 : rnd p = rnd o
      · rw [c2] at hra ⊢
        exact A.2 x a g1 g2 g3 ga hra.symm
      · rw [viRemove1_other c2]
        exact hx.2 p x a g1 ga hra

/-- Rounding down to whole numbers. -/
def exFloor (p : Pt ℚ) : Pt ℚ := ((⌊p.1⌋ : ℚ), (⌊p.2⌋ : ℚ))

/-- A triangle with its index, keyed by points rounded down. -/
example : ∃ vx, newVertexIndex exFloor (newStore (0, 0) (3, 0) (0, 3)) ⟨0, 0⟩ = some vx ∧
    viGet exFloor vx (0, 0) = some ⟨0, 0⟩ ∧
    viGet exFloor vx (7 / 2, 1 / 2) = some ⟨0, 2⟩ ∧
    viGet exFloor vx (1, 1) = none := by
  refine ⟨_, rfl, ?_, ?_, ?_⟩ <;> decide +kernel

theorem exNew_connected (x : E) :
    Connected (newStore ((0 : ℚ), (0 : ℚ)) (3, 0) (0, 3)) ⟨0, 0⟩ x ↔ x.q < 3 ∧ Primal x :=
  newStore_connected _ _ _ (by decide) (by decide)

example : ∀ e, Connected (newStore ((0 : ℚ), (0 : ℚ)) (3, 0) (0, 3)) ⟨0, 0⟩ e →
    orig (newStore ((0 : ℚ), (0 : ℚ)) (3, 0) (0, 3)) e ≠ none := by
  intro e he
  obtain ⟨h1, h2⟩ := (exNew_connected e).1 he
  rcases six h1 h2 with rfl | rfl | rfl | rfl | rfl | rfl <;> decide +kernel

/-- The hypotheses of `C131_remove` hold for a triangle, and one of its edges goes. -/
example : let s := newStore ((0 : ℚ), (0 : ℚ)) (3, 0) (0, 3)
    let live := Connected s ⟨0, 0⟩
    Reached s ∧ OriginsAgree s ∧
    (∀ x, live x → Primal x ∧ live (onext s x) ∧ live (sym x)) ∧
    (∀ x y a b, live x → live y → orig s x = some a → orig s y = some b → a = b → Around s x y) ∧
    (∃ vx, newVertexIndex id s ⟨0, 0⟩ = some vx ∧ Finds id s live (viGet id vx) ∧
      ∃ vx', viRemove id s vx ⟨0, 0⟩ = some vx' ∧
        viGet id vx (0, 0) = some ⟨0, 0⟩ ∧ viGet id vx' (0, 0) = some ⟨2, 2⟩) ∧
    live ⟨0, 0⟩ ∧ orig s ⟨0, 0⟩ = some (0, 0) ∧ dest s ⟨0, 0⟩ = some (3, 0) := by
  intro s live
  have hr : Reached s := newStore_reached _ _ _
  have hp : ∀ e, live e → orig s e ≠ none := by
    intro e he
    obtain ⟨h1, h2⟩ := (exNew_connected e).1 he
    rcases six h1 h2 with rfl | rfl | rfl | rfl | rfl | rfl <;> decide +kernel
  refine ⟨hr, newStore_agree _ _ _, ?_, ?_, ?_, .refl, by decide +kernel, by decide +kernel⟩
  · intro x hx
    exact ⟨((exNew_connected x).1 hx).2, hx.next, hx.sym⟩
  · intro x y a b hx hy ha hb hab
    obtain ⟨h1, h2⟩ := (exNew_connected x).1 hx
    obtain ⟨h3, h4⟩ := (exNew_connected y).1 hy
    obtain ⟨n1, n2, n3, n4, n5, n6⟩ := newStore_next ((0 : ℚ), (0 : ℚ)) (3, 0) (0, 3)
    have A : ∀ {u v : E}, s.next u = v → Around s u v := by rintro u v rfl; exact .next .refl
    subst hab
    have heq : orig s x = orig s y := by rw [ha, hb]
    rcases six h1 h2 with rfl | rfl | rfl | rfl | rfl | rfl <;>
      rcases six h3 h4 with rfl | rfl | rfl | rfl | rfl | rfl <;>
      first
        | exact .refl
        | exact A n1
        | exact A n2
        | exact A n3
        | exact A n4
        | exact A n5
        | exact A n6
        | exact absurd heq (by decide +kernel)
  · obtain ⟨vx, h1, h2⟩ := C131_new_index id s hr ⟨0, 0⟩ (by decide) (by decide) hp
    refine ⟨vx, h1, h2, ?_⟩
    have t1 : (newVertexIndex id s ⟨0, 0⟩).map (fun v => viGet id v (0, 0)) = some (some ⟨0, 0⟩) := by
      decide +kernel
    have t2 : (newVertexIndex id s ⟨0, 0⟩).bind (fun v => (viRemove id s v ⟨0, 0⟩).map
        (fun v' => viGet id v' (0, 0))) = some (some ⟨2, 2⟩) := by decide +kernel
    rw [h1] at t1 t2
    rw [Option.bind_some] at t2
    obtain ⟨vx', h3, h4⟩ := Option.map_eq_some_iff.1 t2
    exact ⟨vx', h3, Option.some.inj t1, h4⟩

end Index

end Verif.Props
