import Verif.Lemmas.FromLines
import Verif.Lemmas.FromLinesFrame
import Mathlib.Tactic.Ring
import Mathlib.Algebra.Order.Ring.Rat
import Mathlib.Algebra.Order.Field.Rat
import Mathlib.Data.Rat.Floor
import Mathlib.Tactic.NormNum

/-!
# Property C174: the subdivision made of lines

`NewSubdivisionFromGeomLines` of `planar/triangulate/delaunay/subdivision`.
-/

namespace Verif.Props
open Verif Verif.Quad Verif.Spec.Quad Verif.Subdivision Verif.Spec.Subdivision Verif.FromLines Verif.Spec.FromLines
open Verif.Spec.Resolve Verif.Lemmas.Quad Verif.Lemmas.FromLines Verif.Lemmas.SubWalk

/-- Four lines: a triangle, and a line from one of its corners. -/
def c174Lines : List (Pt ℚ × Pt ℚ) :=
  [((0, 0), (1, 0)), ((0, 0), (2, 1)), ((1, 0), (2, -1)), ((1, 0), (2, 1))]

/-- The full claim of **C174** for the rings: for lines that meet at their ends only, the edges of the subdivision
are in counterclockwise order around every point. -/
def C174_full : Prop :=
  ∀ (yd : Bool) (lines : List (Pt ℚ × Pt ℚ)), lines ≠ [] → (∀ l ∈ lines, l.1 ≠ l.2) → MeetAtEnds lines →
    ∃ r, newSubdivisionFromGeomLines yd lines = some r ∧ InOrder yd r.sd.store r.sd.start

/-- The lines of the example meet at their ends only. -/
theorem c174Lines_meet : MeetAtEnds c174Lines := by
  intro l hl m hm hne x t u t0 t1 u0 u1 h1 h2
  simp only [c174Lines, List.mem_cons, List.not_mem_nil, or_false] at hl hm
  rcases hl with rfl | rfl | rfl | rfl <;> rcases hm with rfl | rfl | rfl | rfl
  all_goals first
    | exact absurd rfl hne
    | (unfold AtParam at h1 h2
       rw [h1, Prod.mk.injEq] at h2
       obtain ⟨e1, e2⟩ := h2
       norm_num at e1 e2
       first
         | exact ⟨Or.inl (by linarith), Or.inl (by linarith)⟩
         | exact ⟨Or.inl (by linarith), Or.inr (by linarith)⟩
         | exact ⟨Or.inr (by linarith), Or.inl (by linarith)⟩
         | exact ⟨Or.inr (by linarith), Or.inr (by linarith)⟩)

/-- **C174** is violated: of the three edges at the point (1, 0), the one that comes after the edge to (2, 1) is the
edge to (2, -1), though the edge to (0, 0) is in between. -/
theorem C174_violated : ¬ C174_full := by
  intro h
  obtain ⟨r, hr, ho⟩ := h false c174Lines (by decide) (by decide +kernel) c174Lines_meet
  have key : ∀ r, newSubdivisionFromGeomLines false c174Lines = some r →
      r.sd.start = ⟨4, 0⟩ ∧ Goes r.sd.store (sym ⟨0, 0⟩) (1, 0) (0, 0) ∧ Goes r.sd.store ⟨4, 0⟩ (1, 0) (2, 1) ∧
        onext r.sd.store ⟨4, 0⟩ = ⟨2, 0⟩ ∧ Goes r.sd.store ⟨2, 0⟩ (1, 0) (2, -1) ∧
        onext r.sd.store ⟨2, 0⟩ = sym ⟨0, 0⟩ := by
    intro r hr
    have : (newSubdivisionFromGeomLines false c174Lines).map (fun r => decide (r.sd.start = ⟨4, 0⟩ ∧
        Goes r.sd.store (sym ⟨0, 0⟩) (1, 0) (0, 0) ∧ Goes r.sd.store ⟨4, 0⟩ (1, 0) (2, 1) ∧
        onext r.sd.store ⟨4, 0⟩ = ⟨2, 0⟩ ∧ Goes r.sd.store ⟨2, 0⟩ (1, 0) (2, -1) ∧
        onext r.sd.store ⟨2, 0⟩ = sym ⟨0, 0⟩)) = some true := by
      decide +kernel
    rw [hr] at this
    simpa using this
  obtain ⟨k1, k2, k3, k4, k5, k6⟩ := key r hr
  rw [k1] at ho
  refine ho ⟨4, 0⟩ (sym ⟨0, 0⟩) .refl ?_ (1, 0) (2, 1) (2, -1) (0, 0) k3 (by rw [k4]; exact k5) k2 ?_
  · have := (Around.refl (s := r.sd.store) (x := ⟨4, 0⟩)).next.next
    rwa [k4, k6] at this
  · refine Or.inr (Or.inl ⟨by norm_num [wedge, arrow], ?_⟩)
    rintro ⟨a, b, ha, hb, hm⟩
    unfold Mix arrow at hm
    rw [Prod.mk.injEq] at hm
    norm_num at hm
    linarith [hm.1]

/-- The full claim of **C174** for the order: the subdivision keeps the order it was given. -/
def C174_full_order : Prop :=
  ∀ (yd : Bool) (lines : List (Pt ℚ × Pt ℚ)) r, newSubdivisionFromGeomLines yd lines = some r → r.yd = yd

/-- **C174** is violated: the order is used while the edges are linked, but not kept. -/
theorem C174_violated_order : ¬ C174_full_order := by
  intro h
  obtain ⟨r, _, _, _, hr, _⟩ := made true (lines := c174Lines) (by decide) (by decide +kernel)
  have h1 := h true _ r hr
  unfold newSubdivisionFromGeomLines at hr
  simp only [Option.bind_eq_some_iff, Option.map_eq_some_iff] at hr
  obtain ⟨_, _, _, _, _, _, rfl⟩ := hr
  cases h1

/-- The full claim of **C174** for the frame: it is a triangle around all the points. -/
def C174_full_frame : Prop :=
  ∀ (yd : Bool) (lines : List (Pt ℚ × Pt ℚ)) r, newSubdivisionFromGeomLines yd lines = some r →
    ∀ l ∈ lines, Spec.Planar.InTriangle l.1 r.sd.frame.1 r.sd.frame.2.1 r.sd.frame.2.2 ∧
      Spec.Planar.InTriangle l.2 r.sd.frame.1 r.sd.frame.2.1 r.sd.frame.2.2

/-- **C174** is violated: the triangle for the extent is made without a margin, so that the upper corners of the
extent are not in it. -/
theorem C174_violated_frame : ¬ C174_full_frame := by
  intro h
  obtain ⟨r, _, _, _, hr, _⟩ := made false (lines := [(((0 : ℚ), (0 : ℚ)), ((2 : ℚ), (2 : ℚ)))]) (by simp) (by decide +kernel)
  have h1 := (h false _ r hr _ (List.mem_cons_self ..)).2
  have hf : r.sd.frame = (((0 : ℚ), (0 : ℚ)), ((1 : ℚ), (2 : ℚ)), ((2 : ℚ), (0 : ℚ))) := by
    have : (newSubdivisionFromGeomLines false [(((0 : ℚ), (0 : ℚ)), ((2 : ℚ), (2 : ℚ)))]).map (fun r => r.sd.frame) =
        some (((0 : ℚ), (0 : ℚ)), ((1 : ℚ), (2 : ℚ)), ((2 : ℚ), (0 : ℚ))) := by decide +kernel
    rw [hr] at this
    simpa using this
  rw [hf] at h1
  obtain ⟨u, v, w, hu, hv, hw, hs, hp⟩ := h1
  rw [Prod.mk.injEq] at hp
  norm_num at hp
  linarith [hp.1, hp.2]

/-- What of **C174** holds: for all lines with two different ends each, in any number greater than zero, the subdivision
is made.  Its point count is that of the different ends.  Its edges are just the lines that can be come to from
its first edge, each line once in either direction, and the edges that start in one point are on one ring. -/
theorem C174_edges_partial {K : Type} [Field K] [LinearOrder K] [IsStrictOrderedRing K] (yd : Bool)
    (lines : List (Pt K × Pt K)) (hl : lines ≠ []) (hne : ∀ l ∈ lines, l.1 ≠ l.2) :
    ∃ r p, newSubdivisionFromGeomLines yd lines = some r ∧ r.sd.ptcount = (ends lines).length ∧
      p ∈ ends lines ∧ orig r.sd.store r.sd.start = some p ∧
      (∀ y, Connected r.sd.store r.sd.start y → ∃ a b, Goes r.sd.store y a b ∧ Join lines a b ∧ Path lines p a) ∧
      (∀ a b, Path lines p a → Join lines a b → ∃! y, Connected r.sd.store r.sd.start y ∧ Goes r.sd.store y a b) ∧
      ∀ x y, Connected r.sd.store r.sd.start x → Connected r.sd.store r.sd.start y →
        orig r.sd.store x = orig r.sd.store y → Around r.sd.store x y := by
  obtain ⟨r, m, p, f, hr, hG, hc, hf, hs⟩ := made yd hl hne
  have ring : ∀ x y, Connected r.sd.store r.sd.start x → Connected r.sd.store r.sd.start y →
      orig r.sd.store x = orig r.sd.store y → ∃ a g, (a, g) ∈ m ∧ Around r.sd.store g x ∧ Around r.sd.store g y := by
    intro x y hx hy ho
    obtain ⟨a, g, h1, h2, _⟩ := hG.connected hf hs hx
    obtain ⟨b, g', h3, h4, _⟩ := hG.connected hf hs hy
    rw [(hG.star a g h1 x h2).1, (hG.star b g' h3 y h4).1] at ho
    obtain rfl := Option.some.inj ho
    obtain rfl := hG.same h1 h3
    exact ⟨a, g, h1, h2, h4⟩
  refine ⟨r, p, hr, hc.trans hG.count, ?_, (hG.star p f hf _ hs).1, ?_, ?_, ?_⟩
  · obtain ⟨_, q, _, _, _, j, _⟩ := hG.star p f hf f .refl
    unfold ends
    rw [List.mem_dedup, List.mem_flatMap]
    rcases j with j | j
    · exact ⟨_, j, by simp⟩
    · exact ⟨_, j, by simp⟩
  · intro y hy
    obtain ⟨a, g, h1, h2, hp⟩ := hG.connected hf hs hy
    obtain ⟨h3, b, _, h4, _, j, _⟩ := hG.star a g h1 y h2
    exact ⟨a, b, ⟨h3, h4⟩, j, hp⟩
  · intro a b hp hj
    obtain ⟨e, he, y, hy, hgo⟩ := hG.hasJoin hj
    have hcy := around_conn (hG.reach hf hs hp e he) hy
    refine ⟨y, ⟨hcy, hgo⟩, ?_⟩
    rintro y' ⟨hc', hgo'⟩
    obtain ⟨a', g, h1, h2, h3⟩ := ring y' y hc' hcy (hgo'.1.trans hgo.1.symm)
    exact hG.uniq a' g h1 y' y h2 h3 (hgo'.2.trans hgo.2.symm)
  · intro x y hx hy ho
    obtain ⟨a, g, h1, h2, h3⟩ := ring x y hx hy ho
    exact around_trans (hG.inv.around_symm h2) h3

/-- **C174**: if the lines hang together, `WalkAllEdges` comes by every one of them just once, and by nothing else. -/
theorem C174_walk_partial {K : Type} [Field K] [LinearOrder K] [IsStrictOrderedRing K] (yd : Bool)
    (lines : List (Pt K × Pt K)) (hl : lines ≠ []) (hne : ∀ l ∈ lines, l.1 ≠ l.2)
    (ht : ∀ p ∈ ends lines, ∀ q ∈ ends lines, Path lines p q) :
    ∃ r, newSubdivisionFromGeomLines yd lines = some r ∧
      (∀ y ∈ walkAllEdges r.sd.store (fun _ => true) r.sd.start, ∃ a b, Goes r.sd.store y a b ∧ Join lines a b) ∧
      ∀ l ∈ lines, ∃! y, y ∈ walkAllEdges r.sd.store (fun _ => true) r.sd.start ∧
        (Goes r.sd.store y l.1 l.2 ∨ Goes r.sd.store y l.2 l.1) := by
  obtain ⟨r, p, hr, _, hp, _, h1, h2, _⟩ := C174_edges_partial yd lines hl hne
  obtain ⟨r', m, p', f, hr', hG, _, hf, hs⟩ := made yd hl hne
  obtain rfl := Option.some.inj (hr.symm.trans hr')
  have kp : Primal r.sd.start := (Lemmas.Resolve.around_primal hG.inv hs).2 (hG.alloc p' f hf).1
  have qp : Allocated r.sd.store r.sd.start := (hG.inv.around_alloc hs).2 (hG.alloc p' f hf).2
  obtain ⟨w1, w2⟩ := walk_all_edges hG.inv kp qp
  refine ⟨r, hr, ?_, ?_⟩
  · intro y hy
    obtain ⟨a, b, h3, h4, _⟩ := h1 y ((w2 y).2 (Or.inl hy))
    exact ⟨a, b, h3, h4⟩
  · intro l hl'
    have mem : l.1 ∈ ends lines := by
      unfold ends
      rw [List.mem_dedup, List.mem_flatMap]
      exact ⟨l, hl', by simp⟩
    obtain ⟨y, ⟨hc, hg⟩, hu⟩ := h2 l.1 l.2 (ht p hp _ mem) (Or.inl hl')
    have hgs : Goes r.sd.store (sym y) l.2 l.1 := ⟨hg.2, by unfold dest; rw [sym_sym]; exact hg.1⟩
    have only : ∀ z, Connected r.sd.store r.sd.start z → (Goes r.sd.store z l.1 l.2 ∨ Goes r.sd.store z l.2 l.1) →
        z = y ∨ z = sym y := by
      rintro z hz (hg' | hg')
      · exact Or.inl (hu z ⟨hz, hg'⟩)
      · refine Or.inr ?_
        have := hu (sym z) ⟨hz.sym, hg'.2, by unfold dest; rw [sym_sym]; exact hg'.1⟩
        rw [← this, sym_sym]
    have same : ∀ z z', z ∈ walkAllEdges r.sd.store (fun _ => true) r.sd.start →
        z' ∈ walkAllEdges r.sd.store (fun _ => true) r.sd.start → (z = y ∨ z = sym y) → (z' = y ∨ z' = sym y) → z = z' := by
      intro z z' hz hz' e e'
      refine List.inj_on_of_nodup_map w1 hz hz' ?_
      rcases e with rfl | rfl <;> rcases e' with rfl | rfl <;> simp only [sym_q]
    rcases (w2 y).1 hc with hw | hw
    · refine ⟨y, ⟨hw, Or.inl hg⟩, ?_⟩
      rintro z ⟨hz, hz'⟩
      exact same z y hz hw (only z ((w2 z).2 (Or.inl hz)) hz') (Or.inl rfl)
    · refine ⟨sym y, ⟨hw, Or.inr hgs⟩, ?_⟩
      rintro z ⟨hz, hz'⟩
      exact same z (sym y) hz hw (only z ((w2 z).2 (Or.inl hz)) hz') (Or.inr rfl)

/-- The lines of the example have two ends each and hang together; they have four ends. -/
example : c174Lines ≠ [] ∧ (∀ l ∈ c174Lines, l.1 ≠ l.2) ∧ (ends c174Lines).length = 4 ∧
    ∀ p ∈ ends c174Lines, ∀ q ∈ ends c174Lines, Path c174Lines p q := by
  refine ⟨by decide, by decide +kernel, by decide +kernel, ?_⟩
  have there : ∀ p ∈ ends c174Lines, Path c174Lines p (1, 0) := by
    intro p hp
    have : p = (1, 0) ∨ Join c174Lines p (1, 0) := by
      revert p
      unfold Join
      decide +kernel
    rcases this with rfl | h
    · exact .refl
    · exact .single h
  have back : ∀ p ∈ ends c174Lines, Path c174Lines (1, 0) p := by
    intro p hp
    have : p = (1, 0) ∨ Join c174Lines (1, 0) p := by
      revert p
      unfold Join
      decide +kernel
    rcases this with rfl | h
    · exact .refl
    · exact .single h
  exact fun p hp q hq => (there p hp).trans (back q hq)

/-- **C174** for the frame: it stands on the least box around all the ends of the lines, with its top in the middle
of the upper side.  Missing: the upper corners are outside it. -/
theorem C174_frame_partial {K : Type} [Field K] [LinearOrder K] [IsStrictOrderedRing K] (yd : Bool)
    (lines : List (Pt K × Pt K)) (r : Result K) (h : newSubdivisionFromGeomLines yd lines = some r) :
    ∃ x0 y0 x1 y1, LeastBox (ends lines) x0 y0 x1 y1 ∧
      r.sd.frame = ((x0, y0), ((x0 + x1) / 2, y1), (x1, y0)) := by
  unfold newSubdivisionFromGeomLines at h
  simp only [Option.bind_eq_some_iff, Option.map_eq_some_iff] at h
  obtain ⟨_, _, _, _, e, he, rfl⟩ := h
  refine ⟨e.1, e.2.1, e.2.2.1, e.2.2.2, extent_leastBox lines e he, ?_⟩
  simp only [Shapes.triangleForExtent, Prod.mk.injEq]
  refine ⟨⟨by ring, by ring⟩, ⟨by ring, by ring⟩, by ring, by ring⟩

example : ∃ r, newSubdivisionFromGeomLines false c174Lines = some r ∧
    r.sd.frame = (((0 : ℚ), (-1 : ℚ)), ((1 : ℚ), (1 : ℚ)), ((2 : ℚ), (-1 : ℚ))) := by
  have : (newSubdivisionFromGeomLines false c174Lines).map (fun r => r.sd.frame) =
      some (((0 : ℚ), (-1 : ℚ)), ((1 : ℚ), (1 : ℚ)), ((2 : ℚ), (-1 : ℚ))) := by decide +kernel
  rw [Option.map_eq_some_iff] at this
  exact this

end Verif.Props
