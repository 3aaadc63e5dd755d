import Verif.Lemmas.SubNew
import Verif.Lemmas.SubLocate
import Mathlib.Algebra.Order.Ring.Rat

/-!
# Properties C132, C133: making a subdivision and finding points in it

`New` and `locate` of `planar/triangulate/delaunay/subdivision`, in exact arithmetic.
-/

namespace Verif.Props
open Verif.Quad Verif.Spec.Quad Verif.Lemmas.Quad Verif.Subdivision Verif.Spec.Subdivision
open Verif.Lemmas.SubWalk Verif.Lemmas.SubNew Verif.Lemmas.SubLocate Verif.Lemmas.Resolve
open Verif.Spec.Resolve

variable {K : Type} [Field K] [LinearOrder K] [IsStrictOrderedRing K]

/-! ## C132 -/

/-- **C132**: whatever edge is found for a point, it is one of the subdivision, and the point is one of its
ends, or, if the face to the left of the edge is a triangle, that triangle turns counterclockwise, and the
point lies in it or on the edge, but on neither of the other sides. -/
theorem C132_located (yd : Bool) (s : Store (Pt K)) (h : Reached s) (ha : OriginsAgree s) (se : E)
    (k : Primal se) (x : Pt K) (limit : Nat) (e : E) (he : locate yd s se x limit = some e) :
    Connected s se e ∧ ∀ o d t, FaceOf s e o d t →
      x = o ∨ x = d ∨ (Turns yd o d t ∧ InsideOrOnFirst x o d t) := by
  have hi := Reached.inv h
  obtain ⟨h1, h2⟩ := locate_sound hi he
  exact ⟨h1, fun o d t hf => passed_inside hi ha ((connected_primal hi h1).2 k) hf h2⟩

example : let s := newStore ((0 : ℚ), (0 : ℚ)) (3, 0) (0, 3)
    Reached s ∧ OriginsAgree s ∧ Primal ⟨0, 0⟩ ∧ locate false s ⟨0, 0⟩ (1, 1) 6 = some ⟨0, 0⟩ ∧
    locate false s ⟨0, 0⟩ (0, 3) 6 = some ⟨2, 2⟩ ∧ locate false s ⟨0, 0⟩ (4, 4) 6 = none ∧
    FaceOf s ⟨0, 0⟩ (0, 0) (3, 0) (0, 3) :=
  ⟨newStore_reached _ _ _, newStore_agree _ _ _, by decide, by decide +kernel, by decide +kernel,
    by decide +kernel, ⟨by decide +kernel, by decide +kernel⟩, by decide +kernel, by decide +kernel,
    by decide +kernel⟩

/-! ## C133 -/

/-- **C133**: `New` panics just if the three points are on one line. -/
theorem C133_new_panics (yd : Bool) (a b c : Pt K) :
    newSub yd a b c = none ↔ Spec.Planar.Colinear a b c := by
  rw [newSub_eq, ← wedge_colinear yd]
  rcases lt_trichotomy (wedge yd (arrow a b) (arrow a c)) 0 with h | h | h
  · simp [h, not_lt_of_gt h, h.ne]
  · simp [h]
  · simp [h, h.ne']

/-- **C133**: otherwise it makes a subdivision of three edges between the three points.  Its first edge starts
at the first point.  To its left is the triangle, counterclockwise; to its right is the same triangle
the other way round. -/
theorem C133_new_triangle (yd : Bool) (a b c : Pt K) (sd : Subdiv K) (h : newSub yd a b c = some sd) :
    Reached sd.store ∧ OriginsAgree sd.store ∧ sd.ptcount = 3 ∧ sd.frame = (a, b, c) ∧
    (walkAllEdges sd.store (fun _ => true) sd.start).length = 3 ∧
    ∃ p q, ((p = b ∧ q = c) ∨ (p = c ∧ q = b)) ∧ Turns yd a p q ∧
      FaceOf sd.store sd.start a p q ∧ FaceOf sd.store (sym sd.start) p a q := by
  rw [newSub_eq] at h
  have hw : ∀ e, e.q < 3 → Primal e → (walkAllEdges (newStore a b c) (fun _ => true) e).length = 3 := by
    intro e he ke
    have hl : ∀ f, walkAllEdges (newStore a b c) (fun _ => true) f = walkAllEdges exTriangle (fun _ => true) f := by
      intro f
      unfold walkAllEdges
      have : ∀ fuel V S, walkEdgesLoop (newStore a b c) (fun _ => true) fuel V S =
          walkEdgesLoop exTriangle (fun _ => true) fuel V S := by
        intro fuel
        induction fuel with
        | zero => intro V S; rfl
        | succ n ih =>
          intro V S
          cases S with
          | nil => rfl
          | cons e S =>
            unfold walkEdgesLoop onext
            rw [newStore_links]
            simp only [ih]
      exact this _ _ _
    rw [hl]
    rcases six he ke with rfl | rfl | rfl | rfl | rfl | rfl <;> decide
  obtain ⟨l1, l2, l3, l4, l5, l6⟩ := newStore_lnext a b c
  obtain ⟨o1, o2, o3, o4, o5, o6⟩ := newStore_orig a b c
  have s0 : sym (⟨0, 0⟩ : E) = ⟨0, 2⟩ := rfl
  have s2 : sym (⟨2, 2⟩ : E) = ⟨2, 0⟩ := rfl
  split_ifs at h with h1 h2
  · obtain rfl := Option.some.inj h
    refine ⟨newStore_reached a b c, newStore_agree a b c, rfl, rfl, hw ⟨0, 0⟩ (by decide) (by decide),
      b, c, Or.inl ⟨rfl, rfl⟩, h1, ?_, ?_⟩
    · simp only [FaceOf, ThreeSided, l1, l2, l3, o1, o2, o3]; simp
    · simp only [FaceOf, ThreeSided, s0, l4, l5, l6, o4, o5, o6]; simp
  · obtain rfl := Option.some.inj h
    refine ⟨newStore_reached a b c, newStore_agree a b c, rfl, rfl, hw ⟨2, 2⟩ (by decide) (by decide),
      c, b, Or.inr ⟨rfl, rfl⟩, ?_, ?_, ?_⟩
    · unfold Turns; rw [wedge_swap]; linarith
    · simp only [FaceOf, ThreeSided, l4, l5, l6, o4, o5, o6]; simp
    · simp only [FaceOf, ThreeSided, s2, l1, l2, l3, o1, o2, o3]; simp

/-- Clockwise points: the first edge is the one from `a` to `c`. -/
example : Spec.Planar.Colinear ((0 : ℚ), (0 : ℚ)) (1, 2) (2, 4) ∧
    (newSub false ((0 : ℚ), (0 : ℚ)) (0, 3) (3, 0)).map Subdiv.start = some ⟨2, 2⟩ ∧
    (newSub true ((0 : ℚ), (0 : ℚ)) (0, 3) (3, 0)).map Subdiv.start = some ⟨0, 0⟩ := by
  refine ⟨?_, by decide +kernel, by decide +kernel⟩
  norm_num [Spec.Planar.Colinear]

end Verif.Props
