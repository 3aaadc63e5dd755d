import Verif.Lemmas.ValidateMesh
import Verif.Lemmas.ValidateStar
import Verif.Lemmas.ValidateEnds
import Verif.Props.Delaunay

/-!
# Validating subdivisions: C162

Exact arithmetic (an ordered field), no tolerance.  Specification vocabulary: `Verif/Spec/Validate.lean`.
-/

namespace Verif.Props
open Verif.Quad Verif.Spec.Quad Verif.Subdivision Verif.Spec.Subdivision Verif.Validate Verif.Spec.Validate
open Verif.Spec.Planar Verif.Lemmas.ValidateStar
open Verif.Planar (Line)
open Verif.Intersect (Event IsQueue)

section Field
variable {K : Type} [Field K] [LinearOrder K] [IsStrictOrderedRing K]

/-- **C162**, what a caller of `Validate` would like: if it returns nil, the edges round each point are in
counterclockwise order. -/
def C162_order_full (K : Type) [Field K] [LinearOrder K] : Prop :=
  ∀ (mkq : List (Line K) → List (Event K)), (∀ l, IsQueue l (mkq l)) → ∀ (yd : Bool) (s : Store (Pt K)) (z : E),
    Built s → Allocated s z → Primal z → validate mkq (fun _ => false) yd s z = .ok → InOrder yd s z

/-- **C162**, and: if it returns nil, no two edges have a point in common but their ends. -/
def C162_apart_full (K : Type) [Field K] [LinearOrder K] : Prop :=
  ∀ (mkq : List (Line K) → List (Event K)), (∀ l, IsQueue l (mkq l)) → ∀ (yd : Bool) (s : Store (Pt K)) (z : E),
    Built s → Allocated s z → Primal z → validate mkq (fun _ => false) yd s z = .ok → MeetAtEnds s z

/-- **C162**, what `Validate` decides, whatever order `sort` gives to the events: for edges that have both ends,
none of which begins and ends in one ring, it returns nil if they pass the tests, and an error else.  The tests
are what `Passes` says. -/
theorem C162_decides_partial (mkq : List (Line K) → List (Event K)) (hq : ∀ l, IsQueue l (mkq l)) (yd : Bool)
    (s : Store (Pt K)) (z : E) (hs : Reached s) (az : Allocated s z) (kz : Primal z)
    (hp : ∀ y, Connected s z y → orig s y ≠ none) (hl : ∀ y, Connected s z y → ¬ Around s y (sym y)) :
    (Passes yd s z → validate mkq (fun _ => false) yd s z = .ok) ∧
      (¬ Passes yd s z → validate mkq (fun _ => false) yd s z = .invalid) := by
  obtain ⟨h1, h2⟩ := Lemmas.Validate.validate_iff (Lemmas.Quad.Reached.inv hs) hq (fun _ => rfl) yd az kz hp hl
  exact ⟨h2.2, fun h => h1.resolve_left (fun h' => h (h2.1 h'))⟩

end Field

/-- Three edges round a point; they pass the tests if given counterclockwise, and else not. -/
example : (Allocated (spokes [(-3, -4), (-3, 4), (5, 0)]) ⟨0, 0⟩ ∧
    (∀ y, Connected (spokes [(-3, -4), (-3, 4), (5, 0)]) ⟨0, 0⟩ y → orig (spokes [(-3, -4), (-3, 4), (5, 0)]) y ≠ none) ∧
    ∀ y, Connected (spokes [(-3, -4), (-3, 4), (5, 0)]) ⟨0, 0⟩ y →
      ¬ Around (spokes [(-3, -4), (-3, 4), (5, 0)]) y (sym y)) ∧
    (∀ l, IsQueue l (queueOf l)) ∧
    validate queueOf (fun _ => false) false (spokes [(-3, -4), (-3, 4), (5, 0)]) ⟨0, 0⟩ = .ok ∧
    validate queueOf (fun _ => false) true (spokes [(-3, -4), (-3, 4), (5, 0)]) ⟨0, 0⟩ = .invalid ∧
    validate queueOf (fun _ => false) false (spokes [(5, 0), (-3, 4), (5, 0)]) ⟨0, 0⟩ = .invalid :=
  ⟨spokes_fit _ (by simp) (by decide +kernel), queueOf_ok, by decide +kernel, by decide +kernel, by decide +kernel⟩

section Field
variable {K : Type} [Field K] [LinearOrder K] [IsStrictOrderedRing K]

/-- **C162**, edges without ends: if `Validate` of a subdivision returns nil, whatever the context, every edge
of it has both ends (the reverse of a connected edge is connected). -/
theorem C162_ends (mkq : List (Line K) → List (Event K)) (ctx : Nat → Bool) (yd : Bool) (s : Store (Pt K)) (z : E)
    (hs : Reached s) (az : Allocated s z) (kz : Primal z) (h : validate mkq ctx yd s z = .ok) (y : E)
    (hy : Connected s z y) : orig s y ≠ none ∧ dest s y ≠ none :=
  have := Lemmas.Validate.validate_ends (Lemmas.Quad.Reached.inv hs) yd az kz h
  ⟨this y hy, this _ hy.sym⟩

/-- **C162**, the same of `Validate` of a single edge, none of those round its origin ending there: if it
returns nil, the edge has an origin, those round it have the same one, and all have a destination. -/
theorem C162_edge_ends (mkq : List (Line K) → List (Event K)) (yd : Bool) (s : Store (Pt K)) (e : E)
    (hs : Reached s) (ae : Allocated s e) (ke : Primal e) (hl : ∀ w, Around s e w → ¬ Around s e (sym w))
    (h : validateEdge mkq yd s e = some true) :
    ∃ o, orig s e = some o ∧ ∀ w, Around s e w → orig s w = some o ∧ dest s w ≠ none :=
  Lemmas.Validate.validateEdge_ends (Lemmas.Quad.Reached.inv hs) yd ae ke hl h

/-- **C162**, the context: `Validate` returns the error of the context only if that is cancelled, and otherwise
what it would with a context that never is; if the context is cancelled to begin with, it does not return nil
for a subdivision that passes, but that error. -/
theorem C162_context (mkq : List (Line K) → List (Event K)) (hq : ∀ l, IsQueue l (mkq l)) (ctx : Nat → Bool)
    (yd : Bool) (s : Store (Pt K)) (z : E) :
    (validate mkq ctx yd s z = .ctxErr → ∃ i, ctx i = true) ∧
      (validate mkq ctx yd s z ≠ .ctxErr → validate mkq ctx yd s z = validate mkq (fun _ => false) yd s z) ∧
      (ctx 0 = true → validate mkq (fun _ => false) yd s z = .ok → validate mkq ctx yd s z = .ctxErr) := by
  rcases Lemmas.Validate.validate_ctx mkq ctx yd s z with ⟨h1, _, h3⟩ | h
  · exact ⟨fun _ => h3, fun h => absurd h1 h, fun hc h => Lemmas.Validate.validate_cancelled hq hc yd h⟩
  · refine ⟨fun h' => ?_, fun _ => h, fun hc h => Lemmas.Validate.validate_cancelled hq hc yd h⟩
    rw [h] at h'
    exact absurd h' (Lemmas.Validate.validate_never mkq yd s z)

end Field

/-- Three edges round a point: with a context that is cancelled, or cancelled later, and with one of the edges
not having an end. -/
example : validate queueOf (fun _ => true) false (spokes [(-3, -4), (-3, 4), (5, 0)]) ⟨0, 0⟩ = .ctxErr ∧
    validate queueOf (fun i => decide (4 < i)) false (spokes [(-3, -4), (-3, 4), (5, 0)]) ⟨0, 0⟩ = .ctxErr ∧
    validate queueOf (fun i => decide (5 < i)) false (spokes [(-3, -4), (-3, 4), (5, 0)]) ⟨0, 0⟩ = .ok ∧
    validate queueOf (fun _ => false) false (newWithEndPoints Store.empty (some ((0 : ℚ), (0 : ℚ))) none).1 ⟨0, 0⟩ =
      .invalid ∧
    validateEdge queueOf false (spokes [(-3, -4), (-3, 4), (5, 0)]) ⟨0, 0⟩ = some true := by
  refine ⟨by decide +kernel, by decide +kernel, by decide +kernel, by decide +kernel, by decide +kernel⟩

section Field
variable {K : Type} [Field K] [LinearOrder K] [IsStrictOrderedRing K]

/-- **C162**, no false alarm: whatever points are inserted into a new subdivision, not on a side of the frame,
`Validate` returns nil. -/
theorem C162_accepts_partial (mkq : List (Line K) → List (Event K)) (hq : ∀ l, IsQueue l (mkq l)) (yd : Bool)
    (a b c : Pt K) (sd : Subdiv K) (h : newSub yd a b c = some sd) (xs : List (Pt K))
    (hx : ∀ x ∈ xs, ¬ OnSegment x a b ∧ ¬ OnSegment x b c ∧ ¬ OnSegment x c a) :
    ∃ rs sd', insertAll yd sd xs = some (rs, sd') ∧
      validate mkq (fun _ => false) yd sd'.store sd'.start = .ok ∧ MeetAtEnds sd'.store sd'.start := by
  obtain ⟨rs, sd', h1, _, _, h4, _⟩ := C134_accepts_partial yd a b c sd h xs hx
  refine ⟨rs, sd', h1, ?_⟩
  have main : ∀ f0 f1 f2, Triangulated yd f0 f1 f2 sd'.store sd'.start →
      validate mkq (fun _ => false) yd sd'.store sd'.start = .ok ∧ MeetAtEnds sd'.store sd'.start := by
    intro f0 f1 f2 hT
    refine ⟨?_, Lemmas.ValidateMesh.mesh_meet hT⟩
    exact (C162_decides_partial mkq hq yd _ _ hT.reached hT.alloc hT.primal (Lemmas.CrossInsert.net_of hT).orig
      (fun y hy => Lemmas.ValidateMesh.mesh_noloop hT hy)).1 (Lemmas.ValidateMesh.mesh_passes hT)
  rcases h4 with hT | hT
  · exact main _ _ _ hT
  · exact main _ _ _ hT

end Field

/-- A frame and three points, one of them twice. -/
example : newSub false ((-100 : ℚ), (-100 : ℚ)) (100, -100) (0, 150) ≠ none ∧
    (∀ x ∈ [((0 : ℚ), (0 : ℚ)), (20, 5), (0, 0), (30, -20)], ¬ OnSegment x (-100, -100) (100, -100) ∧
      ¬ OnSegment x (100, -100) (0, 150) ∧ ¬ OnSegment x (0, 150) (-100, -100)) ∧
    ((newSub false ((-100 : ℚ), (-100 : ℚ)) (100, -100) (0, 150)).bind fun sd =>
      (insertAll false sd [((0 : ℚ), (0 : ℚ)), (20, 5), (0, 0), (30, -20)]).map fun r =>
        validate queueOf (fun _ => false) false r.2.store r.2.start) = some .ok := by
  refine ⟨by decide +kernel, ?_, by decide +kernel⟩
  simp only [← Verif.Planar.isPointOnLineSegment_iff]
  decide +kernel

/-- **C162**: the order is not what is tested.  Seven edges, of which the fourth and the fifth are in the wrong
order, pass: there are six turns to the left and one to the right. -/
theorem C162_order_violated : ¬ C162_order_full ℚ := by
  intro h
  have hs := spokes_built [(5, -9), (-3, -9), (-9, 5), (-10, -4), (-2, 10), (6, 7), (10, 0)]
  have := h queueOf queueOf_ok false _ ⟨0, 0⟩ hs.1 (by show 0 < _; rw [hs.2.1]; decide) (Or.inl rfl) (by decide +kernel)
  refine this (onext _ (onext _ ⟨0, 0⟩)) (onext _ (onext _ (onext _ (onext _ ⟨0, 0⟩)))) (0, 0) (-2, 10) (-10, -4)
    (-9, 5) (.next (.next .refl)) (.next (.next .refl)) (by decide +kernel) (by decide +kernel) (by decide +kernel)
    (by decide +kernel) ?_
  unfold Turns
  decide +kernel

/-- **C162**: edges from one point may be on top of each other: those from (0,0) to (1,0) and to (2,0). -/
theorem C162_apart_violated : ¬ C162_apart_full ℚ := by
  intro h
  have hs := spokes_built [(-1, -1), (-1, 1), (2, 0), (1, 0)]
  have := h queueOf queueOf_ok false _ ⟨0, 0⟩ hs.1 (by show 0 < _; rw [hs.2.1]; decide) (Or.inl rfl) (by decide +kernel)
  have := this ⟨0, 0⟩ (onext _ ⟨0, 0⟩) (0, 0) (1, 0) (0, 0) (2, 0) (1 / 2, 0) .refl (.next .refl) (by decide +kernel)
    (by decide +kernel) (by decide +kernel) (by decide +kernel) (by decide +kernel) (by decide +kernel)
    ⟨1 / 2, by norm_num, by norm_num, by norm_num⟩ ⟨1 / 4, by norm_num, by norm_num, by norm_num⟩
  revert this
  decide +kernel

/-- **C162**, and: `Validate` says of every structure whether it is valid. -/
def C162_returns_full (K : Type) [Field K] [LinearOrder K] : Prop :=
  ∀ (mkq : List (Line K) → List (Event K)), (∀ l, IsQueue l (mkq l)) → ∀ (yd : Bool) (s : Store (Pt K)) (z : E),
    Built s → Allocated s z → Primal z → validate mkq (fun _ => false) yd s z ≠ .panic

/-- **C162**: it panics if an edge without an end follows one that has both round a point, before it comes to
that edge. -/
theorem C162_returns_violated : ¬ C162_returns_full ℚ := by
  intro h
  have b1 : Built (newWithEndPoints Store.empty (some ((0 : ℚ), (0 : ℚ))) (some (5, 0))).1 :=
    .newWithEndPoints _ _ .empty
  have b2 := Built.newWithEndPoints (some ((0 : ℚ), (0 : ℚ))) none b1
  have b3 := Built.splice ⟨0, 0⟩ ⟨1, 0⟩ b2 (by unfold Allocated; decide +kernel) (by unfold Allocated; decide +kernel)
    (Or.inl rfl) (Or.inl rfl) (by decide +kernel)
  exact h queueOf queueOf_ok false _ ⟨0, 0⟩ b3 (by unfold Allocated; decide +kernel) (Or.inl rfl) (by decide +kernel)

end Verif.Props
