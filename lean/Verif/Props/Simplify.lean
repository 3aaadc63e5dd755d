import Verif.Lemmas.Simplify

/-!
# Simplification: C36, C70, C71, C72

Specification vocabulary: `Verif/Spec/Simplify.lean`.
-/

namespace Verif.Props
open Verif.Simplify Verif.Spec.Simplify

namespace Sim

/-- Float64 constants for the examples: 1, 2, 3. -/
def f1 : F64 := 0x3FF0000000000000#64
def f2 : F64 := 0x4000000000000000#64
def f3 : F64 := 0x4008000000000000#64
/-- A distance for the examples on integer coordinates: the height of the
point, exact for small heights (0, 1, 2, otherwise 3). -/
def height : Pt Int → Pt Int → Pt Int → F64 := fun _ _ p =>
  if p.2 = 0 then F64.zero else if p.2 = 1 then f1 else if p.2 = 2 then f2 else f3
/-- A zig-zag line. -/
def zig : List (Pt Int) := [(0, 0), (1, 1), (2, 3), (3, 0), (4, 1), (5, 0)]
/-- Cancelled from poll `n` on. -/
def cancelAt (n : Nat) : Ctx := fun k => decide (n ≤ k)

theorem cancelAt_mono (n : Nat) : (cancelAt n).Mono := by
  intro i j h hi
  simp [cancelAt] at hi ⊢; omega

end Sim
open Sim

/-- **C36** (a call that reports no error).  For every line, every tolerance,
every distance function and whatever the context did: if the call returns
without error, the result keeps the first and the last point and the order,
every dropped point is not further than the tolerance from the line through
the two kept points around it, every kept interior point is further than the
tolerance from the line through some kept point before it and some kept point
after it (positive tolerance), and with a non-positive tolerance the result is
the input. -/
theorem C36_simplify {α : Type} (ctx : Ctx) (hctx : ctx.Mono) (tol : F64)
    (dist : Pt α → Pt α → Pt α → F64) (ls out : List (Pt α)) (k : Nat) (hne : ls ≠ [])
    (h : dpSimplify ctx tol dist ls = .ret out false k) :
    Keeps (fun a b p => ¬ F64.lt tol (dist a b p) = true) ls out ∧
    (F64.le tol F64.zero = false →
      Needed (fun a b p => F64.lt tol (dist a b p) = true) out) ∧
    (F64.le tol F64.zero = true → out = ls) := by
  obtain ⟨o, e, k', h1, h2⟩ :=
    dpRec_good ctx hctx tol dist (ls.length + 1) 0 ls [] hne (by omega)
  unfold dpSimplify at h
  rw [h] at h1
  simp only [Res.ret.injEq] at h1
  obtain ⟨rfl, rfl, rfl⟩ := h1
  rcases h2 with ⟨_, _, o', ho, hk, hn, ht⟩ | ⟨he, _⟩
  · simp only [List.nil_append] at ho
    subst ho
    exact ⟨hk, hn, ht⟩
  · cases he

/-- **C36** (totality).  With a context that is never cancelled every line is
simplified without error; the empty line gives the empty line. -/
theorem C36_total {α : Type} (tol : F64) (dist : Pt α → Pt α → Pt α → F64)
    (ls : List (Pt α)) :
    ∃ out k, dpSimplify (fun _ => false) tol dist ls = .ret out false k ∧
      (ls = [] → out = []) := by
  cases hls : ls with
  | nil => exact ⟨[], 0, rfl, fun _ => rfl⟩
  | cons a t =>
    obtain ⟨o, e, k', h1, h2⟩ :=
      dpRec_good never never_mono tol dist ((a :: t).length + 1) 0 (a :: t) [] (by simp) (by omega)
    rcases h2 with ⟨rfl, _⟩ | ⟨_, _, hc⟩
    · exact ⟨o, k', h1, fun h => by cases h⟩
    · simp [never] at hc

example : dpSimplify (fun _ => false) f1 height zig
    = .ret [(0, 0), (2, 3), (5, 0)] false 3 := by decide
example : zig ≠ [] ∧ F64.le f1 F64.zero = false := by decide

/-- **C70**.  However the context is cancelled while the call runs, the call
does not panic; it returns an error only if the context was cancelled; and if
it returns no error the result is the one an uncancelled call returns, so a
partial simplification is never passed off as a result. -/
theorem C70_cancel {α : Type} (ctx : Ctx) (hctx : ctx.Mono) (tol : F64)
    (dist : Pt α → Pt α → Pt α → F64) (ls : List (Pt α)) :
    (∃ out err k, dpSimplify ctx tol dist ls = .ret out err k ∧
      (err = true → ∃ j, j < k ∧ ctx j = true)) ∧
    (∀ out k, dpSimplify ctx tol dist ls = .ret out false k →
      dpSimplify (fun _ => false) tol dist ls = .ret out false k) := by
  cases hls : ls with
  | nil =>
    refine ⟨⟨[], false, 0, rfl, fun h => by cases h⟩, fun out k h => h⟩
  | cons a t =>
    constructor
    · obtain ⟨o, e, k', h1, h2⟩ :=
        dpRec_good ctx hctx tol dist ((a :: t).length + 1) 0 (a :: t) [] (by simp) (by omega)
      refine ⟨o, e, k', h1, fun he => ?_⟩
      rcases h2 with ⟨h, _⟩ | ⟨_, hk, hc⟩
      · rw [h] at he; cases he
      · exact ⟨k' - 1, by omega, hc⟩
    · intro out k h
      exact dpRec_never ctx hctx tol dist _ 0 (a :: t) [] out k (by simp) (by simp) h

example : (cancelAt 1).Mono := cancelAt_mono 1
example : dpSimplify (cancelAt 1) f1 height zig = .ret [] true 2 := by decide
example : dpSimplify (cancelAt 9) f1 height zig
    = .ret [(0, 0), (2, 3), (5, 0)] false 3 := by decide

/-- **C71**.  `planar.Simplify` succeeds exactly when the simplifer succeeds
on every line and ring of the geometry; the result has the same kind and the
same number of parts at every level, points are untouched, every line is
replaced by the simplifer's result for it, and every ring by the simplifer's
result if that has more than two points and by an empty ring otherwise. -/
theorem C71_shape {α : Type} (s : Simplifer α) (g g' : Geom α) :
    simplify s g = some g' ↔
      SameShape (fun closed a b => ∃ ls, s a closed = some ls ∧
        b = if ls.length > 2 ∨ closed = false then ls else []) g g' :=
  simplify_shape s g g'

/-- The Douglas–Peucker simplifer with a context that is never cancelled. -/
def dpSimplifer {α : Type} (tol : F64) (dist : Pt α → Pt α → Pt α → F64) : Simplifer α :=
  fun ls _ => match dpSimplify (fun _ => false) tol dist ls with
    | .ret out false _ => some out
    | _ => none

example : simplify (dpSimplifer f1 height)
    (.collection [.point (7, 7), .lineString zig, .polygon [zig, [(0, 0), (1, 1), (2, 0)]]])
    = some (.collection [.point (7, 7), .lineString [(0, 0), (2, 3), (5, 0)],
        .polygon [[(0, 0), (2, 3), (5, 0)], []]]) := by decide

/-- **C72**, full statement: simplifying a polygon whose rings have at least
three points gives a polygon whose rings have at least three points. -/
def C72_full : Prop :=
  ∀ (tol : F64) (dist : Pt Int → Pt Int → Pt Int → F64) (rs rs' : List (List (Pt Int))),
    simplify (dpSimplifer tol dist) (.polygon rs) = some (.polygon rs') →
    (∀ r ∈ rs, 3 ≤ r.length) → ∀ r ∈ rs', 3 ≤ r.length

/-- **C72** fails: a flat ring is replaced by an empty ring that stays in the
polygon. -/
theorem C72_violated : ¬ C72_full := by
  intro h
  have := h f1 height [[(0, 0), (1, 1), (2, 0)]] [[]] (by decide) (by decide) [] (by simp)
  simp at this

/-- **C72**, what holds: every ring of the result has at least three points or
is empty, for every simplifer. -/
theorem C72_rings_partial {α : Type} (s : Simplifer α) (rs rs' : List (List (Pt α)))
    (h : simplify s (.polygon rs) = some (.polygon rs')) : ∀ r ∈ rs', r = [] ∨ 3 ≤ r.length := by
  rw [C71_shape] at h
  cases h with
  | polygon _ _ hl h =>
    intro r hr
    obtain ⟨i, hi, rfl⟩ := List.getElem_of_mem hr
    obtain ⟨ls, _, he⟩ := h i (by omega) hi
    rw [he]
    split
    · rename_i hc
      rcases hc with hc | hc
      · exact Or.inr hc
      · cases hc
    · exact Or.inl rfl

example : ∃ rs' : List (List (Pt Int)), simplify (dpSimplifer f1 height) (.polygon [zig]) = some (.polygon rs') :=
  ⟨[[(0, 0), (2, 3), (5, 0)]], by decide⟩

end Verif.Props
