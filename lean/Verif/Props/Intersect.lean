import Verif.Lemmas.Ring

/-!
# Sweep and point in ring: C38, C85

Exact arithmetic (an ordered field).  Specification vocabulary:
`Verif/Spec/Intersect.lean`, `Verif/Spec/Planar.lean`.
-/

namespace Verif.Props
open Verif.Intersect Verif.Planar Verif.Spec.Planar Verif.Spec.Intersect
open Verif.Simplify (Ctx)

section Field
variable {K : Type} [Field K] [LinearOrder K] [IsStrictOrderedRing K]

/-! ### C38: the sweep -/

/-- **C38**.  For every list of segments and every order `sort` may give the
events, there is one list of hits - every pair of segments that meet (are not
parallel and share a point), once, with that point, and no other pair; with
`connected` the pairs with a common end are left out - such that
`FindIntersects`, whatever its callback does, makes exactly these calls until
the callback returns an error. -/
theorem C38_every_meeting_once (segs : List (Line K)) (q : List (Event K)) (hq : IsQueue segs q)
    (connected : Bool) (peq : Pt K → Pt K → Bool) (hp : ∀ a b, peq a b = peq b a) :
    ∃ hits, ListsAllMeetings segs connected peq hits ∧
      ∀ (σ E : Type) (fn : σ → Nat → Nat → Pt K → σ × Ret E) (s : σ) (ctx : Ctx),
        (∀ i, ctx i = false) →
        findIntersects ctx segs q connected peq fn s = callAll fn .ok hits s := by
  refine ⟨_, sweep_hits hq connected peq hp, ?_⟩
  intro σ E fn s ctx hc
  have := sweep_eq ctx segs connected peq fn q 0 [] s q.length (fun i _ _ => hc i) (Nat.le_refl _)
    (fun h => absurd h (Nat.lt_irrefl _))
  rw [if_neg (Nat.lt_irrefl _), List.take_length] at this
  exact this

/-- **C38**, cancellation: if the context is cancelled before the events are
used up, the calls made are the first ones of the same list, and the context's
error is returned unless a callback ended the search before. -/
theorem C38_cancelled (segs : List (Line K)) (q : List (Event K)) (hq : IsQueue segs q)
    (connected : Bool) (peq : Pt K → Pt K → Bool) (hp : ∀ a b, peq a b = peq b a)
    (ctx : Ctx) (k : Nat) (hk : k < 2 * segs.length) (hbefore : ∀ i < k, ctx i = false)
    (hcancel : ctx k = true) :
    ∃ hits first, ListsAllMeetings segs connected peq hits ∧ first <+: hits ∧
      ∀ (σ E : Type) (fn : σ → Nat → Nat → Pt K → σ × Ret E) (s : σ),
        findIntersects ctx segs q connected peq fn s = callAll fn .ctxErr first s := by
  refine ⟨_, _, sweep_hits hq connected peq hp, (tested_take k q []).filterMap _, ?_⟩
  intro σ E fn s
  have hlen : q.length = 2 * segs.length := by
    rw [hq.1.length_eq]; exact length_allEvents segs 0
  have := sweep_eq ctx segs connected peq fn q 0 [] s k (fun i _ h => hbefore i (by omega))
    (by omega) (fun _ => by simpa using hcancel)
  rw [if_pos (by omega)] at this
  exact this

end Field

/-- The queue of two crossing segments and a third one apart. -/
example : IsQueue [(((0, 0), (4, 4)) : Line ℚ), ((2, 0), (0, 2)), ((9, 0), (8, 0))]
    [⟨0, false, (0, 0)⟩, ⟨1, false, (0, 2)⟩, ⟨1, true, (2, 0)⟩, ⟨0, true, (4, 4)⟩,
      ⟨2, false, (8, 0)⟩, ⟨2, true, (9, 0)⟩] := by
  constructor <;> decide +kernel
/-- And the one call made for it. -/
example : findIntersects (fun _ => false) [(((0, 0), (4, 4)) : Line ℚ), ((2, 0), (0, 2)), ((9, 0), (8, 0))]
    [⟨0, false, (0, 0)⟩, ⟨1, false, (0, 2)⟩, ⟨1, true, (2, 0)⟩, ⟨0, true, (4, 4)⟩,
      ⟨2, false, (8, 0)⟩, ⟨2, true, (9, 0)⟩] false (fun a b => decide (a = b))
    (fun (s : List (Nat × Nat × Pt ℚ)) i j p => (s ++ [(i, j, p)], (Ret.cont : Ret Unit))) [] =
    ([(1, 0, (1, 1))], .ok) := by
  decide +kernel

/-! ### C85: point in ring -/

section Field
variable {K : Type} [Field K] [LinearOrder K] [IsStrictOrderedRing K]

open Classical in
/-- **C85**.  `ContainsPoint` of a ring made from any points: on the border
the answer is `IncludeBorder`, elsewhere it is the even-odd rule.  The
candidate segments may be any that include the ones the ray touches. -/
theorem C85_even_odd (peq : Pt K → Pt K → Bool) (hpeq : ∀ a b, peq a b = true ↔ a = b)
    (includeBorder : Bool) (pts : List (Pt K)) (results : List Nat) (pt : Pt K)
    (hr : Candidates (ringSegs pts) (ray (ringSegs pts) pt) results) :
    ringContains peq includeBorder (ringSegs pts) results pt =
      if OnBorder (ringSegs pts) pt then includeBorder
      else decide (InsideEvenOdd (ringSegs pts) pt) :=
  ringContains_spec peq hpeq includeBorder pts results pt hr

open Classical in
/-- **C85**, rings without an index (up to 16 segments), where every segment
is a candidate. -/
theorem C85_even_odd_small (peq : Pt K → Pt K → Bool) (hpeq : ∀ a b, peq a b = true ↔ a = b)
    (includeBorder : Bool) (pts : List (Pt K)) (pt : Pt K) :
    ringContains peq includeBorder (ringSegs pts) (List.range (ringSegs pts).length) pt =
      if OnBorder (ringSegs pts) pt then includeBorder
      else decide (InsideEvenOdd (ringSegs pts) pt) := by
  refine C85_even_odd peq hpeq includeBorder pts _ pt
    ⟨List.nodup_range, fun i h => List.mem_range.1 h, fun i s h _ _ => ?_⟩
  rw [List.mem_range]
  exact (List.getElem?_eq_some_iff.1 h).1

end Field

/-- A point in a square, one on its border and one outside. -/
example :
    (ringContains (fun a b => decide (a = b)) true
      (ringSegs [((1 : ℚ), (1 : ℚ)), (4, 1), (4, 4), (1, 4)]) (List.range 4) (2, 2),
    ringContains (fun a b => decide (a = b)) true
      (ringSegs [((1 : ℚ), (1 : ℚ)), (4, 1), (4, 4), (1, 4)]) (List.range 4) (4, 2),
    ringContains (fun a b => decide (a = b)) true
      (ringSegs [((1 : ℚ), (1 : ℚ)), (4, 1), (4, 4), (1, 4)]) (List.range 4) (0, 2)) =
    (true, true, false) := by
  decide +kernel

end Verif.Props
