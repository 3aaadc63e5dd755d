import Verif.Spec.Planar
import Verif.Model.Intersect

/-!
# What the sweep and the point-in-ring test are for
-/

namespace Verif.Spec.Intersect
open Verif.Planar (Line)
open Verif.Spec.Planar
open Verif.Intersect (Ret Out)

section Field
variable {K : Type} [Field K] [LinearOrder K]

/-- The two segments are not parallel and meet at `p`. -/
def MeetAt (p : Pt K) (s t : Line K) : Prop :=
  ¬ Parallel s.1 s.2 t.1 t.2 ∧ OnSegment p s.1 s.2 ∧ OnSegment p t.1 t.2

/-- Some end of `s` equals (by `peq`) some end of `t`. -/
def Touch (peq : Pt K → Pt K → Bool) (s t : Line K) : Prop :=
  ∃ a ∈ [s.1, s.2], ∃ b ∈ [t.1, t.2], peq a b = true

/-- Call the function with each hit in turn, until it returns an error;
`ErrStopIteration` counts as success.  If all calls return nil the result is
`last`. -/
def callAll {σ E : Type} (fn : σ → Nat → Nat → Pt K → σ × Ret E) (last : Out E) :
    List (Nat × Nat × Pt K) → σ → σ × Out E
  | [], s => (s, last)
  | (i, j, p) :: hits, s =>
    match fn s i j p with
    | (s', .cont) => callAll fn last hits s'
    | (s', .stop) => (s', .ok)
    | (s', .err e) => (s', .err e)

/-- `hits` lists every pair of different segments that meet - leaving out, if
`connected`, pairs with a common end - exactly once, in one of the two orders,
with the point where they meet; and nothing else. -/
def ListsAllMeetings (segs : List (Line K)) (connected : Bool) (peq : Pt K → Pt K → Bool)
    (hits : List (Nat × Nat × Pt K)) : Prop :=
  (hits.map (fun h => (min h.1 h.2.1, max h.1 h.2.1))).Nodup ∧
  (∀ i j p, (i, j, p) ∈ hits → i ≠ j) ∧
  ∀ i j p, i ≠ j → (((i, j, p) ∈ hits ∨ (j, i, p) ∈ hits) ↔
    ∃ s t, segs[i]? = some s ∧ segs[j]? = some t ∧ MeetAt p s t ∧
      ¬ (connected = true ∧ Touch peq s t))

/-- The point is on one of the segments. -/
def OnBorder (segs : List (Line K)) (p : Pt K) : Prop := ∃ s ∈ segs, OnSegment p s.1 s.2

/-- The segment crosses the horizontal ray from `p` to the left: one end is
below the ray and the other is not, and the segment meets the ray's line left
of `p`. -/
def CrossesRay (p : Pt K) (s : Line K) : Prop :=
  (s.1.2 < p.2 ↔ ¬ s.2.2 < p.2) ∧ ∃ x, x < p.1 ∧ OnSegment (x, p.2) s.1 s.2

open Classical in
/-- Even-odd rule: the ray from `p` to the left crosses an odd number of
segments. -/
def InsideEvenOdd (segs : List (Line K)) (p : Pt K) : Prop :=
  segs.countP (fun s => decide (CrossesRay p s)) % 2 = 1

/-- Candidate segments: valid indices, each once, among them every segment
that has a point in common with `l`. -/
def Candidates (segs : List (Line K)) (l : Line K) (results : List Nat) : Prop :=
  results.Nodup ∧ (∀ i ∈ results, i < segs.length) ∧
  ∀ i s, segs[i]? = some s → ∀ p, OnSegment p l.1 l.2 ∧ OnSegment p s.1 s.2 → i ∈ results

end Field

end Verif.Spec.Intersect
