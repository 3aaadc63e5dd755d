import Verif.Lemmas.ClipWalk
import Mathlib.Tactic.NormNum
import Mathlib.Algebra.Order.Ring.Rat

/-!
# Clipping to a box (planar/clip)
-/

set_option linter.unusedSectionVars false

namespace Verif.Props
open Verif.Clip Verif.Spec.Clip Verif.Spec.Planar Verif.Lemmas.Clip
open Verif.KdTree (Box)
open Verif.Simplify (Ctx)

variable {K : Type} [Field K] [LinearOrder K] [IsStrictOrderedRing K]

/-- C50, multipoints: the points in the box are kept, in order, and no others, unless the context
ends before the last point is seen, which is an error.  Without a box (or with the universe) all
points are kept. -/
theorem C50_points (ctx : Ctx) (e : Box K) (pts : List (Pt K)) :
    multiPoint ctx (some e) pts = (if ∃ i < pts.length, ctx i = true then .ctxErr
      else .ok (pts.filter (fun p => decide (Inside e p))))
    ∧ multiPoint ctx none pts = .ok pts := by
  refine ⟨?_, rfl⟩
  have := pointsLoop_eq ctx e pts 0 []
  simpa [multiPoint] using this

/-- The box and the lines of the examples. -/
abbrev box10 : Box ℚ := ⟨0, 0, 10, 10⟩

/-- A case of C50_points: two of three points are kept. -/
example : multiPoint (fun _ => false) (some box10) [(10, 3), (11, 3), (4, 0)]
    = .ok [(10, 3), (4, 0)] := by decide +kernel

/-- C50, lines: for every box with ordered sides, every comparison of points and every line of two
points or more, clipping does not panic, it fails exactly if the context ends before the last
segment, and every vertex of every line it returns is in the box and on the input line.  The line
without points gives no lines, the line of one point is refused, and without a box the line comes
back as it is. -/
theorem C50_line (peq : Pt K → Pt K → Bool) (ctx : Ctx) (e : Box K) (hx : e.minx ≤ e.maxx)
    (hy : e.miny ≤ e.maxy) (ls : List (Pt K)) :
    (ls.length = 0 → lineString peq ctx (some e) ls = .ok [])
    ∧ (ls.length = 1 → lineString peq ctx (some e) ls = .invalid)
    ∧ (2 ≤ ls.length → (∃ i, i + 1 < ls.length ∧ ctx i = true) →
        lineString peq ctx (some e) ls = .ctxErr)
    ∧ (2 ≤ ls.length → (¬ ∃ i, i + 1 < ls.length ∧ ctx i = true) →
        ∃ mls, lineString peq ctx (some e) ls = .ok mls
          ∧ ∀ l ∈ mls, ∀ v ∈ l, Inside e v ∧ ∃ pq ∈ pieces ls, OnSegment v pq.1 pq.2)
    ∧ (2 ≤ ls.length → lineString peq ctx none ls = .ok [ls]) := by
  match ls with
  | [] => simp [lineString]
  | [_] => simp [lineString]
  | p :: q :: ps =>
    have := lineString_sound (peq := peq) hx hy ctx p q ps
    refine ⟨by simp, by simp, ?_, ?_, fun _ => rfl⟩
    · rintro - ⟨i, hi, hc⟩
      rw [if_pos ⟨i, by simpa using hi, hc⟩] at this
      exact this
    · intro _ hn
      rw [if_neg (fun ⟨i, hi, hc⟩ => hn ⟨i, by simpa using hi, hc⟩)] at this
      exact this

/-- A case of C50_line: in, out, and in again. -/
example : lineString (fun a b => decide (a = b)) (fun _ => false) (some box10)
    [(5, 5), (15, 5), (15, 8), (5, 8)]
    = .ok [[(5, 5), (10, 5)], [(10, 8), (5, 8)]] := by decide +kernel

/-- C50, the pieces: if the points are compared exactly and the box has an inside, the pieces of
the lines returned are parts of the segments of the input, in the same direction and the same
order, and at most one of each segment. -/
theorem C50_parts (peq : Pt K → Pt K → Bool) (hpeq : ∀ a b, peq a b = true ↔ a = b) (ctx : Ctx)
    (e : Box K) (he : Proper e) (ls : List (Pt K)) (mls : List (List (Pt K)))
    (h : lineString peq ctx (some e) ls = .ok mls) :
    PartsInOrder (mls.flatMap pieces) (pieces ls) := by
  match ls with
  | [] => simp only [lineString, Res.ok.injEq] at h; subst h; exact .nil
  | [_] => simp [lineString] at h
  | p :: q :: ps =>
    have := lineString_all (peq := peq) he hpeq ctx p q ps
    split at this
    · rw [this] at h; cases h
    · obtain ⟨mls', h', -, ho, -⟩ := this
      rw [h'] at h
      cases h
      exact ho

/-- A case of C50_parts, against the direction of the edges. -/
example : lineString (fun a b => decide (a = b)) (fun _ => false) (some box10)
    [(15, 5), (-5, 5), (-5, 8), (5, 8)] = .ok [[(10, 5), (0, 5)], [(0, 8), (5, 8)]]
    ∧ Proper box10 := by
  refine ⟨by decide +kernel, by unfold Proper; norm_num⟩

/-- C50, many lines: the lines are clipped one by one and the results put together in order; the
first failure is the result. -/
theorem C50_lines (peq : Pt K → Pt K → Bool) (e : Box K) (mls : List (Ctx × List (Pt K))) :
    (∀ f : Ctx × List (Pt K) → List (List (Pt K)),
      (∀ x ∈ mls, lineString peq x.1 (some e) x.2 = .ok (f x)) →
      multiLineString peq (some e) mls = .ok (mls.flatMap f))
    ∧ (∀ (f : Ctx × List (Pt K) → List (List (Pt K))) pre x post, mls = pre ++ x :: post →
      (∀ y ∈ pre, lineString peq y.1 (some e) y.2 = .ok (f y)) →
      (∀ r, lineString peq x.1 (some e) x.2 ≠ .ok r) →
      multiLineString peq (some e) mls = lineString peq x.1 (some e) x.2)
    ∧ multiLineString peq none mls = .ok (mls.map (·.2)) := by
  have key : ∀ (f : Ctx × List (Pt K) → List (List (Pt K))) (pre : List (Ctx × List (Pt K))) rest acc,
      (∀ y ∈ pre, lineString peq y.1 (some e) y.2 = .ok (f y)) →
      linesLoop peq (some e) (pre ++ rest) acc = linesLoop peq (some e) rest (acc ++ pre.flatMap f) := by
    intro f pre
    induction pre with
    | nil => intro rest acc _; simp
    | cons y pre ih =>
      intro rest acc h
      obtain ⟨c, l⟩ := y
      simp only [List.cons_append, linesLoop, h (c, l) (by simp)]
      rw [ih _ _ (fun z hz => h z (List.mem_cons_of_mem _ hz))]
      simp
  refine ⟨?_, ?_, rfl⟩
  · intro f h
    have := key f mls [] [] h
    simpa [multiLineString, linesLoop] using this
  · rintro f pre ⟨c, l⟩ post rfl hp hx
    simp only [multiLineString, key f pre _ _ hp, linesLoop]

/-- A case of C50_lines: two lines, one of them in two parts. -/
example : multiLineString (fun a b => decide (a = b)) (some box10)
    [(fun _ => false, [(5, 5), (15, 5), (15, 8), (5, 8)]), (fun _ => false, [(1, 1), (2, 2)])]
    = .ok [[(5, 5), (10, 5)], [(10, 8), (5, 8)], [(1, 1), (2, 2)]] := by decide +kernel

/-- C103: every point of the input line that is in the box is on one of the lines returned, if it
is not alone, that is if the same segment has another point in the box. -/
def C103_full (K : Type) [Field K] [LinearOrder K] : Prop :=
  ∀ (peq : Pt K → Pt K → Bool), (∀ a b, peq a b = true ↔ a = b) → ∀ (ctx : Ctx) (e : Box K),
    Proper e → ∀ (ls : List (Pt K)) (mls : List (List (Pt K))),
    lineString peq ctx (some e) ls = .ok mls →
    ∀ pq ∈ pieces ls, ∀ x y, x ≠ y → OnSegment x pq.1 pq.2 → OnSegment y pq.1 pq.2 →
      Inside e x → Inside e y → ∃ l ∈ mls, ∃ ab ∈ pieces l, OnSegment x ab.1 ab.2

/-- C103 for the segments that pass through no corner of the box. -/
theorem C103_covered_partial (peq : Pt K → Pt K → Bool) (hpeq : ∀ a b, peq a b = true ↔ a = b)
    (ctx : Ctx) (e : Box K) (he : Proper e) (ls : List (Pt K)) (mls : List (List (Pt K)))
    (h : lineString peq ctx (some e) ls = .ok mls) (pq : Pt K × Pt K) (hpq : pq ∈ pieces ls)
    (hc : ∀ c, Corner e c → ¬ OnSegment c pq.1 pq.2)
    (x y : Pt K) (hxy : x ≠ y) (hx : OnSegment x pq.1 pq.2) (hy : OnSegment y pq.1 pq.2)
    (hix : Inside e x) (hiy : Inside e y) :
    ∃ l ∈ mls, ∃ ab ∈ pieces l, OnSegment x ab.1 ab.2 := by
  match ls with
  | [] => simp [pieces] at hpq
  | [_] => simp [pieces] at hpq
  | p :: q :: ps =>
    have := lineString_all (peq := peq) he hpeq ctx p q ps
    split at this
    · rw [this] at h; cases h
    · obtain ⟨mls', h', -, -, hcov, -⟩ := this
      rw [h'] at h
      cases h
      exact hcov pq hpq hc x y hxy hx hy hix hiy

/-- A case of C103_covered_partial: the segment from (15,5) to (-5,5) misses the corners and has
(3,5) and (4,5) in the box. -/
example : (((15, 5), (-5, 5)) : Pt ℚ × Pt ℚ) ∈ pieces [(15, 5), (-5, 5)]
    ∧ (∀ c, Corner box10 c → ¬ OnSegment c ((15, 5) : Pt ℚ) (-5, 5))
    ∧ OnSegment ((3, 5) : Pt ℚ) (15, 5) (-5, 5) ∧ OnSegment ((4, 5) : Pt ℚ) (15, 5) (-5, 5)
    ∧ Inside box10 (3, 5) ∧ Inside box10 (4, 5) := by
  refine ⟨by simp [pieces], ?_, ⟨3/5, by norm_num, by norm_num, by norm_num⟩,
    ⟨11/20, by norm_num, by norm_num, by norm_num⟩, by decide +kernel, by decide +kernel⟩
  rintro ⟨x, y⟩ ⟨-, h⟩ ⟨t, -, -, h2⟩
  have := congrArg Prod.snd h2
  simp only at this h
  subst this
  norm_num at h

/-- C103 does not hold: the segment from (12,-1) to (-2,6) enters the box through its corner
(10,0) and leaves through (0,5), and clipping returns nothing. -/
theorem C103_violated : ¬ C103_full ℚ := by
  intro h
  obtain ⟨l, hl, -⟩ := h (fun a b => decide (a = b)) (by simp) (fun _ => false) box10
    (by unfold Proper; norm_num) [(12, -1), (-2, 6)] [] (by decide +kernel)
    ((12, -1), (-2, 6)) (by simp [pieces]) (2, 4) (4, 3) (by norm_num)
    ⟨5/7, by norm_num, by norm_num, by norm_num⟩ ⟨4/7, by norm_num, by norm_num, by norm_num⟩
    (by decide +kernel) (by decide +kernel)
  simp at hl

/-- C104: every line that clipping returns has at least two points, and successive points are
different if they are in the input. -/
def C104_full (K : Type) [Field K] [LinearOrder K] : Prop :=
  ∀ (peq : Pt K → Pt K → Bool), (∀ a b, peq a b = true ↔ a = b) → ∀ (ctx : Ctx) (e : Box K),
    Proper e → ∀ (ls : List (Pt K)) (mls : List (List (Pt K))),
    lineString peq ctx (some e) ls = .ok mls → (∀ pq ∈ pieces ls, pq.1 ≠ pq.2) →
    ∀ l ∈ mls, 2 ≤ l.length ∧ ∀ ab ∈ pieces l, ab.1 ≠ ab.2

/-- C104 for lines without a vertex on the border of the box. -/
theorem C104_two_points_partial (peq : Pt K → Pt K → Bool) (hpeq : ∀ a b, peq a b = true ↔ a = b)
    (ctx : Ctx) (e : Box K) (he : Proper e) (ls : List (Pt K)) (mls : List (List (Pt K)))
    (h : lineString peq ctx (some e) ls = .ok mls)
    (hd : ∀ pq ∈ pieces ls, pq.1 ≠ pq.2) (hb : ∀ v ∈ ls, Inside e v → StrictlyInside e v) :
    ∀ l ∈ mls, 2 ≤ l.length ∧ ∀ ab ∈ pieces l, ab.1 ≠ ab.2 := by
  match ls with
  | [] => simp only [lineString, Res.ok.injEq] at h; subst h; simp
  | [_] => simp [lineString] at h
  | p :: q :: ps =>
    have := lineString_all (peq := peq) he hpeq ctx p q ps
    split at this
    · rw [this] at h; cases h
    · obtain ⟨mls', h', -, -, -, h2, h3⟩ := this
      rw [h'] at h
      cases h
      exact fun l hl => ⟨h2 hb l hl, h3 hb hd l hl⟩

/-- A case of C104_two_points_partial. -/
example : lineString (fun a b => decide (a = b)) (fun _ => false) (some box10)
    [(5, 5), (15, 5), (15, 8)] = .ok [[(5, 5), (10, 5)]]
    ∧ (∀ pq ∈ pieces [((5, 5) : Pt ℚ), (15, 5), (15, 8)], pq.1 ≠ pq.2)
    ∧ ∀ v ∈ [((5, 5) : Pt ℚ), (15, 5), (15, 8)], Inside box10 v → StrictlyInside box10 v := by
  refine ⟨by decide +kernel, by simp [pieces], ?_⟩
  intro v hv
  simp only [List.mem_cons, List.not_mem_nil, or_false] at hv
  rcases hv with rfl | rfl | rfl <;> (unfold Inside StrictlyInside; norm_num)

/-- C104 does not hold: the line from (0,5) on the border to (-5,5) gives the line of the single
point (0,5). -/
theorem C104_violated : ¬ C104_full ℚ := by
  intro h
  have := h (fun a b => decide (a = b)) (by simp) (fun _ => false) box10
    (by unfold Proper; norm_num) [(0, 5), (-5, 5)] [[(0, 5)]] (by decide +kernel)
    (by simp [pieces]) [(0, 5)] (by simp)
  simp at this

/-- C104 does not hold in another way: the line from (-5,5) to (0,5) on the border gives the point
(0,5) twice. -/
theorem C104_violated_twice : ∃ mls, lineString (fun a b => decide (a = b)) (fun _ => false)
    (some box10) [(-5, 5), (0, 5)] = .ok mls ∧ [((0, 5) : Pt ℚ), (0, 5)] ∈ mls :=
  ⟨[[(0, 5), (0, 5)]], by decide +kernel, by simp⟩

end Verif.Props
