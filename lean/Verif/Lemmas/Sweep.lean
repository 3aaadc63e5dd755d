import Mathlib.Tactic.Linarith
import Mathlib.Data.List.Perm.Basic
import Verif.Spec.Intersect
import Verif.Lemmas.Planar

set_option linter.unusedSectionVars false

namespace Verif.Intersect
open Verif.Planar Verif.Spec.Planar Verif.Spec.Intersect
open Verif.Simplify (Ctx)

/-! ### Maps as key lists -/

theorem mem_mapAdd {j k : Nat} {m : List Nat} : j ∈ mapAdd k m ↔ j = k ∨ j ∈ m := by
  unfold mapAdd; split
  · rename_i h
    constructor
    · exact Or.inr
    · rintro (rfl | h') <;> assumption
  · simp

theorem nodup_mapAdd {k : Nat} {m : List Nat} (h : m.Nodup) : (mapAdd k m).Nodup := by
  unfold mapAdd; split
  · exact h
  · rename_i hk; exact List.nodup_cons.2 ⟨hk, h⟩

theorem mem_mapDel {j k : Nat} {m : List Nat} : j ∈ mapDel k m ↔ j ∈ m ∧ j ≠ k := by
  simp [mapDel]

theorem nodup_mapDel {k : Nat} {m : List Nat} (h : m.Nodup) : (mapDel k m).Nodup :=
  h.filter _

theorem mem_keys {j : Nat} {m : List Nat} : j ∈ keys m ↔ j ∈ m :=
  (List.perm_insertionSort _ m).mem_iff

theorem nodup_keys {m : List Nat} (h : m.Nodup) : (keys m).Nodup :=
  (List.perm_insertionSort _ m).nodup_iff.2 h

section Field
variable {K : Type} [Field K] [LinearOrder K] [IsStrictOrderedRing K]

/-- The pairs the sweep looks at. -/
def tested : List (Event K) → List Nat → List (Nat × Nat)
  | [], _ => []
  | ev :: evs, m =>
    if !ev.right then tested evs (mapAdd ev.edge m)
    else (keys (mapDel ev.edge m)).map (fun k => (ev.edge, k)) ++ tested evs (mapDel ev.edge m)

/-- The call made for a pair, if any. -/
def hit (segs : List (Line K)) (connected : Bool) (peq : Pt K → Pt K → Bool) (ij : Nat × Nat) :
    Option (Nat × Nat × Pt K) :=
  if connected && sharesEnd peq (segAt segs ij.1) (segAt segs ij.2) then none
  else
    let r := segmentIntersect (segAt segs ij.1) (segAt segs ij.2)
    if !r.2 then none else some (ij.1, ij.2, r.1)

/-- `callAll`, going on with `k` if no call returned an error. -/
def callThen {σ E : Type} (fn : σ → Nat → Nat → Pt K → σ × Ret E)
    (hits : List (Nat × Nat × Pt K)) (k : σ → σ × Out E) (s : σ) : σ × Out E :=
  match hits with
  | [] => k s
  | (i, j, p) :: hits =>
    match fn s i j p with
    | (s', .cont) => callThen fn hits k s'
    | (s', .stop) => (s', .ok)
    | (s', .err e) => (s', .err e)

theorem callThen_append {σ E : Type} (fn : σ → Nat → Nat → Pt K → σ × Ret E) (k : σ → σ × Out E)
    (h1 h2 : List (Nat × Nat × Pt K)) : ∀ s,
    callThen fn (h1 ++ h2) k s = callThen fn h1 (callThen fn h2 k) s := by
  induction h1 with
  | nil => intro s; rfl
  | cons h h1 ih =>
    intro s
    obtain ⟨i, j, p⟩ := h
    simp only [List.cons_append, callThen]
    rcases fn s i j p with ⟨s', _ | _ | e⟩ <;> simp only []
    exact ih s'

theorem callThen_last {σ E : Type} (fn : σ → Nat → Nat → Pt K → σ × Ret E) (last : Out E)
    (hits : List (Nat × Nat × Pt K)) : ∀ s, callThen fn hits (fun s => (s, last)) s =
      callAll fn last hits s := by
  induction hits with
  | nil => intro s; rfl
  | cons h hits ih =>
    intro s
    obtain ⟨i, j, p⟩ := h
    simp only [callThen, callAll]
    rcases fn s i j p with ⟨s', _ | _ | e⟩ <;> simp only []
    exact ih s'

theorem keysLoop_eq {σ E : Type} (segs : List (Line K)) (connected : Bool)
    (peq : Pt K → Pt K → Bool) (fn : σ → Nat → Nat → Pt K → σ × Ret E) (edge : Nat)
    (k : σ → σ × Out E) (ks : List Nat) : ∀ s,
    (match keysLoop segs connected peq fn edge ks s with
      | (s', .cont) => k s'
      | (s', .stop) => (s', .ok)
      | (s', .err e) => (s', .err e)) =
    callThen fn ((ks.map (fun k => (edge, k))).filterMap (hit segs connected peq)) k s := by
  induction ks with
  | nil => intro s; rfl
  | cons j ks ih =>
    intro s
    rw [List.map_cons, keysLoop]
    by_cases h1 : (connected && sharesEnd peq (segAt segs edge) (segAt segs j)) = true
    · rw [if_pos h1, List.filterMap_cons_none (by simp only [hit, if_pos h1]), ih]
    · rw [if_neg h1]
      simp only []
      by_cases h2 : (!(segmentIntersect (segAt segs edge) (segAt segs j)).2) = true
      · rw [if_pos h2, List.filterMap_cons_none (by simp only [hit, if_neg h1, if_pos h2]), ih]
      · rw [if_neg h2, List.filterMap_cons_some (b := (edge, j,
          (segmentIntersect (segAt segs edge) (segAt segs j)).1))
          (by simp only [hit, if_neg h1, if_neg h2]), callThen]
        rcases fn s edge j (segmentIntersect (segAt segs edge) (segAt segs j)).1 with
          ⟨s', _ | _ | e⟩ <;> simp only []
        exact ih s'

theorem keys_nil : keys [] = [] := by simp [keys]

/-- The sweep over the first `k` events, the context being cancelled after
them (`b`) or not at all. -/
theorem sweep_eq {σ E : Type} (ctx : Ctx) (segs : List (Line K)) (connected : Bool)
    (peq : Pt K → Pt K → Bool) (fn : σ → Nat → Nat → Pt K → σ × Ret E) (evs : List (Event K)) :
    ∀ n m s k, (∀ i, n ≤ i → i < n + k → ctx i = false) → k ≤ evs.length →
      (k < evs.length → ctx (n + k) = true) →
    sweep ctx segs connected peq fn n evs m s =
      callAll fn (if k < evs.length then .ctxErr else .ok)
        ((tested (evs.take k) m).filterMap (hit segs connected peq)) s := by
  induction evs with
  | nil => intro n m s k _ _ _; simp [sweep, tested, callAll]
  | cons ev evs ih =>
    intro n m s k hc hk hx
    cases k with
    | zero =>
      have := hx (by simp)
      rw [sweep, if_pos (by simpa using this)]
      simp [tested, callAll]
    | succ k =>
      have hc0 : ctx n = false := hc n (Nat.le_refl _) (by omega)
      have hc' : ∀ i, n + 1 ≤ i → i < n + 1 + k → ctx i = false :=
        fun i h1 h2 => hc i (by omega) (by omega)
      have hk' : k ≤ evs.length := by simpa using hk
      have hx' : k < evs.length → ctx (n + 1 + k) = true := by
        intro h
        have := hx (by simpa using h)
        rwa [show n + (k + 1) = n + 1 + k by omega] at this
      have hlast : (if k + 1 < (ev :: evs).length then Out.ctxErr else (Out.ok : Out E)) =
          if k < evs.length then .ctxErr else .ok := by simp
      rw [sweep, hc0, if_neg (by simp), List.take_succ_cons, tested, hlast]
      by_cases hr : (!ev.right) = true
      · rw [if_pos hr, if_pos hr, ih _ _ _ _ hc' hk' hx']
      · rw [if_neg hr, if_neg hr]
        simp only []
        by_cases hm : mapDel ev.edge m = []
        · rw [if_pos hm, ih _ _ _ _ hc' hk' hx', hm, keys_nil]
          rfl
        · rw [if_neg hm]
          refine (keysLoop_eq segs connected peq fn ev.edge _ _ s).trans ?_
          rw [List.filterMap_append, ← callThen_last, callThen_append]
          congr 1
          funext s'
          rw [ih _ _ _ _ hc' hk' hx', callThen_last]

theorem tested_take (k : Nat) : ∀ (evs : List (Event K)) (m : List Nat),
    tested (evs.take k) m <+: tested evs m := by
  induction k with
  | zero => intro evs m; simp [tested]
  | succ k ih =>
    intro evs m
    cases evs with
    | nil => simp
    | cons ev evs =>
      rw [List.take_succ_cons, tested, tested]
      split
      · exact ih _ _
      · exact (List.prefix_append_right_inj _).2 (ih _ _)

/-! ### Which pairs are looked at -/

/-- The open segments after some events. -/
def active : List (Event K) → List Nat → List Nat
  | [], m => m
  | ev :: evs, m =>
    if !ev.right then active evs (mapAdd ev.edge m) else active evs (mapDel ev.edge m)

theorem active_append (l1 l2 : List (Event K)) : ∀ m,
    active (l1 ++ l2) m = active l2 (active l1 m) := by
  induction l1 with
  | nil => intro m; rfl
  | cons ev l1 ih => intro m; simp only [List.cons_append, active]; split <;> exact ih _

theorem mem_tested (i j : Nat) (evs : List (Event K)) : ∀ m, (i, j) ∈ tested evs m ↔
    ∃ pre e post, evs = pre ++ e :: post ∧ e.right = true ∧ e.edge = i ∧ j ≠ i ∧
      j ∈ active pre m := by
  induction evs with
  | nil => intro m; simp [tested]
  | cons ev evs ih =>
    intro m
    rw [tested]
    by_cases hr : (!ev.right) = true
    · rw [if_pos hr, ih]
      constructor
      · rintro ⟨pre, e, post, rfl, h⟩
        exact ⟨ev :: pre, e, post, rfl, by simpa only [active, if_pos hr] using h⟩
      · rintro ⟨pre, e, post, h0, h1, h2, h3, h4⟩
        cases pre with
        | nil =>
          simp only [List.nil_append, List.cons.injEq] at h0
          rw [h0.1, h1] at hr
          simp at hr
        | cons e' pre =>
          simp only [List.cons_append, List.cons.injEq] at h0
          obtain ⟨rfl, rfl⟩ := h0
          exact ⟨pre, e, post, rfl, h1, h2, h3, by simpa only [active, if_pos hr] using h4⟩
    · rw [if_neg hr, List.mem_append, ih]
      have hr' : ev.right = true := by simpa using hr
      constructor
      · rintro (h | ⟨pre, e, post, rfl, h⟩)
        · obtain ⟨k, hk, he⟩ := List.mem_map.1 h
          rw [mem_keys, mem_mapDel] at hk
          simp only [Prod.mk.injEq] at he
          obtain ⟨rfl, rfl⟩ := he
          exact ⟨[], ev, evs, rfl, hr', rfl, hk.2, hk.1⟩
        · exact ⟨ev :: pre, e, post, rfl, by simpa only [active, if_neg hr] using h⟩
      · rintro ⟨pre, e, post, h0, h1, h2, h3, h4⟩
        cases pre with
        | nil =>
          simp only [List.nil_append, List.cons.injEq] at h0
          obtain ⟨rfl, rfl⟩ := h0
          refine Or.inl (List.mem_map.2 ⟨j, ?_, by rw [h2]⟩)
          rw [mem_keys, mem_mapDel, h2]
          exact ⟨h4, h3⟩
        | cons e' pre =>
          simp only [List.cons_append, List.cons.injEq] at h0
          obtain ⟨rfl, rfl⟩ := h0
          exact Or.inr ⟨pre, e, post, rfl, h1, h2, h3, by simpa only [active, if_neg hr] using h4⟩

/-- No event of a segment follows its right event. -/
def Good : List (Event K) → Prop
  | [] => True
  | e :: evs => (e.right = true → ∀ e' ∈ evs, e'.edge ≠ e.edge) ∧ Good evs

/-- Two pairs of different segments. -/
def Apart (a b : Nat × Nat) : Prop :=
  (min a.1 a.2, max a.1 a.2) ≠ (min b.1 b.2, max b.1 b.2)

theorem tested_mem_edges {i j : Nat} (evs : List (Event K)) : ∀ m, (i, j) ∈ tested evs m →
    (∃ e ∈ evs, e.edge = i) ∧ (j ∈ m ∨ ∃ e ∈ evs, e.edge = j) := by
  induction evs with
  | nil => intro m h; simp [tested] at h
  | cons ev evs ih =>
    intro m h
    rw [tested] at h
    by_cases hr : (!ev.right) = true
    · rw [if_pos hr] at h
      obtain ⟨⟨e, he, h1⟩, h2⟩ := ih _ h
      refine ⟨⟨e, by simp [he], h1⟩, ?_⟩
      rcases h2 with h2 | ⟨e', he', h2⟩
      · rcases mem_mapAdd.1 h2 with rfl | h2
        · exact Or.inr ⟨ev, by simp, rfl⟩
        · exact Or.inl h2
      · exact Or.inr ⟨e', by simp [he'], h2⟩
    · rw [if_neg hr] at h
      rcases List.mem_append.1 h with h | h
      · obtain ⟨k, hk, he⟩ := List.mem_map.1 h
        rw [mem_keys, mem_mapDel] at hk
        simp only [Prod.mk.injEq] at he
        obtain ⟨rfl, rfl⟩ := he
        exact ⟨⟨ev, by simp, rfl⟩, Or.inl hk.1⟩
      · obtain ⟨⟨e, he, h1⟩, h2⟩ := ih _ h
        refine ⟨⟨e, by simp [he], h1⟩, ?_⟩
        rcases h2 with h2 | ⟨e', he', h2⟩
        · exact Or.inl (mem_mapDel.1 h2).1
        · exact Or.inr ⟨e', by simp [he'], h2⟩

theorem tested_apart (evs : List (Event K)) : ∀ m, m.Nodup → Good evs →
    (tested evs m).Pairwise Apart := by
  induction evs with
  | nil => intro m _ _; exact .nil
  | cons ev evs ih =>
    intro m hm hg
    rw [tested]
    by_cases hr : (!ev.right) = true
    · rw [if_pos hr]; exact ih _ (nodup_mapAdd hm) hg.2
    · rw [if_neg hr]
      have hno := hg.1 (by simpa using hr)
      rw [List.pairwise_append]
      refine ⟨?_, ih _ (nodup_mapDel hm) hg.2, ?_⟩
      · rw [List.pairwise_map]
        refine (nodup_keys (nodup_mapDel (k := ev.edge) hm)).imp ?_
        intro a b hab h
        simp only [Prod.mk.injEq] at h
        omega
      · intro a ha b hb h
        obtain ⟨k, hk, rfl⟩ := List.mem_map.1 ha
        obtain ⟨⟨e, he, h1⟩, h2⟩ := tested_mem_edges evs _ hb
        have hb1 : b.1 ≠ ev.edge := by rw [← h1]; exact hno e he
        have hb2 : b.2 ≠ ev.edge := by
          rcases h2 with h2 | ⟨e', he', h2⟩
          · exact (mem_mapDel.1 h2).2
          · rw [← h2]; exact hno e' he'
        simp only [Prod.mk.injEq] at h
        omega

/-! ### The events of the segments -/

/-- The left and the right end. -/
def lo (s : Line K) : Pt K :=
  if s.1.1 < s.2.1 ∨ (s.1.1 = s.2.1 ∧ s.1.2 < s.2.2) then s.1 else s.2
def hi (s : Line K) : Pt K :=
  if s.1.1 < s.2.1 ∨ (s.1.1 = s.2.1 ∧ s.1.2 < s.2.2) then s.2 else s.1

theorem lo_le_hi (s : Line K) : (lo s).1 ≤ (hi s).1 := by
  unfold lo hi
  split
  · rename_i h; rcases h with h | h
    · exact h.le
    · exact h.1.le
  · rename_i h
    push Not at h
    exact h.1

theorem mem_eventsOf {i : Nat} {s : Line K} {e : Event K} :
    e ∈ eventsOf i s ↔ e = ⟨i, false, lo s⟩ ∨ e = ⟨i, true, hi s⟩ := by
  unfold eventsOf lo hi
  simp only []
  split <;> simp [or_comm]

theorem mem_allEvents (segs : List (Line K)) : ∀ i (e : Event K), e ∈ allEvents i segs ↔
    ∃ k s, segs[k]? = some s ∧ (e = ⟨i + k, false, lo s⟩ ∨ e = ⟨i + k, true, hi s⟩) := by
  induction segs with
  | nil => intro i e; simp [allEvents]
  | cons s segs ih =>
    intro i e
    rw [allEvents, List.mem_append, mem_eventsOf, ih]
    constructor
    · rintro (h | ⟨k, t, h1, h2⟩)
      · exact ⟨0, s, rfl, h⟩
      · refine ⟨k + 1, t, h1, ?_⟩
        rwa [show i + (k + 1) = i + 1 + k by omega]
    · rintro ⟨k, t, h1, h2⟩
      cases k with
      | zero =>
        simp only [List.getElem?_cons_zero, Option.some.injEq] at h1
        subst h1
        exact Or.inl h2
      | succ k =>
        refine Or.inr ⟨k, t, h1, ?_⟩
        rwa [show i + 1 + k = i + (k + 1) by omega]

theorem length_allEvents (segs : List (Line K)) : ∀ i,
    (allEvents i segs).length = 2 * segs.length := by
  induction segs with
  | nil => intro i; rfl
  | cons s segs ih =>
    intro i
    rw [allEvents, List.length_append, ih]
    unfold eventsOf
    simp only []
    split <;> simp <;> omega

/-- Kind and segment determine an event, and each occurs once. -/
theorem nodup_allEvents (segs : List (Line K)) : ∀ i,
    ((allEvents i segs).map (fun e => (e.edge, e.right))).Nodup := by
  induction segs with
  | nil => intro i; exact .nil
  | cons s segs ih =>
    intro i
    rw [allEvents, List.map_append, List.nodup_append]
    refine ⟨?_, ih _, ?_⟩
    · unfold eventsOf
      simp only []
      split <;> simp
    · intro a ha b hb
      obtain ⟨e, he, rfl⟩ := List.mem_map.1 ha
      obtain ⟨e', he', rfl⟩ := List.mem_map.1 hb
      obtain ⟨k, t, _, h⟩ := (mem_allEvents segs _ e').1 he'
      have h1 : e.edge = i := by rcases mem_eventsOf.1 he with rfl | rfl <;> rfl
      have h2 : e'.edge = i + 1 + k := by rcases h with rfl | rfl <;> rfl
      intro h3
      simp only [Prod.mk.injEq] at h3
      omega

section Queue
variable {segs : List (Line K)} {q : List (Event K)} (hq : IsQueue segs q)
include hq

theorem mem_queue (e : Event K) : e ∈ q ↔
    ∃ k s, segs[k]? = some s ∧ (e = ⟨k, false, lo s⟩ ∨ e = ⟨k, true, hi s⟩) := by
  rw [hq.1.mem_iff, mem_allEvents]
  simp

theorem queue_split {pre post : List (Event K)} {e e' : Event K} (h : q = pre ++ e :: post)
    (he : e' ∈ post) : less e' e = false ∧ (e'.edge, e'.right) ≠ (e.edge, e.right) := by
  have hnd : (q.map (fun e => (e.edge, e.right))).Nodup :=
    (hq.1.map _).nodup_iff.2 (nodup_allEvents segs 0)
  have hs := hq.2
  rw [h] at hs hnd
  rw [List.map_append, List.map_cons] at hnd
  refine ⟨(List.pairwise_cons.1 (List.pairwise_append.1 hs).2.1).1 _ he, ?_⟩
  intro heq
  have := (List.nodup_cons.1 (List.nodup_append.1 hnd).2.1).1
  exact this (List.mem_map.2 ⟨e', he, heq⟩)

/-- At the same or a smaller x the left event comes first. -/
theorem less_left_right {e e' : Event K} (h1 : e.right = false) (h2 : e'.right = true)
    (hx : e.ev.1 ≤ e'.ev.1) : less e e' = true := by
  clear hq
  unfold less
  rcases hx.lt_or_eq with h | h
  · rw [if_pos h.ne]; simpa using h
  · rw [if_neg (by simpa using h), if_pos (by rw [h1, h2]; simp), h1, h2]; rfl

theorem left_before {pre post : List (Event K)} {e e' : Event K} (h : q = pre ++ e :: post)
    (h1 : e.right = true) (h2 : e'.right = false) (he : e' ∈ q) (hx : e'.ev.1 ≤ e.ev.1) :
    e' ∈ pre := by
  rw [h] at he
  rcases List.mem_append.1 he with he | he
  · exact he
  · rcases List.mem_cons.1 he with rfl | he
    · rw [h1] at h2; cases h2
    · have := (queue_split hq h he).1
      rw [less_left_right hq h2 h1 hx] at this
      cases this

theorem queue_good' (pre : List (Event K)) : ∀ post, q = pre ++ post → Good post := by
  intro post
  induction post generalizing pre with
  | nil => intro _; trivial
  | cons e post ih =>
    intro h
    refine ⟨?_, ih (pre ++ [e]) (by simpa using h)⟩
    intro hr e' he' heq
    have hmem : e ∈ q := by rw [h]; simp
    have hmem' : e' ∈ q := by rw [h]; simp [he']
    obtain ⟨k, s, hs, h1⟩ := (mem_queue hq e).1 hmem
    obtain ⟨k', s', hs', h1'⟩ := (mem_queue hq e').1 hmem'
    have h2 : e = ⟨k, true, hi s⟩ := by
      rcases h1 with rfl | h1
      · cases hr
      · exact h1
    have hk : k' = k := by
      rcases h1' with rfl | rfl <;> rw [h2] at heq <;> exact heq
    subst hk
    rw [hs] at hs'
    cases hs'
    obtain ⟨h3, h4⟩ := queue_split hq h he'
    rcases h1' with h1' | h1'
    · rw [less_left_right hq (by rw [h1']) hr (by rw [h1', h2]; exact lo_le_hi s)] at h3
      cases h3
    · exact h4 (by rw [h1', h2])

/-- A segment is open after some events if its left event has come and its
right event has not. -/
theorem mem_active (pre : List (Event K)) : ∀ post, q = pre ++ post → ∀ j,
    j ∈ active pre [] ↔ (∃ e ∈ pre, e.edge = j ∧ e.right = false) ∧
      ¬ ∃ e ∈ pre, e.edge = j ∧ e.right = true := by
  induction pre using List.reverseRecOn with
  | nil => intro post _ j; simp [active]
  | append_singleton pre e ih =>
    intro post h j
    have hsp : q = pre ++ (e :: post) := by simpa using h
    have ih' := ih _ hsp j
    rw [active_append]
    have hpre : ∀ e' ∈ pre, (e'.edge, e'.right) ≠ (e.edge, e.right) := by
      intro e' he' heq
      obtain ⟨p1, p2, rfl⟩ := List.append_of_mem he'
      exact (queue_split hq (pre := p1) (e := e') (e' := e) (post := p2 ++ e :: post)
        (by simpa using hsp) (by simp)).2 heq.symm
    by_cases hr : (!e.right) = true
    · have hr' : e.right = false := by simpa using hr
      simp only [active, if_pos hr, mem_mapAdd]
      rw [ih']
      constructor
      · rintro (rfl | ⟨⟨e', he', h1⟩, h2⟩)
        · refine ⟨⟨e, by simp, rfl, hr'⟩, ?_⟩
          rintro ⟨e', he', h1, h2⟩
          rcases List.mem_append.1 he' with he' | he'
          · obtain ⟨p1, p2, rfl⟩ := List.append_of_mem he'
            have hg := queue_good' hq p1 (e' :: (p2 ++ e :: post)) (by simpa using hsp)
            exact hg.1 h2 e (by simp) h1.symm
          · simp only [List.mem_singleton] at he'
            subst he'
            rw [hr'] at h2
            cases h2
        · refine ⟨⟨e', by simp [he'], h1⟩, ?_⟩
          rintro ⟨x, hx, h3, h4⟩
          rcases List.mem_append.1 hx with hx | hx
          · exact h2 ⟨x, hx, h3, h4⟩
          · simp only [List.mem_singleton] at hx
            subst hx
            rw [hr'] at h4
            cases h4
      · rintro ⟨⟨e', he', h1⟩, h2⟩
        rcases List.mem_append.1 he' with he' | he'
        · exact Or.inr ⟨⟨e', he', h1⟩, fun ⟨x, hx, h3⟩ => h2 ⟨x, by simp [hx], h3⟩⟩
        · simp only [List.mem_singleton] at he'
          subst he'
          exact Or.inl h1.1.symm
    · have hr' : e.right = true := by simpa using hr
      simp only [active, if_neg hr, mem_mapDel]
      rw [ih']
      constructor
      · rintro ⟨⟨⟨e', he', h1⟩, h2⟩, hne⟩
        refine ⟨⟨e', by simp [he'], h1⟩, ?_⟩
        rintro ⟨x, hx, h3, h4⟩
        rcases List.mem_append.1 hx with hx | hx
        · exact h2 ⟨x, hx, h3, h4⟩
        · simp only [List.mem_singleton] at hx
          subst hx
          exact hne h3.symm
      · rintro ⟨⟨e', he', h1⟩, h2⟩
        have hne : j ≠ e.edge := fun h' => h2 ⟨e, by simp, h'.symm, hr'⟩
        rcases List.mem_append.1 he' with he' | he'
        · exact ⟨⟨⟨e', he', h1⟩, fun ⟨x, hx, h3⟩ => h2 ⟨x, by simp [hx], h3⟩⟩, hne⟩
        · simp only [List.mem_singleton] at he'
          subst he'
          exact absurd h1.1.symm hne

/-- Two segments whose x ranges overlap are looked at, in one order. -/
theorem tested_of_overlap {i j : Nat} {s t : Line K} (hi' : segs[i]? = some s)
    (hj' : segs[j]? = some t) (hne : i ≠ j) (h1 : (lo t).1 ≤ (hi s).1)
    (h2 : (lo s).1 ≤ (hi t).1) : (i, j) ∈ tested q [] ∨ (j, i) ∈ tested q [] := by
  have key : ∀ {i j : Nat} {s t : Line K}, segs[i]? = some s → segs[j]? = some t → i ≠ j →
      (lo t).1 ≤ (hi s).1 → ∀ pre post, q = pre ++ (⟨i, true, hi s⟩ : Event K) :: post →
      (⟨j, true, hi t⟩ : Event K) ∈ post → (i, j) ∈ tested q [] := by
    intro i j s t hi' hj' hne h1 pre post hs hin
    rw [mem_tested]
    refine ⟨pre, _, post, hs, rfl, rfl, fun h => hne h.symm, ?_⟩
    rw [mem_active hq pre _ hs]
    have hl : (⟨j, false, lo t⟩ : Event K) ∈ pre :=
      left_before hq hs rfl rfl ((mem_queue hq _).2 ⟨j, t, hj', Or.inl rfl⟩) h1
    refine ⟨⟨_, hl, rfl, rfl⟩, ?_⟩
    rintro ⟨e, he, h3, h4⟩
    obtain ⟨p1, p2, rfl⟩ := List.append_of_mem he
    exact (queue_split hq (pre := p1) (e := e) (e' := ⟨j, true, hi t⟩)
      (post := p2 ++ ⟨i, true, hi s⟩ :: post) (by simpa using hs) (by simp [hin])).2
      (by simp [h3, h4])
  have m1 : (⟨i, true, hi s⟩ : Event K) ∈ q := (mem_queue hq _).2 ⟨i, s, hi', Or.inr rfl⟩
  have m2 : (⟨j, true, hi t⟩ : Event K) ∈ q := (mem_queue hq _).2 ⟨j, t, hj', Or.inr rfl⟩
  obtain ⟨pre, post, hs⟩ := List.append_of_mem m1
  rw [hs] at m2
  rcases List.mem_append.1 m2 with m2 | m2
  · obtain ⟨p1, p2, rfl⟩ := List.append_of_mem m2
    exact Or.inr (key hj' hi' hne.symm h2 p1 (p2 ++ ⟨i, true, hi s⟩ :: post)
      (by simpa using hs) (by simp))
  · rcases List.mem_cons.1 m2 with m2 | m2
    · simp only [Event.mk.injEq] at m2
      exact absurd m2.1.symm hne
    · exact Or.inl (key hi' hj' hne h1 pre post hs m2)

theorem tested_index {i j : Nat} (h : (i, j) ∈ tested q []) :
    i ≠ j ∧ (∃ s, segs[i]? = some s) ∧ ∃ t, segs[j]? = some t := by
  have hne : i ≠ j := by
    obtain ⟨_, _, _, _, _, _, h, _⟩ := (mem_tested i j q []).1 h
    exact h.symm
  obtain ⟨⟨e, he, h1⟩, h2⟩ := tested_mem_edges q [] h
  refine ⟨hne, ?_, ?_⟩
  · obtain ⟨k, s, hs, h3⟩ := (mem_queue hq e).1 he
    have : k = i := by rcases h3 with rfl | rfl <;> exact h1
    subst this
    exact ⟨s, hs⟩
  · rcases h2 with h2 | ⟨e, he, h1⟩
    · simp at h2
    · obtain ⟨k, s, hs, h3⟩ := (mem_queue hq e).1 he
      have : k = j := by rcases h3 with rfl | rfl <;> exact h1
      subst this
      exact ⟨s, hs⟩

end Queue

/-! ### Geometry -/

theorem onSegment_x {p : Pt K} {s : Line K} (h : OnSegment p s.1 s.2) :
    (lo s).1 ≤ p.1 ∧ p.1 ≤ (hi s).1 := by
  obtain ⟨t, t0, t1, rfl⟩ := h
  unfold lo hi
  split
  · rename_i hc
    have h : s.1.1 ≤ s.2.1 := by
      rcases hc with h | h
      · exact h.le
      · exact h.1.le
    exact between_of_seg t0 t1 h
  · rename_i hc
    push Not at hc
    have h := between_of_seg (x := s.2.1) (y := s.1.1) (t := 1 - t) (by linarith) (by linarith) hc.1
    constructor <;> simp only [] <;> nlinarith [h.1, h.2]

theorem sharesEnd_iff {peq : Pt K → Pt K → Bool} {s t : Line K} :
    sharesEnd peq s t = true ↔ Touch peq s t := by
  unfold sharesEnd Touch
  simp [or_assoc]

theorem meetAt_comm {p : Pt K} {s t : Line K} (h : MeetAt p s t) : MeetAt p t s :=
  ⟨fun hp => h.1 (by unfold Parallel at *; linarith [mul_comm (t.2.1 - t.1.1) (s.2.2 - s.1.2)]),
    h.2.2, h.2.1⟩

theorem hit_iff {segs : List (Line K)} {connected : Bool} {peq : Pt K → Pt K → Bool}
    {a : Nat × Nat} {i j : Nat} {p : Pt K} : hit segs connected peq a = some (i, j, p) ↔
      a = (i, j) ∧ MeetAt p (segAt segs i) (segAt segs j) ∧
      ¬ (connected = true ∧ Touch peq (segAt segs i) (segAt segs j)) := by
  obtain ⟨i', j'⟩ := a
  unfold hit
  simp only []
  by_cases h1 : (connected && sharesEnd peq (segAt segs i') (segAt segs j')) = true
  · rw [if_pos h1]
    rw [Bool.and_eq_true, sharesEnd_iff] at h1
    constructor
    · intro h; cases h
    · rintro ⟨h, _, h3⟩
      cases h
      exact absurd h1 h3
  · rw [if_neg h1]
    rw [Bool.and_eq_true, sharesEnd_iff] at h1
    have hiff := segmentIntersect_iff (segAt segs i').1 (segAt segs i').2 (segAt segs j').1
      (segAt segs j').2
    by_cases h2 : (!(segmentIntersect (segAt segs i') (segAt segs j')).2) = true
    · rw [if_pos h2]
      constructor
      · intro h; cases h
      · rintro ⟨h, hm, _⟩
        cases h
        have := (hiff p).2 hm
        rw [this] at h2
        cases h2
    · rw [if_neg h2]
      simp only [Option.some.injEq, Prod.mk.injEq]
      constructor
      · rintro ⟨rfl, rfl, rfl⟩
        refine ⟨⟨rfl, rfl⟩, (hiff _).1 (Prod.ext rfl ?_), h1⟩
        simpa using h2
      · rintro ⟨⟨rfl, rfl⟩, hm, _⟩
        have := (hiff p).2 hm
        exact ⟨rfl, rfl, congrArg Prod.fst this⟩

theorem segAt_of {segs : List (Line K)} {i : Nat} {s : Line K} (h : segs[i]? = some s) :
    segAt segs i = s := by
  simp [segAt, List.getD, h]

theorem touch_comm {peq : Pt K → Pt K → Bool} (hp : ∀ a b, peq a b = peq b a) {s t : Line K}
    (h : Touch peq s t) : Touch peq t s := by
  obtain ⟨a, ha, b, hb, h⟩ := h
  exact ⟨b, hb, a, ha, by rw [hp]; exact h⟩

/-- The hits of the sweep. -/
theorem sweep_hits {segs : List (Line K)} {q : List (Event K)} (hq : IsQueue segs q)
    (connected : Bool) (peq : Pt K → Pt K → Bool) (hp : ∀ a b, peq a b = peq b a) :
    ListsAllMeetings segs connected peq
      ((tested q []).filterMap (hit segs connected peq)) := by
  refine ⟨?_, ?_, ?_⟩
  · have h := tested_apart q [] .nil (queue_good' hq [] q rfl)
    refine List.pairwise_map.2 (List.Pairwise.filterMap _ ?_ h)
    rintro a a' haa ⟨i, j, p⟩ hb ⟨i', j', p'⟩ hb'
    obtain ⟨rfl, _⟩ := hit_iff.1 hb
    obtain ⟨rfl, _⟩ := hit_iff.1 hb'
    exact haa
  · intro i j p h
    obtain ⟨a, ha, hb⟩ := List.mem_filterMap.1 h
    obtain ⟨rfl, _⟩ := hit_iff.1 hb
    exact (tested_index hq ha).1
  · have fwd : ∀ i j p, (i, j, p) ∈ (tested q []).filterMap (hit segs connected peq) →
        ∃ s t, segs[i]? = some s ∧ segs[j]? = some t ∧ MeetAt p s t ∧
          ¬ (connected = true ∧ Touch peq s t) := by
      intro i j p h
      obtain ⟨a, ha, hb⟩ := List.mem_filterMap.1 h
      obtain ⟨rfl, hm, ht⟩ := hit_iff.1 hb
      obtain ⟨_, ⟨s, hs⟩, ⟨t, ht'⟩⟩ := tested_index hq ha
      rw [segAt_of hs, segAt_of ht'] at hm ht
      exact ⟨s, t, hs, ht', hm, ht⟩
    intro i j p hne
    constructor
    · rintro (h | h)
      · exact fwd i j p h
      · obtain ⟨s, t, hs, ht, hm, hc⟩ := fwd j i p h
        exact ⟨t, s, ht, hs, meetAt_comm hm, fun h => hc ⟨h.1, touch_comm hp h.2⟩⟩
    · rintro ⟨s, t, hs, ht, hm, hc⟩
      have h1 := onSegment_x hm.2.1
      have h2 := onSegment_x hm.2.2
      rcases tested_of_overlap hq hs ht hne (h2.1.trans h1.2) (h1.1.trans h2.2) with h | h
      · refine Or.inl (List.mem_filterMap.2 ⟨_, h, hit_iff.2 ⟨rfl, ?_⟩⟩)
        rw [segAt_of hs, segAt_of ht]
        exact ⟨hm, hc⟩
      · refine Or.inr (List.mem_filterMap.2 ⟨_, h, hit_iff.2 ⟨rfl, ?_⟩⟩)
        rw [segAt_of hs, segAt_of ht]
        exact ⟨meetAt_comm hm, fun h => hc ⟨h.1, touch_comm hp h.2⟩⟩

end Field

end Verif.Intersect
