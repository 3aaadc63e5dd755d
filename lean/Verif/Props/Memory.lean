import Verif.Lemmas.Memory

/-!
# Setters, shared memory and deep copies (C152 - C155)
-/

namespace Verif.Props
open Verif.Memory Verif.Spec.Memory Verif.Lemmas.Memory

/-! ## C152: a setter stores exactly what it is given -/

/-- C152.  A setter with a receiver that is not nil succeeds, and the geometry then
shows exactly the elements the input showed before the call, in order: whatever the
receiver held, however the two overlap in memory, however much room there is. -/
theorem C152_stores {E : Type} (spare : Nat) (zero : E) (m : Mem E) (s input : Slice) (xs : List E)
    (hs : Inside m s) (hi : Inside m input) (hx : Shows m input xs) :
    ∃ m' s', setter spare zero m (some s) input = some (m', s') ∧ Inside m' s' ∧ Shows m' s' xs :=
  ⟨_, _, rfl, append0_inside hs hi, append0_shows hs hi hx⟩

/-- C152, the error: a setter fails exactly if the receiver is nil. -/
theorem C152_error_iff {E : Type} (spare : Nat) (zero : E) (m : Mem E) (r : Option Slice)
    (input : Slice) : setter spare zero m r input = none ↔ r = none := by
  cases r <;> simp [setter]

/-- `ls.SetVertices(ls[1:])`: the input lies in the receiver's own array. -/
example : Inside [[1, 2, 3]] ⟨0, 0, 3, 3⟩ ∧ Inside [[1, 2, 3]] ⟨0, 1, 2, 2⟩ ∧
    Shows [[1, 2, 3]] ⟨0, 1, 2, 2⟩ [2, 3] ∧
    setter 5 0 [[1, 2, 3]] (some ⟨0, 0, 3, 3⟩) ⟨0, 1, 2, 2⟩ = some ([[2, 3, 3]], ⟨0, 0, 2, 3⟩) := by
  refine ⟨⟨by decide, ?_⟩, ⟨by decide, ?_⟩, ⟨by decide, ?_⟩, by decide⟩
  · intro i hi
    have : i = 0 ∨ i = 1 ∨ i = 2 := by simp at hi; omega
    rcases this with rfl | rfl | rfl <;> exact ⟨_, rfl⟩
  · intro i hi
    have : i = 0 ∨ i = 1 := by simp at hi; omega
    rcases this with rfl | rfl <;> exact ⟨_, rfl⟩
  · intro i hi
    have : i = 0 ∨ i = 1 := by simp at hi; omega
    rcases this with rfl | rfl <;> rfl

/-! ## C153: geometries behave as values -/

/-- C153, in full: a program over geometry variables sees in each variable what a
program over values sees there. -/
def C153_full : Prop :=
  ∀ (z : Nat) (ops : List (Op Nat)) (env : Nat → List Nat),
    valueRun (fun _ => []) ops = some env →
    ∃ st, (State.init Nat).run z ops = some st ∧ ∀ i, Shows st.mem (st.vars i) (env i)

/-- C153, what holds: it is so for programs of any length that set variables (from
literals, or from pieces of any variable), assign to single elements and cut variables
to pieces, as long as they do not store the slice of one variable in another.  Missing:
programs that do (`b = a`, a getter's result that is kept, an S type made from `a`). -/
theorem C153_separate_partial {E : Type} (zero : E) (ops : List (Op E)) (env : Nat → List E)
    (hop : Separate ops) (hv : valueRun (fun _ => []) ops = some env) :
    ∃ st, (State.init E).run zero ops = some st ∧ ∀ i, Shows st.mem (st.vars i) (env i) := by
  obtain ⟨st, h1, h2⟩ := agree_init.run zero hop hv
  exact ⟨st, h1, h2.shows_⟩

/-- A program that sets, takes over a piece of another variable, edits and sets again. -/
example : Separate [Op.set 0 (.lit [1, 2, 3]) 2, .set 1 (.piece 0 1 3) 0, .write 1 0 9, .set 0 (.piece 0 2 3) 0] ∧
    ((valueRun (fun _ => []) [Op.set 0 (.lit [1, 2, 3]) 2, .set 1 (.piece 0 1 3) 0, .write 1 0 9,
      .set 0 (.piece 0 2 3) 0]).map fun env => (env 0, env 1)) = some ([3], [9, 3]) := by
  constructor
  · intro op h i j
    simp only [List.mem_cons, List.not_mem_nil, or_false] at h
    rcases h with rfl | rfl | rfl | rfl <;> simp
  · decide

/-- C153, violated: `b = a; a.SetVertices(c)` changes `b`. -/
theorem C153_violated : ¬ C153_full := by
  intro h
  obtain ⟨st, h1, h2⟩ := h 0 [.set 0 (.lit [1, 2]) 0, .keep 1 0, .set 0 (.lit [3]) 0] _ rfl
  have h3 := (h2 1).2 0
  have key : ∀ o : Option (State Nat), o = some st →
      (o.map fun t => ((t.vars 1).len, cell t.mem (t.vars 1).blk ((t.vars 1).off + 0))) =
        some ((st.vars 1).len, cell st.mem (st.vars 1).blk ((st.vars 1).off + 0)) := by
    rintro _ rfl
    rfl
  have e := key _ h1
  have e2 : (some (2, some 3) : Option (Nat × Option Nat)) =
      some ((st.vars 1).len, cell st.mem (st.vars 1).blk ((st.vars 1).off + 0)) := by
    rw [← e]
    decide
  simp only [Option.some.injEq, Prod.mk.injEq] at e2
  rw [← e2.1, ← e2.2] at h3
  exact absurd (h3 (by decide)) (by decide)

/-- C153, exactly what a setter changes in the other slices of the program: element `i`
of a slice changes only if the input fits into the receiver's array and that element
lies in the part the input is copied to; then it becomes the element of the input at
that place. -/
theorem C153_effect_partial {E : Type} (spare : Nat) (zero : E) (m : Mem E) (s input t : Slice)
    (hs : Inside m s) (hi : Inside m input) (ht : Inside m t) (i : Nat) (hlt : i < t.len) :
    ∃ m' s', setter spare zero m (some s) input = some (m', s') ∧
      cell m' t.blk (t.off + i) =
        if input.len ≤ s.cap ∧ t.blk = s.blk ∧ s.off ≤ t.off + i ∧ t.off + i < s.off + input.len then
          cell m input.blk (input.off + (t.off + i - s.off))
        else cell m t.blk (t.off + i) := by
  obtain ⟨e, he⟩ := ht.2 i (by have := ht.1; omega)
  refine ⟨(append0 spare zero m s input).1, (append0 spare zero m s input).2, rfl, ?_⟩
  rw [append0_cell hs hi _ _ e he, he]

/-- The slice that was handed out shows the new elements. -/
example : setter 0 0 [[1, 2], [7]] (some ⟨0, 0, 2, 2⟩) ⟨1, 0, 1, 1⟩ = some ([[7, 2], [7]], ⟨0, 0, 1, 2⟩) ∧
    elems [[7, 2], [7]] ⟨0, 0, 2, 2⟩ = [7, 2] ∧ elems [[1, 2], [7]] ⟨0, 0, 2, 2⟩ = [1, 2] := by decide

/-! ## C154: Clone is deep -/

/-- C154.  A clone has the same coordinates as the original; no assignments to memory
that existed before the call change them; and no assignments to memory made by the
call change any geometry that existed before. -/
theorem C154_deep {P : Type} (h : Heap P) (g : Geo P) (v : Value P) (hv : Has h g v) :
    ∃ h' c, clone h g = some (h', c) ∧
      (∀ es : List (Edit P), (∀ e ∈ es, e.On h) → Has (es.foldl Edit.apply h') c v) ∧
      (∀ es : List (Edit P), (∀ e ∈ es, ¬e.On h) → ∀ g' v', Has h g' v' →
        Has (es.foldl Edit.apply h') g' v') := by
  obtain ⟨h', c, hc, hg, hf⟩ := clone_spec hv
  refine ⟨h', c, hc, fun es hes => ?_, fun es hes g' v' hv' => ?_⟩
  · clear hc hg
    induction es generalizing h' with
    | nil => exact hf.has
    | cons e es ih =>
      exact ih _ (hf.edit (hes e (by simp))) fun e' he' => hes e' (by simp [he'])
  · clear hc hf
    induction es generalizing h' with
    | nil => exact has_grew hg hv'
    | cons e es ih =>
      exact ih _ (hg.edit (hes e (by simp))) fun e' he' => hes e' (by simp [he'])

/-- C154, the error: exactly the types that are not one of the six cannot be cloned. -/
theorem C154_error_iff {P : Type} (h : Heap P) (g : Geo P) : clone h g = none ↔ g = .other := by
  cases g <;> simp [clone]

/-- A multipolygon of one polygon with two rings that share their points. -/
example : Has (P := Nat) ⟨[[1, 2, 3]], [[⟨0, 0, 3, 3⟩, ⟨0, 0, 2, 3⟩]], [[⟨0, 0, 2, 2⟩]]⟩
    (.multiPolygon ⟨0, 0, 1, 1⟩) (.multiPolygon [[[1, 2, 3], [1, 2]]]) := by
  refine ⟨[⟨0, 0, 2, 2⟩], ⟨rfl, ?_⟩, .cons ⟨[⟨0, 0, 3, 3⟩, ⟨0, 0, 2, 3⟩], ⟨rfl, ?_⟩,
    .cons ⟨rfl, ?_⟩ (.cons ⟨rfl, ?_⟩ .nil)⟩ .nil⟩ <;> decide

/-! ## C155: a setter copies its input -/

/-- The assignment goes through the input: to one of its elements, or to a point of one
of the lines it shows. -/
def Via {P : Type} (h : Heap P) (input : Slice) : Edit P → Prop
  | .lines b i _ => b = input.blk ∧ input.off ≤ i ∧ i < input.off + input.len
  | .pts b i _ => ∃ rs r, Shows h.lines input rs ∧ r ∈ rs ∧ b = r.blk ∧ r.off ≤ i ∧ i < r.off + r.len
  | .polys _ _ _ => False

/-- C155, in full: after `p.SetLinearRings(input)` or `p.SetLineStrings(input)`, with
memory of `p` apart from the input's, later assignments through `input` do not change
`p`. -/
def C155_full : Prop :=
  ∀ (h : Heap Nat) (p input : Slice) (v : List (List Nat)) (spare : Nat) (m' : Mem Slice) (p' : Slice)
    (e : Edit Nat), Inside h.lines p → Inside h.lines input → Apart p input → Lines h input v →
    setter spare Slice.nil h.lines (some p) input = some (m', p') → Via h input e →
    Lines (e.apply { h with lines := m' }) p' v

/-- C155, what holds: assignments to the elements of the input (points of a line string
or multipoint, whole rings of a polygon, whole polygons of a multipolygon) do not
change the geometry.  Missing: the points of the rings. -/
theorem C155_elements_partial {E : Type} (spare : Nat) (zero : E) (m : Mem E) (s input : Slice)
    (xs : List E) (hs : Inside m s) (hi : Inside m input) (ha : Apart s input) (hx : Shows m input xs) :
    ∃ m' s', setter spare zero m (some s) input = some (m', s') ∧
      ∀ k < input.len, ∀ e, Shows (m'.modify input.blk (·.set (input.off + k) e)) s' xs := by
  refine ⟨(append0 spare zero m s input).1, (append0 spare zero m s input).2, rfl, fun k hk e => ?_⟩
  have hsh := append0_shows (spare := spare) (zero := zero) hs hi hx
  have hin := append0_inside (spare := spare) (zero := zero) hs hi
  have hap := append0_stays_apart (spare := spare) (zero := zero) hi hi ha
  refine ⟨hsh.1, fun i hlt => ?_⟩
  rw [← hsh.2 i hlt]
  generalize (append0 spare zero m s input).2 = t at *
  generalize (append0 spare zero m s input).1 = m' at *
  by_cases hb : input.blk = t.blk
  · unfold cell
    rw [List.getElem?_modify]
    simp only [if_pos hb]
    rcases m'[t.blk]? with _ | l
    · rfl
    · simp only [Option.map_eq_map, Option.map_some, Option.bind_some]
      rw [List.getElem?_set_ne]
      intro hc
      exact hap i (by have := hin.1; omega) k (by have := hi.1; omega) ⟨hb.symm, hc.symm⟩
  · exact cell_modify hb

/-- A line string with room for the input, which lies elsewhere. -/
example : Inside [[0, 0, 0], [5, 6]] ⟨0, 0, 1, 3⟩ ∧ Inside [[0, 0, 0], [5, 6]] ⟨1, 0, 2, 2⟩ ∧
    Apart ⟨0, 0, 1, 3⟩ ⟨1, 0, 2, 2⟩ ∧ Shows [[0, 0, 0], [5, 6]] ⟨1, 0, 2, 2⟩ [5, 6] := by
  refine ⟨⟨by decide, fun i hi => ?_⟩, ⟨by decide, fun i hi => ?_⟩, fun i _ j _ h => ?_, rfl, by decide⟩
  · have : i = 0 ∨ i = 1 ∨ i = 2 := by simp at hi; omega
    rcases this with rfl | rfl | rfl <;> exact ⟨_, rfl⟩
  · have : i = 0 ∨ i = 1 := by simp at hi; omega
    rcases this with rfl | rfl <;> exact ⟨_, rfl⟩
  · simp at h

/-- C155, violated: `p.SetLinearRings(input); input[0][0] = q` changes the polygon `p`. -/
theorem C155_violated : ¬ C155_full := by
  intro h
  obtain ⟨rs, h1, h2⟩ := h ⟨[[1]], [[⟨0, 0, 1, 1⟩]], []⟩ Slice.nil ⟨0, 0, 1, 1⟩ [[1]] 0 _ _ (.pts 0 0 2)
    ⟨le_refl _, fun i hi => absurd hi (Nat.not_lt_zero _)⟩
    ⟨le_refl _, fun i hi => by
      have : i = 0 := by simp at hi; omega
      subst this; exact ⟨_, rfl⟩⟩
    (fun i hi => absurd hi (Nat.not_lt_zero _))
    ⟨[⟨0, 0, 1, 1⟩], ⟨rfl, by decide⟩, .cons ⟨rfl, by decide⟩ .nil⟩ rfl
    ⟨[⟨0, 0, 1, 1⟩], ⟨0, 0, 1, 1⟩, ⟨rfl, by decide⟩, by simp, rfl, by decide, by decide⟩
  cases h2 with
  | cons h3 h4 =>
    cases h4
    have e := h1.2 0 (by decide)
    have f := h3.2 0 (by have := h3.1; simp at this; omega)
    simp only [List.getElem?_cons_zero] at e
    obtain rfl := Option.some.inj e
    exact absurd f (by decide)

end Verif.Props
