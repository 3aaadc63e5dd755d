import Verif.Spec.Memory
import Mathlib.Tactic.Ring

namespace Verif.Lemmas.Memory
open Verif.Memory Verif.Spec.Memory

variable {E P : Type}

theorem cell_some {m : Mem E} {b i : Nat} {e : E} :
    cell m b i = some e ↔ ∃ l, m[b]? = some l ∧ l[i]? = some e := by
  simp [cell, Option.bind_eq_some_iff]

/-- The cells of a list with a stretch overwritten. -/
theorem overwrite (l xs : List E) (off i : Nat) (h : off + xs.length ≤ l.length) :
    (l.take off ++ xs ++ l.drop (off + xs.length))[i]? =
      if off ≤ i ∧ i < off + xs.length then xs[i - off]? else l[i]? := by
  have hl : (l.take off).length = off := by simp; omega
  by_cases h1 : i < off
  · rw [if_neg (by omega), List.append_assoc, List.getElem?_append_left (by omega)]
    simp [h1]
  · by_cases h2 : i < off + xs.length
    · rw [if_pos ⟨by omega, h2⟩, List.append_assoc, List.getElem?_append_right (by omega), hl,
        List.getElem?_append_left (by omega)]
    · rw [if_neg (by omega), List.getElem?_append_right (by simp; omega), List.getElem?_drop]
      congr 1
      simp
      omega

theorem cell_store {m : Mem E} {b off : Nat} {xs : List E}
    (h : ∀ i < xs.length, ∃ e, cell m b (off + i) = some e) (b' i : Nat) :
    cell (store m b off xs) b' i =
      if b' = b ∧ off ≤ i ∧ i < off + xs.length then xs[i - off]? else cell m b' i := by
  unfold cell store
  rw [List.getElem?_modify]
  by_cases hb : b = b'
  · subst hb
    simp only [if_true, true_and]
    rcases hm : m[b]? with _ | l
    · have : xs.length = 0 := by
        by_contra hx
        obtain ⟨e, he⟩ := h 0 (by omega)
        rw [cell_some] at he
        obtain ⟨l, hl, _⟩ := he
        simp [hm] at hl
      rw [if_neg (by omega)]
      simp
    · simp only [Option.map_some, Option.bind_some]
      by_cases hx : xs.length = 0
      · have : xs = [] := by simpa using hx
        subst this
        rw [if_neg (by simp)]
        simp
      · apply overwrite
        obtain ⟨e, he⟩ := h (xs.length - 1) (by omega)
        rw [cell_some] at he
        obtain ⟨l', hl', he'⟩ := he
        have : l' = l := by simpa [hm] using hl'.symm
        subst this
        have := List.getElem?_eq_some_iff.1 he'
        obtain ⟨h1, -⟩ := this
        omega
  · rw [if_neg (fun hc => hb hc.1.symm)]
    rcases hm : m[b']? with _ | l <;> simp [hb]

theorem cell_grow {m : Mem E} {l : List E} (b i : Nat) :
    cell (m ++ [l]) b i = if b = m.length then l[i]? else cell m b i := by
  unfold cell
  by_cases hb : b < m.length
  · rw [if_neg (by omega), List.getElem?_append_left hb]
  · by_cases he : b = m.length
    · subst he
      rw [if_pos rfl, List.getElem?_append_right (by omega)]
      simp
    · rw [if_neg he, List.getElem?_append_right (by omega), List.getElem?_eq_none (by simp; omega),
        List.getElem?_eq_none (by omega)]

theorem cell_grow_old {m : Mem E} {l : List E} {b i : Nat} {e : E} (h : cell m b i = some e) :
    cell (m ++ [l]) b i = some e := by
  rw [cell_grow, if_neg, h]
  rintro rfl
  rw [cell_some] at h
  obtain ⟨l', h', -⟩ := h
  simp at h'

theorem read_shows {m : Mem E} {s : Slice} (h : Inside m s) : Shows m s (elems m s) := by
  have key : s.len = 0 ∨ ∃ l, m[s.blk]? = some l ∧ s.off + s.len ≤ l.length := by
    by_cases h0 : s.len = 0
    · exact .inl h0
    · obtain ⟨e, he⟩ := h.2 (s.len - 1) (by have := h.1; omega)
      rw [cell_some] at he
      obtain ⟨l, hl, he⟩ := he
      obtain ⟨h1, -⟩ := List.getElem?_eq_some_iff.1 he
      exact .inr ⟨l, hl, by omega⟩
  rcases key with h0 | ⟨l, hl, hle⟩
  · refine ⟨?_, fun i hi => absurd hi (by omega)⟩
    simp [elems, h0]
  · have hg : m.getD s.blk [] = l := by simp [List.getD, hl]
    refine ⟨?_, fun i hi => ?_⟩
    · simp only [elems, hg, List.length_take, List.length_drop]
      omega
    · rw [cell, hl]
      simp [elems, List.getD, hl, List.getElem?_take, hi]

theorem _root_.Verif.Spec.Memory.Shows.unique {m : Mem E} {s : Slice} {xs ys : List E} (h1 : Shows m s xs)
    (h2 : Shows m s ys) : xs = ys := by
  apply List.ext_getElem?
  intro i
  by_cases hi : i < s.len
  · rw [← h1.2 i hi, ← h2.2 i hi]
  · rw [List.getElem?_eq_none (by have := h1.1; omega), List.getElem?_eq_none (by have := h2.1; omega)]

theorem shows_read {m : Mem E} {s : Slice} {xs : List E} (hs : Inside m s) (h : Shows m s xs) :
    elems m s = xs := (read_shows hs).unique h

theorem read_length {m : Mem E} {s : Slice} (h : Inside m s) : (elems m s).length = s.len :=
  (read_shows h).1.symm

/-- What `append0` does to memory, cell by cell. -/
theorem append0_cell {spare : Nat} {zero : E} {m : Mem E} {s inp : Slice} (hs : Inside m s)
    (hi : Inside m inp) (b i : Nat) (e : E) (hc : cell m b i = some e) :
    cell (append0 spare zero m s inp).1 b i =
      if inp.len ≤ s.cap ∧ b = s.blk ∧ s.off ≤ i ∧ i < s.off + inp.len then
        cell m inp.blk (inp.off + (i - s.off))
      else some e := by
  have hr := read_shows hi
  have hl := read_length hi
  unfold append0
  simp only [hl]
  split_ifs with h1 h2 h2
  · rw [cell_store (fun j hj => hs.2 j (by omega)), hl, if_pos h2.2, hr.2 _ (by omega)]
  · rw [cell_store (fun j hj => hs.2 j (by omega)), hl, if_neg (fun hh => h2 ⟨h1, hh⟩), hc]
  · exact absurd h2.1 h1
  · exact cell_grow_old hc

theorem append0_inside {spare : Nat} {zero : E} {m : Mem E} {s inp : Slice} (hs : Inside m s)
    (hi : Inside m inp) : Inside (append0 spare zero m s inp).1 (append0 spare zero m s inp).2 := by
  have hl := read_length hi
  unfold append0
  simp only [hl]
  split_ifs with h1
  · refine ⟨h1, fun i hlt => ?_⟩
    simp only at hlt ⊢
    rw [cell_store (fun j hj => hs.2 j (by omega)), hl]
    split_ifs with h2
    · exact ⟨_, List.getElem?_eq_getElem (by omega)⟩
    · exact hs.2 i hlt
  · refine ⟨by simp, fun i hlt => ?_⟩
    simp only at hlt ⊢
    rw [cell_grow, if_pos rfl]
    exact ⟨_, List.getElem?_eq_getElem (by simp; omega)⟩

theorem append0_shows {spare : Nat} {zero : E} {m : Mem E} {s inp : Slice} {xs : List E}
    (hs : Inside m s) (hi : Inside m inp) (hx : Shows m inp xs) :
    Shows (append0 spare zero m s inp).1 (append0 spare zero m s inp).2 xs := by
  have hl := read_length hi
  have hr := shows_read hi hx
  unfold append0
  simp only [hl]
  split_ifs with h1
  · refine ⟨hx.1, fun i hlt => ?_⟩
    simp only at hlt ⊢
    rw [cell_store (fun j hj => hs.2 j (by omega)), hl, if_pos ⟨rfl, by omega, by omega⟩, hr]
    congr 1
    omega
  · refine ⟨hx.1, fun i hlt => ?_⟩
    simp only at hlt ⊢
    rw [cell_grow, if_pos rfl, Nat.zero_add, List.getElem?_append_left (by omega), hr]

/-- A slice apart from the receiver is not touched. -/
theorem append0_apart {spare : Nat} {zero : E} {m : Mem E} {s inp t : Slice} (hs : Inside m s)
    (hi : Inside m inp) (ht : Inside m t) (ha : Apart s t) (i : Nat) (hlt : i < t.cap) :
    cell (append0 spare zero m s inp).1 t.blk (t.off + i) = cell m t.blk (t.off + i) := by
  obtain ⟨e, he⟩ := ht.2 i hlt
  rw [append0_cell hs hi _ _ e he, he, if_neg]
  rintro ⟨h1, h2, h3, h4⟩
  exact ha (t.off + i - s.off) (by omega) i hlt ⟨h2.symm, by omega⟩

theorem _root_.Verif.Spec.Memory.Inside.blk_lt {m : Mem E} {s : Slice} (h : Inside m s) (hc : 0 < s.cap) :
    s.blk < m.length := by
  obtain ⟨e, he⟩ := h.2 0 hc
  rw [cell_some] at he
  obtain ⟨l, hl, -⟩ := he
  exact (List.getElem?_eq_some_iff.1 hl).1

theorem append0_stays_apart {spare : Nat} {zero : E} {m : Mem E} {s inp t : Slice}
    (hi : Inside m inp) (ht : Inside m t) (ha : Apart s t) :
    Apart (append0 spare zero m s inp).2 t := by
  have hl := read_length hi
  unfold append0
  simp only [hl]
  split_ifs with h1
  · exact ha
  · rintro i - j hj ⟨h2, -⟩
    have := ht.blk_lt (by omega)
    simp only at h2
    omega

/-! ## Programs -/

/-- What holds between a program over memory and one over values. -/
structure Agree (st : State E) (env : Nat → List E) : Prop where
  inside : ∀ i, Inside st.mem (st.vars i)
  shows_ : ∀ i, Shows st.mem (st.vars i) (env i)
  apart : ∀ i j, i ≠ j → Apart (st.vars i) (st.vars j)

theorem _root_.Verif.Spec.Memory.Inside.congr {m m' : Mem E} {s : Slice} (h : Inside m s)
    (hc : ∀ i < s.cap, cell m' s.blk (s.off + i) = cell m s.blk (s.off + i)) : Inside m' s :=
  ⟨h.1, fun i hi => by rw [hc i hi]; exact h.2 i hi⟩

theorem _root_.Verif.Spec.Memory.Shows.congr {m m' : Mem E} {s : Slice} {xs : List E} (h : Shows m s xs) (hi : s.len ≤ s.cap)
    (hc : ∀ i < s.cap, cell m' s.blk (s.off + i) = cell m s.blk (s.off + i)) : Shows m' s xs :=
  ⟨h.1, fun i hlt => by rw [hc i (by omega)]; exact h.2 i hlt⟩

theorem _root_.Verif.Spec.Memory.Apart.symm {s t : Slice} (h : Apart s t) : Apart t s :=
  fun i hi j hj hc => h j hj i hi ⟨hc.1.symm, hc.2.symm⟩

theorem agree_init : Agree (State.init E) fun _ => [] := by
  refine ⟨fun i => ⟨le_refl _, fun j hj => ?_⟩, fun i => ⟨rfl, fun j hj => ?_⟩, fun i j _ k hk => ?_⟩
  · exact absurd hj (Nat.not_lt_zero _)
  · exact absurd hj (Nat.not_lt_zero _)
  · exact absurd hk (Nat.not_lt_zero _)

theorem Agree.grow {st : State E} {env : Nat → List E} (h : Agree st env) (l : List E) :
    Agree ⟨st.mem ++ [l], st.vars⟩ env := by
  have hc : ∀ i, ∀ k < (st.vars i).cap, cell (st.mem ++ [l]) (st.vars i).blk ((st.vars i).off + k) =
      cell st.mem (st.vars i).blk ((st.vars i).off + k) := by
    intro i k hk
    obtain ⟨e, he⟩ := (h.inside i).2 k hk
    rw [he, cell_grow_old he]
  exact ⟨fun i => (h.inside i).congr (hc i), fun i => (h.shows_ i).congr (h.inside i).1 (hc i), h.apart⟩

/-- A setter in a program whose variables are apart. -/
theorem Agree.set {st : State E} {env : Nat → List E} (h : Agree st env) (zero : E) (spare i : Nat)
    {inp : Slice} {xs : List E} (hi : Inside st.mem inp) (hx : Shows st.mem inp xs) :
    Agree ⟨(append0 spare zero st.mem (st.vars i) inp).1,
      Function.update st.vars i (append0 spare zero st.mem (st.vars i) inp).2⟩
      (Function.update env i xs) := by
  refine ⟨fun j => ?_, fun j => ?_, fun j k hjk => ?_⟩
  · by_cases hj : j = i
    · subst hj
      simpa using append0_inside (h.inside j) hi
    · simp only [Function.update_of_ne hj]
      exact (h.inside j).congr (append0_apart (h.inside i) hi (h.inside j) (h.apart i j (Ne.symm hj)))
  · by_cases hj : j = i
    · subst hj
      simpa using append0_shows (h.inside j) hi hx
    · simp only [Function.update_of_ne hj]
      exact (h.shows_ j).congr (h.inside j).1
        (append0_apart (h.inside i) hi (h.inside j) (h.apart i j (Ne.symm hj)))
  · by_cases hj : j = i
    · subst hj
      simp only [Function.update_self, Function.update_of_ne (Ne.symm hjk)]
      exact append0_stays_apart hi (h.inside k) (h.apart j k hjk)
    · by_cases hk : k = i
      · subst hk
        simp only [Function.update_self, Function.update_of_ne hj]
        exact (append0_stays_apart hi (h.inside j) (h.apart k j (Ne.symm hjk))).symm
      · simp only [Function.update_of_ne hj, Function.update_of_ne hk]
        exact h.apart j k hjk

theorem reslice_inside {m : Mem E} {s t : Slice} {lo hi : Nat} (hs : Inside m s)
    (h : reslice s lo hi = some t) : Inside m t := by
  unfold reslice at h
  split_ifs at h with hc
  obtain rfl := by simpa using h
  refine ⟨by simp only; omega, fun i hlt => ?_⟩
  simp only at hlt ⊢
  rw [Nat.add_assoc]
  exact hs.2 _ (by omega)

theorem reslice_shows {m : Mem E} {s : Slice} {xs : List E} {lo hi : Nat} (hs : Inside m s)
    (hx : Shows m s xs) (h1 : lo ≤ hi) (h2 : hi ≤ xs.length) :
    ∃ t, reslice s lo hi = some t ∧ Shows m t ((xs.drop lo).take (hi - lo)) ∧
      ∀ u, Apart s u → Apart t u := by
  have h3 := hs.1
  have h4 := hx.1
  refine ⟨⟨s.blk, s.off + lo, hi - lo, s.cap - lo⟩, if_pos ⟨h1, by omega⟩, ⟨?_, ?_⟩, ?_⟩
  · simp; omega
  · intro i hlt
    simp only at hlt ⊢
    rw [Nat.add_assoc, hx.2 _ (by omega)]
    simp [List.getElem?_take, hlt]
  · intro u hu i hi' j hj hc
    simp only at hi' hc
    exact hu (lo + i) (by omega) j hj ⟨hc.1, by omega⟩

theorem Agree.step {st : State E} {env env' : Nat → List E} (h : Agree st env) (zero : E) {op : Op E}
    (hop : ∀ i j, op ≠ .keep i j) (hv : valueStep env op = some env') :
    ∃ st', st.step zero op = some st' ∧ Agree st' env' := by
  cases op with
  | keep i j => exact absurd rfl (hop i j)
  | set i inp spare =>
    cases inp with
    | lit xs =>
      obtain rfl : Function.update env i xs = env' := by simpa [valueStep] using hv
      have hg := h.grow xs
      have hin : Inside (st.mem ++ [xs]) ⟨st.mem.length, 0, xs.length, xs.length⟩ := by
        refine ⟨le_refl _, fun k hk => ?_⟩
        simp only at hk ⊢
        rw [cell_grow, if_pos rfl]
        exact ⟨_, List.getElem?_eq_getElem (by omega)⟩
      have hsh : Shows (st.mem ++ [xs]) ⟨st.mem.length, 0, xs.length, xs.length⟩ xs := by
        refine ⟨rfl, fun k hk => ?_⟩
        simp only at hk ⊢
        rw [cell_grow, if_pos rfl, Nat.zero_add]
      exact ⟨_, rfl, hg.set zero spare i hin hsh⟩
    | piece j lo hi =>
      simp only [valueStep] at hv
      split_ifs at hv with hc
      obtain rfl := by simpa using hv
      obtain ⟨t, ht, hsh, -⟩ := reslice_shows (h.inside j) (h.shows_ j) hc.1 hc.2
      refine ⟨_, ?_, h.set zero spare i (reslice_inside (h.inside j) ht) hsh⟩
      simp [State.step, State.input, ht, setter]
  | write i k e =>
    simp only [valueStep] at hv
    split_ifs at hv with hc
    obtain rfl := by simpa using hv
    have hlen := (h.shows_ i).1
    have hcap := (h.inside i).1
    have hw : ∀ n < [e].length, ∃ e', cell st.mem (st.vars i).blk ((st.vars i).off + k + n) = some e' := by
      intro n hn
      simp at hn
      subst hn
      exact (h.inside i).2 k (by omega)
    refine ⟨_, if_pos (by omega), fun j => ?_, fun j => ?_, h.apart⟩
    · refine ⟨(h.inside j).1, fun n hn => ?_⟩
      rw [cell_store hw]
      split_ifs with hh
      · refine ⟨e, ?_⟩
        have h0 : (st.vars j).off + n - ((st.vars i).off + k) = 0 := by
          have := hh.2.2
          simp only [List.length_cons, List.length_nil] at this
          omega
        rw [h0]
        rfl
      · exact (h.inside j).2 n hn
    · refine ⟨?_, fun n hn => ?_⟩
      · by_cases hj : j = i
        · subst hj; simpa using hlen
        · simpa [Function.update_of_ne hj] using (h.shows_ j).1
      · simp only at hn ⊢
        rw [cell_store hw]
        by_cases hj : j = i
        · subst hj
          simp only [Function.update_self, true_and, List.length_cons, List.length_nil]
          by_cases hnk : n = k
          · subst hnk
            rw [if_pos ⟨le_refl _, by omega⟩]
            simp [hc]
          · rw [if_neg (by omega), (h.shows_ j).2 n hn, List.getElem?_set_ne (Ne.symm hnk)]
        · rw [if_neg, (h.shows_ j).2 n hn, Function.update_of_ne hj]
          rintro ⟨h1, h2, h3⟩
          simp at h3
          exact h.apart i j (Ne.symm hj) k (by omega) n (by have := (h.inside j).1; omega)
            ⟨h1.symm, by omega⟩
  | cut i lo hi =>
    simp only [valueStep] at hv
    split_ifs at hv with hc
    obtain rfl := by simpa using hv
    obtain ⟨t, ht, hsh, hap⟩ := reslice_shows (h.inside i) (h.shows_ i) hc.1 hc.2
    have hin := reslice_inside (h.inside i) ht
    refine ⟨⟨st.mem, Function.update st.vars i t⟩, by simp [State.step, ht], fun j => ?_, fun j => ?_,
      fun j k hjk => ?_⟩
    · by_cases hj : j = i
      · subst hj; simpa using hin
      · simpa [Function.update_of_ne hj] using h.inside j
    · by_cases hj : j = i
      · subst hj; simpa using hsh
      · simpa [Function.update_of_ne hj] using h.shows_ j
    · by_cases hj : j = i
      · subst hj
        simp only [Function.update_self, Function.update_of_ne (Ne.symm hjk)]
        exact hap _ (h.apart j k hjk)
      · by_cases hk : k = i
        · subst hk
          simp only [Function.update_self, Function.update_of_ne hj]
          exact (hap _ (h.apart k j (Ne.symm hjk))).symm
        · simp only [Function.update_of_ne hj, Function.update_of_ne hk]
          exact h.apart j k hjk

theorem Agree.run {st : State E} {env env' : Nat → List E} (h : Agree st env) (zero : E)
    {ops : List (Op E)} (hop : Separate ops) (hv : valueRun env ops = some env') :
    ∃ st', st.run zero ops = some st' ∧ Agree st' env' := by
  induction ops generalizing st env with
  | nil =>
    obtain rfl : env = env' := by simpa [valueRun] using hv
    exact ⟨st, rfl, h⟩
  | cons op ops ih =>
    simp only [valueRun, Option.bind_eq_some_iff] at hv
    obtain ⟨env1, h1, h2⟩ := hv
    obtain ⟨st1, hs1, ha⟩ := h.step zero (hop op (by simp)) h1
    obtain ⟨st2, hs2, ha2⟩ := ih ha (fun o ho => hop o (by simp [ho])) h2
    exact ⟨st2, by simp [State.run, hs1, hs2], ha2⟩

/-! ## Clone -/

/-- The memory `h'` has everything that is in `h`, unchanged. -/
structure Grew (h h' : Heap P) : Prop where
  pts : h.pts <+: h'.pts
  lines : h.lines <+: h'.lines
  polys : h.polys <+: h'.polys

theorem Grew.rfl (h : Heap P) : Grew h h := ⟨List.prefix_rfl, List.prefix_rfl, List.prefix_rfl⟩

theorem Grew.trans {h1 h2 h3 : Heap P} (a : Grew h1 h2) (b : Grew h2 h3) : Grew h1 h3 :=
  ⟨a.pts.trans b.pts, a.lines.trans b.lines, a.polys.trans b.polys⟩

theorem cell_prefix {m m' : Mem E} (h : m <+: m') {b i : Nat} {e : E} (hc : cell m b i = some e) :
    cell m' b i = some e := by
  rw [cell_some] at hc ⊢
  obtain ⟨l, hl, he⟩ := hc
  obtain ⟨t, rfl⟩ := h
  exact ⟨l, by rw [List.getElem?_append_left (List.getElem?_eq_some_iff.1 hl).1, hl], he⟩

theorem shows_prefix {m m' : Mem E} (h : m <+: m') {s : Slice} {xs : List E} (hs : Shows m s xs) :
    Shows m' s xs := by
  refine ⟨hs.1, fun i hi => ?_⟩
  have h1 := hs.2 i hi
  rw [List.getElem?_eq_getElem (by have := hs.1; omega)] at h1 ⊢
  exact cell_prefix h h1

theorem lines_grew {h h' : Heap P} (hg : Grew h h') {s : Slice} {v : List (List P)}
    (hs : Lines h s v) : Lines h' s v := by
  obtain ⟨rs, h1, h2⟩ := hs
  exact ⟨rs, shows_prefix hg.lines h1, h2.imp fun _ _ => shows_prefix hg.pts⟩

/-- The slice shows `xs` and the array is one of those made after the first `n`. -/
def New (n : Nat) (m : Mem E) (s : Slice) (xs : List E) : Prop :=
  Shows m s xs ∧ (s.len = 0 ∨ n ≤ s.blk)

theorem New.weaken {n k : Nat} {m m' : Mem E} {s : Slice} {xs : List E} (h : New n m s xs)
    (hk : k ≤ n) (hp : m <+: m') : New k m' s xs :=
  ⟨shows_prefix hp h.1, h.2.imp id (hk.trans ·)⟩

theorem elems_of_shows {m : Mem E} {s : Slice} {xs : List E} (h : Shows m s xs) : elems m s = xs := by
  by_cases h0 : s.len = 0
  · have : xs.length = 0 := by rw [← h.1, h0]
    have : xs = [] := by simpa using this
    simp [elems, h0, this]
  · have h1 := h.2 (s.len - 1) (by omega)
    rw [List.getElem?_eq_getElem (by have := h.1; omega), cell_some] at h1
    obtain ⟨l, hl, hm⟩ := h1
    have hlt := (List.getElem?_eq_some_iff.1 hm).1
    apply List.ext_getElem?
    intro i
    by_cases hi : i < s.len
    · rw [← h.2 i hi, cell, hl]
      simp [elems, List.getD, hl, List.getElem?_take, hi]
    · rw [List.getElem?_eq_none (by simp [elems]; omega), List.getElem?_eq_none (by have := h.1; omega)]

theorem new_array {m : Mem E} (xs : List E) :
    New m.length (m ++ [xs]) ⟨m.length, 0, xs.length, xs.length⟩ xs := by
  refine ⟨⟨rfl, fun i hi => ?_⟩, .inr (le_refl _)⟩
  simp only at hi ⊢
  rw [cell_grow, if_pos rfl, Nat.zero_add]

theorem cloneFlat_spec {h : Heap P} {s : Slice} {xs : List P} (hs : Shows h.pts s xs) :
    Grew h (cloneFlat h s).1 ∧ New h.pts.length (cloneFlat h s).1.pts (cloneFlat h s).2 xs := by
  have := elems_of_shows hs
  simp only [cloneFlat, this]
  exact ⟨⟨List.prefix_append _ _, List.prefix_rfl, List.prefix_rfl⟩, new_array xs⟩

theorem cloneLines_spec {h : Heap P} {ss : List Slice} {v : List (List P)}
    (hs : List.Forall₂ (Shows h.pts) ss v) :
    Grew h (cloneLines h ss).1 ∧ (cloneLines h ss).1.lines = h.lines ∧
      (cloneLines h ss).1.polys = h.polys ∧
      List.Forall₂ (New h.pts.length (cloneLines h ss).1.pts) (cloneLines h ss).2 v := by
  induction ss generalizing h v with
  | nil =>
    cases hs
    exact ⟨.rfl h, rfl, rfl, .nil⟩
  | cons s ss ih =>
    cases hs with
    | cons h1 h2 =>
      obtain ⟨g1, n1⟩ := cloneFlat_spec h1
      obtain ⟨g2, e1, e2, n2⟩ := ih (h := (cloneFlat h s).1) (h2.imp fun _ _ => shows_prefix g1.pts)
      refine ⟨g1.trans g2, e1.trans rfl, e2.trans rfl, .cons (n1.weaken (le_refl _) g2.pts) ?_⟩
      exact n2.imp fun _ _ hn => hn.weaken g1.pts.length_le List.prefix_rfl

/-- A nested value all of whose arrays are new. -/
def NewLines (n k : Nat) (h : Heap P) (s : Slice) (v : List (List P)) : Prop :=
  ∃ rs, New k h.lines s rs ∧ List.Forall₂ (New n h.pts) rs v

theorem NewLines.weaken {n k n' k' : Nat} {h h' : Heap P} {s : Slice} {v : List (List P)}
    (hn : NewLines n k h s v) (h1 : n' ≤ n) (h2 : k' ≤ k) (hg : Grew h h') : NewLines n' k' h' s v := by
  obtain ⟨rs, a, b⟩ := hn
  exact ⟨rs, a.weaken h2 hg.lines, b.imp fun _ _ x => x.weaken h1 hg.pts⟩

theorem cloneNested_spec {h : Heap P} {s : Slice} {v : List (List P)} (hs : Lines h s v) :
    Grew h (cloneNested h s).1 ∧ (cloneNested h s).1.polys = h.polys ∧
      NewLines h.pts.length h.lines.length (cloneNested h s).1 (cloneNested h s).2 v := by
  obtain ⟨rs, h1, h2⟩ := hs
  obtain ⟨g, e1, e2, hn⟩ := cloneLines_spec h2
  simp only [cloneNested, elems_of_shows h1]
  refine ⟨⟨g.pts, g.lines.trans (List.prefix_append _ _), g.polys⟩, e2, _, ?_, hn⟩
  have := new_array (m := (cloneLines h rs).1.lines) (cloneLines h rs).2
  rw [e1] at this ⊢
  exact this

theorem clonePolys_spec {h : Heap P} {ss : List Slice} {v : List (List (List P))}
    (hs : List.Forall₂ (Lines h) ss v) :
    Grew h (clonePolys h ss).1 ∧ (clonePolys h ss).1.polys = h.polys ∧
      List.Forall₂ (NewLines h.pts.length h.lines.length (clonePolys h ss).1) (clonePolys h ss).2 v := by
  induction ss generalizing h v with
  | nil =>
    cases hs
    exact ⟨.rfl h, rfl, .nil⟩
  | cons s ss ih =>
    cases hs with
    | cons h1 h2 =>
      obtain ⟨g1, e1, n1⟩ := cloneNested_spec h1
      obtain ⟨g2, e2, n2⟩ := ih (h := (cloneNested h s).1) (h2.imp fun _ _ => lines_grew g1)
      refine ⟨g1.trans g2, e2.trans e1, .cons (n1.weaken (le_refl _) (le_refl _) g2) ?_⟩
      exact n2.imp fun _ _ hn => hn.weaken g1.pts.length_le g1.lines.length_le (.rfl _)

/-- The geometry has value `v`, in arrays made after `h`. -/
def Fresh (h h' : Heap P) : Geo P → Value P → Prop
  | .point p, .point q => p = q
  | .multiPoint s, .multiPoint v => New h.pts.length h'.pts s v
  | .lineString s, .lineString v => New h.pts.length h'.pts s v
  | .multiLineString s, .multiLineString v => NewLines h.pts.length h.lines.length h' s v
  | .polygon s, .polygon v => NewLines h.pts.length h.lines.length h' s v
  | .multiPolygon s, .multiPolygon v =>
    ∃ rs, New h.polys.length h'.polys s rs ∧
      List.Forall₂ (NewLines h.pts.length h.lines.length h') rs v
  | _, _ => False

theorem clone_spec {h : Heap P} {g : Geo P} {v : Value P} (hv : Has h g v) :
    ∃ h' c, clone h g = some (h', c) ∧ Grew h h' ∧ Fresh h h' c v := by
  cases g with
  | point p => cases v <;> first | exact absurd hv id | exact ⟨h, .point p, rfl, .rfl h, hv⟩
  | multiPoint s =>
    cases v <;> first | exact absurd hv id | exact ⟨_, _, rfl, (cloneFlat_spec hv).1, (cloneFlat_spec hv).2⟩
  | lineString s =>
    cases v <;> first | exact absurd hv id | exact ⟨_, _, rfl, (cloneFlat_spec hv).1, (cloneFlat_spec hv).2⟩
  | multiLineString s =>
    cases v <;> first | exact absurd hv id | exact ⟨_, _, rfl, (cloneNested_spec hv).1, (cloneNested_spec hv).2.2⟩
  | polygon s =>
    cases v <;> first | exact absurd hv id | exact ⟨_, _, rfl, (cloneNested_spec hv).1, (cloneNested_spec hv).2.2⟩
  | multiPolygon s =>
    cases v with
    | multiPolygon v =>
      obtain ⟨rs, h1, h2⟩ := hv
      obtain ⟨g, e, hn⟩ := clonePolys_spec h2
      simp only [clone, elems_of_shows h1]
      refine ⟨_, _, rfl, ⟨g.pts, g.lines, g.polys.trans (List.prefix_append _ _)⟩, _, ?_, hn⟩
      have := new_array (m := (clonePolys h rs).1.polys) (clonePolys h rs).2
      rw [e] at this ⊢
      exact this
    | _ => exact absurd hv id
  | other => cases v <;> exact absurd hv id

/-! Edits of other arrays -/

theorem cell_modify {m : Mem E} {b b' i j : Nat} {e : E} (hb : b ≠ b') :
    cell (m.modify b (·.set j e)) b' i = cell m b' i := by
  unfold cell
  rw [List.getElem?_modify]
  rcases hm : m[b']? with _ | l <;> simp [hb]

theorem shows_modify {m : Mem E} {b j : Nat} {e : E} {s : Slice} {xs : List E} (h : Shows m s xs)
    (hb : s.len = 0 ∨ b ≠ s.blk) : Shows (m.modify b (·.set j e)) s xs := by
  refine ⟨h.1, fun i hi => ?_⟩
  rw [cell_modify (by omega)]
  exact h.2 i hi

theorem New.edit {n : Nat} {m : Mem E} {s : Slice} {xs : List E} (h : New n m s xs) {b j : Nat} {e : E}
    (hb : b < n) : New n (m.modify b (·.set j e)) s xs :=
  ⟨shows_modify h.1 (h.2.imp id fun h2 => by omega), h.2⟩

theorem NewLines.edit {n k : Nat} {h : Heap P} {s : Slice} {v : List (List P)} (hn : NewLines n k h s v)
    {e : Edit P} (he : match e with
      | .pts b _ _ => b < n | .lines b _ _ => b < k | .polys _ _ _ => True) :
    NewLines n k (e.apply h) s v := by
  obtain ⟨rs, a, c⟩ := hn
  cases e with
  | pts b i p => exact ⟨rs, a, c.imp fun _ _ x => x.edit he⟩
  | lines b i t => exact ⟨rs, a.edit he, c⟩
  | polys b i t => exact ⟨rs, a, c⟩

theorem Fresh.edit {h h' : Heap P} {g : Geo P} {v : Value P} (hf : Fresh h h' g v) {e : Edit P}
    (he : e.On h) : Fresh h (e.apply h') g v := by
  cases g with
  | point p => cases v <;> exact hf
  | other => cases v <;> exact hf
  | multiPoint s => cases v <;> first | exact hf | (cases e <;> first | exact hf | exact New.edit hf he)
  | lineString s => cases v <;> first | exact hf | (cases e <;> first | exact hf | exact New.edit hf he)
  | multiLineString s =>
    cases v <;> first | exact hf | exact NewLines.edit hf (by cases e <;> first | exact he | trivial)
  | polygon s =>
    cases v <;> first | exact hf | exact NewLines.edit hf (by cases e <;> first | exact he | trivial)
  | multiPolygon s =>
    cases v with
    | multiPolygon v =>
      obtain ⟨rs, a, c⟩ := hf
      have c' := c.imp fun _ _ x => NewLines.edit (e := e) x (by cases e <;> first | exact he | trivial)
      cases e with
      | pts b i p => exact ⟨rs, a, c'⟩
      | lines b i t => exact ⟨rs, a, c'⟩
      | polys b i t => exact ⟨rs, a.edit he, c'⟩
    | _ => exact hf

theorem Fresh.has {h h' : Heap P} {g : Geo P} {v : Value P} (hf : Fresh h h' g v) : Has h' g v := by
  cases g with
  | point p => cases v <;> exact hf
  | other => cases v <;> exact hf
  | multiPoint s => cases v <;> first | exact hf | exact hf.1
  | lineString s => cases v <;> first | exact hf | exact hf.1
  | multiLineString s =>
    cases v <;> first | exact hf | exact ⟨_, hf.choose_spec.1.1, hf.choose_spec.2.imp fun _ _ x => x.1⟩
  | polygon s =>
    cases v <;> first | exact hf | exact ⟨_, hf.choose_spec.1.1, hf.choose_spec.2.imp fun _ _ x => x.1⟩
  | multiPolygon s =>
    cases v <;> first | exact hf | exact ⟨_, hf.choose_spec.1.1, hf.choose_spec.2.imp fun _ _ x =>
        ⟨_, x.choose_spec.1.1, x.choose_spec.2.imp fun _ _ y => y.1⟩⟩

/-! Edits of the clone leave what was there before -/

/-- The first arrays of the memory are those of `h`. -/
theorem modify_prefix {m m' : Mem E} (h : m <+: m') {b j : Nat} {e : E} (hb : m.length ≤ b) :
    m <+: m'.modify b (·.set j e) := by
  obtain ⟨t, rfl⟩ := h
  rw [List.modify_eq_take_drop]
  · refine ⟨((m ++ t).take b).drop m.length ++ List.modifyHead (·.set j e) ((m ++ t).drop b), ?_⟩
    rw [← List.append_assoc]
    congr 1
    conv_lhs => lhs; rw [show m = ((m ++ t).take b).take m.length by
      rw [List.take_take, Nat.min_eq_left hb, List.take_append_of_le_length (le_refl _), List.take_length]]
    rw [List.take_append_drop]

theorem Grew.edit {h h' : Heap P} (hg : Grew h h') {e : Edit P} (he : ¬e.On h) : Grew h (e.apply h') := by
  cases e with
  | pts b i p => exact ⟨modify_prefix hg.pts (Nat.le_of_not_lt he), hg.lines, hg.polys⟩
  | lines b i p => exact ⟨hg.pts, modify_prefix hg.lines (Nat.le_of_not_lt he), hg.polys⟩
  | polys b i p => exact ⟨hg.pts, hg.lines, modify_prefix hg.polys (Nat.le_of_not_lt he)⟩

theorem has_grew {h h' : Heap P} (hg : Grew h h') {g : Geo P} {v : Value P} (hv : Has h g v) :
    Has h' g v := by
  cases g with
  | point p => cases v <;> exact hv
  | other => cases v <;> exact hv
  | multiPoint s => cases v <;> first | exact hv | exact shows_prefix hg.pts hv
  | lineString s => cases v <;> first | exact hv | exact shows_prefix hg.pts hv
  | multiLineString s => cases v <;> first | exact hv | exact lines_grew hg hv
  | polygon s => cases v <;> first | exact hv | exact lines_grew hg hv
  | multiPolygon s =>
    cases v <;> first | exact hv | exact ⟨_, shows_prefix hg.polys hv.choose_spec.1,
      hv.choose_spec.2.imp fun _ _ => lines_grew hg⟩

end Verif.Lemmas.Memory
