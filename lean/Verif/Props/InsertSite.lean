import Verif.Lemmas.SubInsert
import Verif.Lemmas.SubNew

/-!
# Property C134: putting points into a subdivision

`New` and `InsertSite` of `planar/triangulate/delaunay/subdivision`, in exact arithmetic.
-/

namespace Verif.Props
open Verif.Quad Verif.Spec.Quad Verif.Lemmas.Quad Verif.Subdivision Verif.Spec.Subdivision
open Verif.Lemmas.SubWalk Verif.Lemmas.SubNew Verif.Lemmas.SubLocate Verif.Lemmas.Resolve
open Verif.Lemmas.SubInsert Verif.Lemmas.SubMesh Verif.Spec.Resolve Verif.Spec.Planar

variable {K : Type} [Field K] [LinearOrder K]

/-- Calling `InsertSite` for one point after the other: the answers, and the subdivision afterwards.  `none`
if one of the calls panics. -/
def insertAll (yd : Bool) (sd : Subdiv K) : List (Pt K) → Option (List Bool × Subdiv K)
  | [] => some ([], sd)
  | x :: xs =>
    match insertSite yd sd x with
    | none => none
    | some (r, sd') =>
      match insertAll yd sd' xs with
      | none => none
      | some (rs, sd'') => some (r :: rs, sd'')

/-- The subdivision is a triangulation of the triangle `a b c`, whichever way round that is given. -/
def Triangulates (yd : Bool) (a b c : Pt K) (sd : Subdiv K) : Prop :=
  Triangulated yd a b c sd.store sd.start ∨ Triangulated yd a c b sd.store sd.start

/-- The full claim of **C134**: all points that are in the triangle of the frame, its sides taken in, can be
put into the subdivision one after the other.  It stays a triangulation of the frame, and its points are
the corners of the frame and the points put in. -/
def C134_full : Prop :=
  ∀ (yd : Bool) (a b c : Pt ℚ) (sd : Subdiv ℚ), newSub yd a b c = some sd →
    ∀ xs : List (Pt ℚ), (∀ x ∈ xs, InTriangle x a b c) → ∃ rs sd', insertAll yd sd xs = some (rs, sd') ∧
      (∀ r ∈ rs, r = true) ∧ Triangulates yd a b c sd' ∧
      ∀ p, Vertex sd'.store sd'.start p ↔ p = a ∨ p = b ∨ p = c ∨ p ∈ xs

/-- **C134 is violated**: `InsertSite` says no to the corner the first edge of the subdivision starts at. -/
theorem C134_violated : ¬ C134_full := by
  intro h
  have hn : newSub false ((0 : ℚ), (0 : ℚ)) (30, 0) (0, 30) =
      some ⟨newStore (0, 0) (30, 0) (0, 30), ⟨0, 0⟩, 3, ((0, 0), (30, 0), (0, 30))⟩ := by
    rw [newSub_eq, if_pos (by decide +kernel)]
  obtain ⟨rs, sd', h1, h2, _⟩ := h false (0, 0) (30, 0) (0, 30) _ hn [(0, 0)] (by
    intro x hx
    rw [List.mem_singleton] at hx
    subst hx
    exact ⟨1, 0, 0, by norm_num, by norm_num, by norm_num, by norm_num, by norm_num⟩)
  have h3 : (insertAll false ⟨newStore ((0 : ℚ), (0 : ℚ)) (30, 0) (0, 30), ⟨0, 0⟩, 3, ((0, 0), (30, 0), (0, 30))⟩
      [(0, 0)]).map (·.1) = some [false] := by decide +kernel
  rw [h1] at h3
  have h4 : rs = [false] := Option.some.inj h3
  rw [h4] at h2
  exact absurd (h2 false (by simp)) (by decide)

/-- **C134 is violated** in another way: for a point on the first edge `InsertSite` says yes, but what can be
come by from the first edge afterwards are its two ends only: the new point and the third corner are gone. -/
theorem C134_violated_on_side :
    ∃ (yd : Bool) (a b c : Pt ℚ) (sd sd' : Subdiv ℚ) (x : Pt ℚ), newSub yd a b c = some sd ∧ OnSegment x a b ∧
      x ≠ a ∧ x ≠ b ∧ insertSite yd sd x = some (true, sd') ∧
      ∀ p, Vertex sd'.store sd'.start p ↔ p = a ∨ p = b := by
  let sd : Subdiv ℚ := ⟨newStore (0, 0) (30, 0) (0, 30), ⟨0, 0⟩, 3, ((0, 0), (30, 0), (0, 30))⟩
  have hn : newSub false ((0 : ℚ), (0 : ℚ)) (30, 0) (0, 30) = some sd := by
    rw [newSub_eq, if_pos (by decide +kernel)]
  have h0 : (insertSite false sd (15, 0)).isSome = true := by decide +kernel
  obtain ⟨⟨r, sd'⟩, h1⟩ := Option.isSome_iff_exists.1 h0
  have get : ∀ {α : Type} (f : Bool × Subdiv ℚ → α) (a : α),
      (insertSite false sd (15, 0)).map f = some a → f (r, sd') = a := by
    intro α f a h
    rw [h1] at h
    exact Option.some.inj h
  have e0 : r = true := get (·.1) true (by decide +kernel)
  have e1 : sd'.start = ⟨0, 0⟩ := get (·.2.start) ⟨0, 0⟩ (by decide +kernel)
  have e2 : sd'.store.next ⟨0, 0⟩ = ⟨0, 0⟩ := get (·.2.store.next ⟨0, 0⟩) _ (by decide +kernel)
  have e3 : sd'.store.next ⟨0, 2⟩ = ⟨0, 2⟩ := get (·.2.store.next ⟨0, 2⟩) _ (by decide +kernel)
  have e4 : sd'.store.v ⟨0, 0⟩ = some (0, 0) := get (·.2.store.v ⟨0, 0⟩) _ (by decide +kernel)
  have e5 : sd'.store.v ⟨0, 2⟩ = some (30, 0) := get (·.2.store.v ⟨0, 2⟩) _ (by decide +kernel)
  subst e0
  refine ⟨false, (0, 0), (30, 0), (0, 30), sd, sd', (15, 0), hn,
    ⟨1 / 2, by norm_num, by norm_num, by norm_num⟩, by decide, by decide, h1, ?_⟩
  rw [e1]
  have two : ∀ y, Connected sd'.store ⟨0, 0⟩ y → y = ⟨0, 0⟩ ∨ y = ⟨0, 2⟩ := by
    intro y hy
    induction hy with
    | refl => exact Or.inl rfl
    | next _ ih =>
      rcases ih with rfl | rfl
      · exact Or.inl e2
      · exact Or.inr e3
    | sym _ ih =>
      rcases ih with rfl | rfl
      · exact Or.inr rfl
      · exact Or.inl rfl
  intro p
  constructor
  · rintro ⟨y, hy, ho⟩
    rcases two y hy with rfl | rfl
    · exact Or.inl (Option.some.inj (ho.symm.trans e4))
    · exact Or.inr (Option.some.inj (ho.symm.trans e5))
  · rintro (rfl | rfl)
    · exact ⟨_, .refl, e4⟩
    · exact ⟨_, .sym .refl, e5⟩

variable [IsStrictOrderedRing K]

/-- **C134**: `New` makes a triangulation of the frame without further points. -/
theorem C134_new (yd : Bool) (a b c : Pt K) (sd : Subdiv K) (h : newSub yd a b c = some sd) :
    Triangulates yd a b c sd ∧ ∀ p, Vertex sd.store sd.start p ↔ p = a ∨ p = b ∨ p = c := by
  rw [newSub_eq] at h
  obtain ⟨o1, o2, o3, o4, o5, o6⟩ := newStore_orig a b c
  obtain ⟨n1, n2, n3, n4, n5, n6⟩ := newStore_lnext a b c
  have hV : ∀ {z : E}, z.q < 3 → Primal z → ∀ p, Vertex (newStore a b c) z p ↔ p = a ∨ p = b ∨ p = c := by
    intro z hz kz p
    constructor
    · rintro ⟨e, he, ho⟩
      rw [newStore_connected a b c hz kz] at he
      rcases six he.1 he.2 with rfl | rfl | rfl | rfl | rfl | rfl
      · exact Or.inl (Option.some.inj (ho.symm.trans o1))
      · exact Or.inr (Or.inl (Option.some.inj (ho.symm.trans o2)))
      · exact Or.inr (Or.inr (Option.some.inj (ho.symm.trans o3)))
      · exact Or.inr (Or.inl (Option.some.inj (ho.symm.trans o4)))
      · exact Or.inr (Or.inr (Option.some.inj (ho.symm.trans o5)))
      · exact Or.inl (Option.some.inj (ho.symm.trans o6))
    · have hc : ∀ e : E, e.q < 3 → Primal e → Connected (newStore a b c) z e := fun e h1 h2 =>
        (newStore_connected a b c hz kz).2 ⟨h1, h2⟩
      rintro (rfl | rfl | rfl)
      · exact ⟨⟨0, 0⟩, hc _ (by decide) (by decide), o1⟩
      · exact ⟨⟨1, 0⟩, hc _ (by decide) (by decide), o2⟩
      · exact ⟨⟨2, 0⟩, hc _ (by decide) (by decide), o3⟩
  have F0 : FaceOf (newStore a b c) ⟨0, 0⟩ a b c :=
    ⟨⟨by rw [n1, n2, n3], by rw [n1]; decide⟩, o1, by rw [n1]; exact o2, by rw [n1, n2]; exact o3⟩
  have F1 : FaceOf (newStore a b c) ⟨1, 0⟩ b c a :=
    ⟨⟨by rw [n2, n3, n1], by rw [n2]; decide⟩, o2, by rw [n2]; exact o3, by rw [n2, n3]; exact o1⟩
  have F2 : FaceOf (newStore a b c) ⟨2, 0⟩ c a b :=
    ⟨⟨by rw [n3, n1, n2], by rw [n3]; decide⟩, o3, by rw [n3]; exact o1, by rw [n3, n1]; exact o2⟩
  have B0 : FaceOf (newStore a b c) ⟨0, 2⟩ b a c :=
    ⟨⟨by rw [n4, n5, n6], by rw [n4]; decide⟩, o4, by rw [n4]; exact o6, by rw [n4, n5]; exact o5⟩
  have B2 : FaceOf (newStore a b c) ⟨2, 2⟩ a c b :=
    ⟨⟨by rw [n5, n6, n4], by rw [n5]; decide⟩, o6, by rw [n5]; exact o5, by rw [n5, n6]; exact o4⟩
  have B1 : FaceOf (newStore a b c) ⟨1, 2⟩ c b a :=
    ⟨⟨by rw [n6, n4, n5], by rw [n6]; decide⟩, o5, by rw [n6]; exact o4, by rw [n6, n4]; exact o6⟩
  split_ifs at h with h1 h2
  · obtain rfl := Option.some.inj h
    have t : Turns yd a b c := h1
    refine ⟨Or.inl ⟨newStore_reached a b c, newStore_agree a b c, show (0 : Nat) < 3 by decide,
      show Primal ⟨0, 0⟩ by decide, t, B0, ?_⟩, hV (z := ⟨0, 0⟩) (by decide) (by decide)⟩
    intro y hy
    rw [newStore_connected a b c (x := ⟨0, 0⟩) (by decide) (by decide)] at hy
    rcases six hy.1 hy.2 with rfl | rfl | rfl | rfl | rfl | rfl
    · exact ⟨_, _, _, F0, Or.inl t⟩
    · exact ⟨_, _, _, F1, Or.inl (turns_cycle t)⟩
    · exact ⟨_, _, _, F2, Or.inl (turns_cycle (turns_cycle t))⟩
    · exact ⟨_, _, _, B0, Or.inr (Or.inl rfl)⟩
    · exact ⟨_, _, _, B1, Or.inr (Or.inr (Or.inr (show _ = lnext _ (lnext _ ⟨0, 2⟩) by rw [n4, n5])))⟩
    · exact ⟨_, _, _, B2, Or.inr (Or.inr (Or.inl (show _ = lnext _ ⟨0, 2⟩ by rw [n4])))⟩
  · obtain rfl := Option.some.inj h
    have t : Turns yd a c b := by
      unfold Turns
      rw [wedge_swap]; linarith
    refine ⟨Or.inr ⟨newStore_reached a b c, newStore_agree a b c, show (2 : Nat) < 3 by decide,
      show Primal ⟨2, 2⟩ by decide, t, F2, ?_⟩, hV (z := ⟨2, 2⟩) (by decide) (by decide)⟩
    intro y hy
    rw [newStore_connected a b c (x := ⟨2, 2⟩) (by decide) (by decide)] at hy
    rcases six hy.1 hy.2 with rfl | rfl | rfl | rfl | rfl | rfl
    · exact ⟨_, _, _, F0, Or.inr (Or.inr (Or.inl (show _ = lnext _ ⟨2, 0⟩ by rw [n3])))⟩
    · exact ⟨_, _, _, F1, Or.inr (Or.inr (Or.inr (show _ = lnext _ (lnext _ ⟨2, 0⟩) by rw [n3, n1])))⟩
    · exact ⟨_, _, _, F2, Or.inr (Or.inl rfl)⟩
    · exact ⟨_, _, _, B0, Or.inl (turns_cycle (turns_cycle t))⟩
    · exact ⟨_, _, _, B1, Or.inl (turns_cycle t)⟩
    · exact ⟨_, _, _, B2, Or.inl t⟩

example : newSub false ((0 : ℚ), (0 : ℚ)) (30, 0) (0, 30) ≠ none ∧
    newSub false ((0 : ℚ), (0 : ℚ)) (0, 30) (30, 0) ≠ none := by
  constructor <;> rw [newSub_eq]
  · rw [if_pos (by decide +kernel)]; nofun
  · rw [if_neg (by decide +kernel), if_pos (by decide +kernel)]; nofun

/-- **C134, one call**: for a point that is not on a side of the frame `InsertSite` does not panic.  What it
makes of a triangulation of the frame is a triangulation of the frame.  If it says no, nothing has been
changed, and the point was not found in the subdivision; if it says yes, the point has become one of the
points of the subdivision, all others are as before. -/
theorem C134_insert_one_partial (yd : Bool) (a b c : Pt K) (sd : Subdiv K) (x : Pt K)
    (h : Triangulates yd a b c sd) (hab : ¬ OnSegment x a b) (hbc : ¬ OnSegment x b c) (hca : ¬ OnSegment x c a) :
    ∃ r sd', insertSite yd sd x = some (r, sd') ∧ Triangulates yd a b c sd' ∧ sd'.start = sd.start ∧
      sd'.frame = sd.frame ∧ sd'.ptcount = sd.ptcount + 1 ∧
      (r = false → sd'.store = sd.store ∧ locate yd sd.store sd.start x (2 * (sd.ptcount + 1)) = none) ∧
      (r = true → ∀ p, Vertex sd'.store sd'.start p ↔ Vertex sd.store sd.start p ∨ p = x) := by
  have flip : ∀ {p q : Pt K}, ¬ OnSegment x p q → ¬ OnSegment x q p := by
    rintro p q h ⟨t, h0, h1, h2⟩
    refine h ⟨1 - t, by linarith, by linarith, ?_⟩
    rw [h2]
    refine Prod.ext ?_ ?_ <;> simp only <;> ring
  rcases h with h | h
  · obtain ⟨r, s2, h1, h2, h3, h4⟩ := insert_site h hab hbc hca
    exact ⟨r, _, h1, Or.inl h2, rfl, rfl, rfl, h3, h4⟩
  · obtain ⟨r, s2, h1, h2, h3, h4⟩ := insert_site h (flip hca) (flip hbc) (flip hab)
    exact ⟨r, _, h1, Or.inr h2, rfl, rfl, rfl, h3, h4⟩

/-- **C134, a history**: beginning with `New`, any number of calls of `InsertSite` for points that are not on a
side of the frame come to an end without panic.  The subdivision is a triangulation of the frame, and its
points are the corners of the frame and those points `InsertSite` said yes to. -/
theorem C134_history_partial (yd : Bool) (a b c : Pt K) (sd : Subdiv K) (h : newSub yd a b c = some sd)
    (xs : List (Pt K)) (hx : ∀ x ∈ xs, ¬ OnSegment x a b ∧ ¬ OnSegment x b c ∧ ¬ OnSegment x c a) :
    ∃ rs sd', insertAll yd sd xs = some (rs, sd') ∧ rs.length = xs.length ∧ Triangulates yd a b c sd' ∧
      sd'.start = sd.start ∧ sd'.ptcount = 3 + xs.length ∧
      ∀ p, Vertex sd'.store sd'.start p ↔ p = a ∨ p = b ∨ p = c ∨ (p, true) ∈ xs.zip rs := by
  have key : ∀ (xs : List (Pt K)) (sd : Subdiv K), Triangulates yd a b c sd →
      (∀ x ∈ xs, ¬ OnSegment x a b ∧ ¬ OnSegment x b c ∧ ¬ OnSegment x c a) →
      ∃ rs sd', insertAll yd sd xs = some (rs, sd') ∧ rs.length = xs.length ∧ Triangulates yd a b c sd' ∧
        sd'.start = sd.start ∧ sd'.ptcount = sd.ptcount + xs.length ∧
        ∀ p, Vertex sd'.store sd'.start p ↔ Vertex sd.store sd.start p ∨ (p, true) ∈ xs.zip rs := by
    intro xs
    induction xs with
    | nil => intro sd hT _; exact ⟨[], sd, rfl, rfl, hT, rfl, rfl, fun p => by simp⟩
    | cons x xs ih =>
      intro sd hT hx
      obtain ⟨x1, x2, x3⟩ := hx x (by simp)
      obtain ⟨r, sd1, g1, g2, g3, g4, g5, g6, g7⟩ := C134_insert_one_partial yd a b c sd x hT x1 x2 x3
      obtain ⟨rs, sd2, k1, k2, k3, k4, k5, k6⟩ := ih sd1 g2 (fun y hy => hx y (List.mem_cons_of_mem _ hy))
      refine ⟨r :: rs, sd2, ?_, by rw [List.length_cons, List.length_cons, k2], k3, k4.trans g3, ?_, ?_⟩
      · simp only [insertAll, g1, k1]
      · rw [k5, g5, List.length_cons]; omega
      · intro p
        rw [k6 p, List.zip_cons_cons, List.mem_cons, Prod.mk.injEq]
        cases r with
        | false =>
          rw [(g6 rfl).1, g3]
          simp
        | true =>
          rw [g7 rfl p]
          simp only [and_true]
          exact or_assoc
  obtain ⟨h1, h2⟩ := C134_new yd a b c sd h
  obtain ⟨rs, sd', k1, k2, k3, k4, k5, k6⟩ := key xs sd h1 hx
  have h3 : sd.ptcount = 3 := by
    rw [newSub_eq] at h
    split_ifs at h
    · rw [← Option.some.inj h]
    · rw [← Option.some.inj h]
  refine ⟨rs, sd', k1, k2, k3, k4, by rw [k5, h3], fun p => ?_⟩
  rw [k6, h2, or_assoc, or_assoc]

/-- Six points: the fourth is on an edge, and makes the loop turn another one; the fifth is there already;
the sixth is outside the frame. -/
example : let xs : List (Pt ℚ) := [(10, 10), (9, 1), (12, 2), (15 / 2, 15 / 2), (9, 1), (100, 100)]
    newSub false ((0 : ℚ), (0 : ℚ)) (30, 0) (0, 30) ≠ none ∧
    (∀ x ∈ xs, ¬ OnSegment x (0, 0) (30, 0) ∧ ¬ OnSegment x (30, 0) (0, 30) ∧ ¬ OnSegment x (0, 30) (0, 0)) ∧
    (insertAll false ⟨newStore (0, 0) (30, 0) (0, 30), ⟨0, 0⟩, 3, ((0, 0), (30, 0), (0, 30))⟩ xs).map (·.1) =
      some [true, true, true, true, true, false] := by
  refine ⟨?_, ?_, by decide +kernel⟩
  · rw [newSub_eq, if_pos (by decide +kernel)]; nofun
  · simp only [← Verif.Planar.isPointOnLineSegment_iff]
    decide +kernel

end Verif.Props
