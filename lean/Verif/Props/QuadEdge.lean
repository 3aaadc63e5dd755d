import Verif.Lemmas.QuadWalk

/-!
# Properties C43, C90–C96: the quad-edge structure

The operations are those of `planar/triangulate/delaunay/quadedge`.  `Reached s` ranges over every
history of making edges, setting end points, splicing, connecting, turning and deleting edges.
-/

namespace Verif.Props
open Verif.Quad Verif.Spec.Quad Verif.Lemmas.Quad

/-! ## A small subdivision for the examples -/

/-- The triangle `a b c` as `subdivision.New` builds it (three edges and three splices). -/
def exTriangle : Store Nat :=
  let r1 := newWithEndPoints Store.empty (some 0) (some 1)
  let r2 := new r1.1
  let s1 := splice r2.1 (sym r1.2) r2.2
  let s2 := endPoints s1 r2.2 (some 1) (some 2)
  let r3 := newWithEndPoints s2 (some 2) (some 0)
  let s3 := splice r3.1 (sym r2.2) r3.2
  splice s3 (sym r3.2) r1.2

theorem exTriangle_reached : Reached exTriangle := by
  refine .splice _ _ (.splice _ _ (.newWithEndPoints _ _ (.endPoints _ _ _
    (.splice _ _ (.new (.newWithEndPoints _ _ .empty)) ?_ ?_ ?_) ?_)) ?_ ?_ ?_) ?_ ?_ ?_
  all_goals decide

/-! ## C43 -/

/-- The full claim of **C43**, for splices of any two edges. -/
def C43_full : Prop :=
  ∀ (P : Type) (s : Store P), ReachedMixed s →
    Algebra s ∧ ∀ a b, Allocated s a → Allocated s b → splice (splice s a b) a b = s

/-- **C43**, for splices of two edges or of two dual edges.  After every history, the laws of the
edge algebra hold, edges and dual edges are kept apart, and splicing the same two edges twice
restores the structure. -/
theorem C43_algebra_partial {P : Type} (s : Store P) (h : Reached s) :
    Algebra s ∧ KindsApart s ∧
      ∀ a b, Allocated s a → Allocated s b → SameKind a b → splice (splice s a b) a b = s :=
  ⟨(Reached.inv h).algebra, (Reached.inv h).kind,
    fun _ _ ha hb hk => splice_splice (Reached.inv h) ha hb hk⟩

example : Reached exTriangle ∧ Allocated exTriangle ⟨0, 0⟩ ∧ Allocated exTriangle ⟨1, 2⟩ ∧
    SameKind ⟨0, 0⟩ ⟨1, 2⟩ ∧
    (splice exTriangle ⟨0, 0⟩ ⟨1, 2⟩).next ⟨0, 0⟩ ≠ exTriangle.next ⟨0, 0⟩ :=
  ⟨exTriangle_reached, by decide, by decide, by decide, by decide⟩

/-- **C43** for `Apply`: a list of operations is done from left to right, and each of the eleven is
the word in turning and stepping that Guibas and Stolfi give for it. -/
theorem C43_apply {P : Type} (s : Store P) (e : E) :
    apply s e [] = e ∧ apply s e [.Rot] = rot e ∧ apply s e [.ONext] = onext s e ∧
    (∀ a b, apply s e (a ++ b) = apply s (apply s e a) b) ∧
    apply s e [.Sym] = apply s e [.Rot, .Rot] ∧
    apply s e [.InvRot] = apply s e [.Rot, .Rot, .Rot] ∧
    apply s e [.OPrev] = apply s e [.Rot, .ONext, .Rot] ∧
    apply s e [.DNext] = apply s e [.Sym, .ONext, .Sym] ∧
    apply s e [.DPrev] = apply s e [.InvRot, .ONext, .InvRot] ∧
    apply s e [.LNext] = apply s e [.InvRot, .ONext, .Rot] ∧
    apply s e [.LPrev] = apply s e [.ONext, .Sym] ∧
    apply s e [.RNext] = apply s e [.Rot, .ONext, .InvRot] ∧
    apply s e [.RPrev] = apply s e [.Sym, .ONext] := by
  refine ⟨rfl, rfl, rfl, fun a b => List.foldl_append .., ?_, ?_, rfl, rfl, rfl, rfl, rfl, rfl, rfl⟩
  · obtain ⟨q, n⟩ := e
    revert n
    simp only [apply, List.foldl, apply1]
    intro n
    match n with
    | 0 | 1 | 2 | 3 => rfl
  · obtain ⟨q, n⟩ := e
    simp only [apply, List.foldl, apply1]
    match n with
    | 0 | 1 | 2 | 3 => rfl

example : apply exTriangle ⟨0, 0⟩ [.LNext, .Sym] ≠ apply exTriangle ⟨0, 0⟩ [.Sym, .LNext] := by decide

/-- **C43** does not hold when an edge is spliced with a dual edge: after splicing an edge with its
own dual edge and then with another edge, previous no longer undoes next. -/
theorem C43_violated : ¬ C43_full := by
  intro h
  have hr : ReachedMixed (splice (splice (new (new (Store.empty : Store Nat)).1).1
      ⟨0, 0⟩ ⟨0, 1⟩) ⟨0, 0⟩ ⟨1, 0⟩) := by
    refine .splice _ _ (.splice _ _ (.new (.new .empty)) ?_ ?_) ?_ ?_
    all_goals decide
  have := (h Nat _ hr).1.oprev_onext ⟨1, 1⟩
  revert this
  decide

/-! ## C90 -/

/-- **C90**: a splice of two edges joins the two rings around their origins if they are different,
and cuts the ring in two, with the one edge on each, if it is the same; all other rings stay.  The
same holds of the rings around the faces to their left. -/
theorem C90_splice_rings {P : Type} (s : Store P) (h : Reached s) (a b : E) (ha : Allocated s a)
    (hb : Allocated s b) (hk : SameKind a b) (hne : a ≠ b) :
    (¬ Around s a b → Joined (Around s) (Around (splice s a b)) a b) ∧
    (Around s a b → ¬ Around (splice s a b) a b ∧ Joined (Around (splice s a b)) (Around s) a b) ∧
    (¬ AroundFace s a b → Joined (AroundFace s) (AroundFace (splice s a b)) a b) ∧
    (AroundFace s a b →
      ¬ AroundFace (splice s a b) a b ∧ Joined (AroundFace (splice s a b)) (AroundFace s) a b) :=
  ⟨merge (Reached.inv h) ha hb hk, split (Reached.inv h) ha hb hk hne,
    face_merge (Reached.inv h) ha hb hk, face_split (Reached.inv h) ha hb hk hne⟩

/-- Being around the same vertex, and around the same face, are equivalences, so that one may speak
of rings. -/
theorem C90_rings {P : Type} (s : Store P) (h : Reached s) :
    Equivalence (Around s) ∧ Equivalence (AroundFace s) := by
  have hi := Reached.inv h
  refine ⟨⟨fun _ => .refl, fun h1 => hi.around_symm h1, fun h1 h2 => around_trans h1 h2⟩,
    ⟨fun _ => .refl, fun {x y} h1 => ?_, fun {x y z} h1 h2 => ?_⟩⟩
  · rw [hi.face_iff] at h1 ⊢; exact hi.around_symm h1
  · rw [hi.face_iff] at h1 h2 ⊢; exact around_trans h1 h2

/-- In the triangle, the edge `ab` and the reverse of `ca` start at `a`; the edges `ab` and `bc` do
not start at the same corner but have the same face to their left. -/
example : Around exTriangle ⟨0, 0⟩ ⟨2, 2⟩ ∧ ¬ Around exTriangle ⟨0, 0⟩ ⟨1, 0⟩ ∧
    AroundFace exTriangle ⟨0, 0⟩ ⟨1, 0⟩ ∧ ¬ AroundFace exTriangle ⟨0, 0⟩ ⟨0, 2⟩ := by
  have h := Reached.inv exTriangle_reached
  have r : ∀ y, Around exTriangle ⟨0, 0⟩ y → y = ⟨0, 0⟩ ∨ y = ⟨2, 2⟩ := by
    intro y hy
    induction hy with
    | refl => exact Or.inl rfl
    | next _ ih => rcases ih with rfl | rfl <;> decide
  have f : ∀ y, AroundFace exTriangle ⟨0, 0⟩ y → y = ⟨0, 0⟩ ∨ y = ⟨1, 0⟩ ∨ y = ⟨2, 0⟩ := by
    intro y hy
    induction hy with
    | refl => exact Or.inl rfl
    | next _ ih => rcases ih with rfl | rfl | rfl <;> decide
  refine ⟨?_, fun h1 => absurd (r _ h1) (by decide), ?_, fun h1 => absurd (f _ h1) (by decide)⟩
  · have : onext exTriangle ⟨0, 0⟩ = ⟨2, 2⟩ := by decide
    rw [← this]; exact .next .refl
  · have : lnext exTriangle ⟨0, 0⟩ = ⟨1, 0⟩ := by decide
    rw [← this]; exact .next .refl

/-! ## C91 -/

/-- **C91**: after `Delete` the edge is alone at both its ends, and for every other edge the next
around its origin is the one that came next when the edges of the deleted one are passed over; end
points are as they were. -/
theorem C91_delete {P : Type} (s : Store P) (h : Reached s) (e : E) (he : Allocated s e) :
    onext (delete s e) e = e ∧ onext (delete s e) (sym e) = sym e ∧
    (∀ x y, SameKind x e → x.q ≠ e.q →
      (onext (delete s e) x = y ↔ FirstAfterSkipping s e.q x y)) ∧
    ∀ x, orig (delete s e) x = orig s x :=
  ⟨delete_self (Reached.inv h) he, delete_sym (Reached.inv h) he,
    fun _ _ hk hq => (delete_skip_iff (Reached.inv h) he hk hq).symm,
    fun x => congrFun (delete_v s e) x⟩

example : FirstAfterSkipping exTriangle 0 ⟨2, 2⟩ ⟨2, 2⟩ ∧
    onext (delete exTriangle ⟨0, 0⟩) ⟨2, 2⟩ = ⟨2, 2⟩ := by
  refine ⟨.skip (by decide) ?_, by decide⟩
  have h1 : onext exTriangle ⟨2, 2⟩ = ⟨0, 0⟩ := by decide
  have h2 : onext exTriangle ⟨0, 0⟩ = ⟨2, 2⟩ := by decide
  rw [h1]
  conv => arg 4; rw [← h2]
  exact .here (by decide)

/-! ## C92 -/

/-- **C92**: `Connect`, once the edge `b` at the far end is chosen, makes an edge that was not there
from the destination of `a` to the origin of `b`; the three follow each other around one left face;
passing over the new edge, the order around every vertex is as before, and so are all end points. -/
theorem C92_connect {P : Type} (s : Store P) (h : Reached s) (a b : E) (ha : Allocated s a)
    (hb : Allocated s b) (ka : Primal a) (kb : Primal b) :
    let r := connectTo s a b
    ¬ Allocated s r.2 ∧ Allocated r.1 r.2 ∧
    orig r.1 r.2 = dest s a ∧ dest r.1 r.2 = orig s b ∧
    lnext r.1 a = r.2 ∧ lnext r.1 r.2 = b ∧
    (∀ x y, Primal x → Allocated s x →
      (FirstAfterSkipping r.1 r.2.q x y ↔ onext s x = y)) ∧
    ∀ x, Allocated s x → orig r.1 x = orig s x := by
  have hi := Reached.inv h
  refine ⟨Nat.lt_irrefl _, Nat.lt_succ_self _, ?_, ?_, connect_lnext_a hi ha hb ka kb,
    connect_lnext_e hi ha hb ka kb, ?_, ?_⟩
  · show (connectTo s a b).1.v ⟨s.size, 0⟩ = _
    rw [connect_v, newE_v_self]
  · show (connectTo s a b).1.v (sym ⟨s.size, 0⟩) = _
    rw [connect_v, newE_v_sym]
  · intro x y kx hx
    have := connect_skip hi ha hb ka kb kx hx
    exact ⟨fun h1 => skip_unique this h1, fun h1 => h1 ▸ this⟩
  · intro x hx
    show (connectTo s a b).1.v x = _
    rw [connect_v, newE_v _ _ hx]; rfl

example : let r := connectTo (newWithEndPoints exTriangle (some 0) (some 3)).1 ⟨0, 0⟩ ⟨3, 2⟩
    (orig r.1 r.2, dest r.1 r.2, lnext r.1 ⟨0, 0⟩, lnext r.1 r.2) =
      (some 1, some 3, ⟨4, 0⟩, ⟨3, 2⟩) := by
  decide

/-! ## C93 -/

/-- **C93**: `Swap` turns an edge inside the quadrilateral made by its two faces.  Its new ends are
the far ends of the edges before it at its two ends; it now follows each of those two around their
left faces; passing over it, the order around every vertex is as before, and so are all other end
points. -/
theorem C93_swap {P : Type} (s : Store P) (h : Reached s) (e : E) (he : Allocated s e)
    (hT : Turnable s e) :
    orig (swap s e) e = dest s (oprev s e) ∧ dest (swap s e) e = dest s (oprev s (sym e)) ∧
    lnext (swap s e) (oprev s e) = e ∧ lnext (swap s e) (oprev s (sym e)) = sym e ∧
    (∀ x y, SameKind x e → x.q ≠ e.q →
      (FirstAfterSkipping (swap s e) e.q x y ↔ FirstAfterSkipping s e.q x y)) ∧
    ∀ x, x.q ≠ e.q → orig (swap s e) x = orig s x :=
  ⟨swap_orig e, swap_dest e, swap_lnext_a (Reached.inv h) he hT, swap_lnext_b (Reached.inv h) he hT,
    fun _ _ hk hq => swap_skip_iff (Reached.inv h) he hT hk hq, fun _ hq => swap_v_other e hq⟩

/-- Two triangles 0 1 2 and 0 2 3 with the edge 2 0 between them. -/
def exQuad : Store Nat :=
  let r := newWithEndPoints exTriangle (some 0) (some 3)
  let s := splice r.1 r.2 ⟨2, 2⟩
  (connectTo s r.2 ⟨1, 2⟩).1

theorem exQuad_reached : Reached exQuad := by
  refine .connect _ _ (.splice _ _ (.newWithEndPoints _ _ exTriangle_reached) ?_ ?_ ?_) ?_ ?_ ?_ ?_
  all_goals decide

example : Reached exQuad ∧ Allocated exQuad ⟨2, 0⟩ ∧ Turnable exQuad ⟨2, 0⟩ ∧
    (orig exQuad ⟨2, 0⟩, dest exQuad ⟨2, 0⟩) = (some 2, some 0) ∧
    (orig (swap exQuad ⟨2, 0⟩) ⟨2, 0⟩, dest (swap exQuad ⟨2, 0⟩) ⟨2, 0⟩) = (some 3, some 1) :=
  ⟨exQuad_reached, by decide, by decide, by decide, by decide⟩

/-! ## C94 -/

/-- **C94**: if edges are only spliced when they name the same origin, then after every history of
making, splicing, connecting, turning and deleting edges all edges around a vertex name the same
origin. -/
theorem C94_origins {P : Type} (s : Store P) (h : Built s) : OriginsAgree s :=
  (Built.inv_origins h).2

example : Built exQuad ∧ Around exQuad ⟨0, 0⟩ ⟨3, 0⟩ ∧ orig exQuad ⟨3, 0⟩ = some 0 := by
  have hT : Built exTriangle := by
    have e : exTriangle = splice (splice (newWithEndPoints
        (splice (newWithEndPoints (newWithEndPoints Store.empty (some 0) (some 1)).1
          (some 1) (some 2)).1 ⟨0, 2⟩ ⟨1, 0⟩) (some 2) (some 0)).1 ⟨1, 2⟩ ⟨2, 0⟩) ⟨2, 2⟩ ⟨0, 0⟩ := by
      rfl
    rw [e]
    refine .splice _ _ (.splice _ _ (.newWithEndPoints _ _ (.splice _ _ (.newWithEndPoints _ _
      (.newWithEndPoints _ _ .empty)) ?_ ?_ ?_ ?_ ?_)) ?_ ?_ ?_ ?_ ?_) ?_ ?_ ?_ ?_ ?_
    all_goals decide
  refine ⟨?_, ?_, by decide⟩
  · refine .connect _ _ (.splice _ _ (.newWithEndPoints _ _ hT) ?_ ?_ ?_ ?_ ?_) ?_ ?_ ?_ ?_
    all_goals decide
  · have h1 : onext exQuad (onext exQuad ⟨0, 0⟩) = ⟨3, 0⟩ := by decide
    rw [← h1]; exact .next (.next .refl)

/-! ## C95 -/

/-- Around every origin there is one way to go once round, and it meets exactly the edges with that
origin; the other way round meets the same edges. -/
theorem C95_once_round {P : Type} (s : Store P) (h : Reached s) (e : E) :
    (∃ L, OnceRound (onext s) e L ∧ (∀ L', OnceRound (onext s) e L' → L' = L) ∧
      ∀ y, y ∈ L ↔ Around s e y) ∧
    ∃ L, OnceRound (oprev s) e L ∧ (∀ L', OnceRound (oprev s) e L' → L' = L) ∧
      ∀ y, y ∈ L ↔ Around s e y := by
  have hi := Reached.inv h
  obtain ⟨L, hL⟩ := around_onceRound hi e
  obtain ⟨M, hM⟩ := oprev_onceRound hi e
  exact ⟨⟨L, hL, fun _ h' => onceRound_unique h' hL, fun _ => mem_round hL⟩,
    ⟨M, hM, fun _ h' => onceRound_unique h' hM, fun _ => mem_round_oprev hi hM⟩⟩

/-- The full claim of **C95** for the walk: it calls the function with every edge around the origin,
once each and in order, until told to stop. -/
def C95_full : Prop :=
  ∀ (P : Type) (s : Store P), Reached s → ∀ e, Allocated s e → ∀ (cont : E → Bool) (L : List E),
    OnceRound (onext s) e L → walkAllONext s cont e = upTo cont L

/-- **C95**, for origins at which no edge has both its ends: the walks with `ONext` and with `OPrev`
call the function with every edge around the origin, once each and in order, until told to stop. -/
theorem C95_walk_partial {P : Type} (s : Store P) (h : Reached s) (e : E) (he : Allocated s e)
    (hl : ∀ x y, Around s e x → Around s e y → x.q = y.q → x = y) (cont : E → Bool) :
    (∀ L, OnceRound (onext s) e L → walkAllONext s cont e = upTo cont L) ∧
    ∀ L, OnceRound (oprev s) e L → walkAllOPrev s cont e = upTo cont L := by
  have hi := Reached.inv h
  constructor
  · intro L hL
    unfold walkAllONext
    rw [walkONext_eq]
    refine walk_all hL ?_ (fun x hx => round_alloc hi he ((mem_round hL).1 hx)) cont
    rw [List.nodup_map_iff_inj_on hL.2.2.1]
    intro x hx y hy hq
    exact hl x y ((mem_round hL).1 hx) ((mem_round hL).1 hy) hq
  · intro L hL
    unfold walkAllOPrev
    rw [walkOPrev_eq]
    refine walk_all hL ?_ (fun x hx => round_alloc hi he ((mem_round_oprev hi hL).1 hx)) cont
    rw [List.nodup_map_iff_inj_on hL.2.2.1]
    intro x hx y hy hq
    exact hl x y ((mem_round_oprev hi hL).1 hx) ((mem_round_oprev hi hL).1 hy) hq

example : OnceRound (onext exQuad) ⟨0, 0⟩ [⟨0, 0⟩, ⟨2, 2⟩, ⟨3, 0⟩] ∧
    walkAllONext exQuad (fun _ => true) ⟨0, 0⟩ = [⟨0, 0⟩, ⟨2, 2⟩, ⟨3, 0⟩] ∧
    walkAllONext exQuad (fun x => decide (x.q ≠ 2)) ⟨0, 0⟩ = [⟨0, 0⟩, ⟨2, 2⟩] ∧
    walkAllOPrev exQuad (fun _ => true) ⟨0, 0⟩ = [⟨0, 0⟩, ⟨3, 0⟩, ⟨2, 2⟩] := by
  refine ⟨⟨by decide, by decide, by decide, by decide⟩, by decide, by decide, by decide⟩

/-- **C95** does not hold where an edge has both its ends at the origin: the walk stops when it meets
the other end. -/
theorem C95_violated : ¬ C95_full := by
  intro h
  have hr : Reached (splice (new (Store.empty : Store Nat)).1 ⟨0, 0⟩ ⟨0, 2⟩) := by
    refine .splice _ _ (.new .empty) ?_ ?_ ?_
    all_goals decide
  have := h Nat _ hr ⟨0, 0⟩ (by decide) (fun _ => true) [⟨0, 0⟩, ⟨0, 2⟩]
    ⟨by decide, by decide, by decide, by decide⟩
  revert this
  decide

/-- **C95**: `FindONextDest` answers with the first edge around the origin, going round with `ONext`,
that has the destination looked for, and with nil if there is none. -/
theorem C95_find_destination {P : Type} (s : Store P) (h : Reached s) (e : E) (he : Allocated s e)
    (hd : ∀ x, Around s e x → dest s x ≠ none) (hit : P → Bool) (L : List E)
    (hL : OnceRound (onext s) e L) :
    findONextDest s hit e = some (L.find? fun x => (dest s x).elim false hit) := by
  have hi := Reached.inv h
  exact find_all hL (fun x hx => round_alloc hi he ((mem_round hL).1 hx))
    (fun x hx => hd x ((mem_round hL).1 hx))

example : findONextDest exQuad (fun p => p == 3) ⟨0, 0⟩ = some (some ⟨3, 0⟩) ∧
    findONextDest exQuad (fun p => p == 0) ⟨0, 0⟩ = some none := by decide

/-! ## C96 -/

/-- **C96**: after every history of pushes and pops, `Pop` gives the edge pushed last of those that
have not been popped, nil if there is none, and `Length` their number. -/
theorem C96_stack (ops : List (Option E)) :
    (pop (stackRun [] ops)).1 = (stackSpec [] ops).head? ∧
      (stackRun [] ops).length = (stackSpec [] ops).length := by
  have key : ∀ (ops : List (Option E)) (st : List E),
      stackRun st ops = (stackSpec st.reverse ops).reverse := by
    intro ops
    induction ops with
    | nil => intro st; simp [stackRun, stackSpec]
    | cons o ops ih =>
      intro st
      cases o with
      | none =>
        simp only [stackRun, stackSpec, ih, pop]
        rw [List.tail_reverse]
      | some e =>
        simp only [stackRun, stackSpec, ih, push]
        rw [List.reverse_append]; rfl
  have := key ops []
  rw [List.reverse_nil] at this
  rw [this]
  simp [pop]

example : (pop (stackRun [] [some ⟨0, 0⟩, some ⟨1, 0⟩, some ⟨2, 0⟩, none])).1 = some ⟨1, 0⟩ := by
  decide

end Verif.Props
