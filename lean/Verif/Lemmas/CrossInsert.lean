import Verif.Lemmas.CrossSplit
import Verif.Props.SubWalk

/-!
# Helper lemmas: `InsertConstraint` where one edge is crossed
-/

namespace Verif.Lemmas.CrossInsert
open Verif.Quad Verif.Spec.Quad Verif.Lemmas.Quad Verif.Spec.Subdivision Verif.Subdivision
open Verif.Resolve Verif.Spec.Resolve Verif.Lemmas.Resolve Verif.Lemmas.SubLocate Verif.Lemmas.SubTables
open Verif.Lemmas.SubFan Verif.Lemmas.SubWalk Verif.Lemmas.SubMesh Verif.Lemmas.SubCover
open Verif.Lemmas.SubDelaunay Verif.Lemmas.SubRing Verif.Lemmas.CrossGeom Verif.Lemmas.CrossCells
open Verif.Lemmas.CrossWalk Verif.Lemmas.CrossSplit Verif.Spec.Constrained Verif.Constrained

set_option linter.unusedSectionVars false

variable {K : Type} [Field K] [LinearOrder K] [IsStrictOrderedRing K]
variable {yd : Bool} {f0 f1 f2 : Pt K} {s s0 : Store (Pt K)} {z : E} {S T : Pt K}

attribute [local irreducible] splice delete swap connectTo

/-- What finding edges needs. -/
structure Net (s : Store (Pt K)) (z : E) : Prop where
  inv : Inv s
  alloc : z.q < s.size
  orig : ∀ y, Connected s z y → orig s y ≠ none
  ring : ∀ x y, Connected s z x → Connected s z y → Quad.orig s y = Quad.orig s x → Around s x y

theorem net_of (hT : Triangulated yd f0 f1 f2 s z) : Net s z := by
  refine ⟨Reached.inv hT.reached, hT.alloc, fun y hy => ?_, fun x y hx hy h => same_ring hT hx hy h⟩
  obtain ⟨_, _, _, hf, _⟩ := hT.face y hy
  rw [hf.2.1]; nofun

theorem find_cases (hN : Net s z) {x : E} (hx : Connected s z x) {u : Pt K} (ho : orig s x = some u) (w : Pt K) :
    ((∃ y, Connected s z y ∧ orig s y = some u ∧ dest s y = some w) →
      ∃ f, findONextDest s (fun p => decide (p = w)) x = some (some f)) ∧
    ((¬ ∃ y, Connected s z y ∧ orig s y = some u ∧ dest s y = some w) → (∀ y, Around s x y → orig s y = some u) →
      findONextDest s (fun p => decide (p = w)) x = some none) := by
  have hi := hN.inv
  obtain ⟨L, hL⟩ := around_onceRound hi x
  have hc : ∀ y ∈ L, Connected s z y := fun y hy => around_connected hx ((mem_round hL).1 hy)
  have hf := find_all (hit := fun p => decide (p = w)) hL (fun y hy => connected_alloc hi (hc y hy) hN.alloc)
    (fun y hy => hN.orig _ (hc y hy).sym)
  rw [hf]
  constructor
  · rintro ⟨y, hy, oy, dy⟩
    have hm : y ∈ L := (mem_round hL).2 (hN.ring x y hx hy (oy.trans ho.symm))
    cases h : L.find? fun x => (dest s x).elim false fun p => decide (p = w) with
    | some f => exact ⟨f, rfl⟩
    | none =>
      rw [List.find?_eq_none] at h
      have := h _ hm
      rw [dy] at this
      simp at this
  · intro hno hr
    congr 1
    rw [List.find?_eq_none]
    intro y hy h
    cases hd : dest s y with
    | none => rw [hd] at h; cases h
    | some w' =>
      rw [hd] at h
      simp at h
      subst h
      exact hno ⟨y, hc y hy, hr y ((mem_round hL).1 hy), hd⟩

/-- An edge that there is already is not inserted. -/
theorem insertEdge_joined {rnd : Pt K → Pt K} (hN : Net s z) {vx : VertexIndex K}
    (hF : Finds rnd s (Connected s z) (viGet rnd vx)) (hr : ∀ p, Vertex s z p → rnd p = p) {u w : Pt K}
    (hj : ∃ y, Connected s z y ∧ orig s y = some u ∧ dest s y = some w) :
    insertEdge rnd yd s vx u w = some (none, s, vx) := by
  obtain ⟨y, hy, oy, dy⟩ := hj
  have ru : rnd u = u := hr u ⟨y, hy, oy⟩
  have rw' : rnd w = w := hr w ⟨sym y, hy.sym, dy⟩
  unfold insertEdge
  simp only [ru, rw']
  cases hg : viGet rnd vx u with
  | none => exact absurd hg (hF.2 u y u hy oy rfl)
  | some x =>
    obtain ⟨hx, o, ho, hro⟩ := hF.1 u x hg
    rw [ru, hr o ⟨x, hx, ho⟩] at hro
    subst hro
    obtain ⟨f, hf⟩ := (find_cases hN hx ho w).1 ⟨y, hy, oy, dy⟩
    simp only [hf]

/-- Going round a vertex once an edge has been taken out. -/
theorem around_delete (hi : Inv s) {e : E} (he : e.q < s.size) (ke : Primal e) {x : E} (kx : Primal x)
    (hx : x.q ≠ e.q) {y : E} (h : Around s x y) :
    (y.q ≠ e.q → Around (delete s e) x y) ∧
    (y.q = e.q → ∃ w, Primal w ∧ w.q ≠ e.q ∧ Around (delete s e) x w ∧
      ∀ v, FirstAfterSkipping s e.q y v → FirstAfterSkipping s e.q w v) := by
  have step : ∀ {w v : E}, Primal w → w.q ≠ e.q → Around (delete s e) x w → FirstAfterSkipping s e.q w v →
      Around (delete s e) x v := by
    intro w v kw hw ha hv
    rw [delete_skip_iff hi he (iff_of_true kw ke) hw] at hv
    rw [← hv]
    exact .next ha
  induction h with
  | refl => exact ⟨fun _ => .refl, fun h => absurd h hx⟩
  | @next y h ih =>
    have ky : Primal y := (around_primal hi h).2 kx
    by_cases hy : y.q = e.q
    · obtain ⟨w, kw, hw, aw, f⟩ := ih.2 hy
      exact ⟨fun hn => step kw hw aw (f _ (.here hn)), fun hn => ⟨w, kw, hw, aw, fun v hv => f v (.skip hn hv)⟩⟩
    · exact ⟨fun hn => step ky hy (ih.1 hy) (.here hn), fun hn => ⟨y, ky, hy, ih.1 hy, fun v hv => .skip hn hv⟩⟩

/-- Resolving an edge goes by what is around its origin. -/
theorem resolve_congr {s s' : Store (Pt K)} (hs : s'.size = s.size) {g : E} (ho : orig s' g = orig s g)
    (hd : ∀ y, dest s' y = dest s y) (hr : ∀ y, Around s g y → onext s' y = onext s y) (d : Pt K) :
    resolveEdge (fun p q => decide (p = q)) yd s' g d = resolveEdge (fun p q => decide (p = q)) yd s g d := by
  have loop : ∀ (o : Pt K) (n : Nat) (seen : List Nat) (y : E), Around s g y →
      resolveLoop yd s' o d n seen y = resolveLoop yd s o d n seen y := by
    intro o n
    induction n with
    | zero => intro _ _ _; rfl
    | succ n ih =>
      intro seen y hy
      rw [resolveLoop, resolveLoop, hr y hy, hd, hd, ih _ _ (.next hy)]
  unfold resolveEdge
  rw [ho, hs]
  cases orig s g with
  | none => rfl
  | some o => simp only [loop o _ _ g .refl]

/-! ## The sides -/

theorem side_edges {x : Pt K} {c : Collector K} {upper : Bool} (h : (if upper then c.upper else c.lower) = [S, x])
    (hne : S ≠ T) (hx : area yd S T x ≠ 0) :
    collectorEdges yd S T c upper = .ok [(S, x), (x, T), (T, S)] := by
  have h1 : S ≠ x := by rintro rfl; exact hx (area_self0 yd S T).1
  have h2 : x ≠ T := by rintro rfl; exact hx (area_self0 yd S x).2
  have ho : Winding.orientation yd [S, x, T] ≠ Winding.colinear := by
    rw [show Winding.colinear = 0 from rfl, Ne, Winding.orientation_zero, area3']
    intro h0
    apply hx
    unfold area wedge arrow
    cases yd <;> simp <;> linarith
  unfold collectorEdges
  rw [h]
  simp [hne.symm, PseudoPolygon.triangulate, PseudoPolygon.triangulateN, PseudoPolygon.subRings,
    PseudoPolygon.subLoop, PseudoPolygon.setSeen, PseudoPolygon.triRest, PseudoPolygon.at', h1, h1.symm, h2, h2.symm, ho]

/-- The points at the ends of the edge are gathered on different sides. -/
theorem add_points {p q : Pt K} (h1 : 0 < area yd S T p) (h2 : area yd S T q < 0) :
    (addPoint S T (addPoint S T ⟨[], []⟩ p) q : Collector K) =
      if yd then ⟨[S, p], [S, q]⟩ else ⟨[S, q], [S, p]⟩ := by
  have n1 : p ≠ S := by rintro rfl; exact h1.ne' (area_self0 yd p T).1
  have n2 : q ≠ S := by rintro rfl; exact h2.ne (area_self0 yd q T).1
  unfold area wedge arrow at h1 h2
  cases yd
  · simp only [Bool.false_eq_true, if_false] at h1 h2 ⊢
    have c1 : classify (fun a b => decide (a = b)) p S T = .left := by
      unfold classify; rw [if_pos (by simpa using h1)]
    have c2 : classify (fun a b => decide (a = b)) q S T = .right := by
      unfold classify; rw [if_neg (by simpa using h2.le), if_pos (by simpa using h2)]
    simp [addPoint, n1, n2, c1, c2]
  · simp only [if_true] at h1 h2 ⊢
    have c1 : classify (fun a b => decide (a = b)) p S T = .right := by
      unfold classify; rw [if_neg (by simp; linarith), if_pos (by simp; linarith)]
    have c2 : classify (fun a b => decide (a = b)) q S T = .left := by
      unfold classify; rw [if_pos (by simp; linarith)]
    simp [addPoint, n1, n2, c1, c2]

theorem hard_frame (hT : Triangulated yd f0 f1 f2 s z) (hS : Vertex s z S) (hT' : Vertex s z T)
    {frame : Pt K × Pt K × Pt K}
    (hfr : ∀ v, v = frame.1 ∨ v = frame.2.1 ∨ v = frame.2.2 → v = f0 ∨ v = f1 ∨ v = f2)
    {e : E} {p q : Pt K} (h : Front yd s z S T e p q) : isHardFrameEdge frame s e = some false := by
  unfold isHardFrameEdge
  rw [h.orig, h.dest]
  simp only [isFramePoint, List.any_cons, List.any_nil, Bool.or_false, Option.some.injEq]
  rw [← Bool.not_eq_true]
  intro hh
  simp only [Bool.and_eq_true, Bool.or_eq_true, decide_eq_true_eq, or_assoc] at hh
  obtain ⟨a0, a1, a2⟩ := vertex_inFrame hT hS
  obtain ⟨b0, b1, b2⟩ := vertex_inFrame hT hT'
  have k1 := h.behind
  have k2 := h.ahead
  have hp := hfr p hh.1
  have hq := hfr q hh.2
  have r1 : ∀ a b x : Pt K, area yd b a x = - area yd a b x := fun a b x => area_rev yd a b x
  have g1 := r1 p q S
  have g2 := r1 p q T
  rcases hp with rfl | rfl | rfl <;> rcases hq with rfl | rfl | rfl <;> linarith

/-! ## One edge crossed -/

/-- The segment crosses one edge only: it goes from one of the triangles beside it to the other. -/
theorem one_front (hT : Triangulated yd f0 f1 f2 s z) {x : E} {a b : Pt K} (hx : Inner s z x)
    (hf : FaceOf s x S a b) (h1 : 0 < area yd S a T) (h2 : 0 < area yd b S T) (h3 : area yd a b T < 0)
    (hvT : Vertex s z T) (hne : S ≠ T) (hc : Clear s z S T) {e : E} (hL : CrossedInOrder yd s z S T [e]) :
    Front yd s z S T e b a ∧ FaceOf s e b a T ∧ FaceOf s (sym e) a b S := by
  have hi := Reached.inv hT.reached
  have only : ∀ {y p q}, Front yd s z S T y p q → y = e := by
    intro y p q h
    rcases hL.complete y h.conn ⟨_, h.crosses⟩ with g | g
    · exact List.mem_singleton.1 g
    · exfalso
      have g := List.mem_singleton.1 g
      obtain ⟨_, _, p', ho, ht⟩ := hL.sound e (List.mem_singleton.2 rfl)
      rw [← g] at ho
      obtain rfl := Option.some.inj (ho.symm.trans h.dest)
      have : 0 < area yd S T p' := ht
      exact lt_asymm this h.right
  obtain ⟨F, _⟩ := first_front hT hx hf h1 h2 h3
  obtain rfl := only F
  refine ⟨F, ?_, by rw [sym_sym]; exact face_rot hi hf⟩
  obtain ⟨r, hr, hin⟩ := front_face hT hvT F
  rcases front_step hT hvT hne hc F hr hin with ⟨rfl, _⟩ | ⟨_, _, F', hlt, _⟩ | ⟨_, _, F', hlt, _⟩
  · exact hr
  · exfalso
    have := only F'
    have hd := F'.dest
    rw [this] at hd
    obtain rfl := Option.some.inj (hd.symm.trans F.dest)
    exact lt_irrefl _ hlt
  · exfalso
    have := only F'
    have hd := F'.orig
    rw [this] at hd
    obtain rfl := Option.some.inj (hd.symm.trans F.orig)
    exact lt_irrefl _ hlt

/-- Around a vertex that the edge does not end at, taking it out changes nothing. -/
theorem ring_kept (hT : Triangulated yd f0 f1 f2 s z) {e : E} (he : Connected s z e) {p q v : Pt K}
    (ho : orig s e = some p) (hd : dest s e = some q) (hp : v ≠ p) (hq : v ≠ q) {x : E} (hx : Connected s z x)
    (hv : orig s x = some v) {y : E} (hy : Around s x y) : onext (delete s e) y = onext s y := by
  have hi := Reached.inv hT.reached
  have pr : ∀ {y}, Connected s z y → Primal y := fun h => (connected_primal hi h).2 hT.primal
  have al : ∀ {y}, Connected s z y → y.q < s.size := fun h => connected_alloc hi h hT.alloc
  have off : ∀ {y}, Around s x y → y.q ≠ e.q := by
    intro y hy hqq
    have oy : orig s y = some v := (hT.agree x y (pr hx) hy).trans hv
    rcases same_quad hqq (iff_of_true (pr (around_connected hx hy)) (pr he)) with rfl | rfl
    · exact hp (Option.some.inj (oy.symm.trans ho))
    · exact hq (Option.some.inj (oy.symm.trans hd))
  exact (delete_skip_iff hi (al he) (iff_of_true (pr (around_connected hx hy)) (pr he)) (off hy)).1
    (.here (off (.next hy)))

/-- What is found at a vertex whose ring is kept. -/
theorem resolve_kept (hT : Triangulated yd f0 f1 f2 s z) {e : E} (he : Connected s z e) {p q v : Pt K}
    (ho : orig s e = some p) (hd : dest s e = some q) (hp : v ≠ p) (hq : v ≠ q) {x : E} (hx : Connected s z x)
    (hv : orig s x = some v) (w : Pt K) :
    resolveEdge (fun p q => decide (p = q)) yd (delete s e) x w =
      resolveEdge (fun p q => decide (p = q)) yd s x w :=
  resolve_congr (delete_size s e) (by unfold orig; rw [delete_v]) (fun y => by unfold dest orig; rw [delete_v])
    (fun _ hy => ring_kept hT he ho hd hp hq hx hv hy) w

/-- The direction of a vertex, with no edge to it. -/
theorem resolve_cone (hT : Triangulated yd f0 f1 f2 s z) {x y : E} (hx : Connected s z x) (ho : orig s x = some S)
    (hv : Vertex s z T) (hne : S ≠ T) (hc : Clear s z S T)
    (hno : ¬ ∃ y, Connected s z y ∧ orig s y = some S ∧ dest s y = some T) {a b : Pt K} (hy : Inner s z y)
    (hf : FaceOf s y S a b) (h1 : 0 < area yd S a T) (h2 : 0 < area yd b S T) :
    resolveEdge (fun p q => decide (p = q)) yd s x T = .edge y := by
  obtain ⟨x', ⟨_, g1, g2, g3⟩ | ⟨h, a', b', g1, g2, g3, g4, _⟩⟩ := resolve_cases hT hx ho hv hne hc
  · exact absurd ⟨x', g1, g2, g3⟩ hno
  · rw [h, cone_unique hT hy g1 hf g2 h1 h2 g3 g4]

theorem clear_symm (hc : Clear s z S T) : Clear s z T S := by
  rintro p hp ⟨t, t0, t1, ht⟩
  refine hc p hp ⟨1 - t, by linarith, by linarith, ?_⟩
  unfold AtParam at *
  rw [ht]
  refine Prod.ext ?_ ?_ <;> simp <;> ring

/-- One edge between two points. -/
theorem edge_unique (hT : Triangulated yd f0 f1 f2 s z) {y y' : E} (hy : Connected s z y) (hy' : Connected s z y')
    {u w : Pt K} (h1 : orig s y = some u) (h2 : dest s y = some w) (h1' : orig s y' = some u)
    (h2' : dest s y' = some w) : y' = y := by
  have hu : u ≠ w := by
    obtain ⟨o, d, t, hf, _⟩ := hT.face y hy
    have hn := face_flat hT hy hf
    obtain rfl := Option.some.inj (h1.symm.trans hf.2.1)
    obtain rfl := Option.some.inj (h2.symm.trans (face_dest (Reached.inv hT.reached) hT.agree
      ((connected_primal (Reached.inv hT.reached) hy).2 hT.primal) hf))
    rintro rfl
    have := area_rev yd u u t
    exact hn (by linarith)
  rcases edges_apart hT hy ⟨u, w, 1 / 2, h1, h2, by norm_num, by norm_num, rfl⟩ hy'
    ⟨u, w, 1 / 2, h1', h2', by norm_num, by norm_num, rfl⟩ with g | g
  · exact g
  · exfalso
    rw [g] at h1'
    exact hu (Option.some.inj (h1'.symm.trans h2))

theorem _root_.Verif.Spec.Constrained.Joined.symm {u w : Pt K} (h : Joined s z u w) : Joined s z w u := by
  obtain ⟨y, h1, h2, h3⟩ := h
  exact ⟨sym y, h1.sym, h3, by unfold dest; rw [sym_sym]; exact h2⟩

theorem side_inserts {rnd : Pt K → Pt K} {x : Pt K} {c : Collector K} {upper : Bool} {vx vx' : VertexIndex K}
    {s s' : Store (Pt K)} (h : (if upper then c.upper else c.lower) = [S, x]) (hne : S ≠ T)
    (hx : area yd S T x ≠ 0) (h1 : insertEdge rnd yd s vx S x = some (none, s, vx))
    (h2 : insertEdge rnd yd s vx x T = some (none, s, vx))
    (h3 : insertEdge rnd yd s vx T S = some (none, s', vx')) :
    insertSide rnd yd S T c upper s vx = some (none, s', vx') := by
  unfold insertSide
  rw [side_edges h hne hx]
  simp only [Constrained.insertAll, h1, h2, h3]

/-- The one edge crossed is exchanged for the segment. -/
theorem one_crossed (hT : Triangulated yd f0 f1 f2 s z) {rnd : Pt K → Pt K} (hr : ∀ p, Vertex s z p → rnd p = p)
    {vx : VertexIndex K} (hF : Finds rnd s (Connected s z) (viGet rnd vx)) (hne : S ≠ T) (hc : Clear s z S T)
    (hno : ¬ Joined s z S T) {e : E} {p q : Pt K} (h : Front yd s z S T e p q) (hf : FaceOf s e p q T)
    (hg : FaceOf s (sym e) q p S) {frame : Pt K × Pt K × Pt K} (hfr : isHardFrameEdge frame s e = some false) :
    ∃ s2 vx1, retriangulate rnd yd frame S T [e] s vx = some (none, s2, vx1) ∧
      Triangulated yd f0 f1 f2 s2 z ∧ Finds rnd s2 (Connected s2 z) (viGet rnd vx1) ∧
      (∀ v, Vertex s2 z v ↔ Vertex s z v) ∧
      ∀ u w, Joined s2 z u w ↔ (Joined s z u w ∧ ¬ ((u, w) = (p, q) ∨ (u, w) = (q, p))) ∨
        (u, w) = (S, T) ∨ (u, w) = (T, S) := by
  have hi := Reached.inv hT.reached
  have pr : ∀ {y}, Connected s z y → Primal y := fun h => (connected_primal hi h).2 hT.primal
  have al : ∀ {y}, Connected s z y → y.q < s.size := fun h => connected_alloc hi h hT.alloc
  have he := h.conn
  have b1 := h.behind
  have b2 := h.ahead
  have b3 := h.left
  have b4 := h.right
  have rev : ∀ a b c : Pt K, area yd b a c = - area yd a b c := fun a b c => area_rev yd a b c
  have cy : ∀ a b c : Pt K, area yd b c a = area yd a b c := fun a b c => wedge_cycle yd a b c
  have t1 : 0 < area yd p q T := b2
  have t2 : 0 < area yd q p S := by rw [rev]; linarith
  have nSp : S ≠ p := by rintro rfl; exact b3.ne' (area_self0 yd S T).1
  have nSq : S ≠ q := by rintro rfl; exact b4.ne (area_self0 yd S T).1
  have nTp : T ≠ p := by rintro rfl; exact b3.ne' (area_self0 yd S T).2
  have nTq : T ≠ q := by rintro rfl; exact b4.ne (area_self0 yd S T).2
  have npq : p ≠ q := by rintro rfl; exact lt_asymm b3 b4
  obtain ⟨r2, l1, l2, hM, hP, hQ, k1, k2, _, k4⟩ := mesh_delete hT he hf hg t1 t2
  set r1 := oprev s e with hr1
  have hi1 : Inv (delete s e) := Reached.inv hM.reached
  have or1 : ∀ y, orig (delete s e) y = orig s y := fun y => by unfold orig; rw [delete_v]
  have de1 : ∀ y, dest (delete s e) y = dest s y := fun y => or1 _
  have a1 : ∀ y, Connected (delete s e) z y ↔ Connected s z y ∧ y.q ≠ e.q :=
    fun y => ⟨k1 y, fun h => k2 y h.1 h.2⟩
  -- faces of the edges around
  have fl2 : FaceOf s l2 T p q := by
    have := face_rot hi (face_rot hi hf); rw [hQ.a1, hQ.a2] at this; exact this
  have fl1 : FaceOf s l1 q T p := by have := face_rot hi hf; rw [hQ.a1] at this; exact this
  have fr1 : FaceOf s r1 p S q := by have := face_rot hi hg; rw [hQ.b1] at this; exact this
  have fr2 : FaceOf s r2 S q p := by
    have := face_rot hi (face_rot hi hg); rw [hQ.b1, hQ.b2] at this; exact this
  have cl1 : Connected s z l1 := hQ.a1 ▸ lnext_connected hi he
  have cl2 : Connected s z l2 := hQ.a2 ▸ lnext_connected hi cl1
  have cr1 : Connected s z r1 := hQ.b1 ▸ lnext_connected hi he.sym
  have cr2 : Connected s z r2 := hQ.b2 ▸ lnext_connected hi cr1
  have il2 : Inner s z l2 := inner_of hT cl2 fl2 (show 0 < area yd T p q by rw [← cy]; exact t1)
  have ir2 : Inner s z r2 := inner_of hT cr2 fr2 (show 0 < area yd S q p by rw [← cy]; exact t2)
  -- the edges around are kept
  have ce : ∀ i ≤ 3, Connected (delete s e) z (ring4 r1 r2 l1 l2 i) := by
    have off : ∀ {y u w}, Connected s z y → orig s y = some u → dest s y = some w →
        (u = S ∨ u = T ∨ w = S ∨ w = T) → Connected (delete s e) z y := by
      intro y u w hy ou dw huw
      refine k2 y hy fun hqq => ?_
      rcases same_quad hqq (iff_of_true (pr hy) (pr he)) with rfl | rfl
      · obtain rfl := Option.some.inj (ou.symm.trans h.orig)
        obtain rfl := Option.some.inj (dw.symm.trans h.dest)
        rcases huw with g | g | g | g <;> first | exact nSp g.symm | exact nSq g.symm | exact nTp g.symm | exact nTq g.symm
      · obtain rfl := Option.some.inj (ou.symm.trans h.dest)
        have d' : dest s (sym e) = some p := by unfold dest; rw [sym_sym]; exact h.orig
        obtain rfl := Option.some.inj (dw.symm.trans d')
        rcases huw with g | g | g | g <;> first | exact nSp g.symm | exact nSq g.symm | exact nTp g.symm | exact nTq g.symm
    intro i hi'
    match i, hi' with
    | 0, _ => exact off cr1 fr1.2.1 (face_dest hi hT.agree (pr cr1) fr1) (by simp)
    | 1, _ => exact off cr2 fr2.2.1 (face_dest hi hT.agree (pr cr2) fr2) (by simp)
    | 2, _ => exact off cl1 fl1.2.1 (face_dest hi hT.agree (pr cl1) fl1) (by simp)
    | 3, _ => exact off cl2 fl2.2.1 (face_dest hi hT.agree (pr cl2) fl2) (by simp)
  have j1 : ∀ {y u w}, Connected (delete s e) z y → orig s y = some u → dest s y = some w →
      Joined (delete s e) z u w := fun hy ou dw => ⟨_, hy, (or1 _).trans ou, (de1 _).trans dw⟩
  have jpS : Joined (delete s e) z p S := j1 (ce 0 (by omega)) fr1.2.1 (face_dest hi hT.agree (pr cr1) fr1)
  have jSq : Joined (delete s e) z S q := j1 (ce 1 (by omega)) fr2.2.1 (face_dest hi hT.agree (pr cr2) fr2)
  have jqT : Joined (delete s e) z q T := j1 (ce 2 (by omega)) fl1.2.1 (face_dest hi hT.agree (pr cl1) fl1)
  have jTp : Joined (delete s e) z T p := j1 (ce 3 (by omega)) fl2.2.1 (face_dest hi hT.agree (pr cl2) fl2)
  -- the structure without the edge
  have hN : Net (delete s e) z := by
    refine ⟨hi1, hM.alloc, fun y hy => ?_, fun x y hx hy hxy => ?_⟩
    · rw [or1]; exact (net_of hT).orig y ((a1 y).1 hy).1
    · rw [or1, or1] at hxy
      exact (around_delete hi (al he) (pr he) (pr ((a1 x).1 hx).1) ((a1 x).1 hx).2
        (same_ring hT ((a1 x).1 hx).1 ((a1 y).1 hy).1 hxy)).1 ((a1 y).1 hy).2
  have hr1' : ∀ v, Vertex (delete s e) z v → rnd v = v := fun v hv => hr v ((k4 v).1 hv)
  -- the index without the edge
  obtain ⟨vx1, hv1, hF1'⟩ := Props.C131_remove rnd s hT.reached hT.agree (Connected s z) vx
    (fun x hx => ⟨pr hx, hx.next, hx.sym⟩)
    (fun x y a b hx hy ha hb hab => same_ring hT hx hy (by
      rw [hr a ⟨x, hx, ha⟩, hr b ⟨y, hy, hb⟩] at hab
      rw [ha, hb, hab])) hF e he p q h.orig h.dest (by
        rw [hr p ⟨e, he, h.orig⟩, hr q ⟨sym e, he.sym, h.dest⟩]; exact npq)
  have hF1 : Finds rnd (delete s e) (Connected (delete s e) z) (viGet rnd vx1) := by
    have : (fun x => Connected s z x ∧ x ≠ e ∧ x ≠ sym e) = Connected (delete s e) z := by
      funext x
      rw [eq_iff_iff, a1]
      refine and_congr_right fun hx => ⟨fun g hqq => ?_, fun g => ⟨?_, ?_⟩⟩
      · rcases same_quad hqq (iff_of_true (pr hx) (pr he)) with g' | g'
        · exact g.1 g'
        · exact g.2 g'
      · rintro rfl; exact g rfl
      · rintro rfl; exact g (sym_q e)
    rwa [this] at hF1'
  -- the new edge
  obtain ⟨m1, m2, m3, m4, m5, m6⟩ := mesh_split hM hP (ce 0 (by omega))
    (show 0 < area yd q T S by
      have := cy S q T; rw [← cy, ← cy]; have := rev S T q; have := cy T S q; linarith)
    (show 0 < area yd T p S by have := cy S T p; rw [this]; exact b3)
  simp only [ring4, corner4] at m1 m2 m3 m4 m5 m6
  set s2 := (connectTo (delete s e) l1 r2).1 with hs2
  have vS : Vertex s z S := ⟨r2, cr2, fr2.2.1⟩
  have vT : Vertex s z T := ⟨l2, cl2, fl2.2.1⟩
  have rS : rnd S = S := hr S vS
  have rT : rnd T = T := hr T vT
  have gone : ∀ {u w}, Joined (delete s e) z u w ↔ Joined s z u w ∧ ¬ ((u, w) = (p, q) ∨ (u, w) = (q, p)) := by
    intro u w
    constructor
    · rintro ⟨y, hy, ou, dw⟩
      rw [or1] at ou
      rw [de1] at dw
      obtain ⟨hy, hyq⟩ := (a1 y).1 hy
      refine ⟨⟨y, hy, ou, dw⟩, ?_⟩
      rintro (g | g)
      · obtain ⟨rfl, rfl⟩ := Prod.mk.inj g
        exact hyq (by rw [edge_unique hT he hy h.orig h.dest ou dw])
      · obtain ⟨rfl, rfl⟩ := Prod.mk.inj g
        refine hyq ?_
        rw [edge_unique hT he.sym hy h.dest (by unfold dest; rw [sym_sym]; exact h.orig) ou dw, sym_q]
    · rintro ⟨⟨y, hy, ou, dw⟩, hn⟩
      refine ⟨y, (a1 y).2 ⟨hy, fun hqq => hn ?_⟩, (or1 y).trans ou, (de1 y).trans dw⟩
      rcases same_quad hqq (iff_of_true (pr hy) (pr he)) with rfl | rfl
      · left; rw [Option.some.inj (ou.symm.trans h.orig), Option.some.inj (dw.symm.trans h.dest)]
      · right
        have d' : dest s (sym e) = some p := by unfold dest; rw [sym_sym]; exact h.orig
        rw [Option.some.inj (ou.symm.trans h.dest), Option.some.inj (dw.symm.trans d')]
  have hnoT : ¬ Joined s z T S := fun g => hno g.symm
  -- it is put in
  have hins : insertEdge rnd yd (delete s e) vx1 T S = some (none, s2, vx1) := by
    unfold insertEdge
    simp only [rS, rT]
    cases hgT : viGet rnd vx1 T with
    | none => exact absurd hgT (hF1.2 T l2 T (ce 3 (by omega)) ((or1 _).trans fl2.2.1) rfl)
    | some xT =>
      obtain ⟨hxT, o, ho, hro⟩ := hF1.1 T xT hgT
      rw [or1] at ho
      have cxT := ((a1 xT).1 hxT).1
      rw [rT, hr o ⟨xT, cxT, ho⟩] at hro
      subst hro
      have hfind := (find_cases hN hxT ((or1 _).trans ho) S).2 (fun g => hnoT (gone.1 g).1) (fun y hy => by
        have := hM.agree xT y (pr cxT) hy
        rw [this, or1, ho])
      simp only [hfind]
      rw [resolve_kept hT he h.orig h.dest nTp nTq cxT ho,
        resolve_cone hT cxT ho vS hne.symm (clear_symm hc) hnoT il2 fl2
          (by have := cy S o p; have := rev S o p; have := cy o p S; have := cy p S o; linarith)
          (by have := rev o q S; have := cy S o q; linarith)]
      simp only
      cases hgS : viGet rnd vx1 S with
      | none => exact absurd hgS (hF1.2 S r2 S (ce 1 (by omega)) ((or1 _).trans fr2.2.1) rfl)
      | some xS =>
        obtain ⟨hxS, o', ho', hro'⟩ := hF1.1 S xS hgS
        rw [or1] at ho'
        have cxS := ((a1 xS).1 hxS).1
        rw [rS, hr o' ⟨xS, cxS, ho'⟩] at hro'
        subst hro'
        have hres : ∀ {x}, Connected s z x → orig s x = some o' →
            resolveEdge (fun p q => decide (p = q)) yd (delete s e) x o = .edge r2 := by
          intro x cx ox
          rw [resolve_kept hT he h.orig h.dest nSp nSq cx ox,
            resolve_cone hT cx ox vT hne hc hno ir2 fr2
              (by have := rev o q o'; have := cy o' q o; have := cy o' o q; linarith)
              (by have := rev o' o p; have := cy o' o p; have := cy p o' o; linarith)]
        simp only [hres cxS ho']
        have hon : sym (onext (delete s e) l2) = l1 := by
          have n2 := hP.next 2 (by omega)
          simp only [ring4] at n2
          rw [← n2]
          show sym ((delete s e).next (lnext (delete s e) l1)) = l1
          rw [next_lnext hi1, sym_sym]
        rw [hon]
        have hdl : dest (delete s e) l1 = some o := (de1 _).trans (face_dest hi hT.agree (pr cl1) fl1)
        have hcon : connect yd (delete s e) l1 r2 = some (connectTo (delete s e) l1 r2) := by
          unfold connect
          rw [hdl]
          simp only
          rw [hres cr2 fr2.2.1]
          rfl
        rw [hcon]
        simp only
        have hadd : viAdd rnd s2 vx1 (connectTo (delete s e) l1 r2).2 = some vx1 := by
          unfold viAdd
          rw [m6, m4, show dest s2 (diag (delete s e)) = some o' from m5]
          simp only [rS, rT, viPut]
          have w1 : vx1 o ≠ none := by
            have := hgT; unfold viGet at this; rw [rT] at this; rw [this]; nofun
          have w2 : vx1 o' ≠ none := by
            have := hgS; unfold viGet at this; rw [rS] at this; rw [this]; nofun
          rw [if_neg w1, if_neg w2]
        rw [hadd]
  -- the structure with the segment
  have hN2 := net_of m1
  have v2 : ∀ v, Vertex s2 z v ↔ Vertex s z v := by
    intro v
    rw [← k4]
    constructor
    · rintro ⟨y, hy, oy⟩
      rcases (m2 y).1 hy with g | rfl | rfl
      · exact ⟨y, g, (m3 y g).symm.trans oy⟩
      · obtain rfl := Option.some.inj (m4.symm.trans oy)
        exact (k4 _).2 vT
      · obtain rfl := Option.some.inj (m5.symm.trans oy)
        exact (k4 _).2 vS
    · rintro ⟨y, hy, oy⟩
      exact ⟨y, (m2 y).2 (Or.inl hy), (m3 y hy).trans oy⟩
  have hF2 : Finds rnd s2 (Connected s2 z) (viGet rnd vx1) := by
    refine ⟨fun v y hy => ?_, fun v y o hy ho hro => ?_⟩
    · obtain ⟨g1, o, g2, g3⟩ := hF1.1 v y hy
      exact ⟨(m2 y).2 (Or.inl g1), o, (m3 y g1).trans g2, g3⟩
    · obtain ⟨y', hy', oy'⟩ := (k4 o).2 ((v2 o).1 ⟨y, hy, ho⟩)
      exact hF1.2 v y' o hy' oy' hro
  have keep : ∀ {u w}, Joined (delete s e) z u w → Joined s2 z u w := by
    rintro u w ⟨y, hy, ou, dw⟩
    exact ⟨y, (m2 y).2 (Or.inl hy), (m3 y hy).trans ou, (m3 _ hy.sym).trans dw⟩
  have jTS : Joined s2 z T S := ⟨diag (delete s e), (m2 _).2 (Or.inr (Or.inl rfl)), m4, m5⟩
  have J1 : ∀ {u w}, Joined (delete s e) z u w → insertEdge rnd yd (delete s e) vx1 u w = some (none, delete s e, vx1) :=
    fun hj => insertEdge_joined hN hF1 hr1' hj
  have J2 : ∀ {u w}, Joined s2 z u w → insertEdge rnd yd s2 vx1 u w = some (none, s2, vx1) :=
    fun hj => insertEdge_joined hN2 hF2 (fun v hv => hr v ((v2 v).1 hv)) hj
  refine ⟨s2, vx1, ?_, m1, hF2, v2, ?_⟩
  · unfold retriangulate
    simp only [removeAll, hfr, addEdge, h.orig, h.dest, hv1, add_points b3 b4]
    cases yd
    · simp only [Bool.false_eq_true, if_false]
      rw [side_inserts (x := p) (upper := false) rfl hne b3.ne' (J1 jpS.symm) (J1 jTp.symm) hins]
      simp only
      rw [side_inserts (x := q) (upper := true) rfl hne b4.ne (J2 (keep jSq)) (J2 (keep jqT)) (J2 jTS)]
    · simp only [if_true]
      rw [side_inserts (x := q) (upper := false) rfl hne b4.ne (J1 jSq) (J1 jqT) hins]
      simp only
      rw [side_inserts (x := p) (upper := true) rfl hne b3.ne' (J2 (keep jpS.symm)) (J2 (keep jTp.symm)) (J2 jTS)]
  · intro u w
    rw [← gone]
    constructor
    · rintro ⟨y, hy, ou, dw⟩
      rcases (m2 y).1 hy with g | rfl | rfl
      · exact Or.inl ⟨y, g, (m3 y g).symm.trans ou, (m3 _ g.sym).symm.trans dw⟩
      · right; right
        rw [Option.some.inj (ou.symm.trans m4), Option.some.inj (dw.symm.trans (show dest s2 (diag (delete s e)) = _ from m5))]
      · right; left
        have d' : dest s2 (sym (diag (delete s e))) = some T := by unfold dest; rw [sym_sym]; exact m4
        rw [Option.some.inj (ou.symm.trans m5), Option.some.inj (dw.symm.trans d')]
    · rintro (g | g | g)
      · exact keep g
      · obtain ⟨rfl, rfl⟩ := Prod.mk.inj g
        exact jTS.symm
      · obtain ⟨rfl, rfl⟩ := Prod.mk.inj g
        exact jTS

/-! ## `InsertConstraint` -/

theorem get_vertex {rnd : Pt K → Pt K} (hr : ∀ v, Vertex s z v → rnd v = v) {vx : VertexIndex K}
    (hF : Finds rnd s (Connected s z) (viGet rnd vx)) {v : Pt K} (hv : rnd v = v) :
    (Vertex s z v → ∃ x, viGet rnd vx v = some x ∧ Connected s z x ∧ orig s x = some v) ∧
    (¬ Vertex s z v → viGet rnd vx v = none) := by
  have key : ∀ x, viGet rnd vx v = some x → Connected s z x ∧ orig s x = some v := by
    intro x hx
    obtain ⟨cx, o, ho, hro⟩ := hF.1 v x hx
    rw [hv, hr o ⟨x, cx, ho⟩] at hro
    exact ⟨cx, hro ▸ ho⟩
  constructor
  · rintro ⟨y, hy, oy⟩
    cases hg : viGet rnd vx v with
    | none => exact absurd hg (hF.2 v y v hy oy rfl)
    | some x => exact ⟨x, rfl, key x hg⟩
  · intro hn
    cases hg : viGet rnd vx v with
    | none => rfl
    | some x => exact absurd ⟨x, (key x hg).1, (key x hg).2⟩ hn

variable {sd : Subdiv K}

theorem insert_all {a b c : Pt K} (hT : Triangulated yd f0 f1 f2 sd.store sd.start) {rnd : Pt K → Pt K}
    (hr : ∀ v, Vertex sd.store sd.start v → rnd v = v) (hfr : sd.frame = (a, b, c))
    (hfr' : ∀ v, v = a ∨ v = b ∨ v = c → v = f0 ∨ v = f1 ∨ v = f2) {vx : VertexIndex K}
    (hF : Finds rnd sd.store (Connected sd.store sd.start) (viGet rnd vx)) (hS : rnd S = S) (hT' : rnd T = T) :
    (¬ Vertex sd.store sd.start S → insertConstraint rnd yd sd vx S T = some (some .start, sd, vx)) ∧
    (Vertex sd.store sd.start S → ¬ Vertex sd.store sd.start T →
      insertConstraint rnd yd sd vx S T = some (some .endd, sd, vx)) ∧
    (Joined sd.store sd.start S T → insertConstraint rnd yd sd vx S T = some (none, sd, vx)) ∧
    (Vertex sd.store sd.start S → Vertex sd.store sd.start T → S ≠ T → Clear sd.store sd.start S T →
      ¬ Joined sd.store sd.start S T →
      ∃ l, CrossedInOrder yd sd.store sd.start S T l ∧ l ≠ [] ∧
        (21 < l.length → insertConstraint rnd yd sd vx S T = some (some .loop, sd, vx)) ∧
        ∀ y, l = [y] → ∃ sd' vx', insertConstraint rnd yd sd vx S T = some (none, sd', vx') ∧
          sd'.start = sd.start ∧ sd'.frame = sd.frame ∧ Triangulated yd f0 f1 f2 sd'.store sd'.start ∧
          Finds rnd sd'.store (Connected sd'.store sd'.start) (viGet rnd vx') ∧
          (∀ v, Vertex sd'.store sd'.start v ↔ Vertex sd.store sd.start v) ∧
          ∀ u w, Joined sd'.store sd'.start u w ↔
            (Joined sd.store sd.start u w ∧ ¬ (orig sd.store y = some u ∧ dest sd.store y = some w) ∧
              ¬ (orig sd.store y = some w ∧ dest sd.store y = some u)) ∨
            (u, w) = (S, T) ∨ (u, w) = (T, S)) := by
  have hN := net_of hT
  have hi := Reached.inv hT.reached
  have pr : ∀ {y}, Connected sd.store sd.start y → Primal y := fun h => (connected_primal hi h).2 hT.primal
  have G := fun {v} (hv : rnd v = v) => get_vertex hr hF hv
  have nofind : ∀ {x}, Connected sd.store sd.start x → orig sd.store x = some S → ¬ Joined sd.store sd.start S T →
      findONextDest sd.store (fun p => decide (p = T)) x = some none := by
    intro x hx ox hno
    exact (find_cases hN hx ox T).2 hno (fun y hy => (hT.agree x y (pr hx) hy).trans ox)
  refine ⟨fun h => ?_, fun h1 h2 => ?_, ?_, fun h1 h2 hne hc hno => ?_⟩
  · unfold insertConstraint resolveEnds
    simp only [hS, (G hS).2 h]
  · obtain ⟨x, hx, cx, ox⟩ := (G hS).1 h1
    have hno : ¬ Joined sd.store sd.start S T := by
      rintro ⟨y, hy, _, dy⟩
      exact h2 ⟨sym y, hy.sym, dy⟩
    unfold insertConstraint resolveEnds
    simp only [hS, hT', hx, nofind cx ox hno, (G hT').2 h2]
  · rintro ⟨y, hy, oy, dy⟩
    obtain ⟨x, hx, cx, ox⟩ := (G hS).1 ⟨y, hy, oy⟩
    obtain ⟨f, hf⟩ := (find_cases hN cx ox T).1 ⟨y, hy, oy, dy⟩
    unfold insertConstraint resolveEnds
    simp only [hS, hT', hx, hf]
  · obtain ⟨se, hse, cse, ose⟩ := (G hS).1 h1
    obtain ⟨ee, hee, cee, oee⟩ := (G hT').1 h2
    obtain ⟨x, ⟨_, g1, g2, g3⟩ | ⟨hx, a', b', ix, fx, x1, x2, x3⟩⟩ := resolve_cases hT cse ose h2 hne hc
    · exact absurd ⟨x, g1, g2, g3⟩ hno
    obtain ⟨y, ⟨_, g1, g2, g3⟩ | ⟨hy, a'', b'', iy, fy, _⟩⟩ := resolve_cases hT cee oee h1 hne.symm (clear_symm hc)
    · exact absurd (show Joined sd.store sd.start T S from ⟨y, g1, g2, g3⟩).symm hno
    obtain ⟨l, hl, hfind⟩ := find_edges hT ix.1 iy.1 fx.2.1 fy.2.1 hne hc
    have hends : resolveEnds rnd yd sd.store vx S T = some (.edges x y) := by
      unfold resolveEnds
      simp only [hS, hT', hse, nofind cse ose hno, hee, hx, hy]
      rfl
    obtain ⟨F, _⟩ := first_front hT ix fx x1 x2 x3
    have hl0 : l ≠ [] := by
      rintro rfl
      rcases hl.complete _ F.conn ⟨_, F.crosses⟩ with g | g <;> cases g
    refine ⟨l, hl, hl0, fun h21 => ?_, ?_⟩
    · unfold insertConstraint
      simp only [hends, hfind, if_neg (not_le.2 h21)]
    · rintro e rfl
      obtain ⟨F, f1', f2'⟩ := one_front hT ix fx x1 x2 x3 h2 hne hc hl
      have hh := hard_frame (frame := sd.frame) hT h1 h2 (by rw [hfr]; exact hfr') F
      obtain ⟨s2, vx1, r1, r2, r3, r4, r5⟩ := one_crossed hT hr hF hne hc hno F f1' f2' hh
      refine ⟨{ sd with store := s2 }, vx1, ?_, rfl, rfl, r2, r3, r4, fun u w => ?_⟩
      · unfold insertConstraint
        simp only [hends, hfind, List.length_singleton, Nat.one_le_ofNat, if_true, r1]
      · rw [r5]
        have : ∀ {o v : Pt K}, some o = some v ↔ v = o := by
          intro o v; rw [Option.some.injEq]; exact eq_comm
        refine or_congr (and_congr_right fun _ => ?_) Iff.rfl
        rw [F.orig, F.dest, not_or, Prod.mk.injEq u w b' a', Prod.mk.injEq u w a' b', this, this, this, this,
          and_comm (a := u = a')]

end Verif.Lemmas.CrossInsert
